import Verif.Props.Sample
import Verif.Lemmas.DecTyped
/-!
# A sample type with booleans in all positions

```
type Bools struct {
	A bool            `protobuf:"varint,1,opt,name=a"`
	B []bool          `protobuf:"varint,2,rep,packed,name=b"`
	C []bool          `protobuf:"varint,3,rep,name=c"`
	D map[int32]bool  `protobuf:"bytes,4,rep,name=d" protobuf_key:"varint,1,opt" protobuf_val:"varint,2,opt"`
	E map[string]bool `protobuf:"bytes,5,rep,name=e" protobuf_key:"bytes,1,opt" protobuf_val:"varint,2,opt"`
}
```
-/
namespace Verif.Props.Bools
open Verif.Spec Verif.Model Verif.Props.Sample

def zero : List Val := [.bool false, .slice [], .slice [], .map none, .map none]

def msg : Message where
  fields := [
    ⟨1, 0, none, .single .bool⟩,
    ⟨2, 1, none, .list .bool true⟩,
    ⟨3, 2, none, .list .bool false⟩,
    ⟨4, 3, none, .map .int32 .bool⟩,
    ⟨5, 4, none, .map .string .bool⟩]
  nslots := 5
  unknown := none
  small := false
  zero := .struct zero

def schema : Schema
  | 0 => msg
  | _ => default

def env : GoEnv where
  structs := [
    { fields := [
        { name := "A".toList, type := .bool, tag := "varint,1,opt,name=a".toList },
        { name := "B".toList, type := .slice .bool, tag := "varint,2,rep,packed,name=b".toList },
        { name := "C".toList, type := .slice .bool, tag := "varint,3,rep,name=c".toList },
        { name := "D".toList, type := .map .int32 .bool, tag := "bytes,4,rep,name=d".toList,
          keyTag := "varint,1,opt".toList, valTag := "varint,2,opt".toList },
        { name := "E".toList, type := .map .string .bool, tag := "bytes,5,rep,name=e".toList,
          keyTag := "bytes,1,opt".toList, valTag := "varint,2,opt".toList }]
      size := 72
      zero := .struct zero }]

theorem schema_wf : schema.WF
  | 0 => {
      nums := by decide
      sorted := by decide
      slots := by decide
      disjoint := by
        have h : ∀ f ∈ (schema 0).fields, ∀ g ∈ (schema 0).fields, f.num ≠ g.num → f.slot ≠ g.slot := by decide
        intro f hf g hg h1 h2
        exact absurd h2 (h f hf g hg h1)
      legal := by decide
      members := by
        have h : ∀ f ∈ (schema 0).fields, f.member = none := by decide
        intro f hf hm
        exact absurd (h f hf) hm
      unknown := by intro s p h; cases h
      zero := by
        refine ⟨zero, rfl, rfl, ?_, nofun, nofun⟩
        intro f hf
        simp only [schema, msg, List.mem_cons, List.not_mem_nil, or_false] at hf
        rcases hf with rfl | rfl | rfl | rfl | rfl <;> rfl }
  | _ + 1 => {
      nums := by intro f hf; cases hf
      sorted := .nil
      slots := by intro f hf; cases hf
      disjoint := by intro f hf; cases hf
      legal := by intro f hf; cases hf
      members := by intro f hf; cases hf
      unknown := by intro s p h; cases h
      zero := ⟨[], rfl, rfl, nofun, nofun, nofun⟩ }

theorem env_implements : Implements env schema
  | 0 => {
      nslots := rfl
      zero := rfl
      small := by decide
      tagged := by
        intro i gf h ht
        have : i < 5 := (List.getElem?_eq_some_iff.1 h).1
        match i, this with
        | 0, _ => exact ⟨_, List.mem_of_getElem? (i := 0) rfl, rfl, rfl⟩
        | 1, _ => exact ⟨_, List.mem_of_getElem? (i := 1) rfl, rfl, rfl⟩
        | 2, _ => exact ⟨_, List.mem_of_getElem? (i := 2) rfl, rfl, rfl⟩
        | 3, _ => exact ⟨_, List.mem_of_getElem? (i := 3) rfl, rfl, rfl⟩
        | 4, _ => exact ⟨_, List.mem_of_getElem? (i := 4) rfl, rfl, rfl⟩
      plain := by
        intro f hf hm
        simp only [schema, msg, List.mem_cons, List.not_mem_nil, or_false] at hf
        rcases hf with rfl | rfl | rfl | rfl | rfl
        · exact ⟨_, rfl, rfl, tagSays_of (words "varint,1,opt,name=a".toList) _ _ _ _ _
            (dec1 1 (by decide)) (by decide), nofun, nofun⟩
        · exact ⟨_, rfl, rfl, tagSays_of (words "varint,2,rep,packed,name=b".toList) _ _ _ _ _
            (dec1 2 (by decide)) (by decide), nofun, nofun⟩
        · exact ⟨_, rfl, rfl, tagSays_of (words "varint,3,rep,name=c".toList) _ _ _ _ _
            (dec1 3 (by decide)) (by decide), nofun, nofun⟩
        · exact ⟨_, rfl, rfl, tagSays_of (words "bytes,4,rep,name=d".toList) _ _ _ _ _
            (dec1 4 (by decide)) (by decide), by
              intro k v h; cases h
              exact ⟨kvSays_of (words "varint,1,opt".toList) _ (by decide),
                kvSays_of (words "varint,2,opt".toList) _ (by decide)⟩, nofun⟩
        · exact ⟨_, rfl, rfl, tagSays_of (words "bytes,5,rep,name=e".toList) _ _ _ _ _
            (dec1 5 (by decide)) (by decide), by
              intro k v h; cases h
              exact ⟨kvSays_of (words "bytes,1,opt".toList) _ (by decide),
                kvSays_of (words "varint,2,opt".toList) _ (by decide)⟩, nofun⟩
      wrapper := by intro w hw; cases hw
      member := by
        intro f hf w hw
        simp only [schema, msg, List.mem_cons, List.not_mem_nil, or_false] at hf
        rcases hf with rfl | rfl | rfl | rfl | rfl <;> cases hw
      distinct := .nil
      unknown := by
        show ∀ gf ∈ _, _
        decide }
  | _ + 1 => rfl

theorem zero_typed : Typed schema 0 (.struct zero) := Verif.Lemmas.typed_zero schema_wf 0

end Verif.Props.Bools
