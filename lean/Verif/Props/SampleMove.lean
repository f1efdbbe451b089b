import Verif.Props.Sample
import Verif.Lemmas.DecTyped
/-!
# The sample type `Node` with its single fields moved into oneofs

```
type MoveNode struct {
	C isMoveNode_C      `protobuf_oneof:"c"`   // wrapper: V int32 = 1
	D isMoveNode_D      `protobuf_oneof:"d"`   // wrapper: Next *MoveNode = 2
	Kids []*MoveNode    `protobuf:"bytes,3,rep,name=kids"`
	unknownFields []byte
}
```
-/
namespace Verif.Props
open Verif.Spec Verif.Model Verif.Props.Sample

namespace MoveNode

def zero : List Val := [.iface none, .iface none, .slice [], .bytes none]

def msg : Message where
  fields := [⟨1, 0, some 100, .single .int32⟩, ⟨2, 1, some 101, .msg 0 true⟩, ⟨3, 2, none, .msgList 0 true⟩]
  nslots := 4
  unknown := some (3, false)
  small := false
  zero := .struct zero

def schema : Schema
  | 0 => msg
  | _ => default

def env : GoEnv where
  structs := [
    { fields := [
        { name := "C".toList, type := .iface, oneofTag := "c".toList },
        { name := "D".toList, type := .iface, oneofTag := "d".toList },
        { name := "Kids".toList, type := .slice (.ptr (.struct 0)), tag := "bytes,3,rep,name=kids".toList },
        { name := "unknownFields".toList, type := .bytes }]
      wrappers := [
        { id := 100, implements := [0], fields := [{ name := "V".toList, type := .int32, tag := "varint,1,opt,name=v,oneof".toList }] },
        { id := 101, implements := [1], fields := [{ name := "Next".toList, type := .ptr (.struct 0), tag := "bytes,2,opt,name=next,oneof".toList }] }]
      size := 80
      zero := .struct zero }]

theorem schema_wf : schema.WF
  | 0 => {
      nums := by decide
      sorted := by decide
      slots := by decide
      disjoint := by
        have h : ∀ f ∈ (schema 0).fields, ∀ g ∈ (schema 0).fields, f.num ≠ g.num → f.slot ≠ g.slot := by decide
        intro f hf g hg h1 h2
        exact absurd h2 (h f hf g hg h1)
      legal := by decide
      members := by
        intro f hf hm
        simp only [schema, msg, List.mem_cons, List.not_mem_nil, or_false] at hf
        rcases hf with rfl | rfl | rfl <;> first | exact absurd rfl hm | exact .inl ⟨_, rfl⟩ | exact .inr ⟨_, _, rfl⟩
      unknown := by
        intro s p h
        simp only [schema, msg, Option.some.injEq, Prod.mk.injEq] at h
        obtain ⟨rfl, rfl⟩ := h
        decide
      zero := by
        refine ⟨zero, rfl, rfl, ?_, ?_, ?_⟩
        · intro f hf
          simp only [schema, msg, List.mem_cons, List.not_mem_nil, or_false] at hf
          rcases hf with rfl | rfl | rfl <;> rfl
        · intro s h
          simp only [schema, msg, Option.some.injEq, Prod.mk.injEq] at h
          obtain ⟨rfl, -⟩ := h
          rfl
        · intro s h; simp [schema, msg] at h }
  | _ + 1 => {
      nums := by intro f hf; cases hf
      sorted := .nil
      slots := by intro f hf; cases hf
      disjoint := by intro f hf; cases hf
      legal := by intro f hf; cases hf
      members := by intro f hf; cases hf
      unknown := by intro s p h; cases h
      zero := ⟨[], rfl, rfl, nofun, nofun, nofun⟩ }

theorem env_implements : Implements env schema
  | 0 => {
      nslots := rfl
      zero := rfl
      small := by decide
      tagged := by
        intro i gf h ht
        match i with
        | 0 => cases h; exact absurd rfl ht
        | 1 => cases h; exact absurd rfl ht
        | 2 => exact ⟨_, List.mem_of_getElem? (i := 2) rfl, rfl, rfl⟩
        | 3 => cases h; exact absurd rfl ht
        | i + 4 => cases h
      plain := by
        intro f hf hm
        simp only [schema, msg, List.mem_cons, List.not_mem_nil, or_false] at hf
        rcases hf with rfl | rfl | rfl
        · cases hm
        · cases hm
        · exact ⟨_, rfl, rfl, tagSays_of (words "bytes,3,rep,name=kids".toList) _ _ _ _ _
            (dec1 3 (by decide)) (by decide), nofun, nofun⟩
      wrapper := by
        intro w hw
        simp only [List.mem_cons, List.not_mem_nil, or_false] at hw
        rcases hw with rfl | rfl
        · exact ⟨_, List.mem_of_getElem? (i := 0) rfl, rfl⟩
        · exact ⟨_, List.mem_of_getElem? (i := 1) rfl, rfl⟩
      member := by
        intro f hf w hw
        simp only [schema, msg, List.mem_cons, List.not_mem_nil, or_false] at hf
        rcases hf with rfl | rfl | rfl <;> cases hw
        · exact ⟨_, List.mem_of_getElem? (i := 0) rfl, rfl, rfl,
            ⟨_, rfl, rfl, tagSays_of (words "varint,1,opt,name=v,oneof".toList) _ _ _ _ _
            (dec1 1 (by decide)) (by decide), nofun, nofun⟩, _, rfl, rfl, by decide⟩
        · exact ⟨_, List.mem_of_getElem? (i := 1) rfl, rfl, rfl,
            ⟨_, rfl, rfl, tagSays_of (words "bytes,2,opt,name=next,oneof".toList) _ _ _ _ _
            (dec1 2 (by decide)) (by decide), nofun, nofun⟩, _, rfl, rfl, by decide⟩
      distinct := by decide
      unknown := by
        refine .inl ⟨⟨_, rfl, rfl, rfl⟩, ?_⟩
        intro j gf hj h
        have h2 : ∀ k < 3, ∀ g ∈ (env.structs[0]).fields[k]?, g.name ≠ "unknownFields".toList := by decide
        exact h2 j hj gf h }
  | _ + 1 => rfl

end MoveNode

end Verif.Props
