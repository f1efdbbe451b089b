import Verif.Props.Sample
import Verif.Lemmas.DecTyped
/-!
# The sample type `Node` with bytes instead of messages

```
type RawNode struct {
	V    int32    `protobuf:"varint,1,opt,name=v"`
	Next []byte   `protobuf:"bytes,2,opt,name=next"`
	Kids [][]byte `protobuf:"bytes,3,rep,name=kids"`
	unknownFields []byte
}
```
and a message with a oneof, whose second member is a message, or bytes:
```
type CaseNode struct {
	C isCaseNode_C `protobuf_oneof:"c"`
	unknownFields []byte
}
type CaseNode_A struct { A int32 `protobuf:"varint,1,opt,name=a,oneof"` }
type CaseNode_M struct { M *CaseNode `protobuf:"bytes,2,opt,name=m,oneof"` }
```
-/
namespace Verif.Props
open Verif.Spec Verif.Model Verif.Props.Sample

namespace RawNode

def zero : List Val := [.w32 0, .bytes none, .slice [], .bytes none]

def msg : Message where
  fields := [⟨1, 0, none, .single .int32⟩, ⟨2, 1, none, .single .bytes⟩, ⟨3, 2, none, .list .bytes false⟩]
  nslots := 4
  unknown := some (3, false)
  small := false
  zero := .struct zero

def schema : Schema
  | 0 => msg
  | _ => default

def env : GoEnv where
  structs := [
    { fields := [
        { name := "V".toList, type := .int32, tag := "varint,1,opt,name=v".toList },
        { name := "Next".toList, type := .bytes, tag := "bytes,2,opt,name=next".toList },
        { name := "Kids".toList, type := .slice .bytes, tag := "bytes,3,rep,name=kids".toList },
        { name := "unknownFields".toList, type := .bytes }]
      size := 80
      zero := .struct zero }]

theorem schema_wf : schema.WF
  | 0 => {
      nums := by decide
      sorted := by decide
      slots := by decide
      disjoint := by
        have h : ∀ f ∈ (schema 0).fields, ∀ g ∈ (schema 0).fields, f.num ≠ g.num → f.slot ≠ g.slot := by decide
        intro f hf g hg h1 h2
        exact absurd h2 (h f hf g hg h1)
      legal := by decide
      members := by
        have h : ∀ f ∈ (schema 0).fields, f.member = none := by decide
        intro f hf hm
        exact absurd (h f hf) hm
      unknown := by
        intro s p h
        simp only [schema, msg, Option.some.injEq, Prod.mk.injEq] at h
        obtain ⟨rfl, rfl⟩ := h
        decide
      zero := by
        refine ⟨zero, rfl, rfl, ?_, ?_, ?_⟩
        · intro f hf
          simp only [schema, msg, List.mem_cons, List.not_mem_nil, or_false] at hf
          rcases hf with rfl | rfl | rfl <;> rfl
        · intro s h
          simp only [schema, msg, Option.some.injEq, Prod.mk.injEq] at h
          obtain ⟨rfl, -⟩ := h
          rfl
        · intro s h; simp [schema, msg] at h }
  | _ + 1 => {
      nums := by intro f hf; cases hf
      sorted := .nil
      slots := by intro f hf; cases hf
      disjoint := by intro f hf; cases hf
      legal := by intro f hf; cases hf
      members := by intro f hf; cases hf
      unknown := by intro s p h; cases h
      zero := ⟨[], rfl, rfl, nofun, nofun, nofun⟩ }

theorem env_implements : Implements env schema
  | 0 => {
      nslots := rfl
      zero := rfl
      small := by decide
      tagged := by
        intro i gf h ht
        match i with
        | 0 => exact ⟨_, List.mem_of_getElem? (i := 0) rfl, rfl, rfl⟩
        | 1 => exact ⟨_, List.mem_of_getElem? (i := 1) rfl, rfl, rfl⟩
        | 2 => exact ⟨_, List.mem_of_getElem? (i := 2) rfl, rfl, rfl⟩
        | 3 => cases h; exact absurd rfl ht
        | i + 4 => cases h
      plain := by
        intro f hf hm
        simp only [schema, msg, List.mem_cons, List.not_mem_nil, or_false] at hf
        rcases hf with rfl | rfl | rfl
        · exact ⟨_, rfl, rfl, tagSays_of (words "varint,1,opt,name=v".toList) _ _ _ _ _
            (dec1 1 (by decide)) (by decide), nofun, nofun⟩
        · exact ⟨_, rfl, rfl, tagSays_of (words "bytes,2,opt,name=next".toList) _ _ _ _ _
            (dec1 2 (by decide)) (by decide), nofun, nofun⟩
        · exact ⟨_, rfl, rfl, tagSays_of (words "bytes,3,rep,name=kids".toList) _ _ _ _ _
            (dec1 3 (by decide)) (by decide), nofun, nofun⟩
      wrapper := by intro w hw; cases hw
      member := by
        intro f hf w hw
        simp only [schema, msg, List.mem_cons, List.not_mem_nil, or_false] at hf
        rcases hf with rfl | rfl | rfl <;> cases hw
      distinct := .nil
      unknown := by
        refine .inl ⟨⟨_, rfl, rfl, rfl⟩, ?_⟩
        intro j gf hj h
        have h2 : ∀ k < 3, ∀ g ∈ (env.structs[0]).fields[k]?, g.name ≠ "unknownFields".toList := by decide
        exact h2 j hj gf h }
  | _ + 1 => rfl

end RawNode

namespace CaseNode

def zero : List Val := [.iface none, .bytes none]

def msg : Message where
  fields := [⟨1, 0, some 100, .single .int32⟩, ⟨2, 0, some 101, .msg 0 true⟩]
  nslots := 2
  unknown := some (1, false)
  small := false
  zero := .struct zero

def schema : Schema
  | 0 => msg
  | _ => default

def env : GoEnv where
  structs := [
    { fields := [
        { name := "C".toList, type := .iface, oneofTag := "c".toList },
        { name := "unknownFields".toList, type := .bytes }]
      wrappers := [
        { id := 100, implements := [0], fields := [{ name := "A".toList, type := .int32, tag := "varint,1,opt,name=a,oneof".toList }] },
        { id := 101, implements := [0], fields := [{ name := "M".toList, type := .ptr (.struct 0), tag := "bytes,2,opt,name=m,oneof".toList }] }]
      size := 40
      zero := .struct zero }]

theorem schema_wf : schema.WF
  | 0 => {
      nums := by decide
      sorted := by decide
      slots := by decide
      disjoint := by
        have h : ∀ f ∈ (schema 0).fields, ∀ g ∈ (schema 0).fields, f.num ≠ g.num → f.slot = g.slot →
            f.member.isSome ∧ g.member.isSome ∧ f.member ≠ g.member := by decide
        intro f hf g hg h1 h2
        obtain ⟨a, b, c⟩ := h f hf g hg h1 h2
        obtain ⟨w, hw⟩ := Option.isSome_iff_exists.1 a
        obtain ⟨w', hw'⟩ := Option.isSome_iff_exists.1 b
        exact ⟨w, w', hw, hw', fun e => c (by rw [hw, hw', e])⟩
      legal := by decide
      members := by
        intro f hf hm
        simp only [schema, msg, List.mem_cons, List.not_mem_nil, or_false] at hf
        rcases hf with rfl | rfl <;> first | exact .inl ⟨_, rfl⟩ | exact .inr ⟨_, _, rfl⟩
      unknown := by
        intro s p h
        simp only [schema, msg, Option.some.injEq, Prod.mk.injEq] at h
        obtain ⟨rfl, rfl⟩ := h
        decide
      zero := by
        refine ⟨zero, rfl, rfl, ?_, ?_, ?_⟩
        · intro f hf
          simp only [schema, msg, List.mem_cons, List.not_mem_nil, or_false] at hf
          rcases hf with rfl | rfl <;> rfl
        · intro s h
          simp only [schema, msg, Option.some.injEq, Prod.mk.injEq] at h
          obtain ⟨rfl, -⟩ := h
          rfl
        · intro s h; simp [schema, msg] at h }
  | _ + 1 => {
      nums := by intro f hf; cases hf
      sorted := .nil
      slots := by intro f hf; cases hf
      disjoint := by intro f hf; cases hf
      legal := by intro f hf; cases hf
      members := by intro f hf; cases hf
      unknown := by intro s p h; cases h
      zero := ⟨[], rfl, rfl, nofun, nofun, nofun⟩ }

theorem env_implements : Implements env schema
  | 0 => {
      nslots := rfl
      zero := rfl
      small := by decide
      tagged := by
        intro i gf h ht
        match i with
        | 0 => cases h; exact absurd rfl ht
        | 1 => cases h; exact absurd rfl ht
        | i + 2 => cases h
      plain := by
        intro f hf hm
        simp only [schema, msg, List.mem_cons, List.not_mem_nil, or_false] at hf
        rcases hf with rfl | rfl <;> cases hm
      wrapper := by
        intro w hw
        simp only [List.mem_cons, List.not_mem_nil, or_false] at hw
        rcases hw with rfl | rfl
        · exact ⟨_, List.mem_of_getElem? (i := 0) rfl, rfl⟩
        · exact ⟨_, List.mem_of_getElem? (i := 1) rfl, rfl⟩
      member := by
        intro f hf w hw
        simp only [schema, msg, List.mem_cons, List.not_mem_nil, or_false] at hf
        rcases hf with rfl | rfl <;> cases hw
        · exact ⟨_, List.mem_of_getElem? (i := 0) rfl, rfl, rfl,
            ⟨_, rfl, rfl, tagSays_of (words "varint,1,opt,name=a,oneof".toList) _ _ _ _ _
            (dec1 1 (by decide)) (by decide), nofun, nofun⟩, _, rfl, rfl, by decide⟩
        · exact ⟨_, List.mem_of_getElem? (i := 1) rfl, rfl, rfl,
            ⟨_, rfl, rfl, tagSays_of (words "bytes,2,opt,name=m,oneof".toList) _ _ _ _ _
            (dec1 2 (by decide)) (by decide), nofun, nofun⟩, _, rfl, rfl, by decide⟩
      distinct := by decide
      unknown := by
        refine .inl ⟨⟨_, rfl, rfl, rfl⟩, ?_⟩
        intro j gf hj h
        have h2 : ∀ k < 1, ∀ g ∈ (env.structs[0]).fields[k]?, g.name ≠ "unknownFields".toList := by decide
        exact h2 j hj gf h }
  | _ + 1 => rfl

end CaseNode

namespace RawCase

def zero : List Val := [.iface none, .bytes none]

def msg : Message where
  fields := [⟨1, 0, some 100, .single .int32⟩, ⟨2, 0, some 101, .single .bytes⟩]
  nslots := 2
  unknown := some (1, false)
  small := false
  zero := .struct zero

def schema : Schema
  | 0 => msg
  | _ => default

def env : GoEnv where
  structs := [
    { fields := [
        { name := "C".toList, type := .iface, oneofTag := "c".toList },
        { name := "unknownFields".toList, type := .bytes }]
      wrappers := [
        { id := 100, implements := [0], fields := [{ name := "A".toList, type := .int32, tag := "varint,1,opt,name=a,oneof".toList }] },
        { id := 101, implements := [0], fields := [{ name := "M".toList, type := .bytes, tag := "bytes,2,opt,name=m,oneof".toList }] }]
      size := 40
      zero := .struct zero }]

theorem schema_wf : schema.WF
  | 0 => {
      nums := by decide
      sorted := by decide
      slots := by decide
      disjoint := by
        have h : ∀ f ∈ (schema 0).fields, ∀ g ∈ (schema 0).fields, f.num ≠ g.num → f.slot = g.slot →
            f.member.isSome ∧ g.member.isSome ∧ f.member ≠ g.member := by decide
        intro f hf g hg h1 h2
        obtain ⟨a, b, c⟩ := h f hf g hg h1 h2
        obtain ⟨w, hw⟩ := Option.isSome_iff_exists.1 a
        obtain ⟨w', hw'⟩ := Option.isSome_iff_exists.1 b
        exact ⟨w, w', hw, hw', fun e => c (by rw [hw, hw', e])⟩
      legal := by decide
      members := by
        intro f hf hm
        simp only [schema, msg, List.mem_cons, List.not_mem_nil, or_false] at hf
        rcases hf with rfl | rfl <;> first | exact .inl ⟨_, rfl⟩ | exact .inr ⟨_, _, rfl⟩
      unknown := by
        intro s p h
        simp only [schema, msg, Option.some.injEq, Prod.mk.injEq] at h
        obtain ⟨rfl, rfl⟩ := h
        decide
      zero := by
        refine ⟨zero, rfl, rfl, ?_, ?_, ?_⟩
        · intro f hf
          simp only [schema, msg, List.mem_cons, List.not_mem_nil, or_false] at hf
          rcases hf with rfl | rfl <;> rfl
        · intro s h
          simp only [schema, msg, Option.some.injEq, Prod.mk.injEq] at h
          obtain ⟨rfl, -⟩ := h
          rfl
        · intro s h; simp [schema, msg] at h }
  | _ + 1 => {
      nums := by intro f hf; cases hf
      sorted := .nil
      slots := by intro f hf; cases hf
      disjoint := by intro f hf; cases hf
      legal := by intro f hf; cases hf
      members := by intro f hf; cases hf
      unknown := by intro s p h; cases h
      zero := ⟨[], rfl, rfl, nofun, nofun, nofun⟩ }

theorem env_implements : Implements env schema
  | 0 => {
      nslots := rfl
      zero := rfl
      small := by decide
      tagged := by
        intro i gf h ht
        match i with
        | 0 => cases h; exact absurd rfl ht
        | 1 => cases h; exact absurd rfl ht
        | i + 2 => cases h
      plain := by
        intro f hf hm
        simp only [schema, msg, List.mem_cons, List.not_mem_nil, or_false] at hf
        rcases hf with rfl | rfl <;> cases hm
      wrapper := by
        intro w hw
        simp only [List.mem_cons, List.not_mem_nil, or_false] at hw
        rcases hw with rfl | rfl
        · exact ⟨_, List.mem_of_getElem? (i := 0) rfl, rfl⟩
        · exact ⟨_, List.mem_of_getElem? (i := 1) rfl, rfl⟩
      member := by
        intro f hf w hw
        simp only [schema, msg, List.mem_cons, List.not_mem_nil, or_false] at hf
        rcases hf with rfl | rfl <;> cases hw
        · exact ⟨_, List.mem_of_getElem? (i := 0) rfl, rfl, rfl,
            ⟨_, rfl, rfl, tagSays_of (words "varint,1,opt,name=a,oneof".toList) _ _ _ _ _
            (dec1 1 (by decide)) (by decide), nofun, nofun⟩, _, rfl, rfl, by decide⟩
        · exact ⟨_, List.mem_of_getElem? (i := 1) rfl, rfl, rfl,
            ⟨_, rfl, rfl, tagSays_of (words "bytes,2,opt,name=m,oneof".toList) _ _ _ _ _
            (dec1 2 (by decide)) (by decide), nofun, nofun⟩, _, rfl, rfl, by decide⟩
      distinct := by decide
      unknown := by
        refine .inl ⟨⟨_, rfl, rfl, rfl⟩, ?_⟩
        intro j gf hj h
        have h2 : ∀ k < 1, ∀ g ∈ (env.structs[0]).fields[k]?, g.name ≠ "unknownFields".toList := by decide
        exact h2 j hj gf h }
  | _ + 1 => rfl

end RawCase

end Verif.Props
