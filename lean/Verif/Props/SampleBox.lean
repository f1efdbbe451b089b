import Verif.Props.Sample
import Verif.Spec.Rearranged
/-!
# A sample type with a message held by value, with and without a further Go field that is no part of the message

```
type Outer struct { In Box `protobuf:"bytes,1,opt,name=in"` }
type Box struct {
	X     int32 `protobuf:"varint,1,opt,name=x"`
	Stamp int64 // only with `stamp`
}
```
-/
namespace Verif.Props
open Verif.Spec Verif.Model Verif.Props.Sample

namespace Box

def zero (stamp : Bool) : List Val := if stamp then [.w32 0, .w64 0] else [.w32 0]

def outer (stamp : Bool) : Message where
  fields := [⟨1, 0, none, .msg 1 false⟩]
  nslots := 1
  unknown := none
  small := !stamp
  zero := .struct [.struct (zero stamp)]

def inner (stamp : Bool) : Message where
  fields := [⟨1, 0, none, .single .int32⟩]
  nslots := if stamp then 2 else 1
  unknown := none
  small := !stamp
  zero := .struct (zero stamp)

def schema (stamp : Bool) : Schema
  | 0 => outer stamp
  | 1 => inner stamp
  | _ => default

def env (stamp : Bool) : GoEnv where
  structs := [
    { fields := [{ name := "In".toList, type := .struct 1, tag := "bytes,1,opt,name=in".toList }]
      size := if stamp then 16 else 4
      zero := .struct [.struct (zero stamp)] },
    { fields := { name := "X".toList, type := .int32, tag := "varint,1,opt,name=x".toList } ::
        (if stamp then [{ name := "Stamp".toList, type := .int64 }] else [])
      size := if stamp then 16 else 4
      zero := .struct (zero stamp) }]

theorem schema_wf (stamp : Bool) : (schema stamp).WF
  | 0 => {
      nums := by cases stamp <;> decide
      sorted := by cases stamp <;> decide
      slots := by cases stamp <;> decide
      disjoint := by
        intro f hf g hg h1 h2
        simp only [schema, outer, List.mem_singleton] at hf hg
        subst hf hg
        exact absurd rfl h1
      legal := by cases stamp <;> decide
      members := by
        intro f hf hm
        simp only [schema, outer, List.mem_singleton] at hf
        subst hf
        exact absurd rfl hm
      unknown := by intro s p h; cases h
      zero := by
        refine ⟨_, rfl, rfl, ?_, ?_, ?_⟩
        · intro f hf
          simp only [schema, outer, List.mem_singleton] at hf
          subst hf; rfl
        · intro s h; cases h
        · intro s h; cases h }
  | 1 => {
      nums := by cases stamp <;> decide
      sorted := by cases stamp <;> decide
      slots := by cases stamp <;> decide
      disjoint := by
        intro f hf g hg h1 h2
        simp only [schema, inner, List.mem_singleton] at hf hg
        subst hf hg
        exact absurd rfl h1
      legal := by cases stamp <;> decide
      members := by
        intro f hf hm
        simp only [schema, inner, List.mem_singleton] at hf
        subst hf
        exact absurd rfl hm
      unknown := by intro s p h; cases h
      zero := by
        refine ⟨_, rfl, by cases stamp <;> rfl, ?_, ?_, ?_⟩
        · intro f hf
          simp only [schema, inner, List.mem_singleton] at hf
          subst hf; cases stamp <;> rfl
        · intro s h; cases h
        · intro s h; cases h }
  | _ + 2 => {
      nums := by intro f hf; cases hf
      sorted := .nil
      slots := by intro f hf; cases hf
      disjoint := by intro f hf; cases hf
      legal := by intro f hf; cases hf
      members := by intro f hf; cases hf
      unknown := by intro s p h; cases h
      zero := ⟨[], rfl, rfl, nofun, nofun, nofun⟩ }

theorem env_implements (stamp : Bool) : Implements (env stamp) (schema stamp)
  | 0 => {
      nslots := rfl
      zero := rfl
      small := by cases stamp <;> decide
      tagged := by
        intro i gf h ht
        match i with
        | 0 => exact ⟨_, List.mem_of_getElem? (i := 0) rfl, rfl, rfl⟩
        | i + 1 => cases h
      plain := by
        intro f hf hm
        simp only [schema, outer, List.mem_singleton] at hf
        subst hf
        exact ⟨_, rfl, rfl, tagSays_of (words "bytes,1,opt,name=in".toList) _ _ _ _ _
            (dec1 1 (by decide)) (by decide), nofun, nofun⟩
      wrapper := by intro w hw; cases hw
      member := by
        intro f hf w hw
        simp only [schema, outer, List.mem_singleton] at hf
        subst hf
        cases hw
      distinct := .nil
      unknown := by
        intro gf h
        simp only [List.mem_singleton] at h
        subst h
        decide }
  | 1 => {
      nslots := by cases stamp <;> rfl
      zero := rfl
      small := by cases stamp <;> decide
      tagged := by
        intro i gf h ht
        match i with
        | 0 => exact ⟨_, List.mem_of_getElem? (i := 0) rfl, rfl, rfl⟩
        | 1 => cases stamp <;> cases h; exact absurd rfl ht
        | i + 2 => cases stamp <;> cases h
      plain := by
        intro f hf hm
        simp only [schema, inner, List.mem_singleton] at hf
        subst hf
        exact ⟨_, rfl, rfl, tagSays_of (words "varint,1,opt,name=x".toList) _ _ _ _ _
            (dec1 1 (by decide)) (by decide), nofun, nofun⟩
      wrapper := by intro w hw; cases hw
      member := by
        intro f hf w hw
        simp only [schema, inner, List.mem_singleton] at hf
        subst hf
        cases hw
      distinct := .nil
      unknown := by
        cases stamp
        · intro gf h
          simp only [Bool.false_eq_true, if_false, List.mem_singleton] at h
          subst h
          decide
        · intro gf h
          simp only [if_true, List.mem_cons, List.not_mem_nil, or_false] at h
          rcases h with rfl | rfl <;> decide }
  | _ + 2 => rfl

theorem reordered : Reordered (schema false) (schema true) := by
  refine ⟨fun id => ?_, fun id => ?_, fun id => ?_⟩ <;> match id with
  | 0 => first | rfl | decide | (intro p hp; simp only [schema, outer, List.zip_cons_cons, List.zip_nil_right, List.mem_singleton] at hp; subst hp; exact ⟨rfl, rfl, rfl⟩)
  | 1 => first | rfl | decide | (intro p hp; simp only [schema, inner, List.zip_cons_cons, List.zip_nil_right, List.mem_singleton] at hp; subst hp; exact ⟨rfl, rfl, rfl⟩)
  | _ + 2 => first | rfl | (intro p hp; cases hp)

end Box

end Verif.Props
