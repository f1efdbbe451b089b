import Verif.Props.Sample
import Verif.Lemmas.DecTyped
/-!
# A sample recursive type as generated code has it: messages only behind pointers, no maps

```
type Node struct {
	V    int32   `protobuf:"varint,1,opt,name=v"`
	Next *Node   `protobuf:"bytes,2,opt,name=next"`
	Kids []*Node `protobuf:"bytes,3,rep,name=kids"`
	unknownFields []byte
}
```
-/
namespace Verif.Props.Node
open Verif.Spec Verif.Model Verif.Props.Sample

def zero : List Val := [.w32 0, .ptr none, .slice [], .bytes none]

def msg : Message where
  fields := [⟨1, 0, none, .single .int32⟩, ⟨2, 1, none, .msg 0 true⟩, ⟨3, 2, none, .msgList 0 true⟩]
  nslots := 4
  unknown := some (3, false)
  small := false
  zero := .struct zero

def schema : Schema
  | 0 => msg
  | _ => default

def env : GoEnv where
  structs := [
    { fields := [
        { name := "V".toList, type := .int32, tag := "varint,1,opt,name=v".toList },
        { name := "Next".toList, type := .ptr (.struct 0), tag := "bytes,2,opt,name=next".toList },
        { name := "Kids".toList, type := .slice (.ptr (.struct 0)), tag := "bytes,3,rep,name=kids".toList },
        { name := "unknownFields".toList, type := .bytes }]
      size := 64
      zero := .struct zero }]

theorem schema_wf : schema.WF
  | 0 => {
      nums := by decide
      sorted := by decide
      slots := by decide
      disjoint := by
        have h : ∀ f ∈ (schema 0).fields, ∀ g ∈ (schema 0).fields, f.num ≠ g.num → f.slot ≠ g.slot := by decide
        intro f hf g hg h1 h2
        exact absurd h2 (h f hf g hg h1)
      legal := by decide
      members := by
        have h : ∀ f ∈ (schema 0).fields, f.member = none := by decide
        intro f hf hm
        exact absurd (h f hf) hm
      unknown := by
        intro s p h
        simp only [schema, msg, Option.some.injEq, Prod.mk.injEq] at h
        obtain ⟨rfl, rfl⟩ := h
        decide
      zero := by
        refine ⟨zero, rfl, rfl, ?_, ?_, ?_⟩
        · intro f hf
          simp only [schema, msg, List.mem_cons, List.not_mem_nil, or_false] at hf
          rcases hf with rfl | rfl | rfl <;> rfl
        · intro s h
          simp only [schema, msg, Option.some.injEq, Prod.mk.injEq] at h
          obtain ⟨rfl, -⟩ := h
          rfl
        · intro s h; simp [schema, msg] at h }
  | _ + 1 => {
      nums := by intro f hf; cases hf
      sorted := .nil
      slots := by intro f hf; cases hf
      disjoint := by intro f hf; cases hf
      legal := by intro f hf; cases hf
      members := by intro f hf; cases hf
      unknown := by intro s p h; cases h
      zero := ⟨[], rfl, rfl, nofun, nofun, nofun⟩ }

theorem env_implements : Implements env schema
  | 0 => {
      nslots := rfl
      zero := rfl
      small := by decide
      tagged := by
        intro i gf h ht
        match i with
        | 0 => exact ⟨_, List.mem_of_getElem? (i := 0) rfl, rfl, rfl⟩
        | 1 => exact ⟨_, List.mem_of_getElem? (i := 1) rfl, rfl, rfl⟩
        | 2 => exact ⟨_, List.mem_of_getElem? (i := 2) rfl, rfl, rfl⟩
        | 3 => cases h; exact absurd rfl ht
        | i + 4 => cases h
      plain := by
        intro f hf hm
        simp only [schema, msg, List.mem_cons, List.not_mem_nil, or_false] at hf
        rcases hf with rfl | rfl | rfl
        · exact ⟨_, rfl, rfl, tagSays_of (words "varint,1,opt,name=v".toList) _ _ _ _ _
            (dec1 1 (by decide)) (by decide), nofun, nofun⟩
        · exact ⟨_, rfl, rfl, tagSays_of (words "bytes,2,opt,name=next".toList) _ _ _ _ _
            (dec1 2 (by decide)) (by decide), nofun, nofun⟩
        · exact ⟨_, rfl, rfl, tagSays_of (words "bytes,3,rep,name=kids".toList) _ _ _ _ _
            (dec1 3 (by decide)) (by decide), nofun, nofun⟩
      wrapper := by intro w hw; cases hw
      member := by
        intro f hf w hw
        simp only [schema, msg, List.mem_cons, List.not_mem_nil, or_false] at hf
        rcases hf with rfl | rfl | rfl <;> cases hw
      distinct := .nil
      unknown := by
        refine .inl ⟨⟨_, rfl, rfl, rfl⟩, ?_⟩
        intro j gf hj h
        have h2 : ∀ k < 3, ∀ g ∈ (env.structs[0]).fields[k]?, g.name ≠ "unknownFields".toList := by decide
        exact h2 j hj gf h }
  | _ + 1 => rfl

/-- A chain of `n` nodes behind the first, numbered downwards. -/
def chain : Nat → Val
  | 0 => .struct zero
  | n + 1 => .struct [.w32 (BitVec.ofNat 32 n), .ptr (some (chain n)), .slice [], .bytes none]

theorem chain_typed : ∀ n, Typed schema 0 (chain n)
  | 0 => Lemmas.typed_zero schema_wf 0
  | n + 1 => by
    refine .mk 0 _ rfl ?_ ?_
    · intro f hf x hx
      simp only [schema, msg, List.mem_cons, List.not_mem_nil, or_false] at hf
      rcases hf with rfl | rfl | rfl <;> cases hx
      · exact .plain _ _ rfl (.single _ _ rfl)
      · exact .plain _ _ rfl (.msg _ _ _ (.ptr _ _ (chain_typed n)))
      · exact .plain _ _ rfl (.msgList _ _ _ nofun)
    · intro s p x h hx
      simp only [schema, msg, Option.some.injEq, Prod.mk.injEq] at h
      obtain ⟨rfl, rfl⟩ := h
      cases hx
      exact ⟨_, rfl⟩

theorem chain_sub {n id : Nat} {v : Val} (h : SubMsg schema 0 (chain n) id v) : ∃ m, n = m + 1 ∧ id = 0 ∧ v = chain m := by
  generalize hv : chain n = x at h
  cases h with
  | mk slots f _ _ hf hs =>
    obtain ⟨x, d, hx, hc, hs⟩ := hs
    simp only [schema, msg, List.mem_cons, List.not_mem_nil, or_false] at hf
    cases n with
    | zero => cases hv; rcases hf with rfl | rfl | rfl <;> cases hx <;> cases hc <;> cases hs; rename_i h; cases h
    | succ n =>
      cases hv
      rcases hf with rfl | rfl | rfl <;> cases hx <;> cases hc <;> cases hs
      · exact ⟨n, rfl, rfl, rfl⟩
      · rename_i h; cases h

theorem chain_reach {id' id : Nat} {u v : Val} (h : Reach schema id' u id v) : ∀ n, id' = 0 → u = chain n → ∃ m, id = 0 ∧ v = chain m := by
  induction h with
  | refl id v => exact fun n h1 h2 => ⟨n, h1, h2⟩
  | step id v id1 v1 id2 v2 hs _ ih =>
    intro n h1 h2
    subst h1 h2
    obtain ⟨m, rfl, h1, h2⟩ := chain_sub hs
    exact ih m h1 h2

theorem chain_nested : ∀ {n k : Nat}, Nested schema k 0 (chain n) → k ≤ n
  | _, 0, _ => Nat.zero_le _
  | n, k + 1, h => by
    cases h with
    | step _ _ _ id' v' hs h =>
      obtain ⟨m, rfl, rfl, rfl⟩ := chain_sub hs
      have := chain_nested h
      omega

end Verif.Props.Node
