import Verif.Lemmas.HeapCodec
import Verif.Props.SampleNode
import Verif.Props.Marshal
/-!
# Properties C20, C37, C02 in a memory with sharing and cycles

`h.object a` is the struct at address `a`; pointers, slices and maps of messages are addresses.
-/
namespace Verif.Props
open Verif.Model Verif.Spec Verif.Lemmas

variable {env : GoEnv} {S : Schema} {h : Heap}

namespace HeapL

theorem marshalAppendH_tree (hI : Implements env S) (hW : S.WF) {id a : Nat} (hv : TypedH h S id (h.object a)) (b : Bytes) {m : Nat} (hm : 3000 ≤ m) :
    marshalAppendH env h b id a = marshalAppend env b (.ptr id (some ((h.object a).tree h m))) ∧
    sizeH env h id a = size env (.ptr id (some ((h.object a).tree h m))) ∧ Typed S id ((h.object a).tree h m) := by
  obtain ⟨P, hp, hP⟩ := hv
  obtain ⟨D, hD, hok⟩ := parseDescs_ok hI hW
  simp only [marshalAppendH, marshalAppend, sizeH, size, hD, bind, Except.bind, defaultRecursionMaxDepth]
  exact ⟨(appendStruct_sim hW hok hP 1000 false).some id _ hp m hm b, (sizeStruct_sim hW hok hP 1000).some id _ hp m hm, tree_typed hP m _ _ hp⟩

theorem nested_tree {id : Nat} {v : HVal} (hv : TypedH h S id v) {m : Nat} (hm : 3000 ≤ m) :
    NestedH h S 1000 id v ↔ Nested S 1000 id (v.tree h m) := by
  obtain ⟨P, hp, hP⟩ := hv
  exact nested_iff hP 1000 id v m hp hm

end HeapL

/-- Marshal and Size of a message in memory, which may be shared and cyclic: both fail with the max-depth error exactly if one can step 1000 times from a message into a
sub-message, and otherwise succeed. -/
theorem C20_memory (hI : Implements env S) (hW : S.WF) (id a : Nat) (hv : TypedH h S id (h.object a)) :
    (NestedH h S 1000 id (h.object a) → marshalAppendH env h [] id a = .error .maxDepth ∧ sizeH env h id a = .error .maxDepth) ∧
    (¬ NestedH h S 1000 id (h.object a) → ∃ bs n, marshalAppendH env h [] id a = .ok bs ∧ sizeH env h id a = .ok n) := by
  obtain ⟨e1, e2, ht⟩ := HeapL.marshalAppendH_tree hI hW hv [] (Nat.le_refl 3000)
  rw [HeapL.nested_tree hv (Nat.le_refl 3000), e1, e2]
  have hs := marshal_size_spec hI hW ht []
  have hn := encode_none_iff hW 1000 id _ ht
  cases he : encode S false 1000 id ((h.object a).tree h 3000) with
  | none =>
    rw [he] at hs
    exact ⟨fun _ => hs, fun hc => absurd (hn.1 he) hc⟩
  | some bs =>
    rw [he] at hs hn
    obtain ⟨r, n, h1, h2, _⟩ := hs
    exact ⟨fun hc => absurd (hn.2 hc) (by simp), fun _ => ⟨r, n, h1, h2⟩⟩

/-- If a message can be reached that can be reached from itself, Marshal and Size fail with the max-depth error (rather than running forever). -/
theorem C20_cycle (hI : Implements env S) (hW : S.WF) (id a : Nat) (hv : TypedH h S id (h.object a)) (id' : Nat) (v' : HVal)
    (hr : (id', v') = (id, h.object a) ∨ ReachH h S id (h.object a) id' v') (hc : ReachH h S id' v' id' v') :
    marshalAppendH env h [] id a = .error .maxDepth ∧ sizeH env h id a = .error .maxDepth := by
  refine (C20_memory hI hW id a hv).1 ?_
  rcases hr with hr | hr
  · cases hr
    exact cycle_nested hc 1000
  · exact reach_cycle_nested hr hc 1000

/-- Sharing and cycles make no difference to the result: it is that for the message with everything that is shared copied out, to any depth of at least 3000
addresses. -/
theorem C37_memory (hI : Implements env S) (hW : S.WF) (id a : Nat) (hv : TypedH h S id (h.object a)) (b : Bytes) (m : Nat) (hm : 3000 ≤ m) :
    Typed S id ((h.object a).tree h m) ∧
    match encode S false 1000 id ((h.object a).tree h m) with
    | some bs => bs.length < 2 ^ 64 → marshalAppendH env h b id a = .ok (b ++ bs) ∧ sizeH env h id a = .ok bs.length
    | none => marshalAppendH env h b id a = .error .maxDepth ∧ sizeH env h id a = .error .maxDepth := by
  obtain ⟨e1, e2, ht⟩ := HeapL.marshalAppendH_tree hI hW hv b hm
  refine ⟨ht, ?_⟩
  rw [e1, e2]
  have hs := marshal_size_spec hI hW ht b
  cases he : encode S false 1000 id ((h.object a).tree h m) with
  | none => rw [he] at hs; exact hs
  | some bs => exact fun hl => marshal_of_encode hI hW ht he hl b

/-! ## Examples -/

/-- Address 0: a node that is its own successor.  Address 1: a node with successor and both children the node at address 2.  Address 3: a node whose child is the first one. -/
def ring : Heap where
  object
    | 0 => .struct [.data (.w32 7), .ptr (some 0), .slice 9, .data (.bytes none)]
    | 1 => .struct [.data (.w32 1), .ptr (some 2), .slice 1, .data (.bytes none)]
    | 2 => .struct [.data (.w32 2), .ptr none, .slice 9, .data (.bytes none)]
    | _ => .struct [.data (.w32 3), .ptr none, .slice 3, .data (.bytes none)]
  array
    | 1 => [.ptr (some 2), .ptr (some 2)]
    | 3 => [.ptr none, .ptr (some 0)]
    | _ => []
  table _ := []

theorem ring_typed (a : Nat) : TypedH ring Node.schema 0 (ring.object a) := by
  refine ⟨fun id v => id = 0 ∧ ∃ a, v = ring.object a, ⟨rfl, a, rfl⟩, ?_⟩
  rintro _ _ ⟨rfl, a, rfl⟩
  have hp : ∀ p : Option Nat, RefTypedH ring (fun id v => id = 0 ∧ ∃ a, v = ring.object a) 0 true (.ptr p)
    | none => .nil _
    | some a => .ptr _ _ ⟨rfl, a, rfl⟩
  have hs : ∀ x ∈ [1, 3, 9], ∀ v ∈ ring.array x, RefTypedH ring (fun id v => id = 0 ∧ ∃ a, v = ring.object a) 0 true v := by
    intro x hx v hv
    simp only [List.mem_cons, List.not_mem_nil, or_false] at hx
    rcases hx with rfl | rfl | rfl
    · simp only [ring, List.mem_cons, List.not_mem_nil, or_false, or_self] at hv
      subst hv; exact hp _
    · simp only [ring, List.mem_cons, List.not_mem_nil, or_false] at hv
      rcases hv with rfl | rfl <;> exact hp _
    · cases hv
  have hnode : ∀ (w : BitVec 32) (p : Option Nat) (x : Nat), x ∈ [1, 3, 9] →
      MsgTypedH ring Node.schema (fun id v => id = 0 ∧ ∃ a, v = ring.object a) 0 (.struct [.data (.w32 w), .ptr p, .slice x, .data (.bytes none)]) := by
    intro w p x hx
    refine ⟨_, rfl, rfl, ?_, ?_⟩
    · intro f hf y hy
      simp only [Node.schema, Node.msg, List.mem_cons, List.not_mem_nil, or_false] at hf
      rcases hf with rfl | rfl | rfl
      · cases hy; exact .plain _ _ rfl (.data _ _ rfl (.single _ _ rfl))
      · cases hy; exact .plain _ _ rfl (.msg _ _ _ (hp p))
      · cases hy; exact .plain _ _ rfl (.msgList _ _ _ (hs x hx))
    · intro s p y hu hy
      simp only [Node.schema, Node.msg, Option.some.injEq, Prod.mk.injEq] at hu
      obtain ⟨rfl, rfl⟩ := hu
      cases hy
      exact ⟨_, rfl, none, rfl⟩
  match a with
  | 0 => exact hnode 7 (some 0) 9 (by simp)
  | 1 => exact hnode 1 (some 2) 1 (by simp)
  | 2 => exact hnode 2 none 9 (by simp)
  | n + 3 => exact hnode 3 none 3 (by simp)

theorem ring_loop : ReachH ring Node.schema 0 (ring.object 0) 0 (ring.object 0) :=
  .one _ _ _ _ (.mk _ _ _ _ _ _ _ (List.mem_of_getElem? (i := 1) rfl) rfl (.plain _ _ rfl) (.ptr _ _))

theorem ring_tail : ReachH ring Node.schema 0 (ring.object 3) 0 (ring.object 0) :=
  .one _ _ _ _ (.mk _ _ _ _ _ _ _ (List.mem_of_getElem? (i := 2) rfl) rfl (.plain _ _ rfl) (.list 0 true 3 _ _ (List.mem_of_getElem? (i := 1) rfl) (.ptr 0)))

/-- The hypotheses of `C20_cycle` hold for the node that is its own successor, and for one that has it as a child. -/
example : (marshalAppendH Node.env ring [] 0 0 = .error .maxDepth ∧ sizeH Node.env ring 0 0 = .error .maxDepth) ∧
    (marshalAppendH Node.env ring [] 0 3 = .error .maxDepth ∧ sizeH Node.env ring 0 3 = .error .maxDepth) :=
  ⟨C20_cycle Node.env_implements Node.schema_wf 0 0 (ring_typed 0) 0 _ (.inl rfl) ring_loop,
   C20_cycle Node.env_implements Node.schema_wf 0 3 (ring_typed 3) 0 _ (.inr ring_tail) ring_loop⟩

/-- A shared message that is not on a cycle is written each time it is referred to. -/
example : marshalAppendH Node.env ring [] 0 1 = .ok [0x08, 0x01, 0x12, 0x02, 0x08, 0x02, 0x1a, 0x02, 0x08, 0x02, 0x1a, 0x02, 0x08, 0x02] ∧
    sizeH Node.env ring 0 1 = .ok 14 := ⟨rfl, rfl⟩

end Verif.Props
