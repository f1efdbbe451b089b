import Verif.Lemmas.Weight
import Verif.Lemmas.AllocCount
import Verif.Props.Unmarshal
import Verif.Props.Memory
/-!
# Small inputs do not make Unmarshal use much memory

An attacker may announce long strings, lists and messages that do not follow.
-/
namespace Verif.Props
open Verif.Model Verif.Model.Mem Verif.Spec Verif.Lemmas

variable {env : GoEnv} {S : Schema}

/-! ## C87: no amplification -/

/-- What a message holds grows by at most two units for each byte of the input, where a unit is a byte
of a string or `[]byte`, an element of a list, an entry of a map, or a variable behind a pointer or in
a oneof. -/
theorem C87_content (hI : Implements env S) (hW : S.WF) (hz : ∀ id, flat (S id).zero = true)
    (id : Nat) (v : Val) (hv : Typed S id v) (b : Bytes) (w : Val)
    (h : unmarshal env b (.ptr id (some v)) = .ok w) : weight w ≤ weight v + 2 * b.length :=
  decodes_weight hz ((C50_exact hI hW id v hv b w).1 h)

/-- Whatever the memory, the argument, its type and the input, and also if Unmarshal fails: it allocates
at most four blocks of memory for each byte of the input. -/
theorem C87_allocs (env : GoEnv) (h : Store) (b : View) (a : MArg) :
    ∃ k, k ≤ 4 * b.len ∧ (unmarshalM env b a h).2.next = allotted h k := by
  obtain ⟨k, h1, h2⟩ := Alloc.spend_unmarshal env b a h
  refine ⟨k, ?_, h1.next⟩
  cases hr : (unmarshalM env b a h).1 with
  | ok u => rw [hr] at h2; exact h2
  | error e => rw [hr] at h2; exact h2

end Verif.Props

namespace Verif.Props.Items
open Verif.Model Verif.Model.Mem Verif.Spec Verif.Lemmas

theorem used_typed : Typed schema 0 usedTree :=
  C50_typed env_implements schema_wf 0 (.struct zero) (typed_zero schema_wf 0)
    [0x0a, 2, 8, 1, 0x12, 1, 0x78, 0x1a, 0, 0x20, 1] usedTree rfl

/-- The message in use holds 5 units, and 7 after decoding: one more element, and "hi" for "x". -/
example : weight usedTree = 5 ∧ weight decodedTree = 7 ∧ weight decodedTree ≤ weight usedTree + 2 * 12 :=
  ⟨rfl, rfl, C87_content env_implements schema_wf zero_flat 0 usedTree used_typed input decodedTree decoded⟩

/-- Two blocks are allocated, for "hi" and for the submessage; the element and the unknown field use
spare capacity. -/
example : (unmarshalM env ⟨0, 0, 12⟩ (.ptr 0 (some 1)) store).2.next = store.next + 2 := by decide +kernel

/-- A string of `2^28 - 1` bytes is announced and does not follow: nothing is allocated, while four
blocks for each byte would be allowed. -/
example : (unmarshalM env ⟨0, 0, 5⟩ (.ptr 0 (some 1))
      (heap [.bytes [0x12, 0xff, 0xff, 0xff, 0x7f], .object used])).2.next = 2 := by decide +kernel

end Verif.Props.Items
