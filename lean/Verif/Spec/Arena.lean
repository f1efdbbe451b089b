import Verif.Model.Span
/-!
# Specification: blocks of memory
-/
namespace Verif.Spec
open Verif.Model.Arena (Req)

/-- A range of memory: first address and size. -/
abbrev Range := Nat × Nat

/-- Two ranges have no byte in common. -/
def Apart (r s : Range) : Prop := ∀ x, ¬ (r.1 ≤ x ∧ x < r.1 + r.2 ∧ s.1 ≤ x ∧ x < s.1 + s.2)

/-- A range lies inside another. -/
def Within (r s : Range) : Prop := s.1 ≤ r.1 ∧ r.1 + r.2 ≤ s.1 + s.2

/-- What is assumed of the Go runtime: the blocks it hands out are pairwise disjoint and none reaches the end of the
address space. -/
def RuntimeOK (blocks : List (BitVec 64 × Nat)) : Prop :=
  (∀ b ∈ blocks, b.1.toNat + b.2 < 2 ^ 64) ∧
  blocks.Pairwise (fun b c => Apart (b.1.toNat, b.2) (c.1.toNat, c.2))

/-- A legal request: the alignment is a power of two, and neither is of absurd size. -/
def LegalReq (r : Req) : Prop := r.n < 2 ^ 62 ∧ ∃ k, k < 62 ∧ r.align = 2 ^ k

end Verif.Spec
