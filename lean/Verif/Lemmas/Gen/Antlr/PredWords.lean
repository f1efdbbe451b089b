import Verif.Lemmas.Gen.Antlr.PredTable
/-!
# The decisions of the parser of proto files

For each decision, how far the calls that lead to it are followed, and words that lead to all its sets of configurations.
-/
namespace Verif.Lemmas.Gen.Antlr.Pred
open Verif.Model.Gen Verif.Model.Gen.Antlr Verif.Model.Gen.Antlr.Pred Verif.Spec.Gen Verif.Lemmas.Gen.Antlr

/-- The rules through which the calls that lead to a decision are followed. -/
def through : Nat → List Nat
  | 13 => [15]
  | 39 => [35, 9, 8, 27, 26]
  | 45 => [46, 15]
  | 47 => [47, 15]
  | 27 => [30]
  | 22 => [24]
  | _ => []

/-- Words of token types that lead to all sets of configurations of a decision. -/
def words : Nat → List (List Nat)
  | 6 => [[], [8], [8, 1], [8, 13]]
  | 9 => [[], [7], [7, 1], [7, 1, 40], [7, 1, 40, 57]]
  | 13 => [[], [1], [13], [14], [15], [16], [17], [18], [19], [20], [21], [22], [23], [24], [25], [26], [27], [49], [1, 49]]
  | 22 => [[], [7], [28]]
  | 27 => [[], [7], [11], [12], [28], [29], [32], [33], [35], [7, 1], [11, 1], [32, 1], [33, 1], [35, 1], [35, 49], [7, 1, 40], [35, 49, 1], [7, 1, 40, 57],
      [35, 49, 1, 49]]
  | 32 => [[], [37]]
  | 33 => [[], [37]]
  | 39 => [[], [52], [55]]
  | 45 => [[], [1]]
  | 47 => [[], [1]]
  | _ => []

/-- The steps that a closure needs at most. -/
def enough : Nat := 10000

/-- The decisions for which the parser asks for a prediction. -/
def decisions : List Nat := [6, 9, 13, 22, 27, 32, 33, 39, 45, 47]

theorem mem_decisions {d : Nat} (h : altsCode d ≠ []) : d ∈ decisions := by
  unfold altsCode at h
  split at h <;> first | decide | exact absurd rfl h

/-- The places where a decision is made. -/
def places (d : Nat) : List (List Nat × List Code) := (sites (through d) d).eraseDups

/-- Whether the table of the first simulation (or of the second) is right about a place. -/
def placeOk (d k : Nat) (ll : Bool) : Bool :=
  match (places d)[k]? with
  | none => true
  | some f => if ll then llOk predNet enough d (words d) f else sllOk predNet enough d (words d) f

/-- The number of places where a decision is made. -/
def number : Nat → Nat
  | 13 => 3
  | 39 => 12
  | 45 => 6
  | 47 => 3
  | _ => 1

theorem numbers : decisions.all (fun d => decide ((places d).length ≤ number d)) = true := by decide +kernel

def bothOk (d : Nat) : Bool := (List.range (number d)).all fun k => placeOk d k false && placeOk d k true

theorem bothOk_spec {d : Nat} (hd : d ∈ decisions) (h : bothOk d = true) {f : List Nat × List Code} (hf : f ∈ sites (through d) d) :
    sllOk predNet enough d (words d) f = true ∧ llOk predNet enough d (words d) f = true := by
  have hf : f ∈ places d := List.mem_eraseDups.2 hf
  obtain ⟨k, hk⟩ := List.mem_iff_getElem?.1 hf
  have hl : k < (places d).length := (List.getElem?_eq_some_iff.1 hk).1
  have hn := of_decide_eq_true (List.all_eq_true.1 numbers d hd)
  have := List.all_eq_true.1 h k (List.mem_range.2 (by omega))
  unfold placeOk at this
  rw [hk, Bool.and_eq_true] at this
  exact this

end Verif.Lemmas.Gen.Antlr.Pred
