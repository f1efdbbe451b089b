import Verif.Lemmas.Gen.Antlr.PredCert27
/-!
# The decisions of the parser of proto files, checked

The checks of Verif/Lemmas/Gen/Antlr/PredTable.lean are evaluated for each decision for which the parser asks for a prediction.
-/
namespace Verif.Lemmas.Gen.Antlr.Pred
open Verif.Model.Gen Verif.Model.Gen.Antlr Verif.Model.Gen.Antlr.Pred Verif.Spec.Gen Verif.Lemmas.Gen.Antlr

theorem both6 : bothOk 6 = true := by decide +kernel
theorem both9 : bothOk 9 = true := by decide +kernel
theorem both22 : bothOk 22 = true := by decide +kernel
theorem both32 : bothOk 32 = true := by decide +kernel
theorem both33 : bothOk 33 = true := by decide +kernel
theorem both45 : bothOk 45 = true := by decide +kernel
theorem both47 : bothOk 47 = true := by decide +kernel

theorem both_ok {d : Nat} (h : d ∈ decisions) : bothOk d = true := by
  simp only [decisions, List.mem_cons, List.not_mem_nil, or_false] at h
  rcases h with rfl | rfl | rfl | rfl | rfl | rfl | rfl | rfl | rfl | rfl
  · exact both6
  · exact both9
  · exact both13
  · exact both22
  · exact both27
  · exact both32
  · exact both33
  · exact both39
  · exact both45
  · exact both47

/-- The sets of configurations of a decision are closed. -/
theorem decision_rows {d : Nat} (h : d ∈ decisions) : ∃ s rows, startSet predNet enough false d .empty = some s ∧ s ∈ rows ∧ Closed predNet enough rows :=
  decisionOk_spec (rows_ok h)

/-- Predictions at the places where a decision is made: the first alternative that leads to the end of the input. -/
theorem decision_best {ctx : List Nat} {d : Nat} {K : List Code} (hat : At protoGram codeProto ctx (.choose d) K) {w : List PTok}
    (ht : ∀ x ∈ w, 0 < x.typ ∧ x.typ ≤ 61) {j : Nat} {a : Code} (hj : (altsCode d)[j]? = some a) (ha : Accepts protoGram (a :: K) w) :
    ∃ s, startSet predNet enough false d .empty = some s ∧ ∃ (i : Nat) (b : Code), i ≤ j ∧ (altsCode d)[i]? = some b ∧ Accepts protoGram (b :: K) w ∧
      (sllRun predNet enough s w = .alt (i + 1) ∨ (sllRun predNet enough s w = .full ∧ predictLl predNet enough d ctx w = some (i + 1))) := by
  have hd : d ∈ decisions := mem_decisions (by
    intro h
    rw [h] at hj
    cases hj)
  have hb := both_ok hd
  refine predict_best calls_ok (E := through d) (words := words d) (llWords := words d) ?_ ?_ hat ht hj ha
  · exact List.all_eq_true.2 fun f hf => (bothOk_spec hd hb hf).1
  · exact List.all_eq_true.2 fun f hf => (bothOk_spec hd hb hf).2

end Verif.Lemmas.Gen.Antlr.Pred
