import Verif.Lemmas.Gen.Antlr.PredCert13
/-!
# The predictions of decisions 27 and 39, checked
-/
namespace Verif.Lemmas.Gen.Antlr.Pred

theorem both27_0s : placeOk 27 0 false = true := by decide +kernel
theorem both27_0l : placeOk 27 0 true = true := by decide +kernel

theorem both27 : bothOk 27 = true := by
  unfold bothOk
  rw [List.all_eq_true]
  intro k hk
  rw [List.mem_range, show number 27 = 1 from rfl] at hk
  rw [Bool.and_eq_true]
  match k, hk with
  | 0, _ => exact ⟨both27_0s, both27_0l⟩

theorem both39 : bothOk 39 = true := by decide +kernel

end Verif.Lemmas.Gen.Antlr.Pred
