import Verif.Lemmas.Gen.Antlr.PredCertRows
/-!
# The predictions of decision 13, checked
-/
namespace Verif.Lemmas.Gen.Antlr.Pred

theorem both13_0s : placeOk 13 0 false = true := by decide +kernel
theorem both13_0l : placeOk 13 0 true = true := by decide +kernel
theorem both13_1s : placeOk 13 1 false = true := by decide +kernel
theorem both13_1l : placeOk 13 1 true = true := by decide +kernel
theorem both13_2s : placeOk 13 2 false = true := by decide +kernel
theorem both13_2l : placeOk 13 2 true = true := by decide +kernel

theorem both13 : bothOk 13 = true := by
  unfold bothOk
  rw [List.all_eq_true]
  intro k hk
  rw [List.mem_range, show number 13 = 3 from rfl] at hk
  rw [Bool.and_eq_true]
  match k, hk with
  | 0, _ => exact ⟨both13_0s, both13_0l⟩
  | 1, _ => exact ⟨both13_1s, both13_1l⟩
  | 2, _ => exact ⟨both13_2s, both13_2l⟩

end Verif.Lemmas.Gen.Antlr.Pred
