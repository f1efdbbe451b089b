import Verif.Lemmas.Gen.Antlr.PredWords
/-!
# The sets of configurations of all decisions, checked
-/
namespace Verif.Lemmas.Gen.Antlr.Pred

theorem calls_ok : callsOk predNet = true := by decide +kernel

theorem rows6 : decisionOk predNet enough 6 (words 6) = true := by decide +kernel
theorem rows9 : decisionOk predNet enough 9 (words 9) = true := by decide +kernel
theorem rows13 : decisionOk predNet enough 13 (words 13) = true := by decide +kernel
theorem rows22 : decisionOk predNet enough 22 (words 22) = true := by decide +kernel
theorem rows27 : decisionOk predNet enough 27 (words 27) = true := by decide +kernel
theorem rows32 : decisionOk predNet enough 32 (words 32) = true := by decide +kernel
theorem rows33 : decisionOk predNet enough 33 (words 33) = true := by decide +kernel
theorem rows39 : decisionOk predNet enough 39 (words 39) = true := by decide +kernel
theorem rows45 : decisionOk predNet enough 45 (words 45) = true := by decide +kernel
theorem rows47 : decisionOk predNet enough 47 (words 47) = true := by decide +kernel

theorem rows_ok {d : Nat} (h : d ∈ decisions) : decisionOk predNet enough d (words d) = true := by
  simp only [decisions, List.mem_cons, List.not_mem_nil, or_false] at h
  rcases h with rfl | rfl | rfl | rfl | rfl | rfl | rfl | rfl | rfl | rfl
  · exact rows6
  · exact rows9
  · exact rows13
  · exact rows22
  · exact rows27
  · exact rows32
  · exact rows33
  · exact rows39
  · exact rows45
  · exact rows47

end Verif.Lemmas.Gen.Antlr.Pred
