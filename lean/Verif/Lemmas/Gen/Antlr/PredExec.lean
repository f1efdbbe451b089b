import Verif.Lemmas.Gen.Antlr.PredCert
import Verif.Lemmas.Gen.Antlr.PredMono
import Verif.Lemmas.Gen.Antlr.Ll1
import Verif.Spec.Gen.Warm
/-!
# The parser with its predictions

Predictions do not depend on the automata that earlier ones have left (`predict_warm`), so the parser with these automata does what the parser of
Verif/Model/Gen/Antlr/Parser.lean does with a fixed predictor (`exec_run`), and that predictor is right.
-/
namespace Verif.Lemmas.Gen.Antlr.Pred
open Verif.Model.Gen Verif.Model.Gen.Antlr.Pred Verif.Spec.Gen Verif.Lemmas.Gen.Antlr
open Verif.Model.Gen.Antlr hiding DState addCfg

/-- What is predicted. -/
def pred (N : PNet) (n d : Nat) (ctx : List Nat) (w : List PTok) : Option Nat :=
  match startSet N n false d .empty with
  | none => none
  | some s =>
    match sllRun N n s w with
    | .alt i => some i
    | .full => predictLl N n d ctx w

/-- The automata of all decisions are as predictions leave them. -/
def GoodAll (n : Nat) (σ : PCache) : Prop :=
  ∀ d ∈ decisions, ∃ s rows, startSet predNet n false d .empty = some s ∧ s ∈ rows ∧ Closed predNet n rows ∧ Good predNet n s rows (σ d)

theorem predNet_max : predNet.max = 61 := rfl

section
variable {n : Nat} (hn : enough ≤ n)
include hn

theorem goodAll_cold : GoodAll n fun _ => {} := by
  intro d hd
  obtain ⟨s, rows, h1, h2, h3⟩ := decision_rows hd
  exact ⟨s, rows, startSet_mono hn h1, h2, closed_mono hn h3, good_cold _ _ _ _⟩

omit hn in
theorem goodAll_learn {σ : PCache} (hσ : GoodAll n σ) {d : Nat} (hd : d ∈ decisions) {w : List PTok} (hw : Types w) :
    ∃ s A, startSet predNet n false d .empty = some s ∧ learn predNet n d (σ d) w = some (A, sllRun predNet n s w) ∧ GoodAll n (σ.set d A) := by
  obtain ⟨s, rows, h1, h2, h3, h4⟩ := hσ d hd
  obtain ⟨A, h5, h6⟩ := learn_good h3 h1 h2 h4 hw
  refine ⟨s, A, h1, h5, ?_⟩
  intro e he
  by_cases hde : e = d
  · subst hde
    refine ⟨s, rows, h1, h2, h3, ?_⟩
    rw [PCache.set, if_pos rfl]
    exact h6
  · obtain ⟨s', rows', g1, g2, g3, g4⟩ := hσ e he
    refine ⟨s', rows', g1, g2, g3, ?_⟩
    rw [PCache.set, if_neg hde]
    exact g4

theorem warm_good {σ : PCache} (h : Warm predNet n σ) : GoodAll n σ := by
  induction h with
  | cold => exact goodAll_cold hn
  | learned _ hd hw hl ih =>
    obtain ⟨s, B, h1, h2, h3⟩ := goodAll_learn ih (mem_decisions hd) hw
    rw [hl] at h2
    cases h2
    exact h3

omit hn in
/-- Predictions do not depend on what was predicted before. -/
theorem predict_warm {σ : PCache} (hσ : GoodAll n σ) {d : Nat} (hd : d ∈ decisions) (ctx : List Nat) {w : List PTok} (hw : Types w) :
    (adaptivePredict predNet n d (σ d) ctx w).map Prod.snd = pred predNet n d ctx w ∧
      ∀ A i, adaptivePredict predNet n d (σ d) ctx w = some (A, i) → GoodAll n (σ.set d A) := by
  obtain ⟨s, A, h1, h2, h3⟩ := goodAll_learn hσ hd hw
  unfold adaptivePredict pred
  rw [h1, h2]
  dsimp only
  cases sllRun predNet n s w with
  | alt i =>
    refine ⟨rfl, ?_⟩
    intro B j h
    cases h
    exact h3
  | full =>
    dsimp only
    cases hp : predictLl predNet n d ctx w with
    | none => exact ⟨rfl, fun B j h => by cases h⟩
    | some i =>
      refine ⟨rfl, ?_⟩
      intro B j h
      cases h
      exact h3

omit hn in
theorem warm_predict {N : PNet} {σ : PCache} (hσ : Warm N n σ) {d : Nat} (hd : altsCode d ≠ []) {ctx : List Nat} {w : List PTok} (hw : Types w) {A : PDfa} {i : Nat}
    (h : adaptivePredict N n d (σ d) ctx w = some (A, i)) : Warm N n (σ.set d A) := by
  unfold adaptivePredict at h
  split at h
  · cases h
  · next hl =>
    cases h
    exact hσ.learned hd hw hl
  · next hl =>
    split at h
    · cases h
    · cases h
      exact hσ.learned hd hw hl

/-- The first alternative that leads to the end of the input is predicted. -/
theorem pred_best {ctx : List Nat} {d : Nat} {K : List Code} (hat : At protoGram codeProto ctx (.choose d) K) {w : List PTok} (hw : Types w) {j : Nat} {a : Code}
    (hj : (altsCode d)[j]? = some a) (ha : Accepts protoGram (a :: K) w) :
    ∃ (i : Nat) (b : Code), pred predNet n d ctx w = some (i + 1) ∧ i ≤ j ∧ (altsCode d)[i]? = some b ∧ Accepts protoGram (b :: K) w := by
  have hd : d ∈ decisions := mem_decisions (by
    intro h
    rw [h] at hj
    cases hj)
  obtain ⟨s, hs, i, b, h1, h2, h3, h4⟩ := decision_best hat hw hj ha
  obtain ⟨s', rows, g1, g2, g3⟩ := decision_rows hd
  rw [hs] at g1
  cases g1
  refine ⟨i, b, ?_, h1, h2, h3⟩
  unfold pred
  rw [startSet_mono hn hs]
  dsimp only
  rw [sllRun_mono hn g3 w s g2 fun x hx => (hw x hx).2]
  rcases h4 with h4 | ⟨h4, h5⟩
  · rw [h4]
  · rw [h4]
    exact predictLl_mono hn h5

end

/-- The parser with the automata does what the parser with a predictor does that predicts what they predict. -/
theorem exec_run {n : Nat} (hn : enough ≤ n) {predict : Predict}
    (hP : ∀ d ctx K w, d ∈ decisions → Types w → predict d ctx K w = (pred predNet n d ctx w).getD 0) :
    ∀ (m : Nat) (σ : PCache) (ctx : List Nat) (K : List Code) (c : Code) (w : List PTok), Warm predNet n σ → Types w →
      (exec protoGram predNet n m σ ctx c w).map (fun x => (x.1, x.2.1)) = Verif.Model.Gen.Antlr.run protoGram predict m ctx K c w ∧
        ∀ ts v τ, exec protoGram predNet n m σ ctx c w = some (ts, v, τ) → Warm predNet n τ := by
  intro m
  induction m with
  | zero =>
    intro σ ctx K c w _ _
    exact ⟨rfl, fun ts v τ h => by cases h⟩
  | succ m ih =>
    have rest : ∀ {ctx K c w ts v}, Verif.Model.Gen.Antlr.run protoGram predict m ctx K c w = some (ts, v) → Types w → Types v := by
      intro ctx K c w ts v h ht x hx
      obtain ⟨u, rfl, -⟩ := run_sound _ _ _ _ _ _ _ _ _ h
      exact ht x (List.mem_append_right _ hx)
    intro σ ctx K c w hσ hw
    cases c with
    | done =>
      refine ⟨rfl, fun ts v τ h => ?_⟩
      simp only [exec, Option.some.injEq, Prod.mk.injEq] at h
      exact h.2.2 ▸ hσ
    | fail => exact ⟨rfl, fun ts v τ h => by simp [exec] at h⟩
    | sync s =>
      simp only [exec, Verif.Model.Gen.Antlr.run]
      split
      · refine ⟨rfl, fun ts v τ h => ?_⟩
        simp only [Option.some.injEq, Prod.mk.injEq] at h
        exact h.2.2 ▸ hσ
      · exact ⟨rfl, fun ts v τ h => by cases h⟩
    | tok t =>
      simp only [exec, Verif.Model.Gen.Antlr.run]
      cases matchTok (fun u => u == t) w with
      | none => exact ⟨rfl, fun ts v τ h => by cases h⟩
      | some p =>
        refine ⟨rfl, fun ts v τ h => ?_⟩
        simp only [Option.map_some, Option.some.injEq, Prod.mk.injEq] at h
        exact h.2.2 ▸ hσ
    | eof =>
      simp only [exec, Verif.Model.Gen.Antlr.run]
      split
      · refine ⟨rfl, fun ts v τ h => ?_⟩
        simp only [Option.some.injEq, Prod.mk.injEq] at h
        exact h.2.2 ▸ hσ
      · exact ⟨rfl, fun ts v τ h => by cases h⟩
    | set l =>
      simp only [exec, Verif.Model.Gen.Antlr.run]
      cases matchTok (fun u => l.contains u) w with
      | none => exact ⟨rfl, fun ts v τ h => by cases h⟩
      | some p =>
        refine ⟨rfl, fun ts v τ h => ?_⟩
        simp only [Option.map_some, Option.some.injEq, Prod.mk.injEq] at h
        exact h.2.2 ▸ hσ
    | call s r =>
      simp only [exec, Verif.Model.Gen.Antlr.run]
      obtain ⟨h1, h2⟩ := ih σ (s :: ctx) K (protoGram.rule r) w hσ hw
      rw [← h1]
      cases he : exec protoGram predNet n m σ (s :: ctx) (protoGram.rule r) w with
      | none => exact ⟨rfl, fun ts v τ h => by cases h⟩
      | some x =>
        obtain ⟨ts, v, τ⟩ := x
        refine ⟨rfl, fun ts' v' τ' h => ?_⟩
        simp only [Option.some.injEq, Prod.mk.injEq] at h
        exact h.2.2 ▸ h2 _ _ _ he
    | seq a b =>
      simp only [exec, Verif.Model.Gen.Antlr.run]
      obtain ⟨h1, h2⟩ := ih σ ctx (b :: K) a w hσ hw
      cases he : exec protoGram predNet n m σ ctx a w with
      | none =>
        rw [he] at h1
        rw [← h1]
        exact ⟨rfl, fun ts v τ h => by cases h⟩
      | some x =>
        obtain ⟨ts, v, τ⟩ := x
        rw [he] at h1
        rw [← h1]
        dsimp only [Option.map_some]
        obtain ⟨h3, h4⟩ := ih τ ctx K b v (h2 _ _ _ he) (rest h1.symm hw)
        rw [← h3]
        cases he' : exec protoGram predNet n m τ ctx b v with
        | none => exact ⟨rfl, fun ts v τ h => by cases h⟩
        | some y =>
          obtain ⟨us, v', τ'⟩ := y
          refine ⟨rfl, fun ts' v'' τ'' h => ?_⟩
          simp only [Option.some.injEq, Prod.mk.injEq] at h
          exact h.2.2 ▸ h4 _ _ _ he'
    | ifLa l a b =>
      simp only [exec, Verif.Model.Gen.Antlr.run]
      split
      · exact ih σ ctx K a w hσ hw
      · exact ih σ ctx K b w hσ hw
    | whileLa l a =>
      simp only [exec, Verif.Model.Gen.Antlr.run]
      split
      · obtain ⟨h1, h2⟩ := ih σ ctx (.whileLa l a :: K) a w hσ hw
        cases he : exec protoGram predNet n m σ ctx a w with
        | none =>
          rw [he] at h1
          rw [← h1]
          exact ⟨rfl, fun ts v τ h => by cases h⟩
        | some x =>
          obtain ⟨ts, v, τ⟩ := x
          rw [he] at h1
          rw [← h1]
          dsimp only [Option.map_some]
          obtain ⟨h3, h4⟩ := ih τ ctx K (.whileLa l a) v (h2 _ _ _ he) (rest h1.symm hw)
          rw [← h3]
          cases he' : exec protoGram predNet n m τ ctx (.whileLa l a) v with
          | none => exact ⟨rfl, fun ts v τ h => by cases h⟩
          | some y =>
            obtain ⟨us, v', τ'⟩ := y
            refine ⟨rfl, fun ts' v'' τ'' h => ?_⟩
            simp only [Option.some.injEq, Prod.mk.injEq] at h
            exact h.2.2 ▸ h4 _ _ _ he'
      · refine ⟨rfl, fun ts v τ h => ?_⟩
        simp only [Option.some.injEq, Prod.mk.injEq] at h
        exact h.2.2 ▸ hσ
    | choose d =>
      simp only [exec, Verif.Model.Gen.Antlr.run]
      by_cases hd : altsCode d = []
      · have hno : ∀ i : Nat, (protoGram.alts d)[i]? = none := fun i => by
          rw [show protoGram.alts d = altsCode d from rfl, hd]
          simp
        constructor
        · have e2 : (match predict d ctx K w with
              | 0 => (none : Option (List PTree × List PTok))
              | i + 1 =>
                match (protoGram.alts d)[i]? with
                | none => none
                | some a => Verif.Model.Gen.Antlr.run protoGram predict m ctx K a w) = none := by
            cases predict d ctx K w with
            | zero => rfl
            | succ i => simp only [hno]
          refine Eq.trans ?_ e2.symm
          cases adaptivePredict predNet n d (σ d) ctx w with
          | none => rfl
          | some x =>
            obtain ⟨A, i⟩ := x
            cases i with
            | zero => rfl
            | succ i => simp only [hno]; rfl
        · intro ts v τ h
          cases he : adaptivePredict predNet n d (σ d) ctx w with
          | none => rw [he] at h; cases h
          | some x =>
            obtain ⟨A, i⟩ := x
            rw [he] at h
            cases i with
            | zero => cases h
            | succ i =>
              simp only [hno] at h
              cases h
      · have hd' := hd
        have hd := mem_decisions hd
        obtain ⟨h1, -⟩ := predict_warm (warm_good hn hσ) hd ctx hw
        rw [hP d ctx K w hd hw, ← h1]
        cases he : adaptivePredict predNet n d (σ d) ctx w with
        | none => exact ⟨rfl, fun ts v τ h => by cases h⟩
        | some x =>
          obtain ⟨A, i⟩ := x
          cases i with
          | zero => exact ⟨rfl, fun ts v τ h => by cases h⟩
          | succ i =>
            dsimp only [Option.map_some, Option.getD_some]
            cases ha : (protoGram.alts d)[i]? with
            | none => exact ⟨rfl, fun ts v τ h => by cases h⟩
            | some a => exact ih _ ctx K a w (warm_predict hσ hd' hw he) hw

end Verif.Lemmas.Gen.Antlr.Pred
