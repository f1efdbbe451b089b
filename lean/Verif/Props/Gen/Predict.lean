import Verif.Lemmas.Gen.Antlr.PredExec
import Verif.Props.Gen.Parser
/-!
# C84: predictions of the parser are right, whatever was parsed before

`adaptivePredict` models `AdaptivePredict` of the ANTLR runtime with the automata that it builds and keeps for all later files; `parseShared` is the generated
parser with these predictions.
-/
namespace Verif.Props
open Verif.Model.Gen Verif.Model.Gen.Antlr.Pred Verif.Spec.Gen
open Verif.Model.Gen.Antlr hiding DState addCfg
open Verif.Lemmas.Gen Verif.Lemmas.Gen.Antlr
open Verif.Lemmas.Gen.Antlr.Pred (predNet predNet_eq enough pred pred_best predict_warm warm_good warm_predict exec_run mem_decisions)

namespace Gen

theorem atn_net {a : Atn} (ha : deserialize parserAtnData = some a) : pnet a = predNet := by
  rw [parserAtn_eq] at ha
  cases ha
  exact predNet_eq

theorem types_of_typed {w : List PTok} (h : WellTyped w) : Types w := by
  intro x hx
  have := h x hx
  generalize x.text = s, x.typ = t at this
  cases this with
  | keyword i w hi =>
    have := (List.getElem?_eq_some_iff.1 hi).1
    simp only [Keywords, List.length_map, List.length_cons, List.length_nil] at this
    omega
  | symbol i c hi =>
    have := (List.getElem?_eq_some_iff.1 hi).1
    rw [show Symbols.length = 15 by decide] at this
    omega
  | _ => omega

end Gen

/-- **C84, predictions.** Where the parser asks for a prediction, and an alternative leads to the end of the input: the first such alternative is predicted, whatever
was predicted before.  `At` are the places that the parser reaches. -/
theorem C84_predicts (a : Atn) (ha : deserialize parserAtnData = some a) (steps : Nat) (hs : 10000 ≤ steps) (σ : PCache) (hσ : Warm (pnet a) steps σ) (ctx : List Nat)
    (d : Nat) (K : List Code) (hat : At protoGram codeProto ctx (.choose d) K) (w : List PTok) (hw : Types w) (j : Nat) (c : Code)
    (hj : (altsCode d)[j]? = some c) (hc : Accepts protoGram (c :: K) w) :
    ∃ (A : PDfa) (i : Nat) (b : Code), adaptivePredict (pnet a) steps d (σ d) ctx w = some (A, i + 1) ∧ (altsCode d)[i]? = some b ∧ Accepts protoGram (b :: K) w ∧
      ∀ (k : Nat) e, (altsCode d)[k]? = some e → Accepts protoGram (e :: K) w → i ≤ k := by
  rw [Gen.atn_net ha] at hσ ⊢
  have hd : altsCode d ≠ [] := by
    intro h
    rw [h] at hj
    cases hj
  obtain ⟨i, b, h1, h2, h3, h4⟩ := pred_best hs hat hw hj hc
  obtain ⟨h5, -⟩ := predict_warm (warm_good hs hσ) (mem_decisions hd) ctx hw
  rw [h1] at h5
  cases he : adaptivePredict predNet steps d (σ d) ctx w with
  | none => rw [he] at h5; cases h5
  | some x =>
    obtain ⟨A, i'⟩ := x
    rw [he] at h5
    simp only [Option.map_some, Option.some.injEq] at h5
    subst h5
    refine ⟨A, i, b, rfl, h3, h4, ?_⟩
    intro k e hk hA
    obtain ⟨i', b', g1, g2, -, -⟩ := pred_best hs hat hw hk hA
    rw [h1] at g1
    have := Option.some.inj g1
    omega

/-- **C84, independence.** What is predicted does not depend on what was predicted before: not even in front of an error, and wherever the parser believes to be. -/
theorem C84_independent (a : Atn) (ha : deserialize parserAtnData = some a) (steps : Nat) (hs : 10000 ≤ steps) (σ τ : PCache) (hσ : Warm (pnet a) steps σ)
    (hτ : Warm (pnet a) steps τ) (d : Nat) (hd : altsCode d ≠ []) (ctx : List Nat) (w : List PTok) (hw : Types w) :
    (adaptivePredict (pnet a) steps d (σ d) ctx w).map Prod.snd = (adaptivePredict (pnet a) steps d (τ d) ctx w).map Prod.snd := by
  rw [Gen.atn_net ha] at hσ hτ ⊢
  rw [(predict_warm (warm_good hs hσ) (mem_decisions hd) ctx hw).1, (predict_warm (warm_good hs hτ) (mem_decisions hd) ctx hw).1]

/-- **C84, simulation.** The first simulation of a prediction never fails, in front of any tokens, whatever was predicted before. -/
theorem C84_learns (a : Atn) (ha : deserialize parserAtnData = some a) (steps : Nat) (hs : 10000 ≤ steps) (σ : PCache) (hσ : Warm (pnet a) steps σ) (d : Nat)
    (hd : altsCode d ≠ []) (w : List PTok) (hw : Types w) : ∃ A r, learn (pnet a) steps d (σ d) w = some (A, r) ∧ Warm (pnet a) steps (σ.set d A) := by
  have hσ' := hσ
  rw [Gen.atn_net ha] at hσ
  obtain ⟨s, A, -, h, -⟩ := Verif.Lemmas.Gen.Antlr.Pred.goodAll_learn (warm_good hs hσ) (mem_decisions hd) hw
  rw [← Gen.atn_net ha] at h
  exact ⟨A, _, h, hσ'.learned hd hw h⟩

namespace Gen

open Classical in
/-- The predictions as a predictor of Verif/Model/Gen/Antlr/Parser.lean; for tokens that no lexer makes, the first alternative that leads to the end. -/
noncomputable def simPredict (n : Nat) : Predict := fun d ctx K w =>
  if Types w then (pred predNet n d ctx w).getD 0 else bestPredict protoGram d ctx K w

theorem simPredict_right {n : Nat} (hn : 10000 ≤ n) : Right protoGram codeProto (simPredict n) := by
  intro ctx d K w hat h
  unfold simPredict
  by_cases hw : Types w
  · rw [if_pos hw]
    obtain ⟨j, c, hj, hc⟩ := choose_accepts h
    obtain ⟨i, b, h1, h2, h3, h4⟩ := pred_best hn hat hw hj hc
    exact ⟨i, b, by rw [h1]; rfl, h3, h4⟩
  · rw [if_neg hw]
    exact bestPredict_right protoGram codeProto ctx d K w hat h

theorem simPredict_first {n : Nat} (hn : 10000 ≤ n) : First protoGram codeProto (simPredict n) := by
  intro ctx d K w hat j c hj hc
  unfold simPredict
  by_cases hw : Types w
  · rw [if_pos hw]
    obtain ⟨i, b, h1, h2, h3, h4⟩ := pred_best hn hat hw hj hc
    rw [h1]
    exact Nat.succ_le_succ h2
  · rw [if_neg hw]
    exact bestPredict_first protoGram codeProto ctx d K w hat j c hj hc

/-- The parser with the automata, and the parser with the predictor. -/
theorem shared_parse {a : Atn} (ha : deserialize parserAtnData = some a) {steps : Nat} (hs : 10000 ≤ steps) {σ : PCache} (hσ : Warm (pnet a) steps σ) {w : List PTok}
    (hw : Types w) (n : Nat) : (parseShared (pnet a) steps n σ w).map Prod.fst = parseTokens (simPredict steps) n w ∧
      ∀ ts τ, parseShared (pnet a) steps n σ w = some (ts, τ) → Warm (pnet a) steps τ := by
  rw [atn_net ha] at hσ ⊢
  have hP : ∀ d ctx K w, d ∈ Verif.Lemmas.Gen.Antlr.Pred.decisions → Types w → simPredict steps d ctx K w = (pred predNet steps d ctx w).getD 0 := by
    intro d ctx K w _ hw
    exact if_pos hw
  obtain ⟨h1, h2⟩ := exec_run hs hP n σ [] [] codeProto w hσ hw
  unfold parseShared parseTokens
  rw [← h1]
  cases he : exec protoGram predNet steps n σ [] codeProto w with
  | none => exact ⟨rfl, fun ts τ h => by cases h⟩
  | some x =>
    obtain ⟨ts, v, τ⟩ := x
    cases v with
    | nil =>
      refine ⟨rfl, fun ts' τ' h => ?_⟩
      simp only [Option.some.injEq, Prod.mk.injEq] at h
      exact h.2 ▸ h2 _ _ _ he
    | cons y v => exact ⟨rfl, fun ts' τ' h => by cases h⟩

theorem shared_iff {a : Atn} (ha : deserialize parserAtnData = some a) {steps : Nat} (hs : 10000 ≤ steps) {σ : PCache} (hσ : Warm (pnet a) steps σ) {w : List PTok}
    (hw : Types w) (n : Nat) (ts : List PTree) : (∃ τ, parseShared (pnet a) steps n σ w = some (ts, τ)) ↔ parseTokens (simPredict steps) n w = some ts := by
  rw [← (shared_parse ha hs hσ hw n).1]
  cases parseShared (pnet a) steps n σ w with
  | none => simp
  | some x =>
    obtain ⟨us, τ⟩ := x
    simp

end Gen

/-- **C84.** Whatever was parsed before: the files that the parser accepts are those of the grammar, with their trees. -/
theorem C84_reads (a : Atn) (ha : deserialize parserAtnData = some a) (steps : Nat) (hs : 10000 ≤ steps) (σ : PCache) (hσ : Warm (pnet a) steps σ) (w : List PTok)
    (ht : WellTyped w) (p : RawProto) :
    parseProto (w.map PTok.text) = some p ↔ ∃ n ts τ, parseShared (pnet a) steps n σ w = some (ts, τ) ∧ astProto ts = p := by
  have hw := Gen.types_of_typed ht
  rw [C83_reads _ (Gen.simPredict_right hs) (Gen.simPredict_first hs) w ht p]
  constructor
  · rintro ⟨n, ts, h1, h2⟩
    obtain ⟨τ, h3⟩ := (Gen.shared_iff ha hs hσ hw n ts).2 h1
    exact ⟨n, ts, τ, h3, h2⟩
  · rintro ⟨n, ts, τ, h1, h2⟩
    exact ⟨n, ts, (Gen.shared_iff ha hs hσ hw n ts).1 ⟨τ, h1⟩, h2⟩

/-- **C84, afterwards.** What a file leaves behind is what predictions leave behind, so that the next file is read in the same way. -/
theorem C84_afterwards (a : Atn) (ha : deserialize parserAtnData = some a) (steps : Nat) (hs : 10000 ≤ steps) (σ : PCache) (hσ : Warm (pnet a) steps σ) (w : List PTok)
    (hw : Types w) (n : Nat) (ts : List PTree) (τ : PCache) (h : parseShared (pnet a) steps n σ w = some (ts, τ)) : Warm (pnet a) steps τ :=
  (Gen.shared_parse ha hs hσ hw n).2 ts τ h

/-- **C84, history.** With the same number of steps, the tree (or that there is none) is the same whatever was parsed before; with more steps it does not
change. -/
theorem C84_history (a : Atn) (ha : deserialize parserAtnData = some a) (steps : Nat) (hs : 10000 ≤ steps) (σ τ : PCache) (hσ : Warm (pnet a) steps σ)
    (hτ : Warm (pnet a) steps τ) (w : List PTok) (hw : Types w) (n : Nat) :
    (parseShared (pnet a) steps n σ w).map Prod.fst = (parseShared (pnet a) steps n τ w).map Prod.fst ∧
      ∀ m ts us σ' τ', parseShared (pnet a) steps n σ w = some (ts, σ') → parseShared (pnet a) steps m τ w = some (us, τ') → ts = us := by
  refine ⟨by rw [(Gen.shared_parse ha hs hσ hw n).1, (Gen.shared_parse ha hs hτ hw n).1], ?_⟩
  intro m ts us σ' τ' h1 h2
  exact C83_steps _ n m w ts us ((Gen.shared_iff ha hs hσ hw n ts).1 ⟨_, h1⟩) ((Gen.shared_iff ha hs hτ hw m us).1 ⟨_, h2⟩)

/-- **C84, errors.** A file that the grammar does not allow is not accepted, whatever was parsed before. -/
theorem C84_rejects (a : Atn) (ha : deserialize parserAtnData = some a) (steps : Nat) (hs : 10000 ≤ steps) (σ : PCache) (hσ : Warm (pnet a) steps σ) (w : List PTok)
    (ht : WellTyped w) (h : parseProto (w.map PTok.text) = none) (n : Nat) : parseShared (pnet a) steps n σ w = none := by
  cases e : parseShared (pnet a) steps n σ w with
  | none => rfl
  | some x =>
    have := (C84_reads a ha steps hs σ hσ w ht (astProto x.1)).2 ⟨n, x.1, x.2, e, rfl⟩
    rw [h] at this
    cases this

/-- **C84, from characters.** Files are read one after another by the lexer with its cache and by the parser with its automata, each file when anything was parsed
before it: the trees are those of their texts. -/
theorem C84_text (steps : Nat) (hs : 10000 ≤ steps) (files : List Str) :
    ∃ A D out a, (deserialize lexerAtnData).bind Atn.net = some A ∧ deserialize parserAtnData = some a ∧ A.lexFiles Dfa.empty files = some (D, out) ∧
      out.length = files.length ∧ ∀ (i : Nat) s toks σ, files[i]? = some s → out[i]? = some toks → Warm (pnet a) steps σ →
        ∀ p, parseText s = some p ↔ ∃ n ts τ, parseShared (pnet a) steps n σ (visibleTokens toks) = some (ts, τ) ∧ astProto ts = p := by
  obtain ⟨A, D, out, hA, hl, hp⟩ := C82_lexer files
  refine ⟨A, D, out, parserAtn, hA, parserAtn_eq, hl, ?_, ?_⟩
  · have : ∀ {l : List (List Tok)} {m : List (List AToken)}, Pairs (Pairs IsToken) l m → m.length = l.length := by
      intro l m h
      induction h with
      | nil => rfl
      | cons _ _ ih => simp [ih]
    simpa using this hp
  · intro i s toks σ hi ht hσ p
    rcases Gen.pairs_getElem? hp i with ⟨a, b, h1, h2, h3⟩ | ⟨h1, _⟩
    · rw [List.getElem?_map, hi] at h1
      rw [ht] at h2
      cases h1
      cases h2
      obtain ⟨g1, g2⟩ := Gen.visible_pairs h3
      rw [← C84_reads parserAtn parserAtn_eq steps hs σ hσ _ g1, g2]
      rfl
    · rw [List.getElem?_map, hi] at h1
      cases h1

/-! ## Examples -/

namespace Gen

/-- The tokens of `message M { optional .A x = 1; }` are parsed, and then again with the automata that are there by then. -/
example : ((parseShared predNet 10000 100 (fun _ => {}) someTokens).bind fun x => (parseShared predNet 10000 100 x.2 someTokens).map fun y => astProto y.1) =
    some ⟨none, [.message "M".toList [.field ⟨some .optional, none, [".".toList, "A".toList], "x".toList, "1".toList, []⟩]]⟩ :=
  sameProto_eq (by decide +kernel)

/-- The first prediction of decision 27 in front of these tokens leaves states behind. -/
example : ((learn predNet 10000 27 {} (someTokens.drop 3)).map fun x => (x.1.states.length, x.2)) = some (2, .alt 1) := by decide +kernel

/-- A prediction that needs the context: `true` as the value of an option, which is read as a name (the first alternative) or as a truth value. -/
example : ((learn predNet 10000 39 {} [⟨55, "true".toList⟩, ⟨39, ";".toList⟩]).map fun x => x.2) = some .full ∧
    predictLl predNet 10000 39 [140] [⟨55, "true".toList⟩, ⟨39, ";".toList⟩] = some 1 := by decide +kernel

end Gen

end Verif.Props
