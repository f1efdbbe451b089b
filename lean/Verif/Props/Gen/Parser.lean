import Verif.Lemmas.Gen.Antlr.First
import Verif.Lemmas.Gen.Antlr.ParserSets
import Verif.Props.Gen.Grammar
import Verif.Props.Gen.LexerSim
/-!
# C83: the generated parser — its rule functions, which look at the next token and ask for predictions — builds the tree of the grammar

`parseTokens` executes the rule functions of the generated parser; `astProto` is the tree, as the listeners look at it.  `Right` and `First` say what
predictions are good for; the predictor is a parameter here.
-/
namespace Verif.Props
open Verif.Model.Gen Verif.Model.Gen.Antlr Verif.Spec.Gen
open Verif.Lemmas.Gen Verif.Lemmas.Gen.Antlr

/-- Tokens of the lexer: each has the type that the grammar gives its text. -/
def WellTyped (w : List PTok) : Prop := ∀ x ∈ w, TokenType ⟨.visible, x.text⟩ x.typ 0

namespace Gen

theorem parse_run {predict : Predict} {n : Nat} {w : List PTok} {ts : List PTree} (h : parseTokens predict n w = some ts) :
    Verif.Model.Gen.Antlr.run protoGram predict n [] [] codeProto w = some (ts, []) := by
  unfold parseTokens at h
  split at h
  · cases h; assumption
  · cases h

theorem typed_ne {w : List PTok} (ht : WellTyped w) : ∀ x ∈ w, x.typ ≠ 0 := by
  intro x hx e
  have := ht x hx
  generalize x.text = s at this
  rw [e] at this
  cases this

theorem parse_lang {predict : Predict} {n : Nat} {w : List PTok} {ts : List PTree} (h : parseTokens predict n w = some ts) : Rule 0 ts w := by
  obtain ⟨u, e, h⟩ := run_sound _ _ _ _ _ _ _ _ _ (parse_run h)
  rw [List.append_nil] at e
  exact e ▸ h

theorem lang_parse {predict : Predict} (hR : Right protoGram codeProto predict) {w : List PTok} (ht : WellTyped w) (h : Lang 0 w) :
    ∃ n ts, parseTokens predict n w = some ts := by
  obtain ⟨ts, h⟩ := h
  have hA : Accepts protoGram [codeProto] w := by
    have := Accepts.cons (G := protoGram) (K := []) h .nil
    rw [List.append_nil] at this
    exact this
  have hc := protoSets_checked.rule 0
  obtain ⟨n, ts, v, h1, h2⟩ := run_total protoSets_checked hR w.length (protoSets.level 0) codeProto [] [] [0] w rfl .start hA
    (by intro v hv; cases hv; exact List.mem_singleton.2 rfl) hc.1 hc.2.2.2.1 (typed_ne ht)
  cases h2
  exact ⟨n, ts, by rw [parseTokens, h1]⟩

end Gen

/-- **C83, soundness.** Whatever is predicted: if the parser reports no error, the tree is a tree of the grammar, written as the tokens that were read. -/
theorem C83_sound (predict : Predict) (n : Nat) (w : List PTok) (ts : List PTree) (ht : WellTyped w) (h : parseTokens predict n w = some ts) :
    WFProto (astProto ts) ∧ spellProto (astProto ts) = w.map PTok.text ∧ leavesL ts = w.map PTok.text := by
  have hr := Gen.parse_lang h
  obtain ⟨h1, h2⟩ := proto_sound hr ht
  exact ⟨h1, h2.symm, derives_leaves hr⟩

/-- **C83, completeness.** If predictions are right, every file that the grammar allows is accepted. -/
theorem C83_complete (predict : Predict) (hR : Right protoGram codeProto predict) (p : RawProto) (hp : WFProto p) (w : List PTok) (ht : WellTyped w)
    (h : w.map PTok.text = spellProto p) : ∃ n ts, parseTokens predict n w = some ts :=
  Gen.lang_parse hR ht (proto_complete hp ht h)

/-- **C83, errors.** Whatever is predicted, a file that the grammar does not allow is not accepted. -/
theorem C83_rejects (predict : Predict) (w : List PTok) (ht : WellTyped w) (h : parseProto (w.map PTok.text) = none) (n : Nat) :
    parseTokens predict n w = none := by
  cases e : parseTokens predict n w with
  | none => rfl
  | some ts =>
    obtain ⟨h1, h2, _⟩ := C83_sound predict n w ts ht e
    have := (C78_accepts (w.map PTok.text)).2 ⟨_, h1, h2⟩
    rw [h] at this
    cases this

/-- **C83, tree.** If the first of several possible alternatives is predicted, the tree is the one that C78–C79 speak of. -/
theorem C83_tree (predict : Predict) (hF : First protoGram codeProto predict) (n : Nat) (w : List PTok) (ts : List PTree) (ht : WellTyped w)
    (h : parseTokens predict n w = some ts) : parseProto (w.map PTok.text) = some (astProto ts) := by
  obtain ⟨h1, h2, _⟩ := C83_sound predict n w ts ht h
  obtain ⟨u, e, hd⟩ := run_first protoGram codeProto predict hF _ _ _ _ _ _ _ .start (Gen.parse_run h)
  rw [List.append_nil] at e
  subst e
  have hp := proto_proper ⟨[], w, [], hd, .nil, ht⟩
  rw [← h2]
  exact C78_complete _ h1 hp

/-- **C83.** If predictions are right and prefer the first alternative, the parser and the grammar agree: on which files are accepted, and on their trees. -/
theorem C83_reads (predict : Predict) (hR : Right protoGram codeProto predict) (hF : First protoGram codeProto predict) (w : List PTok) (ht : WellTyped w)
    (p : RawProto) : parseProto (w.map PTok.text) = some p ↔ ∃ n ts, parseTokens predict n w = some ts ∧ astProto ts = p := by
  constructor
  · intro h
    obtain ⟨h1, h2⟩ := C78_sound _ _ h
    obtain ⟨n, ts, hn⟩ := C83_complete predict hR p h2 w ht h1.symm
    have := C83_tree predict hF n w ts ht hn
    rw [h] at this
    exact ⟨n, ts, hn, (Option.some.inj this).symm⟩
  · rintro ⟨n, ts, h, rfl⟩
    exact C83_tree predict hF n w ts ht h

/-- **C83, steps.** The bound on the number of steps does not matter: with more steps the tree is the same. -/
theorem C83_steps (predict : Predict) (n m : Nat) (w : List PTok) (ts us : List PTree) (h : parseTokens predict n w = some ts)
    (g : parseTokens predict m w = some us) : ts = us := by
  have h1 := run_mono _ _ _ _ _ _ _ _ (Gen.parse_run h) (max n m) (Nat.le_max_left _ _)
  have h2 := run_mono _ _ _ _ _ _ _ _ (Gen.parse_run g) (max n m) (Nat.le_max_right _ _)
  rw [h1] at h2
  cases h2
  rfl

namespace Gen

open Classical in
/-- The first alternative that leads to the end. -/
noncomputable def bestPredict (G : Gram) : Predict := fun d _ K w =>
  match (G.alts d).findIdx? fun a => decide (Accepts G (a :: K) w) with
  | some i => i + 1
  | none => 0

theorem choose_accepts {G : Gram} {d : Nat} {K : List Code} {w : List PTok} (h : Accepts G (.choose d :: K) w) :
    ∃ (i : Nat) (a : Code), (G.alts d)[i]? = some a ∧ Accepts G (a :: K) w := by
  cases h with
  | cons hd hK =>
    cases hd with
    | choose _ i ha hd => exact ⟨i, _, ha, .cons hd hK⟩

theorem bestPredict_right (G : Gram) (start : Code) : Right G start (bestPredict G) := by
  intro ctx d K w _ h
  obtain ⟨i, a, ha, hA⟩ := choose_accepts h
  unfold bestPredict
  split
  · rename_i k hk
    have := List.findIdx?_eq_some_iff_getElem.1 hk
    obtain ⟨hlt, h1, _⟩ := this
    exact ⟨k, (G.alts d)[k], rfl, List.getElem?_eq_getElem hlt, by simpa using h1⟩
  · rename_i hk
    rw [List.findIdx?_eq_none_iff] at hk
    have := hk a (List.mem_of_getElem? ha)
    simp [hA] at this

theorem bestPredict_first (G : Gram) (start : Code) : First G start (bestPredict G) := by
  intro ctx d K w _ j a ha hA
  unfold bestPredict
  split
  · rename_i k hk
    obtain ⟨hlt, h1, h2⟩ := List.findIdx?_eq_some_iff_getElem.1 hk
    refine Nat.succ_le_succ (Nat.le_of_not_lt fun hj => ?_)
    have := h2 j hj
    have e : (G.alts d)[j]'(by omega) = a := by
      have := List.getElem?_eq_getElem (l := G.alts d) (i := j) (by omega)
      rw [ha] at this
      exact (Option.some.inj this).symm
    rw [e] at this
    simp [hA] at this
  · omega

end Gen

/-- **C83, predictions.** There are predictions that are right and prefer the first alternative. -/
theorem C83_predictable : ∃ predict, Right protoGram codeProto predict ∧ First protoGram codeProto predict :=
  ⟨_, Gen.bestPredict_right _ _, Gen.bestPredict_first _ _⟩

namespace Gen

theorem visible_pairs : ∀ {l : List Tok} {out : List AToken}, Pairs IsToken l out → WellTyped (visibleTokens out) ∧ (visibleTokens out).map PTok.text = visibleTexts l
  | _, _, .nil => ⟨by simp [WellTyped, visibleTokens], rfl⟩
  | _, _, .cons (a := t) (b := x) h hs => by
    obtain ⟨i1, i2⟩ := visible_pairs hs
    obtain ⟨e, ht⟩ := h
    have hk : (t.kind = .visible ↔ x.channel = 0) ∧ (t.kind = .visible → t = ⟨.visible, x.text⟩) := by
      obtain ⟨k, s⟩ := t
      simp only at e
      subst e
      generalize x.typ = a, x.channel = c, x.text = s at ht
      cases ht <;> simp
    unfold visibleTokens visibleTexts at *
    by_cases hc : x.channel = 0
    · have hv := hk.1.2 hc
      rw [hk.2 hv, hc] at ht
      simp only [List.filter_cons, hc, beq_self_eq_true, reduceIte, hv, decide_true, List.map_cons, i2, ← e]
      refine ⟨?_, trivial⟩
      intro y hy
      rcases List.mem_cons.1 hy with rfl | hy
      · exact ht
      · exact i1 y hy
    · have hv : ¬ t.kind = .visible := fun h => hc (hk.1.1 h)
      simp only [List.filter_cons, beq_iff_eq, hc, reduceIte, hv, decide_false, Bool.false_eq_true]
      exact ⟨i1, i2⟩

theorem pairs_getElem? {α β : Type} {R : α → β → Prop} : ∀ {l : List α} {m : List β}, Pairs R l m → ∀ i : Nat, (∃ a b, l[i]? = some a ∧ m[i]? = some b ∧ R a b) ∨
    (l[i]? = none ∧ m[i]? = none)
  | _, _, .nil, i => .inr ⟨by simp, by simp⟩
  | _, _, .cons h hs, 0 => .inl ⟨_, _, rfl, rfl, h⟩
  | _, _, .cons h hs, i + 1 => by simpa using pairs_getElem? hs i

end Gen

/-- **C83, from characters.** Files are read one after another by the lexer with its cache and by the parser: the trees are those of their texts. -/
theorem C83_text (predict : Predict) (hR : Right protoGram codeProto predict) (hF : First protoGram codeProto predict) (files : List Str) :
    ∃ A D out, (deserialize lexerAtnData).bind Atn.net = some A ∧ A.lexFiles Dfa.empty files = some (D, out) ∧ out.length = files.length ∧
      ∀ (i : Nat) s toks, files[i]? = some s → out[i]? = some toks →
        (∀ p, parseText s = some p ↔ ∃ n ts, parseTokens predict n (visibleTokens toks) = some ts ∧ astProto ts = p) := by
  obtain ⟨A, D, out, hA, hl, hp⟩ := C82_lexer files
  refine ⟨A, D, out, hA, hl, ?_, ?_⟩
  · have : ∀ {l : List (List Tok)} {m : List (List AToken)}, Pairs (Pairs IsToken) l m → m.length = l.length := by
      intro l m h
      induction h with
      | nil => rfl
      | cons _ _ ih => simp [ih]
    simpa using this hp
  · intro i s toks hs ht p
    rcases Gen.pairs_getElem? hp i with ⟨a, b, h1, h2, h3⟩ | ⟨h1, _⟩
    · rw [List.getElem?_map, hs] at h1
      rw [ht] at h2
      cases h1
      cases h2
      obtain ⟨g1, g2⟩ := Gen.visible_pairs h3
      rw [← C83_reads predict hR hF _ g1, g2]
      rfl
    · rw [List.getElem?_map, hs] at h1
      cases h1

/-! ## Examples -/

namespace Gen

/-- The tokens of `message M { optional .A x = 1; }`. -/
def someTokens : List PTok :=
  [⟨33, "message".toList⟩, ⟨58, "M".toList⟩, ⟨45, "{".toList⟩, ⟨8, "optional".toList⟩, ⟨49, ".".toList⟩, ⟨58, "A".toList⟩, ⟨58, "x".toList⟩, ⟨40, "=".toList⟩,
    ⟨57, "1".toList⟩, ⟨39, ";".toList⟩, ⟨46, "}".toList⟩]

/-- What the first alternative that leads to the end is, for these tokens. -/
def somePredict : Predict := fun d _ _ _ =>
  match d with
  | 13 => 16
  | 45 => 2
  | _ => 1

example : (parseTokens somePredict 100 someTokens).map astProto =
    some ⟨none, [.message "M".toList [.field ⟨some .optional, none, [".".toList, "A".toList], "x".toList, "1".toList, []⟩]]⟩ :=
  sameProto_eq (by decide +kernel)

/-- These tokens meet the assumptions of the theorems. -/
example : WellTyped someTokens := by
  intro x hx
  simp only [someTokens, List.mem_cons, List.not_mem_nil, or_false] at hx
  rcases hx with rfl | rfl | rfl | rfl | rfl | rfl | rfl | rfl | rfl | rfl | rfl
  · exact .keyword 32 _ (by decide)
  · exact .ident _ ⟨'M', [], rfl, by decide, by decide⟩ (by decide) (by decide)
  · exact .symbol 6 _ (by decide)
  · exact .keyword 7 _ (by decide)
  · exact .symbol 10 _ (by decide)
  · exact .ident _ ⟨'A', [], rfl, by decide, by decide⟩ (by decide) (by decide)
  · exact .ident _ ⟨'x', [], rfl, by decide, by decide⟩ (by decide) (by decide)
  · exact .symbol 1 _ (by decide)
  · exact .int _ 1 (.decimal '1' [] 1 (by decide) (.snoc [] 0 '1' 1 .nil (by simp [IsDigit]) (by omega)))
  · exact .symbol 0 _ (by decide)
  · exact .symbol 7 _ (by decide)

end Gen

end Verif.Props
