import Verif.Lemmas.Gen.ReaderTree
import Verif.Lemmas.Gen.ReaderLayout
import Verif.Lemmas.Gen.CommentDirs
import Verif.Lemmas.Gen.Separate
import Verif.Props.Gen.Grammar
import Verif.Props.Gen.Pipeline
import Verif.Props.Gen.Comments
/-! Property C79: what the generator works on is what is written in the characters of the files. -/
namespace Verif.Props
open Verif.Model.Gen Verif.Spec.Gen Verif.Lemmas.Gen

namespace Gen

/-- The tokens of a text and the end of the file. -/
theorem lexed_tokens {toks : List Tok} (h : ∀ t ∈ toks, Lexeme t) : Lexed (toks ++ [eofTok]) where
  ws := by
    intro t ht hk c hc
    rcases List.mem_append.1 ht with ht | ht
    · have := h t ht
      cases this with
      | space s _ hs =>
        have := hs c hc
        simp only [BlankChar, List.mem_cons, List.not_mem_nil, or_false] at this
        rcases this with rfl | rfl | rfl | rfl | rfl <;> decide
      | _ => cases hk
    · rw [List.mem_singleton.1 ht] at hk
      cases hk
  comment := by
    intro t ht hk
    rcases List.mem_append.1 ht with ht | ht
    · have := h t ht
      cases this with
      | line s _ => exact ⟨'/', by simp, by decide⟩
      | block s _ => exact ⟨'/', by simp, by decide⟩
      | _ => rcases hk with hk | hk <;> cases hk
    · rw [List.mem_singleton.1 ht] at hk
      rcases hk with hk | hk <;> cases hk

/-- The calls of `pss`, by declarations. -/
theorem near_first {toks : List Tok} (ss : List (Nat × Nat)) (pss : List (List Nat)) (hlen : pss.length = 2 * ss.length + 1)
    (hall : ∀ s ∈ ss, NthVisible toks s.1 (visibleIndex toks s.1) ∧ NthVisible toks s.2 (visibleIndex toks s.2))
    (hhead : ∀ n s ps, ss[n]? = some s → pss[2 * n]? = some ps → ∀ j, j ∈ ps ↔ Above toks (visibleIndex toks s.1) j ∧ ∀ qs ∈ pss.take (2 * n), j ∉ qs)
    (hinline : ∀ n s ps, ss[n]? = some s → pss[2 * n + 1]? = some ps → ∀ j, j ∈ ps ↔ Beside toks (visibleIndex toks s.2) j ∧ ∀ qs ∈ pss.take (2 * n + 1), j ∉ qs) :
    (∀ n s ps rs, ss[n]? = some s → pss[2 * n]? = some ps → pss[2 * n + 1]? = some rs → ∀ j, j ∈ ps ∨ j ∈ rs ↔ Near toks s j ∧ ∀ m < n, ∀ s', ss[m]? = some s' → ¬ Near toks s' j) ∧
    ∀ n ≤ ss.length, ∀ j, (∀ qs ∈ pss.take (2 * n), j ∉ qs) ↔ ∀ m < n, ∀ s', ss[m]? = some s' → ¬ Near toks s' j := by
  have hnear : ∀ s ∈ ss, ∀ j, Near toks s j ↔ Above toks (visibleIndex toks s.1) j ∨ Beside toks (visibleIndex toks s.2) j := by
    intro s hs j
    obtain ⟨h1, h2⟩ := hall s hs
    constructor
    · rintro ⟨i, ⟨h, h'⟩ | ⟨h, h'⟩⟩
      · rw [nthVisible_unique h1 h]; exact .inl h'
      · rw [nthVisible_unique h2 h]; exact .inr h'
    · rintro (h | h)
      · exact ⟨_, .inl ⟨h1, h⟩⟩
      · exact ⟨_, .inr ⟨h2, h⟩⟩
  have hown : ∀ n s ps rs, ss[n]? = some s → pss[2 * n]? = some ps → pss[2 * n + 1]? = some rs → ∀ j,
      (j ∈ ps ∨ j ∈ rs ↔ Near toks s j ∧ ∀ qs ∈ pss.take (2 * n), j ∉ qs) := by
    intro n s ps rs e1 e2 e3 j
    have ht : pss.take (2 * n + 1) = pss.take (2 * n) ++ [ps] := by rw [List.take_add_one, e2]; rfl
    rw [hhead n s ps e1 e2, hinline n s rs e1 e3, ht, hnear s (List.mem_of_getElem? e1)]
    have hp := hhead n s ps e1 e2 j
    constructor
    · rintro (⟨h, h'⟩ | ⟨h, h'⟩)
      · exact ⟨.inl h, h'⟩
      · exact ⟨.inr h, fun qs hq => h' qs (List.mem_append_left _ hq)⟩
    · rintro ⟨h | h, h'⟩
      · exact .inl ⟨h, h'⟩
      · by_cases hj : j ∈ ps
        · exact .inl ⟨(hp.1 hj).1, h'⟩
        · refine .inr ⟨h, fun qs hq => ?_⟩
          rcases List.mem_append.1 hq with hq | hq
          · exact h' qs hq
          · rw [List.mem_singleton.1 hq]; exact hj
  have hfree : ∀ n ≤ ss.length, ∀ j, (∀ qs ∈ pss.take (2 * n), j ∉ qs) ↔ ∀ m < n, ∀ s', ss[m]? = some s' → ¬ Near toks s' j := by
    intro n
    induction n with
    | zero => intro _ j; simp
    | succ n ih =>
      intro hn j
      have ih := ih (by omega) j
      have e1 : ss[n]? = some (ss[n]'(by omega)) := List.getElem?_eq_getElem _
      have e2 : pss[2 * n]? = some (pss[2 * n]'(by omega)) := List.getElem?_eq_getElem _
      have e3 : pss[2 * n + 1]? = some (pss[2 * n + 1]'(by omega)) := List.getElem?_eq_getElem _
      have ht : pss.take (2 * (n + 1)) = pss.take (2 * n) ++ [pss[2 * n]'(by omega), pss[2 * n + 1]'(by omega)] := by
        rw [show 2 * (n + 1) = 2 * n + 1 + 1 by omega, List.take_add_one, List.take_add_one, e2, e3, List.append_assoc]
        rfl
      have ho := hown n _ _ _ e1 e2 e3 j
      rw [ht]
      constructor
      · intro h m hm s' hs' hc
        have h0 : ∀ qs ∈ pss.take (2 * n), j ∉ qs := fun qs hq => h qs (List.mem_append_left _ hq)
        by_cases hmn : m = n
        · subst hmn
          rw [e1] at hs'
          cases hs'
          rcases ho.2 ⟨hc, h0⟩ with hj | hj
          · exact h _ (List.mem_append_right _ (by simp)) hj
          · exact h _ (List.mem_append_right _ (by simp)) hj
        · exact ih.1 h0 m (by omega) s' hs' hc
      · intro h
        have h0 := ih.2 fun m hm => h m (by omega)
        have hno : ¬ Near toks (ss[n]'(by omega)) j := h n (by omega) _ e1
        have hno' : ¬ (j ∈ pss[2 * n]'(by omega) ∨ j ∈ pss[2 * n + 1]'(by omega)) := fun hj => hno (ho.1 hj).1
        intro qs hq hj
        rcases List.mem_append.1 hq with hq | hq
        · exact h0 qs hq hj
        · simp only [List.mem_cons, List.not_mem_nil, or_false] at hq
          rcases hq with rfl | rfl
          · exact hno' (.inl hj)
          · exact hno' (.inr hj)
  refine ⟨fun n s ps rs e1 e2 e3 j => ?_, hfree⟩
  have hn : n < ss.length := (List.getElem?_eq_some_iff.1 e1).1
  rw [hown n s ps rs e1 e2 e3, hfree n (by omega)]

theorem spanCalls_length (toks : List Tok) (ss : List (Nat × Nat)) : (spanCalls toks ss).length = 2 * ss.length := by
  induction ss with
  | nil => rfl
  | cons s ss ih =>
    have : spanCalls toks (s :: ss) = .head (visibleIndex toks s.1) :: .inline (visibleIndex toks s.2) :: spanCalls toks ss := rfl
    rw [this, List.length_cons, List.length_cons, ih, List.length_cons]
    omega

theorem spanCalls_get (toks : List Tok) : ∀ (ss : List (Nat × Nat)) (n : Nat) (s : Nat × Nat), ss[n]? = some s →
    (spanCalls toks ss)[2 * n]? = some (.head (visibleIndex toks s.1)) ∧ (spanCalls toks ss)[2 * n + 1]? = some (.inline (visibleIndex toks s.2))
  | [], n, s, h => by simp at h
  | x :: ss, n, s, h => by
    have e : spanCalls toks (x :: ss) = .head (visibleIndex toks x.1) :: .inline (visibleIndex toks x.2) :: spanCalls toks ss := rfl
    rw [e]
    cases n with
    | zero =>
      simp only [List.getElem?_cons_zero, Option.some.injEq] at h
      subst h
      exact ⟨rfl, rfl⟩
    | succ n =>
      rw [List.getElem?_cons_succ] at h
      obtain ⟨h1, h2⟩ := spanCalls_get toks ss n s h
      rw [show 2 * (n + 1) = 2 * n + 1 + 1 by omega]
      simp only [List.getElem?_cons_succ]
      exact ⟨h1, h2⟩

theorem mem_dirParse {cs : List Str} {d : Str} : d ∈ dirParse cs ↔ ∃ c ∈ cs, Carries c d := by
  rw [← dirHas_iff, C47_directives]

theorem visible_count {s : Str} {p : RawProto} (h : parseText s = some p) :
    ((lex s ++ [eofTok]).filter fun t => t.kind = .visible).length = (spellProto p).length + 1 := by
  have e := (C78_sound _ _ h).1
  rw [e, visibleTexts, List.filter_append, List.length_append, List.length_map]
  rfl

end Gen

open Gen

/-- **C79, what is read.** Write a file as tokens with any white space and any comments around them, so long as no token runs into the next: what the
generator takes from it are the names, types, numbers, labels and values of options that are written, in the order in which they are written, and nothing else.
The constants must be plain: several string literals next to each other are not put together (see `C48_concat_violated`), and values that are not UTF-8 are not modelled. -/
theorem C79_read_partial (toks : List Tok) (p : RawProto) (hl : ∀ k ∈ toks, Lexeme k) (hs : Separated toks) (hp : WFProto p) (hp' : ProperProto p)
    (hv : (toks.filter fun k => k.kind = .visible).map Tok.text = spellProto p) (hc : ∀ c ∈ protoConsts p, SimpleConst c) :
    ∃ t, readText (toks.flatMap Tok.text) = some t ∧ ProtoReads p t.tree := by
  refine ⟨_, by rw [readText, C78_text toks p hl hs hp hp' hv]; rfl, readProto_is hp hc⟩

/-- **C79, every text.** Whatever the characters are: if something is read, then the tokens of the text are those of a file that the grammar allows, and what is taken
is what that file says. -/
theorem C79_sound_partial (s : Str) (t : Text) (h : readText s = some t) :
    ∃ p, WFProto p ∧ spellProto p = ((lex s).filter fun k => k.kind = .visible).map Tok.text ∧ ((∀ c ∈ protoConsts p, SimpleConst c) → ProtoReads p t.tree) := by
  unfold readText at h
  obtain ⟨p, hp, rfl⟩ := Option.map_eq_some_iff.1 h
  obtain ⟨h1, h2⟩ := C78_sound _ _ hp
  exact ⟨p, h2, h1, fun hc => readProto_is h2 hc⟩

/-- **C79, directives.** Each comment is applied to one declaration at most: the first one, outer declarations coming before those in them, that it stands above or beside the
end of.  The directives of a declaration are those in the comments applied to it; those of the file are in comments above its first token that are not
applied to a declaration.  The end of the file counts as a token, which matters for files of comments alone. -/
theorem C79_directives (s : Str) (p : RawProto) (h : parseText s = some p) : ∃ t, readText s = some t ∧
    (protoDirs t.tree).length = (protoSpans p).length ∧
    (∀ (n : Nat) (a : Nat × Nat) (ds : List Str), (protoSpans p)[n]? = some a → (protoDirs t.tree)[n]? = some ds → ∀ d, d ∈ ds ↔
      ∃ j, DirectiveAt (lex s ++ [eofTok]) j d ∧ Near (lex s ++ [eofTok]) a j ∧
        ∀ m < n, ∀ b, (protoSpans p)[m]? = some b → ¬ Near (lex s ++ [eofTok]) b j) ∧
    ∀ d, d ∈ t.directives ↔
      ∃ j, DirectiveAt (lex s ++ [eofTok]) j d ∧ (∃ i, NthVisible (lex s ++ [eofTok]) 0 i ∧ Above (lex s ++ [eofTok]) i j) ∧
        ∀ b ∈ protoSpans p, ¬ Near (lex s ++ [eofTok]) b j := by
  refine ⟨readProto (lex s ++ [eofTok]) p, by rw [readText, h]; rfl, ?_⟩
  have hcount := visible_count h
  have hl := lexed_tokens (C77_sound s).1
  obtain ⟨c, hf, hd⟩ := follows_proto (toks := lex s ++ [eofTok]) p
  have hin := within_proto p
  revert hcount hl hf hd hin
  generalize lex s ++ [eofTok] = toks
  intro hcount hl hf hd hin
  rw [hd]
  have hlen := follows_length hf
  revert hlen hf
  generalize protoDirs (readProto toks p).tree = dirs
  intro hf hlen
  unfold Follows at hf
  have hnth : ∀ a ∈ protoSpans p, NthVisible toks a.1 (visibleIndex toks a.1) ∧ NthVisible toks a.2 (visibleIndex toks a.2) := by
    intro a ha
    have := hin a ha
    exact ⟨visibleIndex_nth (by omega), visibleIndex_nth (by omega)⟩
  have h0 : NthVisible toks 0 (visibleIndex toks 0) := visibleIndex_nth (by omega)
  have hvis : ∀ k ∈ spanCalls toks (protoSpans p) ++ [.head (visibleIndex toks 0)], ∀ i, k = .head i ∨ k = .inline i → VisibleAt toks i := by
    intro k hk i hi
    rcases List.mem_append.1 hk with hk | hk
    · unfold spanCalls at hk
      obtain ⟨a, ha, hk⟩ := List.mem_flatMap.1 hk
      have := hnth a ha
      simp only [List.mem_cons, List.not_mem_nil, or_false] at hk
      rcases hk with rfl | rfl <;> rcases hi with hi | hi <;> cases hi
      · exact this.1.1
      · exact this.2.1
    · rw [List.mem_singleton.1 hk] at hi
      rcases hi with hi | hi <;> cases hi
      exact h0.1
  obtain ⟨_, pss, hpl, hps⟩ := C59_comments toks hl (spanCalls toks (protoSpans p) ++ [.head (visibleIndex toks 0)])
    (fun i hi => hvis _ hi i (.inl rfl)) (fun i hi => hvis _ hi i (.inr rfl))
  rw [List.length_append, spanCalls_length, List.length_singleton] at hpl
  obtain ⟨w1, w2, w3, w4⟩ := walk_calls toks (.head (visibleIndex toks 0)) (protoSpans p) []
  rw [hf] at w2 w3 w4
  dsimp only at w2 w3 w4
  have hlenS : ∀ {n : Nat} {x : Nat × Nat}, (protoSpans p)[n]? = some x → n < (protoSpans p).length := fun e => (List.getElem?_eq_some_iff.1 e).1
  have hcalls : ∀ n a, (protoSpans p)[n]? = some a →
      (spanCalls toks (protoSpans p) ++ [.head (visibleIndex toks 0)])[2 * n]? = some (.head (visibleIndex toks a.1)) ∧
      (spanCalls toks (protoSpans p) ++ [.head (visibleIndex toks 0)])[2 * n + 1]? = some (.inline (visibleIndex toks a.2)) := by
    intro n a e
    have hn := hlenS e
    obtain ⟨h1, h2⟩ := spanCalls_get toks _ n a e
    rw [List.getElem?_append_left (by rw [spanCalls_length]; omega), List.getElem?_append_left (by rw [spanCalls_length]; omega)]
    exact ⟨h1, h2⟩
  have hlast : (spanCalls toks (protoSpans p) ++ [.head (visibleIndex toks 0)])[2 * (protoSpans p).length]? = some (.head (visibleIndex toks 0)) := by
    rw [List.getElem?_append_right (by rw [spanCalls_length]; omega), spanCalls_length, Nat.sub_self]
    rfl
  have hout : ∀ n, n < 2 * (protoSpans p).length + 1 → ∃ x, (consumeAll toks [] (spanCalls toks (protoSpans p) ++ [.head (visibleIndex toks 0)]))[n]? = some x :=
    fun n hn => ⟨_, List.getElem?_eq_getElem (by rw [w1]; exact hn)⟩
  obtain ⟨hfirst, hfree⟩ := near_first (toks := toks) (protoSpans p) pss hpl hnth
    (by
      intro n a ps e1 e2 j
      obtain ⟨x, hx⟩ := hout (2 * n) (by have := hlenS e1; omega)
      exact (hps _ _ _ _ (hcalls n a e1).1 hx e2).2.2.1 _ rfl j)
    (by
      intro n a ps e1 e2 j
      obtain ⟨x, hx⟩ := hout (2 * n + 1) (by have := hlenS e1; omega)
      exact (hps _ _ _ _ (hcalls n a e1).2 hx e2).2.2.2 _ rfl j)
  refine ⟨hlen, ?_, ?_⟩
  · intro n a ds e1 e2 d
    have hn := hlenS e1
    obtain ⟨x, y, hx, hy, rfl⟩ := w4 n ds e2
    have ep : pss[2 * n]? = some (pss[2 * n]'(by omega)) := List.getElem?_eq_getElem _
    have er : pss[2 * n + 1]? = some (pss[2 * n + 1]'(by omega)) := List.getElem?_eq_getElem _
    have tx := commentText_carries (d := d) (hps _ _ _ _ (hcalls n a e1).1 hx ep).1
    have ty := commentText_carries (d := d) (hps _ _ _ _ (hcalls n a e1).2 hy er).1
    rw [mem_dirParse]
    have hj := hfirst n a _ _ e1 ep er
    simp only [List.mem_cons, List.not_mem_nil, or_false, exists_eq_or_imp, exists_eq_left, tx, ty]
    constructor
    · rintro (⟨j, h1, h2⟩ | ⟨j, h1, h2⟩)
      · exact ⟨j, h2, (hj j).1 (.inl h1)⟩
      · exact ⟨j, h2, (hj j).1 (.inr h1)⟩
    · rintro ⟨j, h2, h1⟩
      rcases (hj j).2 h1 with h1 | h1
      · exact .inl ⟨j, h1, h2⟩
      · exact .inr ⟨j, h1, h2⟩
  · intro d
    have ep : pss[2 * (protoSpans p).length]? = some (pss[2 * (protoSpans p).length]'(by omega)) := List.getElem?_eq_getElem _
    obtain ⟨ht, _, hj, _⟩ := hps _ _ _ _ hlast w2 ep
    have tx := commentText_carries (d := d) ht
    have hj := hj _ rfl
    rw [mem_dirParse]
    simp only [List.mem_cons, List.not_mem_nil, or_false, exists_eq_left]
    rw [show (consumeHead toks c (visibleIndex toks 0)).1 = (consume toks c (.head (visibleIndex toks 0))).1 from rfl, tx]
    have hall : ∀ j, (∀ m < (protoSpans p).length, ∀ b, (protoSpans p)[m]? = some b → ¬ Near toks b j) ↔ ∀ b ∈ protoSpans p, ¬ Near toks b j := by
      intro j
      constructor
      · intro h b hb
        obtain ⟨m, hm, e⟩ := List.mem_iff_getElem.1 hb
        exact h m hm b (by rw [List.getElem?_eq_getElem hm, e])
      · intro h m _ b e
        exact h b (List.mem_of_getElem? e)
    constructor
    · rintro ⟨j, h1, h2⟩
      have := (hj j).1 h1
      exact ⟨j, h2, ⟨_, h0, this.1⟩, (hall j).1 ((hfree _ (Nat.le_refl _) j).1 this.2)⟩
    · rintro ⟨j, h2, ⟨i, hi, h3⟩, h4⟩
      rw [nthVisible_unique hi h0] at h3
      exact ⟨j, (hj j).2 ⟨h3, (hfree _ (Nat.le_refl _) j).2 ((hall j).2 h4)⟩, h2⟩

/-- **C79, layout and other comments do not matter.** If the tokens of two texts are the same, apart from white space and comments, and no comment has a directive, then the
same is read from both: formatting a file, or changing what is said in comments, does not change what is generated (apart from the comments in the generated code). -/
theorem C79_layout (toks toks' : List Tok) (hl : ∀ k ∈ toks, Lexeme k) (hs : Separated toks) (hl' : ∀ k ∈ toks', Lexeme k) (hs' : Separated toks')
    (hv : (toks.filter fun k => k.kind = .visible).map Tok.text = (toks'.filter fun k => k.kind = .visible).map Tok.text)
    (hn : ∀ t ∈ toks, ∀ d, (t.kind = .line ∨ t.kind = .block) → ¬ Carries t.text d) (hn' : ∀ t ∈ toks', ∀ d, (t.kind = .line ∨ t.kind = .block) → ¬ Carries t.text d) :
    readText (toks.flatMap Tok.text) = readText (toks'.flatMap Tok.text) := by
  have hp := C78_layout toks toks' hl hs hl' hs' hv
  cases e : parseText (toks.flatMap Tok.text) with
  | none => rw [readText, readText, ← hp, e]; rfl
  | some p =>
    have key : ∀ (toks : List Tok), (∀ k ∈ toks, Lexeme k) → Separated toks → (∀ t ∈ toks, ∀ d, (t.kind = .line ∨ t.kind = .block) → ¬ Carries t.text d) →
        parseText (toks.flatMap Tok.text) = some p → ∃ t, readText (toks.flatMap Tok.text) = some t ∧ t.tree = (readProto (toks ++ [eofTok]) p).tree ∧
          t.directives = [] ∧ protoDirs t.tree = List.replicate (protoSpans p).length [] := by
      intro toks hl hs hn e
      obtain ⟨t, h1, h2, h3, h4⟩ := C79_directives _ p e
      rw [C77_tokens toks hl hs] at h3 h4
      have no : ∀ j d i, Above (toks ++ [eofTok]) i j ∨ Beside (toks ++ [eofTok]) i j → ¬ DirectiveAt (toks ++ [eofTok]) j d := by
        rintro j d i h ⟨t, ht, hc⟩
        have : CommentAt (toks ++ [eofTok]) j := by
          rcases h with h | h
          · exact h.comment
          · exact h.comment
        obtain ⟨t', ht', hk⟩ := this
        rw [ht] at ht'
        cases ht'
        rcases List.mem_append.1 (List.mem_of_getElem? ht) with h | h
        · exact hn t h d hk hc
        · rw [List.mem_singleton.1 h] at hk
          rcases hk with hk | hk <;> cases hk
      refine ⟨t, h1, ?_, ?_, ?_⟩
      · rw [readText, e, C77_tokens toks hl hs] at h1
        cases h1
        rfl
      · refine List.eq_nil_iff_forall_not_mem.2 fun d hd => ?_
        obtain ⟨j, h, ⟨i, _, hi⟩, _⟩ := (h4 d).1 hd
        exact no j d i (.inl hi) h
      · refine List.eq_replicate_iff.2 ⟨h2, fun ds hds => ?_⟩
        obtain ⟨n, hn, rfl⟩ := List.mem_iff_getElem.1 hds
        refine List.eq_nil_iff_forall_not_mem.2 fun d hd => ?_
        obtain ⟨j, h, ⟨i, hi⟩, _⟩ := (h3 n _ _ (List.getElem?_eq_getElem (by omega)) (List.getElem?_eq_getElem hn) d).1 hd
        rcases hi with ⟨_, hi⟩ | ⟨_, hi⟩
        · exact no j d i (.inl hi) h
        · exact no j d i (.inr hi) h
    obtain ⟨⟨d, t⟩, h1, h2, h3, h4⟩ := key toks hl hs hn e
    obtain ⟨⟨d', t'⟩, h1', h2', h3', h4'⟩ := key toks' hl' hs' hn' (hp ▸ e)
    rw [h1, h1']
    dsimp only at h2 h2' h3 h3' h4 h4'
    have := layout_proto (toks := toks ++ [eofTok]) (toks' := toks' ++ [eofTok]) p (by rw [← h2, ← h2', h4, h4'])
    rw [h2, h2', h3, h3', this]

namespace Gen

/-- The texts that are read. -/
theorem holds_read {D : Disk} {f : Str} {t : Text} (h : Holds D.texts f t) :
    ∃ s, (D.embedded f = some (some s) ∨ D.embedded f = none ∧ D.read f = some s) ∧ readText s = some t := by
  rcases h with h | ⟨h, h'⟩
  · simp only [Disk.texts] at h
    obtain ⟨o, ho, h⟩ := Option.map_eq_some_iff.1 h
    obtain ⟨s, rfl, hs⟩ := Option.bind_eq_some_iff.1 h
    exact ⟨s, .inl ho, hs⟩
  · simp only [Disk.texts] at h h'
    obtain ⟨s, hs, h'⟩ := Option.bind_eq_some_iff.1 h'
    exact ⟨s, .inr ⟨Option.map_eq_none_iff.1 h, hs⟩, h'⟩

theorem read_parsed {s : Str} {t : Text} (h : readText s = some t) (hr : ∀ p, parseText s = some p → DecimalRanges p) : Parsed t.tree := by
  unfold readText at h
  obtain ⟨p, hp, rfl⟩ := Option.map_eq_some_iff.1 h
  exact readProto_parsed (C78_sound _ _ hp).2 (hr p hp)

end Gen

section
open Verif.Model Verif.Spec

/-- **C79, from characters to bytes.** For the characters of the files on the disk and the embedded ones: if the generator accepts a file, then the code it generates, compiled,
encodes and decodes the messages of the schema that the texts declare.  The bounds of reserved ranges must be in decimal (see `C53_octal_violated`); the other
hypotheses are those of C75. -/
theorem C79_wire_partial {D : Disk} {cwd includes : List Str} {m : Str → Option Str} {root : Str} {fuel : Nat} {st : LoaderState} {x : LoadedSet}
    (hc : Cwd D.texts.files cwd)
    (hP : ∀ f s p, D.embedded f = some (some s) ∨ D.embedded f = none ∧ D.read f = some s → parseText s = some p → DecimalRanges p)
    (U : List Str) (hU : ∀ f, NeededText D.texts cwd includes root f → f ∈ U)
    (hfuel : U.length < fuel) (hE : ∀ e, NeededText D.texts cwd includes root e → D.embedded e ≠ none → ¬ ReachesText D.texts cwd includes e e)
    (h : loadWhole D.texts includes m fuel st root = some x) (pkg : Nat → List Str) (hS : Supported x.world pkg) (env : GoEnv)
    (hC : Compiles (genStructs x.world) (genEnums x.world) env) :
    WorldIs D.texts cwd includes m root (x.protos.map (·.file)) x.world x.services ∧
    ∃ S, Implements env S ∧ S.WF ∧ Describes x.world pkg (allMessages x.world) S ∧
      (∀ id v, Typed S id v →
        match encode S false 1000 id v with
        | some bs => bs.length < 2 ^ 64 → marshal env (.ptr id (some v)) = .ok bs
        | none => marshal env (.ptr id (some v)) = .error .maxDepth) ∧
      ∀ id v, Typed S id v → ∀ b w, unmarshal env b (.ptr id (some v)) = .ok w ↔ Decodes S 1000 id b v w := by
  refine C75_wire_partial hc (fun f t ht => ?_) U hU hfuel (fun e he hn => hE e he fun hn' => hn ?_) h pkg hS env hC
  · obtain ⟨s, hs, ht⟩ := holds_read ht
    exact read_parsed ht fun p hp => hP f s p hs hp
  · simp only [Disk.texts, hn', Option.map_none]

end

/-! ## Examples -/

namespace Gen

deriving instance DecidableEq for RangeEnd, RangeNode, OptionNode, FieldNode, EnumValueNode, EnumElem, EnumNode, OneofElem, RpcNode, ServiceElem

mutual
def sameNode : MsgElem → MsgElem → Bool
  | .field f, .field g => f = g
  | .enum a, .enum b => a = b
  | .message n d es, .message m d' fs => n = m && d = d' && sameNodes es fs
  | .extend t fs, .extend u gs => t = u && fs = gs
  | .option o, .option p => o = p
  | .oneof n es, .oneof m fs => n = m && es = fs
  | .mapField f, .mapField g => f = g
  | .reserved r, .reserved q => r = q
  | .reservedNames r, .reservedNames q => r = q
  | .extensions r o, .extensions q p => r = q && o = p
  | .empty, .empty => true
  | _, _ => false
def sameNodes : List MsgElem → List MsgElem → Bool
  | [], [] => true
  | e :: es, f :: fs => sameNode e f && sameNodes es fs
  | _, _ => false
end

mutual
theorem sameNode_eq : ∀ (a b : MsgElem), sameNode a b = true → a = b
  | .message n d es, b, h => by
    cases b <;> simp only [sameNode, Bool.and_eq_true, decide_eq_true_eq, Bool.false_eq_true] at h
    rw [h.1.1, h.1.2, sameNodes_eq es _ h.2]
  | .field f, b, h => by cases b <;> simp_all [sameNode]
  | .enum f, b, h => by cases b <;> simp_all [sameNode]
  | .extend t f, b, h => by cases b <;> simp_all [sameNode]
  | .option f, b, h => by cases b <;> simp_all [sameNode]
  | .oneof n f, b, h => by cases b <;> simp_all [sameNode]
  | .mapField f, b, h => by cases b <;> simp_all [sameNode]
  | .reserved f, b, h => by cases b <;> simp_all [sameNode]
  | .reservedNames f, b, h => by cases b <;> simp_all [sameNode]
  | .extensions f g, b, h => by cases b <;> simp_all [sameNode]
  | .empty, b, h => by cases b <;> simp_all [sameNode]
theorem sameNodes_eq : ∀ (a b : List MsgElem), sameNodes a b = true → a = b
  | [], b, h => by cases b <;> simp_all [sameNodes]
  | x :: a, b, h => by
    cases b <;> simp only [sameNodes, Bool.and_eq_true, Bool.false_eq_true] at h
    rw [sameNode_eq x _ h.1, sameNodes_eq a _ h.2]
end

def sameTopNode : TopElem → TopElem → Bool
  | .importStmt b p, .importStmt c q => b = c && p = q
  | .package p, .package q => p = q
  | .option o, .option p => o = p
  | .message n d es, .message m d' fs => n = m && d = d' && sameNodes es fs
  | .enum a, .enum b => a = b
  | .extend t fs, .extend u gs => t = u && fs = gs
  | .service n d es, .service m d' fs => n = m && d = d' && es = fs
  | .empty, .empty => true
  | _, _ => false

theorem sameTopNode_eq (a b : TopElem) (h : sameTopNode a b = true) : a = b := by
  cases a with
  | message n d es =>
    cases b <;> simp only [sameTopNode, Bool.and_eq_true, decide_eq_true_eq, Bool.false_eq_true] at h
    rw [h.1.1, h.1.2, sameNodes_eq es _ h.2]
  | _ => cases b <;> simp_all [sameTopNode]

def sameTopNodes : List TopElem → List TopElem → Bool
  | [], [] => true
  | e :: es, f :: fs => sameTopNode e f && sameTopNodes es fs
  | _, _ => false

theorem sameTopNodes_eq : ∀ (a b : List TopElem), sameTopNodes a b = true → a = b
  | [], b, h => by cases b <;> simp_all [sameTopNodes]
  | x :: a, b, h => by
    cases b <;> simp only [sameTopNodes, Bool.and_eq_true, Bool.false_eq_true] at h
    rw [sameTopNode_eq x _ h.1, sameTopNodes_eq a _ h.2]

def sameText : Option Text → Option Text → Bool
  | some a, some b => a.directives = b.directives && a.tree.edition = b.tree.edition && sameTopNodes a.tree.elems b.tree.elems
  | none, none => true
  | _, _ => false

theorem sameText_eq {a b : Option Text} (h : sameText a b = true) : a = b := by
  match a, b with
  | none, none => rfl
  | none, some _ => cases h
  | some _, none => cases h
  | some ⟨d, ⟨e, es⟩⟩, some ⟨d', ⟨e', es'⟩⟩ =>
    simp only [sameText, Bool.and_eq_true, decide_eq_true_eq] at h
    obtain ⟨⟨h1, h2⟩, h3⟩ := h
    rw [h1, h2, sameTopNodes_eq _ _ h3]

end Gen

namespace ReaderSample

/-- The characters of a file. -/
def source : Str := "// A list.
syntax = \"proto3\";

package p;

/* A node. */
//prutalgen:unknown_fields
message Node {
  enum Kind { A = 0; B = 0x1; }
  int32 id = 1;
  repeated sint64 xs = 2;
  optional string note = 3; // may be absent
  Node next = 4;
  map<string, Node> kids = 5;
  oneof v { string s = 6; Kind k = 7; }
  bytes data = 8;
  repeated Node.Kind kinds = 9;
}
".toList

/-- It is read as the text of `PipelineSample`. -/
theorem source_reads : readText source = some { tree := PipelineSample.tree } := sameText_eq (by decide +kernel)

/-- The file `/w/a.proto` with these characters. -/
def disk : Disk where
  cwd := "/w".toList
  stat := fun f => f = "/w/a.proto".toList
  read := fun f => if f = "/w/a.proto".toList then some source else none
  embedded := fun _ => none

theorem disk_texts : disk.texts = PipelineSample.texts := by
  have h : disk.texts.read = PipelineSample.texts.read := by
    funext f
    show (if f = "/w/a.proto".toList then some source else none).bind readText = if f = "/w/a.proto".toList then some { tree := PipelineSample.tree } else none
    by_cases hf : f = "/w/a.proto".toList
    · rw [if_pos hf, if_pos hf, Option.bind_some, source_reads]
    · rw [if_neg hf, if_neg hf, Option.bind_none]
  show Texts.mk _ _ disk.texts.read _ = _
  rw [h]
  rfl

/-- The tokens of the file do not run into each other. -/
theorem source_separated : Separated (lex source) := sepTest_separated _ (by decide +kernel)

/-- They are the whole file. -/
theorem source_tokens : (lex source).flatMap Tok.text = source := by decide +kernel

/-- The bounds of its ranges are in decimal: there are none. -/
theorem source_decimal {p : RawProto} (hp : parseText source = some p) : DecimalRanges p := by
  have : (match parseText source with | some p => (p.elems.flatMap topRanges).isEmpty | none => true) = true := by decide +kernel
  rw [hp] at this
  intro x hx r hr
  have hm : r ∈ p.elems.flatMap topRanges := List.mem_flatMap.2 ⟨x, hx, hr⟩
  rw [List.isEmpty_iff.1 this] at hm
  cases hm

theorem disk_source {f s : Str} (h : disk.embedded f = some (some s) ∨ disk.embedded f = none ∧ disk.read f = some s) : s = source := by
  rcases h with h | ⟨_, h⟩
  · cases h
  · unfold disk at h
    dsimp only at h
    by_cases hf : f = "/w/a.proto".toList
    · rw [if_pos hf] at h
      exact (Option.some.inj h).symm
    · rw [if_neg hf] at h
      cases h

/-- A file with a comment, and the same on one line, without it. -/
def short : Str := "/* Names. */\nmessage M {\n  string name = 1; // a name\n}\n".toList
def short' : Str := "message M{string name=1;}".toList

def shortTree : RawProto where
  edition := none
  elems := [.message "M".toList [.field ⟨none, none, ["string".toList], "name".toList, "1".toList, []⟩]]

theorem short_reads : parseText short = some shortTree := sameProto_eq (by decide +kernel)

end ReaderSample

open ReaderSample PipelineSample in
/-- Non-vacuity of `C79_wire_partial`: all hypotheses hold for these characters. -/
example : ∃ S, Verif.Spec.Gen.Describes loaded.world (CodeSample.pks.getD · []) (allMessages loaded.world) S ∧ Verif.Spec.Implements (compiled CodeSample.world 100) S := by
  have e := disk_texts
  have hP : ∀ f s p, disk.embedded f = some (some s) ∨ disk.embedded f = none ∧ disk.read f = some s → parseText s = some p → DecimalRanges p := by
    intro f s p hs hp
    rw [disk_source hs] at hp
    exact source_decimal hp
  have hc : Cwd disk.texts.files ["w".toList] := by rw [e]; exact cwd
  have hl : loadWhole disk.texts [] flags 3 ⟨[], []⟩ "a.proto".toList = some loaded := by rw [e]; exact loads
  obtain ⟨_, S, h1, _, h2, _⟩ := C79_wire_partial hc hP ["/w/a.proto".toList] (fun f hf => by rw [e] at hf; rw [needed hf]; exact List.mem_singleton_self _) (by decide)
    (fun e _ h => absurd rfl h) hl _ supported _ compiles
  exact ⟨S, h2, h1⟩

open ReaderSample in
/-- Non-vacuity of `C79_directives`: thirteen declarations, of which the first has the directive of the comment above it. -/
example : (∃ p, parseText source = some p ∧ (protoSpans p).length = 13) ∧ (protoDirs PipelineSample.tree)[0]? = some ["unknown_fields".toList] := by
  have h : (match parseText source with | some p => decide ((protoSpans p).length = 13) | none => false) = true := by decide +kernel
  refine ⟨?_, by decide +kernel⟩
  revert h
  generalize parseText source = o
  intro h
  cases o with
  | none => cases h
  | some p => exact ⟨p, rfl, of_decide_eq_true h⟩

open ReaderSample in
/-- Non-vacuity of `C79_read_partial`. -/
example : ∃ t, readText short = some t ∧ ProtoReads shortTree t.tree := by
  have h := C79_read_partial (lex short) shortTree (C77_sound _).1 (sepTest_separated _ (by decide +kernel)) (C78_sound _ _ short_reads).2
    (by simp [ProperProto, shortTree, ProperTop, ProperElems, ProperElem, ProperField])
    ((C78_sound _ _ short_reads).1.symm) (by intro c hc; simp [protoConsts, shortTree, topConsts, elemsConsts, elemConsts, optionsConsts] at hc)
  rw [show (lex short).flatMap Tok.text = short by decide +kernel] at h
  exact h

open ReaderSample in
/-- Non-vacuity of `C79_layout`. -/
example : readText short = readText short' := by
  have h := C79_layout (lex short) (lex short') (C77_sound _).1 (sepTest_separated _ (by decide +kernel)) (C77_sound _).1 (sepTest_separated _ (by decide +kernel))
    (by decide +kernel) ?_ ?_
  · rw [show (lex short).flatMap Tok.text = short by decide +kernel, show (lex short').flatMap Tok.text = short' by decide +kernel] at h
    exact h
  · intro t ht d hk hc
    have : (lex short).all fun t => !(t.kind == .line || t.kind == .block) || (dirParse [t.text]).isEmpty := by decide +kernel
    have := List.all_eq_true.1 this t ht
    have hd : d ∈ dirParse [t.text] := mem_dirParse.2 ⟨_, List.mem_singleton_self _, hc⟩
    rcases hk with hk | hk
    all_goals
      simp only [hk, BEq.rfl, Bool.or_true, Bool.true_or, Bool.not_true, Bool.false_or, List.isEmpty_iff] at this
      rw [this] at hd
      cases hd
  · intro t ht d hk hc
    have : (lex short').all fun t => !(t.kind == .line || t.kind == .block) := by decide +kernel
    have := List.all_eq_true.1 this t ht
    rcases hk with hk | hk <;> simp [hk] at this

end Verif.Props
