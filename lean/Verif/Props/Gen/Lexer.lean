import Verif.Lemmas.Gen.Lexer
/-!
# C77: the characters of a proto file determine its tokens, whatever the layout
-/
namespace Verif.Props
open Verif.Model.Gen Verif.Spec.Gen Verif.Lemmas.Gen

/-- **C77.** A text written as any sequence of lexical elements — words, integers, floating-point numbers, strings, symbols, white space, comments — is
read as exactly those elements, provided no element runs into the next one (`Separated`: a word or number is not followed by a letter or digit, …). -/
theorem C77_tokens (ts : List Tok) (h : ∀ t ∈ ts, Lexeme t) (hs : Separated ts) : lex (ts.flatMap Tok.text) = ts :=
  lexAll_lexemes ts _ h hs (Nat.le_refl _)

/-- **C77, one reading.** There is at most one way to divide a text into such elements. -/
theorem C77_one_reading (ts us : List Tok) (ht : ∀ t ∈ ts, Lexeme t) (hts : Separated ts) (hu : ∀ t ∈ us, Lexeme t) (hus : Separated us)
    (h : ts.flatMap Tok.text = us.flatMap Tok.text) : ts = us := by
  rw [← C77_tokens ts ht hts, h, C77_tokens us hu hus]

/-- **C77, every text.** Whatever the text, each token read is a lexical element, and the tokens stand in the text in that order: nothing is invented,
repeated or moved.  (Characters can be left out, see `C77_dropped_violated`.) -/
theorem C77_sound (s : List Char) : (∀ t ∈ lex s, Lexeme t) ∧ ((lex s).flatMap Tok.text).Sublist s := lexAll_sound _ s

/-- Seven elements. -/
example : ∃ ts : List Tok, (∀ t ∈ ts, Lexeme t) ∧ Separated ts ∧ ts.flatMap Tok.text = "a=0x1F;//x\n'\\n'".toList ∧ ts.length = 7 := by
  refine ⟨[⟨.visible, ['a']⟩, ⟨.visible, ['=']⟩, ⟨.visible, "0x1F".toList⟩, ⟨.visible, [';']⟩, ⟨.line, "//x".toList⟩, ⟨.ws, ['\n']⟩,
    ⟨.visible, "'\\n'".toList⟩], ?_, ?_, by decide, rfl⟩
  · have h := C77_sound "a=0x1F;//x\n'\\n'".toList
    have e : lex "a=0x1F;//x\n'\\n'".toList = [⟨.visible, ['a']⟩, ⟨.visible, ['=']⟩, ⟨.visible, "0x1F".toList⟩, ⟨.visible, [';']⟩, ⟨.line, "//x".toList⟩,
      ⟨.ws, ['\n']⟩, ⟨.visible, "'\\n'".toList⟩] := by decide +kernel
    rw [e] at h
    exact h.1
  · have hq : ∀ (k : TokKind) (t : List Char) (c : Char) (s : List Char), k ≠ .ws → k ≠ .line → t ≠ ['.'] → ¬ IdentChar c → c ≠ '.' →
        MayFollow ⟨k, t⟩ (c :: s) := by
      intro k t c s h1 h2 h3 h4 h5 x hx
      cases hx
      exact ⟨fun h => absurd h h1, fun h => absurd h h2, fun _ => h4, fun _ => ⟨h4, h5⟩, fun h => absurd h h3⟩
    refine .cons _ _ (hq _ _ '=' _ (by decide) (by decide) (by decide) (by rw [identChar_num]; simp) (by decide)) ?_
    refine .cons _ _ ?_ ?_
    · intro x hx
      cases hx
      refine ⟨fun h => (by cases h), fun h => (by cases h), ?_, ?_, fun h => (by cases h)⟩
      · rintro ⟨c, r, e, _, h⟩
        cases e
        exact absurd (h '=' (by simp)) (by rw [identChar_num]; simp)
      · rintro (⟨v, h⟩ | h)
        · have := (numberLit_int h ⟨notHead_nil _, by simp⟩).1
          exact absurd this (by decide)
        · generalize e : ['='] = t at h
          cases h with
          | point ds fs ex hd _ _ =>
            cases ds with
            | nil => cases e
            | cons d ds =>
              have := hd.2 d (by simp)
              have hd' : '=' = d := (List.cons.inj e).1
              subst hd'
              exact absurd this (by rw [digit_num]; decide)
          | exp ds ex hd _ =>
            cases ds with
            | nil => exact absurd rfl hd.1
            | cons d ds =>
              have := hd.2 d (by simp)
              have hd' : '=' = d := (List.cons.inj e).1
              subst hd'
              exact absurd this (by rw [digit_num]; decide)
          | dot => cases e
    refine .cons _ _ (hq _ _ ';' _ (by decide) (by decide) (by decide) (by rw [identChar_num]; simp) (by decide)) ?_
    refine .cons _ _ (hq _ _ '/' _ (by decide) (by decide) (by decide) (by rw [identChar_num]; simp) (by decide)) ?_
    refine .cons _ _ ?_ (.cons _ _ ?_ (.cons _ _ (fun x hx => (by cases hx)) .nil))
    · intro x hx
      cases hx
      refine ⟨fun h => (by cases h), fun _ => .inr rfl, ?_, ?_, fun h => (by cases h)⟩
      · rintro ⟨c, r, e, _, h⟩
        exact (by rw [identChar_num]; simp : ¬ IdentChar '\n')
      · exact fun _ => ⟨(by rw [identChar_num]; simp : ¬ IdentChar '\n'), by decide⟩
    · intro x hx
      cases hx
      refine ⟨fun _ => (by rw [blank_num]; decide : ¬ BlankChar '\''), fun h => (by cases h), ?_, ?_, fun h => (by cases h)⟩
      · exact fun _ => (by rw [identChar_num]; simp : ¬ IdentChar '\'')
      · exact fun _ => ⟨(by rw [identChar_num]; simp : ¬ IdentChar '\''), by decide⟩

/-- **Violation of C77.** Text that is no lexical element is not refused: it disappears.  A stray character; a block comment or a string that does not
end, with everything after it (a string up to the end of the line). -/
theorem C77_dropped_violated :
    lex "a@b".toList = [⟨.visible, ['a']⟩, ⟨.visible, ['b']⟩] ∧ lex "a;/* b;".toList = [⟨.visible, ['a']⟩, ⟨.visible, [';']⟩] ∧
    lex "a'b;\nc".toList = [⟨.visible, ['a']⟩, ⟨.visible, ['c']⟩] := by
  decide +kernel

end Verif.Props
