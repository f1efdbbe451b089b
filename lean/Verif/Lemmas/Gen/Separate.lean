import Verif.Lemmas.Gen.Lexer
/-! A test whether the tokens of a text do not run into each other, for the examples. -/
namespace Verif.Lemmas.Gen
open Verif.Model.Gen Verif.Spec.Gen

/-- Can the character come after the token? -/
def sepTok (t : Tok) (c : Char) : Bool :=
  (t.kind != .ws || !isWsChar c) && (t.kind != .line || c == '\r' || c == '\n') &&
  (match t.text with
    | [] => true
    | d :: r =>
      (!isLetter d || !isWordChar c) && (!isDecChar d || (!isWordChar c && c != '.')) && (d != '.' || (if r = [] then !isDecChar c else !isWordChar c && c != '.')))

/-- The tokens do not run into each other. -/
def sepTest : List Tok → Bool
  | [] => true
  | t :: ts => (match ts.flatMap Tok.text with | [] => true | c :: _ => sepTok t c) && sepTest ts

theorem digits_chars {s : Str} {v : Nat} (h : Digits 10 s v) : ∀ c ∈ s, isDecChar c = true := by
  induction h with
  | nil => intro c hc; cases hc
  | snoc s v x d _ h1 h2 ih =>
    intro c hc
    rcases List.mem_append.1 hc with hc | hc
    · exact ih c hc
    · rw [List.mem_singleton.1 hc, isDecChar_num]
      rw [isDigit_num] at h1
      omega

theorem intLit_head {s : Str} {v : Nat} (h : IntLit s v) : ∃ d r, s = d :: r ∧ isDecChar d = true := by
  cases h with
  | decimal c s v _ h =>
    refine ⟨c, s, rfl, ?_⟩
    have := digits_chars h c (by simp)
    exact this
  | octal s v h => exact ⟨'0', s, rfl, by decide⟩
  | hex x s v h1 h2 h3 => exact ⟨'0', x :: s, rfl, by decide⟩

theorem floatLit_head {s : Str} (h : FloatLit s) : ∃ d r, s = d :: r ∧ (isDecChar d = true ∨ d = '.' ∧ r ≠ []) := by
  cases h with
  | point ds fs ex hd _ _ =>
    cases ds with
    | nil => exact absurd rfl hd.1
    | cons d ds => exact ⟨d, _, rfl, .inl ((dec_digit d).2 (hd.2 d (by simp)))⟩
  | exp ds ex hd _ =>
    cases ds with
    | nil => exact absurd rfl hd.1
    | cons d ds => exact ⟨d, _, rfl, .inl ((dec_digit d).2 (hd.2 d (by simp)))⟩
  | dot fs ex hd _ => exact ⟨'.', _, rfl, .inr ⟨rfl, fun h => hd.1 (List.append_eq_nil_iff.1 h).1⟩⟩

theorem ident_letter {s : Str} (h : ProtoIdent s) : ∃ d r, s = d :: r ∧ isLetter d = true := by
  obtain ⟨c, r, rfl, h1, h2⟩ := h
  refine ⟨c, r, rfl, ?_⟩
  have h3 := h2 c (by simp)
  rw [identChar_num] at h3
  rw [digit_num] at h1
  rw [isLetter_num]
  omega

theorem sepTok_may {t : Tok} {c : Char} {s : Str} (h : sepTok t c = true) : MayFollow t (c :: s) := by
  intro x hx
  cases hx
  simp only [sepTok, Bool.and_eq_true, Bool.or_eq_true, bne_iff_ne, Bool.not_eq_true', beq_iff_eq, ne_eq] at h
  obtain ⟨⟨h1, h2⟩, h3⟩ := h
  refine ⟨fun hk hb => ?_, fun hk => ?_, fun hi hc => ?_, fun hn => ?_, fun ht hd => ?_⟩
  · rw [← ws_blank, h1.resolve_left (fun h => h hk)] at hb
    cases hb
  · rcases h2 with (h2 | h2) | h2
    · exact absurd hk h2
    · exact .inl h2
    · exact .inr h2
  · obtain ⟨d, r, e, hd⟩ := ident_letter hi
    rw [e] at h3
    simp only [Bool.and_eq_true, Bool.or_eq_true, Bool.not_eq_true', hd, Bool.true_eq_false, false_or] at h3
    rw [← word_ident, h3.1.1] at hc
    cases hc
  · have hc : isWordChar c = false ∧ c ≠ '.' := by
      rcases hn with ⟨v, hn⟩ | hn
      · obtain ⟨d, r, e, hd⟩ := intLit_head hn
        rw [e] at h3
        simp only [Bool.and_eq_true, Bool.or_eq_true, Bool.not_eq_true', hd, Bool.true_eq_false, false_or, bne_iff_ne, ne_eq] at h3
        exact h3.1.2
      · obtain ⟨d, r, e, hd⟩ := floatLit_head hn
        rw [e] at h3
        rcases hd with hd | ⟨rfl, hr⟩
        · simp only [Bool.and_eq_true, Bool.or_eq_true, Bool.not_eq_true', hd, Bool.true_eq_false, false_or, bne_iff_ne, ne_eq] at h3
          exact h3.1.2
        · simp only [Bool.and_eq_true, Bool.or_eq_true, if_neg hr, Bool.not_eq_true', bne_iff_ne, ne_eq, not_true_eq_false, false_or] at h3
          exact h3.2
    refine ⟨fun h => ?_, hc.2⟩
    rw [← word_ident, hc.1] at h
    cases h
  · rw [ht] at h3
    simp only [Bool.and_eq_true, Bool.or_eq_true, if_true, Bool.not_eq_true', bne_iff_ne, ne_eq, not_true_eq_false, false_or] at h3
    rw [← dec_digit, h3.2] at hd
    cases hd

theorem sepTest_separated : ∀ (ts : List Tok), sepTest ts = true → Separated ts
  | [], _ => .nil
  | t :: ts, h => by
    simp only [sepTest, Bool.and_eq_true] at h
    refine .cons t ts ?_ (sepTest_separated ts h.2)
    have h1 := h.1
    split at h1
    · rename_i e
      rw [e]
      intro x hx
      cases hx
    · rename_i c s e
      rw [e]
      exact sepTok_may h1

end Verif.Lemmas.Gen
