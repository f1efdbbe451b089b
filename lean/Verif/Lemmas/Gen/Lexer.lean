import Verif.Model.Gen.Lexer
import Verif.Spec.Gen.Lexical
/-! Helper lemmas: the lexer. -/
namespace Verif.Lemmas.Gen
open Verif.Model.Gen Verif.Spec.Gen

/-! ## Characters by number -/

theorem charEq (c d : Char) : c = d ↔ c.toNat = d.toNat := ⟨congrArg _, fun h => Char.ext (UInt32.toNat_inj.1 h)⟩
theorem charLe (c d : Char) : c ≤ d ↔ c.toNat ≤ d.toNat := Iff.rfl

theorem isWsChar_num (c : Char) : isWsChar c = true ↔ c.toNat = 32 ∨ c.toNat = 9 ∨ c.toNat = 13 ∨ c.toNat = 10 ∨ c.toNat = 12 := by
  simp only [isWsChar, Bool.or_eq_true, decide_eq_true_eq, charEq, or_assoc]; exact Iff.rfl
theorem isLetter_num (c : Char) : isLetter c = true ↔ (97 ≤ c.toNat ∧ c.toNat ≤ 122) ∨ (65 ≤ c.toNat ∧ c.toNat ≤ 90) ∨ c.toNat = 95 := by
  simp only [isLetter, Bool.or_eq_true, Bool.and_eq_true, decide_eq_true_eq, charEq, charLe, or_assoc]; exact Iff.rfl
theorem isDecChar_num (c : Char) : isDecChar c = true ↔ 48 ≤ c.toNat ∧ c.toNat ≤ 57 := by
  simp only [isDecChar, Bool.and_eq_true, decide_eq_true_eq, charLe]; exact Iff.rfl
theorem isOctChar_num (c : Char) : isOctChar c = true ↔ 48 ≤ c.toNat ∧ c.toNat ≤ 55 := by
  simp only [isOctChar, Bool.and_eq_true, decide_eq_true_eq, charLe]; exact Iff.rfl
theorem isHexChar_num (c : Char) : isHexChar c = true ↔ (48 ≤ c.toNat ∧ c.toNat ≤ 57) ∨ (97 ≤ c.toNat ∧ c.toNat ≤ 102) ∨ (65 ≤ c.toNat ∧ c.toNat ≤ 70) := by
  simp only [isHexChar, Bool.or_eq_true, Bool.and_eq_true, decide_eq_true_eq, charLe, or_assoc]; exact Iff.rfl
theorem isWordChar_num (c : Char) : isWordChar c = true ↔
    (97 ≤ c.toNat ∧ c.toNat ≤ 122) ∨ (65 ≤ c.toNat ∧ c.toNat ≤ 90) ∨ c.toNat = 95 ∨ (48 ≤ c.toNat ∧ c.toNat ≤ 57) := by
  simp only [isWordChar, Bool.or_eq_true, isLetter_num, isDecChar_num, or_assoc]
theorem isSymbol_num (c : Char) : isSymbol c = true ↔ c.toNat = 59 ∨ c.toNat = 61 ∨ c.toNat = 40 ∨ c.toNat = 41 ∨ c.toNat = 91 ∨ c.toNat = 93 ∨
    c.toNat = 123 ∨ c.toNat = 125 ∨ c.toNat = 60 ∨ c.toNat = 62 ∨ c.toNat = 44 ∨ c.toNat = 58 ∨ c.toNat = 43 ∨ c.toNat = 45 := by
  simp only [isSymbol, Bool.or_eq_true, decide_eq_true_eq, charEq, or_assoc]; exact Iff.rfl
theorem digit_num (c : Char) : Digit c ↔ 48 ≤ c.toNat ∧ c.toNat ≤ 57 := Iff.rfl
theorem identChar_num (c : Char) : IdentChar c ↔
    (97 ≤ c.toNat ∧ c.toNat ≤ 122) ∨ (65 ≤ c.toNat ∧ c.toNat ≤ 90) ∨ (48 ≤ c.toNat ∧ c.toNat ≤ 57) ∨ c.toNat = 95 := by
  simp only [IdentChar, Lower, Upper, Digit, charEq, charLe]; exact Iff.rfl
theorem blank_num (c : Char) : BlankChar c ↔ c.toNat = 32 ∨ c.toNat = 9 ∨ c.toNat = 13 ∨ c.toNat = 10 ∨ c.toNat = 12 := by
  simp only [BlankChar, List.mem_cons, List.not_mem_nil, or_false, charEq]; exact Iff.rfl
theorem isDigit_num (c : Char) (v : Nat) : Verif.Spec.Gen.IsDigit c v ↔
    (c.toNat = 48 + v ∧ v ≤ 9) ∨ (c.toNat + 10 = 97 + v ∧ 10 ≤ v ∧ v ≤ 15) ∨ (c.toNat + 10 = 65 + v ∧ 10 ≤ v ∧ v ≤ 15) := Iff.rfl
theorem hexDigit_num (c : Char) : HexDigit c ↔ isHexChar c = true := by
  rw [isHexChar_num]
  constructor
  · rintro ⟨v, hv, h⟩
    rw [isDigit_num] at h
    omega
  · intro h
    by_cases h1 : c.toNat ≤ 57
    · exact ⟨c.toNat - 48, by omega, by rw [isDigit_num]; omega⟩
    · by_cases h2 : c.toNat ≤ 70
      · exact ⟨c.toNat - 55, by omega, by rw [isDigit_num]; omega⟩
      · exact ⟨c.toNat - 87, by omega, by rw [isDigit_num]; omega⟩
theorem octDigit_num (c : Char) : OctDigit c ↔ isOctChar c = true := by
  rw [isOctChar_num]
  constructor
  · rintro ⟨v, hv, h⟩
    rw [isDigit_num] at h
    omega
  · intro h
    exact ⟨c.toNat - 48, by omega, by rw [isDigit_num]; omega⟩

theorem dec_digit (c : Char) : isDecChar c = true ↔ Digit c := by rw [isDecChar_num, digit_num]
theorem ws_blank (c : Char) : isWsChar c = true ↔ BlankChar c := by rw [isWsChar_num, blank_num]
theorem word_ident (c : Char) : isWordChar c = true ↔ IdentChar c := by rw [isWordChar_num, identChar_num]; omega

/-- The first character of a text is not of a kind. -/
def NotHead (p : Char → Bool) (s : Str) : Prop := ∀ c ∈ s.head?, p c = false

theorem takeWhile_app {p : Char → Bool} {w r : Str} (hw : ∀ c ∈ w, p c = true) (hr : NotHead p r) : (w ++ r).takeWhile p = w := by
  induction w with
  | nil =>
    cases r with
    | nil => rfl
    | cons c r => rw [List.nil_append, List.takeWhile_cons, if_neg (by rw [hr c (by simp)]; simp)]
  | cons c w ih =>
    rw [List.cons_append, List.takeWhile_cons, if_pos (hw c (by simp)), ih (fun x hx => hw x (by simp [hx]))]

theorem dropWhile_app {p : Char → Bool} {w r : Str} (hw : ∀ c ∈ w, p c = true) (hr : NotHead p r) : (w ++ r).dropWhile p = r := by
  induction w with
  | nil =>
    cases r with
    | nil => rfl
    | cons c r => rw [List.nil_append, List.dropWhile_cons, if_neg (by rw [hr c (by simp)]; simp)]
  | cons c w ih =>
    rw [List.cons_append, List.dropWhile_cons, if_pos (hw c (by simp)), ih (fun x hx => hw x (by simp [hx]))]

theorem notHead_nil (p : Char → Bool) : NotHead p [] := by intro c hc; cases hc
theorem notHead_cons {p : Char → Bool} {c : Char} {s : Str} (h : p c = false) : NotHead p (c :: s) := by
  intro x hx; cases hx; exact h

theorem takeWhile_nil_iff {p : Char → Bool} {s : Str} (h : NotHead p s) : s.takeWhile p = [] := by
  have := takeWhile_app (w := []) (by simp) h
  simpa using this

/-! ## Exponents -/

theorem takeExp_none {s : Str} (h : ∀ c ∈ s.head?, c ≠ 'e' ∧ c ≠ 'E') : takeExp s = [] := by
  cases s with
  | nil => rfl
  | cons c s =>
    have := h c (by simp)
    rw [takeExp, if_neg (fun h => h.elim this.1 this.2)]

theorem expDigits_some {b ds r : Str} (hd : Decimals ds) (hr : NotHead isDecChar r) : expDigits b (ds ++ r) = b ++ ds := by
  have : (ds ++ r).takeWhile isDecChar = ds := takeWhile_app (fun c hc => (dec_digit c).2 (hd.2 c hc)) hr
  rw [expDigits, this, if_neg hd.1]

theorem takeExp_some {ex r : Str} (h : Exponent ex) (hr : NotHead isDecChar r) : takeExp (ex ++ r) = ex := by
  cases h with
  | plain e ds he hd =>
    rw [List.cons_append, takeExp, if_pos he]
    obtain ⟨hne, hd'⟩ := hd
    cases ds with
    | nil => exact absurd rfl hne
    | cons d ds =>
      have hdd := (digit_num d).1 (hd' d (by simp))
      rw [List.cons_append, expAfter, if_neg (by rw [charEq, charEq]; simp; omega), ← List.cons_append, expDigits_some ⟨hne, hd'⟩ hr]
      rfl
  | signed e s ds he hs hd =>
    rw [List.cons_append, takeExp, if_pos he, List.cons_append, expAfter, if_pos hs, expDigits_some hd hr]
    rfl

/-! ## Numbers -/

theorem decimals_all {ds : Str} (h : Decimals ds) : ∀ c ∈ ds, isDecChar c = true := fun c hc => (dec_digit c).2 (h.2 c hc)

/-- What follows a number. -/
structure AfterNumber (r : Str) : Prop where
  word : NotHead isWordChar r
  dot : ∀ c ∈ r.head?, c ≠ '.'

theorem AfterNumber.noDec {r : Str} (h : AfterNumber r) : NotHead isDecChar r := by
  intro c hc
  have := h.word c hc
  rw [← Bool.not_eq_true, isWordChar_num] at this
  rw [← Bool.not_eq_true, isDecChar_num]; omega
theorem AfterNumber.noHex {r : Str} (h : AfterNumber r) : NotHead isHexChar r := by
  intro c hc
  have := h.word c hc
  rw [← Bool.not_eq_true, isWordChar_num] at this
  rw [← Bool.not_eq_true, isHexChar_num]; omega
theorem AfterNumber.noOct {r : Str} (h : AfterNumber r) : NotHead isOctChar r := by
  intro c hc
  have := h.word c hc
  rw [← Bool.not_eq_true, isWordChar_num] at this
  rw [← Bool.not_eq_true, isOctChar_num]; omega
theorem AfterNumber.noExp {r : Str} (h : AfterNumber r) : takeExp r = [] := by
  refine takeExp_none (fun c hc => ?_)
  have := h.word c hc
  rw [← Bool.not_eq_true, isWordChar_num] at this
  rw [Ne, Ne, charEq, charEq]
  simp only [Char.reduceToNat]
  omega

theorem numberAfter_int {ds int r : Str} (h : AfterNumber r) : numberAfter ds int r = int := by
  cases r with
  | nil => rfl
  | cons c r =>
    have := h.dot c (by simp)
    rw [numberAfter, if_neg this, if_neg]
    rw [h.noExp]; simp

theorem digits_dec {b : Nat} (hb : b ≤ 10) {s : Str} {v : Nat} (h : Digits b s v) : ∀ c ∈ s, isDecChar c = true := by
  induction h with
  | nil => simp
  | snoc s v c d _ hd hlt ih =>
    intro x hx
    rcases List.mem_append.1 hx with hx | hx
    · exact ih x hx
    · simp only [List.mem_singleton] at hx
      subst hx
      rw [isDecChar_num]
      rw [isDigit_num] at hd
      omega
theorem digits_oct {s : Str} {v : Nat} (h : Digits 8 s v) : ∀ c ∈ s, isOctChar c = true := by
  induction h with
  | nil => simp
  | snoc s v c d _ hd hlt ih =>
    intro x hx
    rcases List.mem_append.1 hx with hx | hx
    · exact ih x hx
    · simp only [List.mem_singleton] at hx
      subst hx
      rw [isOctChar_num]
      rw [isDigit_num] at hd
      omega
theorem digits_hex {s : Str} {v : Nat} (h : Digits 16 s v) : ∀ c ∈ s, isHexChar c = true := by
  induction h with
  | nil => simp
  | snoc s v c d _ hd hlt ih =>
    intro x hx
    rcases List.mem_append.1 hx with hx | hx
    · exact ih x hx
    · simp only [List.mem_singleton] at hx
      subst hx
      rw [isHexChar_num]
      rw [isDigit_num] at hd
      omega

theorem numberLit_int {c : Char} {s r : Str} {v : Nat} (h : IntLit (c :: s) v) (hr : AfterNumber r) :
    isDecChar c = true ∧ numberLit c (s ++ r) = c :: s := by
  generalize e : c :: s = t at h
  cases h with
  | decimal c' s' v' hne hd =>
    cases e
    have hall := digits_dec (by omega) hd
    refine ⟨hall c (by simp), ?_⟩
    have ht : (s ++ r).takeWhile isDecChar = s := takeWhile_app (fun x hx => hall x (by simp [hx])) hr.noDec
    have hdr : (s ++ r).dropWhile isDecChar = r := dropWhile_app (fun x hx => hall x (by simp [hx])) hr.noDec
    rw [numberLit, hdr, numberAfter_int hr, intLit, if_neg hne, ht]
  | octal s' v' hd =>
    cases e
    have hall := digits_dec (by omega) hd
    have hoct := digits_oct hd
    refine ⟨by decide, ?_⟩
    have hdr : (s ++ r).dropWhile isDecChar = r := dropWhile_app hall hr.noDec
    rw [numberLit, hdr, numberAfter_int hr, intLit, if_pos rfl]
    cases hs : s ++ r with
    | nil =>
      have : s = [] := by cases s with
        | nil => rfl
        | cons _ _ => cases hs
      subst this; rfl
    | cons x t =>
      have hx : x ≠ 'x' ∧ x ≠ 'X' := by
        rw [Ne, Ne, charEq, charEq]
        simp only [Char.reduceToNat]
        cases s with
        | nil =>
          rw [List.nil_append] at hs
          have := hr.word x (by rw [hs]; rfl)
          rw [← Bool.not_eq_true, isWordChar_num] at this
          omega
        | cons y s =>
          cases hs
          have := (isDecChar_num _).1 (hall x (by simp))
          omega
      rw [zeroLit, if_neg (fun h => h.1.elim hx.1 hx.2), ← hs, takeWhile_app hoct hr.noOct]
  | hex x s' v' hx hne hd =>
    cases e
    have hhex := digits_hex hd
    refine ⟨by decide, ?_⟩
    have hxx : x.toNat = 120 ∨ x.toNat = 88 := by rcases hx with rfl | rfl <;> simp
    have hxd : isDecChar x = false := by rw [← Bool.not_eq_true, isDecChar_num]; omega
    have hdr : (x :: s' ++ r).dropWhile isDecChar = x :: s' ++ r := by
      rw [List.cons_append, List.dropWhile_cons, if_neg (by rw [hxd]; simp)]
    have he : takeExp (x :: (s' ++ r)) = [] := takeExp_none (fun c hc => by
      cases hc
      rw [Ne, Ne, charEq, charEq]
      simp only [Char.reduceToNat]
      omega)
    have hw : (s' ++ r).takeWhile isHexChar = s' := takeWhile_app hhex hr.noHex
    rw [numberLit, hdr, List.cons_append, numberAfter, if_neg (by rw [charEq]; simp only [Char.reduceToNat]; omega), if_neg (by rw [he]; simp), intLit,
      if_pos rfl, zeroLit, if_pos ⟨hx, by rw [hw]; exact hne⟩, hw]

theorem exp_or {ex r : Str} (h : ex = [] ∨ Exponent ex) (hr : AfterNumber r) : takeExp (ex ++ r) = ex := by
  rcases h with rfl | h
  · exact hr.noExp
  · exact takeExp_some h hr.noDec

theorem exp_head {ex : Str} (h : Exponent ex) : ∃ e s, ex = e :: s ∧ (e = 'e' ∨ e = 'E') := by
  cases h with
  | plain e ds he _ => exact ⟨e, ds, rfl, he⟩
  | signed e s ds he _ _ => exact ⟨e, s :: ds, rfl, he⟩

theorem exp_noDec {ex r : Str} (h : ex = [] ∨ Exponent ex) (hr : AfterNumber r) : NotHead isDecChar (ex ++ r) := by
  rcases h with rfl | h
  · exact hr.noDec
  · obtain ⟨e, s, rfl, he⟩ := exp_head h
    exact notHead_cons (by rcases he with rfl | rfl <;> decide)

theorem frac_all {fs : Str} (h : fs = [] ∨ Decimals fs) : ∀ c ∈ fs, isDecChar c = true := by
  rcases h with rfl | h
  · simp
  · exact decimals_all h

theorem numberLit_point {ds fs ex r : Str} (hd : Decimals ds) (hf : fs = [] ∨ Decimals fs) (he : ex = [] ∨ Exponent ex) (hr : AfterNumber r) :
    ∃ c s, ds ++ '.' :: (fs ++ ex) = c :: s ∧ isDecChar c = true ∧ numberLit c (s ++ r) = c :: s := by
  obtain ⟨hne, hall⟩ := hd
  cases ds with
  | nil => exact absurd rfl hne
  | cons c ds =>
    have hc : ∀ x ∈ ds, isDecChar x = true := fun x hx => (dec_digit x).2 (hall x (by simp [hx]))
    have hdot : NotHead isDecChar ('.' :: (fs ++ ex) ++ r) := notHead_cons (by decide)
    refine ⟨c, ds ++ '.' :: (fs ++ ex), rfl, (dec_digit c).2 (hall c (by simp)), ?_⟩
    rw [numberLit, List.append_assoc, takeWhile_app hc hdot, dropWhile_app hc hdot, List.cons_append, numberAfter, if_pos rfl, List.append_assoc,
      takeWhile_app (frac_all hf) (exp_noDec he hr), dropWhile_app (frac_all hf) (exp_noDec he hr), exp_or he hr]
    rfl

theorem numberLit_exp {ds ex r : Str} (hd : Decimals ds) (he : Exponent ex) (hr : AfterNumber r) :
    ∃ c s, ds ++ ex = c :: s ∧ isDecChar c = true ∧ numberLit c (s ++ r) = c :: s := by
  obtain ⟨hne, hall⟩ := hd
  cases ds with
  | nil => exact absurd rfl hne
  | cons c ds =>
    have hc : ∀ x ∈ ds, isDecChar x = true := fun x hx => (dec_digit x).2 (hall x (by simp [hx]))
    have hx := exp_noDec (.inr he) hr
    have ht := takeExp_some he hr.noDec
    refine ⟨c, ds ++ ex, rfl, (dec_digit c).2 (hall c (by simp)), ?_⟩
    obtain ⟨e, s, rfl, hee⟩ := exp_head he
    rw [numberLit, List.append_assoc, takeWhile_app hc hx, dropWhile_app hc hx, List.cons_append, numberAfter,
      if_neg (by rcases hee with rfl | rfl <;> decide), if_pos (by rw [← List.cons_append, ht]; simp), ← List.cons_append, ht]
    rfl

theorem dotLit_some {fs ex r : Str} (hf : Decimals fs) (he : ex = [] ∨ Exponent ex) (hr : AfterNumber r) :
    dotLit (fs ++ ex ++ r) = '.' :: (fs ++ ex) := by
  have hx := exp_noDec he hr
  rw [dotLit, List.append_assoc, takeWhile_app (decimals_all hf) hx, if_neg hf.1, dropWhile_app (decimals_all hf) hx, exp_or he hr]

/-! ## Strings and comments -/

theorem strScan_step {q : Char} {st st' : StrState} {c : Char} {s a r : Str} (h : strNext q st c = some (some st')) (h' : strScan q st' s = .ok (a, r)) :
    strScan q st (c :: s) = .ok (c :: a, r) := by
  rw [strScan, h]; dsimp only; rw [h']

theorem isCharEscape_mem (c : Char) : isCharEscape c = true ↔ c ∈ ['a', 'b', 'f', 'n', 'r', 't', 'v', '\\', '\'', '"'] := by
  simp only [isCharEscape, Bool.or_eq_true, decide_eq_true_eq, List.mem_cons, List.not_mem_nil, or_false, or_assoc]

theorem charEscape_not {c : Char} (h : isHexChar c = true ∧ 48 ≤ c.toNat ∧ c.toNat ≤ 57) : isCharEscape c = false := by
  rw [← Bool.not_eq_true, isCharEscape_mem]
  simp only [List.mem_cons, List.not_mem_nil, or_false, charEq, Char.reduceToNat]
  omega

theorem strScan_body {q : Char} (hq : q = '"' ∨ q = '\'') {s : Str} (h : StrBody q s) (r : Str) : strScan q .body (s ++ r) = .ok (s, r) := by
  have hqb : '\\' ≠ q := by rcases hq with rfl | rfl <;> decide
  induction h with
  | done => rw [List.cons_append, strScan]; simp [strNext]
  | char c s h1 h2 h3 h4 _ ih =>
    refine strScan_step (st' := .body) ?_ ih
    simp only [strNext]
    rw [if_neg h1, if_neg h2, if_neg (fun h => h.elim h4 h3)]
  | escape c s h1 _ ih =>
    refine strScan_step (st' := .esc) (by simp only [strNext]; rw [if_neg hqb, if_pos trivial]) (strScan_step (st' := .body) ?_ ih)
    simp only [strNext]
    rw [if_pos ((isCharEscape_mem c).2 h1)]
  | hex x a b s hx ha hb _ ih =>
    rw [hexDigit_num] at ha hb
    refine strScan_step (st' := .esc) (by simp only [strNext]; rw [if_neg hqb, if_pos trivial]) (strScan_step (st' := .hex 1) ?_
      (strScan_step (st' := .hex 0) ?_ (strScan_step (st' := .body) ?_ ih)))
    · simp only [strNext]
      rw [if_neg (by rcases hx with rfl | rfl <;> decide), if_pos hx]
    · simp [strNext, ha]
    · simp [strNext, hb]
  | oct a b c s ha hb hc _ ih =>
    rw [octDigit_num] at ha hb hc
    have hn := (isOctChar_num a).1 ha
    refine strScan_step (st' := .esc) (by simp only [strNext]; rw [if_neg hqb, if_pos trivial]) (strScan_step (st' := .oct 1) ?_
      (strScan_step (st' := .oct 0) ?_ (strScan_step (st' := .body) ?_ ih)))
    · simp only [strNext]
      rw [charEscape_not ⟨by rw [isHexChar_num]; omega, by omega, by omega⟩]
      rw [if_neg (by simp), if_neg (by rw [charEq, charEq]; simp only [Char.reduceToNat]; omega), if_pos ha]
    · simp [strNext, hb]
    · simp [strNext, hc]

theorem blockScan_body {s : Str} (h : ¬ ['*', '/'] <:+: s) (r : Str) : blockScan (s ++ ['*', '/'] ++ r) = some (s ++ ['*', '/'], r) := by
  induction s with
  | nil => simp [blockScan]
  | cons c s ih =>
    have hs : ¬ ['*', '/'] <:+: s := fun h' => h (h'.trans (List.suffix_cons c s).isInfix)
    rw [List.cons_append, List.cons_append, blockScan, if_neg, ih hs]
    · rintro ⟨rfl, hh⟩
      cases s with
      | nil => cases hh
      | cons d s =>
        simp only [List.cons_append, List.head?_cons, Option.some.injEq] at hh
        subst hh
        exact h ⟨[], s, rfl⟩

/-! ## One token -/

theorem lexVisible_app (c : Char) (t r : Str) : lexVisible (c :: t) (c :: (t ++ r)) = (some ⟨.visible, c :: t⟩, r) := by
  rw [lexVisible, ← List.cons_append, List.drop_left]
theorem lexVisible_one (c : Char) (r : Str) : lexVisible [c] (c :: r) = (some ⟨.visible, [c]⟩, r) := lexVisible_app c [] r

theorem protoIdent_head {c : Char} {s : Str} (h : ProtoIdent (c :: s)) : isLetter c = true ∧ ∀ x ∈ c :: s, isWordChar x = true := by
  obtain ⟨c', r', e, h1, h2⟩ := h
  cases e
  refine ⟨?_, fun x hx => (word_ident x).2 (h2 x hx)⟩
  have := (identChar_num c).1 (h2 c (by simp))
  rw [digit_num] at h1
  rw [isLetter_num]
  omega

theorem afterNumber_of {r : Str} (h : ∀ c ∈ r.head?, ¬ IdentChar c ∧ c ≠ '.') : AfterNumber r :=
  ⟨fun c hc => by rw [← Bool.not_eq_true, word_ident]; exact (h c hc).1, fun c hc => (h c hc).2⟩

theorem lexOne_number {c : Char} {s r : Str} (hc : isDecChar c = true) (h : numberLit c (s ++ r) = c :: s) :
    lexOne c (s ++ r) = (some ⟨.visible, c :: s⟩, r) := by
  have hn := (isDecChar_num c).1 hc
  rw [lexOne, if_neg (by rw [isWsChar_num]; omega), if_neg (by rw [isLetter_num]; omega), if_pos hc, h, lexVisible_app]

theorem lexOne_lexeme {t : Tok} {c : Char} {s r : Str} (h : Lexeme t) (e : t.text = c :: s) (hf : MayFollow t r) :
    lexOne c (s ++ r) = (some t, r) := by
  cases h with
  | word w hw =>
    dsimp only at e; subst e
    obtain ⟨h1, h2⟩ := protoIdent_head hw
    have hn := (isLetter_num c).1 h1
    have hr : NotHead isWordChar r := fun x hx => by
      rw [← Bool.not_eq_true, word_ident]; exact (hf x hx).2.2.1 hw
    rw [lexOne, if_neg (by rw [isWsChar_num]; omega), if_pos h1]
    have ht : (c :: (s ++ r)).takeWhile isWordChar = c :: s := takeWhile_app (w := c :: s) h2 hr
    rw [ht, lexVisible_app]
  | int w v hw =>
    dsimp only at e; subst e
    have := numberLit_int hw (afterNumber_of fun x hx => (hf x hx).2.2.2.1 (.inl ⟨v, hw⟩))
    exact lexOne_number this.1 this.2
  | float w hw =>
    have ha := afterNumber_of fun x hx => (hf x hx).2.2.2.1 (.inr hw)
    dsimp only at e
    cases hw with
    | point ds fs ex hd hfs hex =>
      obtain ⟨c', s', e', h1, h2⟩ := numberLit_point hd hfs hex ha
      rw [e'] at e ⊢; cases e
      exact lexOne_number h1 h2
    | exp ds ex hd hex =>
      obtain ⟨c', s', e', h1, h2⟩ := numberLit_exp hd hex ha
      rw [e'] at e ⊢; cases e
      exact lexOne_number h1 h2
    | dot fs ex hfs hex =>
      cases e
      rw [lexOne, if_neg (by decide), if_neg (by decide), if_neg (by decide), if_pos rfl, dotLit_some hfs hex ha, lexVisible_app]
  | str q w hq hw =>
    cases e
    have := strScan_body hq hw r
    have h4 : isWsChar c = false ∧ isLetter c = false ∧ isDecChar c = false ∧ c ≠ '.' := by rcases hq with rfl | rfl <;> decide
    rw [lexOne, if_neg (by simp [h4.1]), if_neg (by simp [h4.2.1]), if_neg (by simp [h4.2.2.1]), if_neg h4.2.2.2, if_pos hq, lexStr, this]
  | symbol d hd =>
    cases e
    rw [List.nil_append]
    by_cases hdot : c = '.'
    · subst hdot
      have hr : NotHead isDecChar r := fun x hx => by
        rw [← Bool.not_eq_true, dec_digit]; exact (hf x hx).2.2.2.2 rfl
      rw [lexOne, if_neg (by decide), if_neg (by decide), if_neg (by decide), if_pos rfl, dotLit, takeWhile_nil_iff hr, if_pos rfl,
        lexVisible_one]
    · have h5 : isWsChar c = false ∧ isLetter c = false ∧ isDecChar c = false ∧ ¬ (c = '"' ∨ c = '\'') ∧ c ≠ '/' ∧ isSymbol c = true := by
        have he : ";=()[]{}<>.,:+-".toList = [';', '=', '(', ')', '[', ']', '{', '}', '<', '>', '.', ',', ':', '+', '-'] := by decide
        rw [he] at hd
        simp only [List.mem_cons, List.not_mem_nil, or_false] at hd
        rcases hd with rfl | rfl | rfl | rfl | rfl | rfl | rfl | rfl | rfl | rfl | rfl | rfl | rfl | rfl | rfl <;> first | decide | exact absurd rfl hdot
      rw [lexOne, if_neg (by simp [h5.1]), if_neg (by simp [h5.2.1]), if_neg (by simp [h5.2.2.1]), if_neg hdot, if_neg h5.2.2.2.1, if_neg h5.2.2.2.2.1,
        if_pos h5.2.2.2.2.2, lexVisible_one]
  | space w hne hw =>
    dsimp only at e; subst e
    have hr : NotHead isWsChar r := fun x hx => by
      rw [← Bool.not_eq_true, ws_blank]; exact (hf x hx).1 rfl
    have hall : ∀ x ∈ c :: s, isWsChar x = true := fun x hx => (ws_blank x).2 (hw x hx)
    rw [lexOne, if_pos (hall c (by simp)), ← List.cons_append, takeWhile_app hall hr, dropWhile_app hall hr]
  | line w hw =>
    cases e
    have hr : NotHead notEol r := fun x hx => by
      rcases (hf x hx).2.1 rfl with rfl | rfl <;> decide
    have hall : ∀ x ∈ w, notEol x = true := fun x hx => by
      obtain ⟨h1, h2⟩ := hw x hx
      simp [notEol, h1, h2]
    rw [lexOne, if_neg (by decide), if_neg (by decide), if_neg (by decide), if_neg (by decide), if_neg (by decide), if_pos rfl, List.cons_append, lexSlash,
      if_pos rfl, takeWhile_app hall hr, dropWhile_app hall hr]
  | block w hw =>
    cases e
    rw [lexOne, if_neg (by decide), if_neg (by decide), if_neg (by decide), if_neg (by decide), if_neg (by decide), if_pos rfl, List.cons_append, lexSlash,
      if_neg (by decide), if_pos rfl, blockScan_body hw r]

theorem intLit_ne {s : Str} {v : Nat} (h : IntLit s v) : s ≠ [] := by cases h <;> simp

theorem lexeme_ne {t : Tok} (h : Lexeme t) : t.text ≠ [] := by
  cases h with
  | word w hw => obtain ⟨c, r, e, _⟩ := hw; dsimp only; rw [e]; simp
  | int w v hw => exact intLit_ne hw
  | float w hw =>
    cases hw with
    | point => simp
    | exp ds ex hd hex => simp [hd.1]
    | dot => simp
  | str | symbol | line | block => simp
  | space w hne _ => exact hne

theorem lexAll_lexemes : ∀ (ts : List Tok) (n : Nat), (∀ t ∈ ts, Lexeme t) → Separated ts → (ts.flatMap Tok.text).length ≤ n →
    lexAll n (ts.flatMap Tok.text) = ts
  | [], n, _, _, _ => by cases n <;> rfl
  | t :: ts, n, hl, hs, hn => by
    have ⟨hf, hs'⟩ : MayFollow t (ts.flatMap Tok.text) ∧ Separated ts := by cases hs; constructor <;> assumption
    have ht := hl t (by simp)
    match hc : t.text with
    | [] => exact absurd hc (lexeme_ne ht)
    | c :: s =>
      have hft : (t :: ts).flatMap Tok.text = c :: (s ++ ts.flatMap Tok.text) := by rw [List.flatMap_cons, hc]; rfl
      rw [hft] at hn ⊢
      cases n with
      | zero => simp at hn
      | succ n =>
        rw [lexAll, lexOne_lexeme ht hc hf]
        simp only [List.length_cons, List.length_append] at hn
        rw [lexAll_lexemes ts n (fun x hx => hl x (by simp [hx])) hs' (by omega)]
        rfl

/-! ## Every token is a lexical element -/

theorem takeWhile_all (p : Char → Bool) (s : Str) : ∀ c ∈ s.takeWhile p, p c = true := by
  induction s with
  | nil => simp
  | cons x s ih =>
    intro c hc
    rw [List.takeWhile_cons] at hc
    split at hc
    · rcases List.mem_cons.1 hc with rfl | hc
      · assumption
      · exact ih c hc
    · cases hc

theorem digits_exist {b : Nat} {p : Char → Bool} (hp : ∀ c, p c = true → ∃ v, v < b ∧ Verif.Spec.Gen.IsDigit c v) :
    ∀ (n : Nat) (s : Str), s.length = n → (∀ c ∈ s, p c = true) → ∃ v, Digits b s v
  | 0, s, hn, _ => by
    cases s with
    | nil => exact ⟨0, .nil⟩
    | cons => simp at hn
  | n + 1, s, hn, h => by
    rcases List.eq_nil_or_concat s with rfl | ⟨s', c, e⟩
    · simp at hn
    · rw [List.concat_eq_append] at e
      subst e
      obtain ⟨v, hv⟩ := digits_exist hp n s' (by simpa using hn) (fun x hx => h x (by simp [hx]))
      obtain ⟨d, hd, hc⟩ := hp c (h c (by simp))
      exact ⟨v * b + d, .snoc s' v c d hv hc hd⟩

theorem dec_val (c : Char) (h : isDecChar c = true) : ∃ v, v < 10 ∧ Verif.Spec.Gen.IsDigit c v := by
  rw [isDecChar_num] at h
  exact ⟨c.toNat - 48, by omega, by rw [isDigit_num]; omega⟩

theorem decimals_take {s : Str} (h : s.takeWhile isDecChar ≠ []) : Decimals (s.takeWhile isDecChar) :=
  ⟨h, fun c hc => (dec_digit c).1 (takeWhile_all _ _ c hc)⟩

theorem frac_take (s : Str) : s.takeWhile isDecChar = [] ∨ Decimals (s.takeWhile isDecChar) := by
  by_cases h : s.takeWhile isDecChar = []
  · exact .inl h
  · exact .inr (decimals_take h)

theorem take_prefix (p : Char → Bool) (s : Str) : s.takeWhile p ++ s.dropWhile p = s := List.takeWhile_append_dropWhile

theorem takeExp_sound (s : Str) : (takeExp s = [] ∨ Exponent (takeExp s)) ∧ takeExp s <+: s := by
  cases s with
  | nil => exact ⟨.inl rfl, List.prefix_refl _⟩
  | cons e s =>
    rw [takeExp]
    split
    · rename_i he
      cases s with
      | nil => exact ⟨.inl rfl, List.nil_prefix⟩
      | cons c s =>
        rw [expAfter]
        split
        · rename_i hc
          rw [expDigits]
          split
          · exact ⟨.inl rfl, List.nil_prefix⟩
          · rename_i hd
            exact ⟨.inr (.signed e c _ he hc (decimals_take hd)), s.dropWhile isDecChar, by
              show e :: c :: (s.takeWhile isDecChar ++ s.dropWhile isDecChar) = _; rw [take_prefix]⟩
        · rw [expDigits]
          split
          · exact ⟨.inl rfl, List.nil_prefix⟩
          · rename_i hd
            exact ⟨.inr (.plain e _ he (decimals_take hd)), (c :: s).dropWhile isDecChar, by
              show e :: ((c :: s).takeWhile isDecChar ++ (c :: s).dropWhile isDecChar) = _; rw [take_prefix]⟩
    · exact ⟨.inl rfl, List.nil_prefix⟩

theorem intLit_sound {c : Char} {s : Str} (hc : isDecChar c = true) : (∃ v, IntLit (intLit c s) v) ∧ intLit c s <+: c :: s := by
  rw [intLit]
  split
  · rename_i h0
    subst h0
    cases s with
    | nil => exact ⟨⟨0, .octal [] 0 .nil⟩, List.prefix_refl _⟩
    | cons x s =>
      rw [zeroLit]
      split
      · rename_i hx
        obtain ⟨v, hv⟩ := digits_exist (b := 16) (fun c h => (hexDigit_num c).2 h) _ _ rfl (takeWhile_all isHexChar s)
        exact ⟨⟨v, .hex x _ v hx.1 hx.2 hv⟩, s.dropWhile isHexChar, by
          show '0' :: x :: (s.takeWhile isHexChar ++ s.dropWhile isHexChar) = _; rw [take_prefix]⟩
      · obtain ⟨v, hv⟩ := digits_exist (b := 8) (fun c h => (octDigit_num c).2 h) _ _ rfl (takeWhile_all isOctChar (x :: s))
        exact ⟨⟨v, .octal _ v hv⟩, (x :: s).dropWhile isOctChar, by
          show '0' :: ((x :: s).takeWhile isOctChar ++ (x :: s).dropWhile isOctChar) = _; rw [take_prefix]⟩
  · rename_i h0
    obtain ⟨v, hv⟩ := digits_exist (b := 10) dec_val _ (c :: s.takeWhile isDecChar) rfl (fun x hx => by
      rcases List.mem_cons.1 hx with rfl | hx
      · exact hc
      · exact takeWhile_all _ _ x hx)
    exact ⟨⟨v, .decimal c _ v h0 hv⟩, s.dropWhile isDecChar, by
      show c :: (s.takeWhile isDecChar ++ s.dropWhile isDecChar) = _; rw [take_prefix]⟩

theorem numberLit_sound {c : Char} {s : Str} (hc : isDecChar c = true) :
    ((∃ v, IntLit (numberLit c s) v) ∨ FloatLit (numberLit c s)) ∧ numberLit c s <+: c :: s := by
  have hd : Decimals (c :: s.takeWhile isDecChar) := ⟨by simp, fun x hx => by
    rcases List.mem_cons.1 hx with rfl | hx
    · exact (dec_digit x).1 hc
    · exact (dec_digit x).1 (takeWhile_all _ _ x hx)⟩
  have hi := intLit_sound (s := s) hc
  have hs : c :: s = c :: s.takeWhile isDecChar ++ s.dropWhile isDecChar := by rw [List.cons_append, take_prefix]
  rw [numberLit]
  match hr : s.dropWhile isDecChar with
  | [] => exact ⟨.inl hi.1, hi.2⟩
  | x :: r =>
    rw [numberAfter]
    rw [hr] at hs
    split
    · rename_i hx
      subst hx
      refine ⟨.inr (.point _ _ _ hd (frac_take r) (takeExp_sound _).1), ?_⟩
      obtain ⟨u, hu⟩ := (takeExp_sound (r.dropWhile isDecChar)).2
      refine ⟨u, ?_⟩
      rw [hs, List.append_assoc]
      show _ ++ '.' :: (r.takeWhile isDecChar ++ takeExp (r.dropWhile isDecChar) ++ u) = _
      rw [List.append_assoc, hu, take_prefix]
    · split
      · rename_i hne
        obtain ⟨h1, u, hu⟩ := takeExp_sound (x :: r)
        refine ⟨.inr (.exp _ _ hd (h1.resolve_left hne)), u, ?_⟩
        rw [hs, List.append_assoc, hu]
      · exact ⟨.inl hi.1, hi.2⟩

theorem dotLit_sound (s : Str) : (dotLit s = ['.'] ∨ FloatLit (dotLit s)) ∧ dotLit s <+: '.' :: s := by
  rw [dotLit]
  split
  · exact ⟨.inl rfl, s, rfl⟩
  · rename_i h
    obtain ⟨h1, u, hu⟩ := takeExp_sound (s.dropWhile isDecChar)
    refine ⟨.inr (.dot _ _ (decimals_take h) h1), u, ?_⟩
    show '.' :: (s.takeWhile isDecChar ++ takeExp (s.dropWhile isDecChar) ++ u) = _
    rw [List.append_assoc, hu, take_prefix]

/-- What a string literal looks like from a place in it. -/
def StrRest (q : Char) : StrState → Str → Prop
  | .body, a => StrBody q a
  | .esc, a => StrBody q ('\\' :: a)
  | .hex n, a => n ≤ 1 ∧ ∀ x, x = 'x' ∨ x = 'X' → (n = 1 → StrBody q ('\\' :: x :: a)) ∧ (n = 0 → ∀ d, HexDigit d → StrBody q ('\\' :: x :: d :: a))
  | .oct n, a => n ≤ 1 ∧ ∀ d, OctDigit d → (n = 1 → StrBody q ('\\' :: d :: a)) ∧ (n = 0 → ∀ e, OctDigit e → StrBody q ('\\' :: d :: e :: a))

/-- The states in which a literal can be. -/
def StrOk : StrState → Prop
  | .hex n => n ≤ 1
  | .oct n => n ≤ 1
  | _ => True

theorem strNext_ok {q : Char} {st st' : StrState} {c : Char} (h : strNext q st c = some (some st')) (ho : StrOk st) : StrOk st' := by
  unfold strNext at h
  split at h
  · split at h
    · cases h
    · split at h
      · cases h; trivial
      · split at h <;> cases h; trivial
  · split at h
    · cases h; trivial
    · split at h
      · cases h; exact Nat.le_refl 1
      · split at h <;> cases h; exact Nat.le_refl 1
  · simp only [StrOk] at ho
    split at h
    · split at h
      · cases h; trivial
      · cases h; show _ - 1 ≤ 1; omega
    · cases h
  · simp only [StrOk] at ho
    split at h
    · split at h
      · cases h; trivial
      · cases h; show _ - 1 ≤ 1; omega
    · cases h

theorem strNext_rest {q : Char} {st st' : StrState} {c : Char} {a : Str} (h : strNext q st c = some (some st')) (ho : StrOk st) (hr : StrRest q st' a) :
    StrRest q st (c :: a) := by
  unfold strNext at h
  split at h
  · split at h
    · cases h
    · rename_i hq
      split at h
      · rename_i hb
        cases h; subst hb; exact hr
      · rename_i hb
        split at h
        · cases h
        · rename_i hn
          cases h
          exact .char c a hq hb (fun h => hn (.inr h)) (fun h => hn (.inl h)) hr
  · split at h
    · rename_i he
      cases h
      exact .escape c a ((isCharEscape_mem c).1 he) hr
    · split at h
      · rename_i hx
        cases h
        exact (hr.2 c hx).1 rfl
      · split at h
        · rename_i hx
          cases h
          exact (hr.2 c ((octDigit_num c).2 hx)).1 rfl
        · cases h
  · rename_i n
    split at h
    · rename_i hx
      have hx' := (hexDigit_num c).2 hx
      split at h
      · rename_i hn
        subst hn
        cases h
        exact ⟨by omega, fun x hxx => ⟨fun h => (by cases h), fun _ d hd => .hex x d c a hxx hd hx' hr⟩⟩
      · rename_i hn
        cases h
        have h1 : n = 1 := by simp only [StrOk] at ho; omega
        subst h1
        exact ⟨by omega, fun x hxx => ⟨fun _ => (hr.2 x hxx).2 rfl c hx', fun h => (by cases h)⟩⟩
    · cases h
  · rename_i n
    split at h
    · rename_i hx
      have hx' := (octDigit_num c).2 hx
      split at h
      · rename_i hn
        subst hn
        cases h
        exact ⟨by omega, fun x hxx => ⟨fun h => (by cases h), fun _ d hd => .oct x d c a hxx hd hx' hr⟩⟩
      · rename_i hn
        cases h
        have h1 : n = 1 := by simp only [StrOk] at ho; omega
        subst h1
        exact ⟨by omega, fun x hxx => ⟨fun _ => (hr.2 x hxx).2 rfl c hx', fun h => (by cases h)⟩⟩
    · cases h

theorem strScan_sound {q : Char} : ∀ (s : Str) (st : StrState) (a r : Str), StrOk st → strScan q st s = .ok (a, r) → StrRest q st a ∧ a ++ r = s
  | [], st, a, r, _, h => by rw [strScan] at h; cases h
  | c :: s, st, a, r, ho, h => by
    rw [strScan] at h
    split at h
    · cases h
    · rename_i hn
      cases h
      refine ⟨?_, rfl⟩
      unfold strNext at hn
      split at hn
      · split at hn
        · rename_i hq
          subst hq; exact .done
        · split at hn
          · cases hn
          · split at hn <;> cases hn
      · split at hn
        · cases hn
        · split at hn
          · cases hn
          · split at hn <;> cases hn
      · split at hn
        · split at hn <;> cases hn
        · cases hn
      · split at hn
        · split at hn <;> cases hn
        · cases hn
    · rename_i st' hn
      split at h
      · cases h
      · rename_i a' r' hs
        cases h
        obtain ⟨h1, h2⟩ := strScan_sound s st' a' r (strNext_ok hn ho) hs
        exact ⟨strNext_rest hn ho h1, by rw [List.cons_append, h2]⟩

theorem strScan_left {q : Char} : ∀ (s : Str) (st : StrState) (r : Str), strScan q st s = .error r → r <:+ s
  | [], st, r, h => by rw [strScan] at h; cases h; exact List.suffix_refl _
  | c :: s, st, r, h => by
    rw [strScan] at h
    split at h
    · cases h; exact List.suffix_cons _ _
    · cases h
    · split at h
      · rename_i hs
        cases h
        exact (strScan_left s _ r hs).trans (List.suffix_cons _ _)
      · cases h

theorem blockScan_sound : ∀ (s a r : Str), blockScan s = some (a, r) → (∃ b, a = b ++ ['*', '/'] ∧ ¬ ['*', '/'] <:+: b) ∧ a ++ r = s
  | [], a, r, h => by rw [blockScan] at h; cases h
  | c :: s, a, r, h => by
    rw [blockScan] at h
    split at h
    · rename_i hc
      cases h
      obtain ⟨rfl, h2⟩ := hc
      cases s with
      | nil => cases h2
      | cons d s =>
        simp only [List.head?_cons, Option.some.injEq] at h2
        subst h2
        exact ⟨⟨[], rfl, by rintro ⟨x, y, hxy⟩; simp at hxy⟩, rfl⟩
    · rename_i hc
      split at h
      · cases h
      · rename_i a' r' hs
        cases h
        obtain ⟨⟨b, hb, hnb⟩, hs'⟩ := blockScan_sound s a' r hs
        refine ⟨⟨c :: b, by rw [hb]; rfl, ?_⟩, by rw [List.cons_append, hs']⟩
        rintro ⟨x, y, hxy⟩
        cases x with
        | nil =>
          simp only [List.nil_append, List.cons_append, List.cons.injEq] at hxy
          obtain ⟨rfl, hy⟩ := hxy
          refine hc ⟨rfl, ?_⟩
          rw [← hs', hb, ← hy]; rfl
        | cons z x =>
          simp only [List.cons_append, List.cons.injEq] at hxy
          exact hnb ⟨x, y, hxy.2⟩

theorem lexVisible_sound {t s : Str} {k : Tok} (hp : t <+: s) (h : (lexVisible t s).1 = some k) : k = ⟨.visible, t⟩ ∧ k.text ++ (lexVisible t s).2 = s := by
  obtain ⟨u, rfl⟩ := hp
  cases h
  refine ⟨rfl, ?_⟩
  show t ++ (t ++ u).drop t.length = _
  rw [List.drop_left]

theorem symbol_mem {c : Char} (h : isSymbol c = true) : c ∈ ";=()[]{}<>.,:+-".toList := by
  simp only [isSymbol, Bool.or_eq_true, decide_eq_true_eq, or_assoc] at h
  rcases h with h | h | h | h | h | h | h | h | h | h | h | h | h | h <;> (rw [h]; decide)

theorem lexOne_sound {c : Char} {s : Str} {t : Tok} (h : (lexOne c s).1 = some t) : Lexeme t ∧ t.text ++ (lexOne c s).2 = c :: s := by
  unfold lexOne at h ⊢
  split at h
  · rename_i hc
    rw [if_pos hc]
    cases h
    refine ⟨.space _ (by rw [List.takeWhile_cons, if_pos hc]; simp) (fun x hx => (ws_blank x).1 (takeWhile_all _ _ x hx)), ?_⟩
    exact take_prefix _ _
  · rename_i hc
    rw [if_neg hc]
    split at h
    · rename_i hl
      rw [if_pos hl]
      obtain ⟨h1, h2⟩ := lexVisible_sound ⟨_, take_prefix isWordChar (c :: s)⟩ h
      refine ⟨?_, h2⟩
      rw [h1]
      have hw : isWordChar c = true := by rw [isWordChar, hl]; rfl
      have hl' := (isLetter_num c).1 hl
      exact .word _ ⟨c, s.takeWhile isWordChar, by rw [List.takeWhile_cons, if_pos hw], by rw [digit_num]; omega,
        fun x hx => (word_ident x).1 (takeWhile_all _ _ x hx)⟩
    · rename_i hl
      rw [if_neg hl]
      split at h
      · rename_i hd
        rw [if_pos hd]
        obtain ⟨hn, hp⟩ := numberLit_sound (s := s) hd
        obtain ⟨h1, h2⟩ := lexVisible_sound hp h
        refine ⟨?_, h2⟩
        rw [h1]
        rcases hn with ⟨v, hv⟩ | hv
        · exact .int _ v hv
        · exact .float _ hv
      · rename_i hd
        rw [if_neg hd]
        split at h
        · rename_i hdot
          subst hdot
          rw [if_pos rfl]
          obtain ⟨hn, hp⟩ := dotLit_sound s
          obtain ⟨h1, h2⟩ := lexVisible_sound hp h
          refine ⟨?_, h2⟩
          rw [h1]
          rcases hn with hv | hv
          · rw [hv]; exact .symbol '.' (by decide)
          · exact .float _ hv
        · rename_i hdot
          rw [if_neg hdot]
          split at h
          · rename_i hq
            rw [if_pos hq]
            unfold lexStr at h ⊢
            split at h
            · rename_i a r hs
              cases h
              obtain ⟨h1, h2⟩ := strScan_sound s .body a r trivial hs
              exact ⟨.str c a hq.symm.symm h1, by show c :: (a ++ r) = _; rw [h2]⟩
            · cases h
          · rename_i hq
            rw [if_neg hq]
            split at h
            · rename_i hsl
              subst hsl
              rw [if_pos rfl]
              cases s with
              | nil => cases h
              | cons d s =>
                rw [lexSlash] at h ⊢
                split at h
                · rename_i hd'
                  subst hd'
                  rw [if_pos rfl]
                  cases h
                  refine ⟨.line _ (fun x hx => ?_), ?_⟩
                  · have := takeWhile_all _ _ x hx
                    simpa [notEol] using this
                  · show '/' :: '/' :: (_ ++ _) = _
                    rw [take_prefix]
                · rename_i hd'
                  rw [if_neg hd']
                  split at h
                  · rename_i hd''
                    subst hd''
                    rw [if_pos rfl]
                    split at h
                    · rename_i a r hs
                      cases h
                      obtain ⟨⟨b, hb, hnb⟩, h2⟩ := blockScan_sound s a r hs
                      refine ⟨by rw [hb]; exact .block b hnb, ?_⟩
                      show '/' :: '*' :: (a ++ r) = _
                      rw [h2]
                    · cases h
                  · cases h
            · rename_i hsl
              rw [if_neg hsl]
              split at h
              · rename_i hsy
                rw [if_pos hsy]
                obtain ⟨h1, h2⟩ := lexVisible_sound (t := [c]) ⟨s, rfl⟩ h
                refine ⟨?_, h2⟩
                rw [h1]
                exact .symbol c (symbol_mem hsy)
              · cases h

theorem lexOne_left {c : Char} {s : Str} (h : (lexOne c s).1 = none) : (lexOne c s).2 <:+ s := by
  unfold lexOne at h ⊢
  split at h
  · cases h
  · rename_i hc
    rw [if_neg hc]
    split at h
    · cases h
    · rename_i hl
      rw [if_neg hl]
      split at h
      · cases h
      · rename_i hd
        rw [if_neg hd]
        split at h
        · cases h
        · rename_i hdot
          rw [if_neg hdot]
          split at h
          · rename_i hq
            rw [if_pos hq]
            unfold lexStr at h ⊢
            split at h
            · cases h
            · rename_i r hs
              exact strScan_left s _ r hs
          · rename_i hq
            rw [if_neg hq]
            split at h
            · rename_i hsl
              rw [if_pos hsl]
              cases s with
              | nil => exact List.suffix_refl _
              | cons d s =>
                rw [lexSlash] at h ⊢
                split at h
                · cases h
                · rename_i hd'
                  rw [if_neg hd']
                  split at h
                  · rename_i hd''
                    rw [if_pos hd'']
                    split at h
                    · cases h
                    · rename_i hs
                      exact List.nil_suffix
                  · rename_i hd''
                    rw [if_neg hd'']
                    exact List.suffix_cons _ _
            · rename_i hsl
              rw [if_neg hsl]
              split at h
              · cases h
              · rename_i hsy
                rw [if_neg hsy]
                exact List.suffix_refl _

theorem lexOne_shorter (c : Char) (s : Str) : (lexOne c s).2.length ≤ s.length := by
  match h : (lexOne c s).1 with
  | none => exact (lexOne_left h).length_le
  | some t =>
    obtain ⟨h1, h2⟩ := lexOne_sound h
    have h3 := congrArg List.length h2
    have h4 : t.text.length ≠ 0 := fun h => lexeme_ne h1 (List.eq_nil_of_length_eq_zero h)
    simp only [List.length_append, List.length_cons] at h3
    omega

theorem lexAll_sound : ∀ (n : Nat) (s : Str), (∀ t ∈ lexAll n s, Lexeme t) ∧ ((lexAll n s).flatMap Tok.text).Sublist s
  | 0, s => by simp [lexAll]
  | n + 1, [] => by simp [lexAll]
  | n + 1, c :: s => by
    obtain ⟨h1, h2⟩ := lexAll_sound n (lexOne c s).2
    rw [lexAll]
    match h : (lexOne c s).1 with
    | none =>
      simp only [Option.toList_none, List.nil_append]
      exact ⟨h1, (h2.trans (lexOne_left h).sublist).trans (List.sublist_cons_self c s)⟩
    | some t =>
      obtain ⟨h3, h4⟩ := lexOne_sound h
      simp only [Option.toList_some, List.cons_append, List.nil_append, List.flatMap_cons]
      refine ⟨fun x hx => ?_, ?_⟩
      · rcases List.mem_cons.1 hx with rfl | hx
        · exact h3
        · exact h1 x hx
      · rw [← h4]
        exact (List.Sublist.refl _).append h2

/-- The bound does not matter once it is the length of the text. -/
theorem lexAll_enough : ∀ (n : Nat) (s : Str), s.length ≤ n → lexAll n s = lex s := by
  suffices h : ∀ (n m : Nat) (s : Str), s.length ≤ n → s.length ≤ m → lexAll n s = lexAll m s by
    exact fun n s hn => h n s.length s hn (Nat.le_refl _)
  intro n
  induction n with
  | zero =>
    intro m s hn _
    cases s with
    | nil => cases m <;> rfl
    | cons => simp at hn
  | succ n ih =>
    intro m s hn hm
    cases s with
    | nil => cases m <;> rfl
    | cons c s =>
      cases m with
      | zero => simp at hm
      | succ m =>
        have := lexOne_shorter c s
        simp only [List.length_cons] at hn hm
        rw [lexAll, lexAll, ih m _ (by omega) (by omega)]

end Verif.Lemmas.Gen
