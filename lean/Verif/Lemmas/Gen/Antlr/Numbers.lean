import Verif.Lemmas.Gen.Antlr.Run
/-!
# Runs through the table of the lexer: numbers
-/
namespace Verif.Lemmas.Gen.Antlr
open Verif.Model.Gen Verif.Model.Gen.Antlr Verif.Spec.Gen
open Verif.Lemmas.Gen

theorem drop_take (p : Char → Bool) : ∀ s : Str, s.drop (s.takeWhile p).length = s.dropWhile p
  | [] => rfl
  | c :: s => by
    by_cases h : p c = true
    · simp only [List.takeWhile_cons, List.dropWhile_cons, h, if_true, List.length_cons, List.drop_succ_cons]
      exact drop_take p s
    · simp [List.takeWhile_cons, List.dropWhile_cons, h]

theorem take_ne {p : Char → Bool} {c : Char} {s : Str} (h : p c = true) : (c :: s).takeWhile p ≠ [] := by simp [List.takeWhile_cons, h]
theorem take_nil {p : Char → Bool} {c : Char} {s : Str} (h : p c = false) : (c :: s).takeWhile p = [] := by simp [List.takeWhile_cons, h]
theorem drop_step {p : Char → Bool} {c : Char} {s : Str} (h : p c = true) : (c :: s).dropWhile p = s.dropWhile p := by simp [List.dropWhile_cons, h]
theorem drop_stop {p : Char → Bool} {c : Char} {s : Str} (h : p c = false) : (c :: s).dropWhile p = c :: s := by simp [List.dropWhile_cons, h]

/-- A state where characters of a kind are needed. -/
theorem run_need {i j t : Nat} {f : Char → Bool} (ha : accOf j = some (t, none)) (hj : ∀ c, next j c = if f c then some j else none)
    (hi : ∀ c, next i c = if f c then some j else none) (s : Str) (p : Option Accept) :
    (run i s p).1 = if s.takeWhile f = [] then p else some ⟨s.dropWhile f, t, none⟩ := by
  cases s with
  | nil => rfl
  | cons c s =>
    by_cases h : f c = true
    · rw [run_step (by rw [hi, if_pos h]), accept_some ha, run_loop ha hj, if_neg (take_ne h), drop_step h]
    · rw [run_stop (by rw [hi, if_neg h]), if_pos (take_nil (by simpa using h))]

/-- The states of an exponent: after the letter, after the sign, digits. -/
structure ExpStates (e s g : Nat) : Prop where
  acc : accOf e = none ∧ accOf s = none ∧ accOf g = some (56, none)
  letter : ∀ c, next e c = if c = '+' ∨ c = '-' then some s else if isDecChar c then some g else none
  sign : ∀ c, next s c = if isDecChar c then some g else none
  digit : ∀ c, next g c = if isDecChar c then some g else none

theorem run_exp {e s g : Nat} (h : ExpStates e s g) (l : Char) (t : Str) (p : Option Accept) :
    (run e t p).1 = if expAfter l t = [] then p else some ⟨t.drop ((expAfter l t).length - 1), 56, none⟩ := by
  cases t with
  | nil => rfl
  | cons c t =>
    rw [expAfter]
    by_cases hc : c = '+' ∨ c = '-'
    · rw [run_step (by rw [h.letter, if_pos hc]), accept_none h.acc.2.1, run_need h.acc.2.2 h.digit h.sign, if_pos hc, expDigits]
      by_cases ht : t.takeWhile isDecChar = []
      · rw [if_pos ht, if_pos ht, if_pos rfl]
      · rw [if_neg ht, if_neg ht, if_neg (by simp)]
        simp only [List.cons_append, List.nil_append, List.length_cons, Nat.add_sub_cancel, List.drop_succ_cons, drop_take]
    · rw [if_neg hc, expDigits]
      by_cases hd : isDecChar c = true
      · rw [run_step (by rw [h.letter, if_neg hc, if_pos hd]), accept_some h.acc.2.2, run_loop h.acc.2.2 h.digit, if_neg (take_ne hd), if_neg (by simp)]
        simp only [List.cons_append, List.nil_append, List.length_cons, Nat.add_sub_cancel, drop_take, drop_step hd]
      · rw [run_stop (by rw [h.letter, if_neg hc, if_neg hd]), if_pos (take_nil (by simpa using hd)), if_pos rfl]

/-- What is accepted with an exponent, if there is one. -/
def expRest (s : Str) (p : Option Accept) : Option Accept :=
  if takeExp s = [] then p else some ⟨s.drop (takeExp s).length, 56, none⟩

theorem expAfter_len (l : Char) (t : Str) (h : expAfter l t ≠ []) : (expAfter l t).length = (expAfter l t).length - 1 + 1 := by
  have : 0 < (expAfter l t).length := List.length_pos_iff.mpr h
  omega

theorem run_expRest {i e s g : Nat} (h : ExpStates e s g) {c : Char} (hc : c = 'e' ∨ c = 'E') (hi : next i c = some e) (t : Str) (p : Option Accept) :
    (run i (c :: t) p).1 = expRest (c :: t) p := by
  rw [run_step hi, accept_none h.acc.1, run_exp h c, expRest, takeExp, if_pos hc]
  by_cases ht : expAfter c t = []
  · rw [if_pos ht, if_pos ht]
  · rw [if_neg ht, if_neg ht]
    conv => rhs; rw [expAfter_len c t ht, List.drop_succ_cons]

theorem expRest_other {c : Char} (hc : ¬ (c = 'e' ∨ c = 'E')) (t : Str) (p : Option Accept) : expRest (c :: t) p = p := by
  rw [expRest, takeExp, if_neg hc, if_pos rfl]

/-- The digits after a point. -/
theorem run_frac {f e s g : Nat} (h : ExpStates e s g) (ha : accOf f = some (56, none))
    (hf : ∀ c, next f c = if isDecChar c then some f else if c = 'e' ∨ c = 'E' then some e else none) :
    ∀ t : Str, (run f t (some ⟨t, 56, none⟩)).1 = expRest (t.dropWhile isDecChar) (some ⟨t.dropWhile isDecChar, 56, none⟩)
  | [] => rfl
  | c :: t => by
    by_cases hd : isDecChar c = true
    · rw [run_step (by rw [hf, if_pos hd]), accept_some ha, run_frac h ha hf t, drop_step hd]
    · rw [drop_stop (by simpa using hd)]
      by_cases he : c = 'e' ∨ c = 'E'
      · exact run_expRest h he (by rw [hf, if_neg hd, if_pos he]) t _
      · rw [run_stop (by rw [hf, if_neg hd, if_neg he]), expRest_other he]

theorem exp46 : ExpStates 46 84 85 := by
  refine ⟨⟨rfl, rfl, rfl⟩, ?_, ?_, ?_⟩ <;> intro c
  · have h1 : c = '+' ↔ c.toNat = 43 := charEq c _
    have h2 : c = '-' ↔ c.toNat = 45 := charEq c _
    rw [next_row (r := row46) rfl]
    simp only [row46, nextIn_cons, nextIn_nil, h1, h2, isDecChar_num]
    repeat' split
    all_goals first | rfl | (exfalso; omega)
  · rw [next_row (r := row84) rfl]
    simp only [row84, nextIn_cons, nextIn_nil, isDecChar_num]
    repeat' split
    all_goals first | rfl | (exfalso; omega)
  · rw [next_row (r := row85) rfl]
    simp only [row85, nextIn_cons, nextIn_nil, isDecChar_num]
    repeat' split
    all_goals first | rfl | (exfalso; omega)

theorem exp83 : ExpStates 83 126 127 := by
  refine ⟨⟨rfl, rfl, rfl⟩, ?_, ?_, ?_⟩ <;> intro c
  · have h1 : c = '+' ↔ c.toNat = 43 := charEq c _
    have h2 : c = '-' ↔ c.toNat = 45 := charEq c _
    rw [next_row (r := row83) rfl]
    simp only [row83, nextIn_cons, nextIn_nil, h1, h2, isDecChar_num]
    repeat' split
    all_goals first | rfl | (exfalso; omega)
  · rw [next_row (r := row126) rfl]
    simp only [row126, nextIn_cons, nextIn_nil, isDecChar_num]
    repeat' split
    all_goals first | rfl | (exfalso; omega)
  · rw [next_row (r := row127) rfl]
    simp only [row127, nextIn_cons, nextIn_nil, isDecChar_num]
    repeat' split
    all_goals first | rfl | (exfalso; omega)

theorem exp81 : ExpStates 81 123 124 := by
  refine ⟨⟨rfl, rfl, rfl⟩, ?_, ?_, ?_⟩ <;> intro c
  · have h1 : c = '+' ↔ c.toNat = 43 := charEq c _
    have h2 : c = '-' ↔ c.toNat = 45 := charEq c _
    rw [next_row (r := row81) rfl]
    simp only [row81, nextIn_cons, nextIn_nil, h1, h2, isDecChar_num]
    repeat' split
    all_goals first | rfl | (exfalso; omega)
  · rw [next_row (r := row123) rfl]
    simp only [row123, nextIn_cons, nextIn_nil, isDecChar_num]
    repeat' split
    all_goals first | rfl | (exfalso; omega)
  · rw [next_row (r := row124) rfl]
    simp only [row124, nextIn_cons, nextIn_nil, isDecChar_num]
    repeat' split
    all_goals first | rfl | (exfalso; omega)

theorem e_num (c : Char) : c = 'e' ↔ c.toNat = 101 := charEq c _
theorem E_num (c : Char) : c = 'E' ↔ c.toNat = 69 := charEq c _
theorem dot_num (c : Char) : c = '.' ↔ c.toNat = 46 := charEq c _
theorem x_num (c : Char) : c = 'x' ↔ c.toNat = 120 := charEq c _
theorem X_num (c : Char) : c = 'X' ↔ c.toNat = 88 := charEq c _

theorem next43 (c : Char) : next 43 c = if isDecChar c then some 43 else if c = 'e' ∨ c = 'E' then some 83 else none := by
  rw [next_row (r := row43) rfl]
  simp only [row43, nextIn_cons, nextIn_nil, isDecChar_num, e_num, E_num]
  repeat' split
  all_goals first | rfl | (exfalso; omega)

theorem next40 (c : Char) : next 40 c = if isDecChar c then some 40 else if c = 'e' ∨ c = 'E' then some 81 else none := by
  rw [next_row (r := row40) rfl]
  simp only [row40, nextIn_cons, nextIn_nil, isDecChar_num, e_num, E_num]
  repeat' split
  all_goals first | rfl | (exfalso; omega)

theorem next9 (c : Char) : next 9 c = if isDecChar c then some 40 else none := by
  rw [next_row (r := row9) rfl]
  simp only [row9, nextIn_cons, nextIn_nil, isDecChar_num]
  repeat' split
  all_goals first | rfl | (exfalso; omega)

theorem next12 (c : Char) : next 12 c = if isDecChar c then some 12 else if c = '.' then some 43 else if c = 'e' ∨ c = 'E' then some 46 else none := by
  rw [next_row (r := row12) rfl]
  simp only [row12, nextIn_cons, nextIn_nil, isDecChar_num, e_num, E_num, dot_num]
  repeat' split
  all_goals first | rfl | (exfalso; omega)

theorem next45 (c : Char) : next 45 c = if isDecChar c then some 45 else if c = '.' then some 43 else if c = 'e' ∨ c = 'E' then some 46 else none := by
  rw [next_row (r := row45) rfl]
  simp only [row45, nextIn_cons, nextIn_nil, isDecChar_num, e_num, E_num, dot_num]
  repeat' split
  all_goals first | rfl | (exfalso; omega)

theorem next44 (c : Char) : next 44 c = if isOctChar c then some 44 else if isDecChar c then some 45 else if c = '.' then some 43 else
    if c = 'e' ∨ c = 'E' then some 46 else none := by
  rw [next_row (r := row44) rfl]
  simp only [row44, nextIn_cons, nextIn_nil, isDecChar_num, isOctChar_num, e_num, E_num, dot_num]
  repeat' split
  all_goals first | rfl | (exfalso; omega)

theorem next11 (c : Char) : next 11 c = if isOctChar c then some 44 else if isDecChar c then some 45 else if c = '.' then some 43 else
    if c = 'e' ∨ c = 'E' then some 46 else if c = 'x' ∨ c = 'X' then some 47 else none := by
  rw [next_row (r := row11) rfl]
  by_cases hn : c.toNat < 128
  · have h : ((List.range 128).all fun n => decide (nextIn row11.edges n = if isOctChar (Char.ofNat n) then some 44 else if isDecChar (Char.ofNat n) then
        some 45 else if Char.ofNat n = '.' then some 43 else if Char.ofNat n = 'e' ∨ Char.ofNat n = 'E' then some 46 else
        if Char.ofNat n = 'x' ∨ Char.ofNat n = 'X' then some 47 else none)) = true := by decide +kernel
    have := range_all h hn
    simpa only [Char.ofNat_toNat, decide_eq_true_eq] using this
  · rw [nextIn_high _ (by decide +kernel) _ (by omega)]
    simp only [isDecChar_num, isOctChar_num, e_num, E_num, dot_num, x_num, X_num]
    repeat' split
    all_goals first | rfl | (exfalso; omega)

theorem next47 (c : Char) : next 47 c = if isHexChar c then some 86 else none := by
  rw [next_row (r := row47) rfl]
  simp only [row47, nextIn_cons, nextIn_nil, isHexChar_num]
  repeat' split
  all_goals first | rfl | (exfalso; omega)

theorem next86 (c : Char) : next 86 c = if isHexChar c then some 86 else none := by
  rw [next_row (r := row86) rfl]
  simp only [row86, nextIn_cons, nextIn_nil, isHexChar_num]
  repeat' split
  all_goals first | rfl | (exfalso; omega)

/-- What is accepted after the decimal digits of a number: with a point, an exponent, or what was accepted before. -/
def numEnd : Str → Option Accept → Option Accept
  | [], p => p
  | c :: t, p => if c = '.' then expRest (t.dropWhile isDecChar) (some ⟨t.dropWhile isDecChar, 56, none⟩) else expRest (c :: t) p

theorem run_numEnd {i : Nat} {c : Char} (hn : next i c = if c = '.' then some 43 else if c = 'e' ∨ c = 'E' then some 46 else none) (t : Str)
    (p : Option Accept) : (run i (c :: t) p).1 = numEnd (c :: t) p := by
  rw [numEnd]
  by_cases hd : c = '.'
  · rw [run_step (by rw [hn, if_pos hd]), accept_some (t := 56) (e := none) rfl, run_frac exp83 rfl next43, if_pos hd]
  · rw [if_neg hd]
    by_cases he : c = 'e' ∨ c = 'E'
    · exact run_expRest exp46 he (by rw [hn, if_neg hd, if_pos he]) t p
    · rw [run_stop (by rw [hn, if_neg hd, if_neg he]), expRest_other he]

theorem run45 : ∀ (s : Str) (p : Option Accept), (run 45 s p).1 = numEnd (s.dropWhile isDecChar) p
  | [], _ => rfl
  | c :: s, p => by
    by_cases hd : isDecChar c = true
    · rw [run_step (by rw [next45, if_pos hd]), accept_none rfl, run45 s p, drop_step hd]
    · rw [drop_stop (by simpa using hd)]
      exact run_numEnd (by rw [next45, if_neg hd]) s p

theorem run12 : ∀ s : Str, (run 12 s (some ⟨s, 57, none⟩)).1 = numEnd (s.dropWhile isDecChar) (some ⟨s.dropWhile isDecChar, 57, none⟩)
  | [] => rfl
  | c :: s => by
    by_cases hd : isDecChar c = true
    · rw [run_step (by rw [next12, if_pos hd]), accept_some (t := 57) (e := none) rfl, run12 s, drop_step hd]
    · rw [drop_stop (by simpa using hd)]
      exact run_numEnd (by rw [next12, if_neg hd]) s _

theorem oct_dec {c : Char} (h : isOctChar c = true) : isDecChar c = true := by
  rw [isOctChar_num] at h
  rw [isDecChar_num]
  omega

theorem dec_no_oct {c : Char} (h : ¬ isDecChar c = true) : isOctChar c = false := by
  cases ho : isOctChar c with
  | false => rfl
  | true => exact absurd (oct_dec ho) h

theorem run44 : ∀ s : Str, (run 44 s (some ⟨s, 57, none⟩)).1 = numEnd (s.dropWhile isDecChar) (some ⟨s.dropWhile isOctChar, 57, none⟩)
  | [] => rfl
  | c :: s => by
    by_cases ho : isOctChar c = true
    · rw [run_step (by rw [next44, if_pos ho]), accept_some (t := 57) (e := none) rfl, run44 s, drop_step ho, drop_step (oct_dec ho)]
    · rw [drop_stop (p := isOctChar) (by simpa using ho)]
      by_cases hd : isDecChar c = true
      · rw [run_step (by rw [next44, if_neg ho, if_pos hd]), accept_none rfl, run45, drop_step hd]
      · rw [drop_stop (by simpa using hd)]
        exact run_numEnd (by rw [next44, if_neg ho, if_neg hd]) s _

theorem run11 (s : Str) (hx : ∀ c t, s = c :: t → ¬ (c = 'x' ∨ c = 'X')) :
    (run 11 s (some ⟨s, 57, none⟩)).1 = numEnd (s.dropWhile isDecChar) (some ⟨s.dropWhile isOctChar, 57, none⟩) := by
  cases s with
  | nil => rfl
  | cons c s =>
    by_cases ho : isOctChar c = true
    · rw [run_step (by rw [next11, if_pos ho]), accept_some (t := 57) (e := none) rfl, run44 s, drop_step ho, drop_step (oct_dec ho)]
    · rw [drop_stop (p := isOctChar) (by simpa using ho)]
      by_cases hd : isDecChar c = true
      · rw [run_step (by rw [next11, if_neg ho, if_pos hd]), accept_none rfl, run45, drop_step hd]
      · rw [drop_stop (by simpa using hd)]
        exact run_numEnd (by rw [next11, if_neg ho, if_neg hd, if_neg (hx c s rfl)]) s _

theorem run11_hex {c : Char} (hc : c = 'x' ∨ c = 'X') (s : Str) (p : Option Accept) :
    (run 11 (c :: s) p).1 = if s.takeWhile isHexChar = [] then p else some ⟨s.dropWhile isHexChar, 57, none⟩ := by
  have h : next 11 c = some 47 := by rcases hc with rfl | rfl <;> decide +kernel
  rw [run_step h, accept_none rfl]
  exact run_need rfl next86 next47 s p

/-- What is accepted for the number `lit` at the beginning of a text. -/
theorem numEnd_lit {c : Char} {s int : Str} (hc : isDecChar c = true) (hi : ∃ v, IntLit int v) :
    ∃ ty, numEnd (s.dropWhile isDecChar) (some ⟨(c :: s).drop int.length, 57, none⟩) =
        some ⟨(c :: s).drop (numberAfter (c :: s.takeWhile isDecChar) int (s.dropWhile isDecChar)).length, ty, none⟩ ∧
      TokenType ⟨.visible, numberAfter (c :: s.takeWhile isDecChar) int (s.dropWhile isDecChar)⟩ ty 0 := by
  have hd : Decimals (c :: s.takeWhile isDecChar) := ⟨by simp, fun x hx => by
    rcases List.mem_cons.1 hx with rfl | hx
    · exact (dec_digit x).1 hc
    · exact (dec_digit x).1 (takeWhile_all _ _ x hx)⟩
  have hs : c :: s = (c :: s.takeWhile isDecChar) ++ s.dropWhile isDecChar := by rw [List.cons_append, take_prefix]
  obtain ⟨v, hv⟩ := hi
  generalize s.dropWhile isDecChar = r at hs
  generalize c :: s.takeWhile isDecChar = ds at hd hs
  rw [hs]
  match r with
  | [] => exact ⟨57, rfl, .int _ v hv⟩
  | x :: t =>
    rw [numEnd, numberAfter]
    by_cases hx : x = '.'
    · subst hx
      rw [if_pos rfl, if_pos rfl]
      refine ⟨56, ?_, .float _ (.point _ _ _ hd (frac_take t) (takeExp_sound _).1)⟩
      have e : (ds ++ '.' :: t).drop (ds ++ '.' :: (t.takeWhile isDecChar ++ takeExp (t.dropWhile isDecChar))).length =
          (t.dropWhile isDecChar).drop (takeExp (t.dropWhile isDecChar)).length := by
        simp only [List.length_append, List.length_cons]
        rw [show ds.length + ((t.takeWhile isDecChar).length + (takeExp (t.dropWhile isDecChar)).length + 1) =
          ds.length + (1 + ((t.takeWhile isDecChar).length + (takeExp (t.dropWhile isDecChar)).length)) by omega, ← List.drop_drop, List.drop_left,
          ← List.drop_drop, ← List.drop_drop]
        show (List.drop _ (List.drop _ t)) = _
        rw [drop_take]
      rw [e, expRest]
      split
      · rename_i he
        rw [he]
        rfl
      · rfl
    · rw [if_neg hx, if_neg hx]
      by_cases he : takeExp (x :: t) = []
      · rw [if_neg (by simpa using he), expRest, if_pos he]
        exact ⟨57, rfl, .int _ v hv⟩
      · rw [if_pos he, expRest, if_neg he]
        refine ⟨56, ?_, .float _ (.exp _ _ hd ((takeExp_sound _).1.resolve_left he))⟩
        rw [List.length_append, ← List.drop_drop, List.drop_left]

theorem next0_zero : next 0 '0' = some 11 := by decide +kernel

theorem next0_digit {c : Char} (hc : isDecChar c = true) (h0 : c ≠ '0') : next 0 c = some 12 := by
  have hn : c.toNat < 128 := by
    have := (isDecChar_num c).1 hc
    omega
  have h : ((List.range 128).all fun n => !(isDecChar (Char.ofNat n) && decide (Char.ofNat n ≠ '0')) || decide (nextIn row0.edges n = some 12)) = true := by
    decide +kernel
  have := range_all h hn
  rw [Char.ofNat_toNat, hc] at this
  rw [next_row get0]
  simpa [h0] using this

theorem run_number {c : Char} (hc : isDecChar c = true) (s : Str) :
    ∃ ty, (run 0 (c :: s) none).1 = some ⟨(c :: s).drop (numberLit c s).length, ty, none⟩ ∧ TokenType ⟨.visible, numberLit c s⟩ ty 0 := by
  have hi := (intLit_sound (s := s) hc).1
  rw [numberLit]
  by_cases h0 : c = '0'
  · subst h0
    rw [run_step next0_zero, accept_some (t := 57) (e := none) rfl]
    by_cases hx : ∃ x t, s = x :: t ∧ (x = 'x' ∨ x = 'X')
    · obtain ⟨x, t, rfl, hx⟩ := hx
      rw [run11_hex hx]
      have hnd : isDecChar x = false := by rcases hx with rfl | rfl <;> rfl
      have hno : isOctChar x = false := by rcases hx with rfl | rfl <;> rfl
      have hnx : numberAfter ('0' :: (x :: t).takeWhile isDecChar) (intLit '0' (x :: t)) (x :: t) = intLit '0' (x :: t) := by
        rw [numberAfter, if_neg (by rcases hx with rfl | rfl <;> decide), if_neg]
        rw [takeExp, if_neg (by rcases hx with rfl | rfl <;> decide)]
        simp
      rw [drop_stop hnd, hnx]
      refine ⟨57, ?_, .int _ _ hi.choose_spec⟩
      rw [intLit, if_pos rfl, zeroLit]
      by_cases ht : t.takeWhile isHexChar = []
      · rw [if_pos ht, if_neg (fun h => h.2 ht), take_nil hno]
        rfl
      · rw [if_neg ht, if_pos ⟨hx, ht⟩]
        simp only [List.length_cons, List.drop_succ_cons, drop_take]
    · rw [run11 s (fun x t e h => hx ⟨x, t, e, h⟩)]
      have e : s.dropWhile isOctChar = ('0' :: s).drop (intLit '0' s).length := by
        rw [intLit, if_pos rfl]
        cases s with
        | nil => rfl
        | cons x t =>
          rw [zeroLit, if_neg (fun h => hx ⟨x, t, rfl, h.1⟩)]
          simp only [List.length_cons, List.drop_succ_cons, drop_take]
      rw [e]
      exact numEnd_lit hc hi
  · rw [run_step (next0_digit hc h0), accept_some (t := 57) (e := none) rfl, run12]
    have e : s.dropWhile isDecChar = (c :: s).drop (intLit c s).length := by
      rw [intLit, if_neg h0]
      simp only [List.length_cons, List.drop_succ_cons, drop_take]
    have := numEnd_lit (s := s) hc hi
    rw [← e] at this
    exact this

theorem run_dot (s : Str) :
    ∃ ty, (run 0 ('.' :: s) none).1 = some ⟨('.' :: s).drop (dotLit s).length, ty, none⟩ ∧ TokenType ⟨.visible, dotLit s⟩ ty 0 := by
  rw [run_step (j := 9) (by decide +kernel), accept_some (t := 49) (e := none) rfl, dotLit]
  by_cases hd : s.takeWhile isDecChar = []
  · rw [if_pos hd]
    refine ⟨49, ?_, .symbol 10 '.' rfl⟩
    cases s with
    | nil => rfl
    | cons c s =>
      have : ¬ isDecChar c = true := fun h => take_ne h hd
      rw [run_stop (by rw [next9, if_neg this])]
      rfl
  · rw [if_neg hd]
    refine ⟨56, ?_, .float _ (.dot _ _ (decimals_take hd) (takeExp_sound _).1)⟩
    cases s with
    | nil => exact absurd rfl hd
    | cons c s =>
      by_cases hc : isDecChar c = true
      · rw [run_step (by rw [next9, if_pos hc]), accept_some (t := 56) (e := none) rfl, run_frac exp81 rfl next40]
        have e : ('.' :: c :: s).drop ('.' :: ((c :: s).takeWhile isDecChar ++ takeExp ((c :: s).dropWhile isDecChar))).length =
            (s.dropWhile isDecChar).drop (takeExp (s.dropWhile isDecChar)).length := by
          simp only [List.length_cons, List.length_append, List.drop_succ_cons]
          rw [← List.drop_drop, drop_take, drop_step hc]
        rw [e, expRest]
        split
        · rename_i he
          rw [he]
          rfl
        · rfl
      · exact absurd (take_nil (by simpa using hc)) hd

end Verif.Lemmas.Gen.Antlr
