import Verif.Model.Gen.Num
import Verif.Spec.Gen.Literals
/-!
# C53: integer literals
-/
namespace Verif.Props
open Verif.Spec.Gen Verif.Model.Gen

namespace Gen

theorem digitVal_of {c : Char} {v : Nat} (h : IsDigit c v) : digitVal c = v := by
  simp only [IsDigit, show '0'.toNat = 48 from rfl, show 'a'.toNat = 97 from rfl, show 'A'.toNat = 65 from rfl] at h
  unfold digitVal
  rcases h with h | h | h
  · rw [if_pos (by omega)]; omega
  · rw [if_neg (by omega), if_pos (by omega)]; omega
  · rw [if_neg (by omega), if_neg (by omega), if_pos (by omega)]; omega

theorem isDigit_of {c : Char} (h : digitVal c < 16) : IsDigit c (digitVal c) := by
  simp only [IsDigit, show '0'.toNat = 48 from rfl, show 'a'.toNat = 97 from rfl, show 'A'.toNat = 65 from rfl]
  unfold digitVal at *
  split at h
  · rw [if_pos (by assumption)]; omega
  · split at h
    · rw [if_neg (by assumption), if_pos (by assumption)]; omega
    · split at h
      · rw [if_neg (by assumption), if_neg (by assumption), if_pos (by assumption)]; omega
      · omega

theorem parseDigits_append (b : Nat) (s t : Str) : ∀ n, parseDigits b n (s ++ t) = (parseDigits b n s).bind fun m => parseDigits b m t := by
  induction s with
  | nil => intro n; rfl
  | cons c s ih =>
    intro n
    simp only [List.cons_append, parseDigits]
    split
    · exact ih _
    · rfl

theorem parseDigits_of {b : Nat} {s : Str} {v : Nat} (h : Digits b s v) : parseDigits b 0 s = some v := by
  induction h with
  | nil => rfl
  | snoc s v c d _ hd hlt ih =>
    rw [parseDigits_append, ih]
    simp [parseDigits, digitVal_of hd, hlt]

theorem digits_of {b : Nat} (hb : b ≤ 16) (s : Str) : ∀ (t : Str) (n v : Nat), Digits b t n → parseDigits b n s = some v → Digits b (t ++ s) v := by
  induction s with
  | nil => intro t n v ht h; cases h; simpa using ht
  | cons c s ih =>
    intro t n v ht h
    simp only [parseDigits] at h
    split at h
    · rename_i hlt
      have := ih (t ++ [c]) _ v (.snoc t n c _ ht (isDigit_of (by omega)) hlt) h
      simpa using this
    · cases h

theorem parseDigits_iff {b : Nat} (hb : b ≤ 16) {s : Str} {v : Nat} : parseDigits b 0 s = some v ↔ Digits b s v :=
  ⟨fun h => by simpa using digits_of hb s [] 0 v .nil h, parseDigits_of⟩

theorem digits_val {b : Nat} {s : Str} {v : Nat} (h : Digits b s v) : ∀ c ∈ s, ∃ d, IsDigit c d ∧ d < b := by
  induction h with
  | nil => simp
  | snoc s v c d _ hd hlt ih =>
    intro x hx
    rcases List.mem_append.1 hx with h | h
    · exact ih x h
    · rw [List.mem_singleton.1 h]; exact ⟨d, hd, hlt⟩

theorem takeWhile_all {f : Char → Bool} {s : Str} (h : ∀ c ∈ s, f c = true) : s.takeWhile f = s ∧ s.dropWhile f = [] := by
  induction s with
  | nil => exact ⟨rfl, rfl⟩
  | cons c s ih =>
    have hc := h c (List.mem_cons_self ..)
    obtain ⟨h1, h2⟩ := ih (fun x hx => h x (List.mem_cons_of_mem _ hx))
    simp [List.takeWhile, List.dropWhile, hc, h1, h2]

theorem isDec_of {c : Char} {d : Nat} (h : IsDigit c d) (hd : d < 10) : isDec c = true := by
  simp only [IsDigit, show '0'.toNat = 48 from rfl, show 'a'.toNat = 97 from rfl, show 'A'.toNat = 65 from rfl] at h
  simp only [isDec, Bool.and_eq_true, decide_eq_true_eq]; omega

theorem isOct_of {c : Char} {d : Nat} (h : IsDigit c d) (hd : d < 8) : isOct c = true := by
  simp only [IsDigit, show '0'.toNat = 48 from rfl, show 'a'.toNat = 97 from rfl, show 'A'.toNat = 65 from rfl] at h
  simp only [isOct, Bool.and_eq_true, decide_eq_true_eq]; omega

theorem isHex_of {c : Char} {d : Nat} (h : IsDigit c d) : isHex c = true := by
  simp only [IsDigit, show '0'.toNat = 48 from rfl, show 'a'.toNat = 97 from rfl, show 'A'.toNat = 65 from rfl] at h
  simp only [isHex, isDec, Bool.and_eq_true, Bool.or_eq_true, decide_eq_true_eq]; omega

/-- On an integer literal the number is the whole literal, and `ParseInt` gives its value. -/
theorem unmarshalI32_lit {s : Str} {v : Nat} (h : IntLit s v) : unmarshalI32 s = if v < 2 ^ 31 then some (v : Int) else none := by
  cases h with
  | decimal c s v hc hd =>
    have hall : ∀ x ∈ s, isDec x = true := fun x hx => by
      obtain ⟨d, h1, h2⟩ := digits_val hd x (List.mem_cons_of_mem _ hx)
      exact isDec_of h1 h2
    obtain ⟨d, h1, h2⟩ := digits_val hd c (List.mem_cons_self ..)
    have hdc := isDec_of h1 h2
    obtain ⟨e1, e2⟩ := takeWhile_all hall
    have hp : parseNumber (c :: s) = some (c :: s, []) := by
      unfold parseNumber
      split
      · rename_i h; cases h
      · rename_i h; cases h; exact absurd rfl hc
      · rename_i h; cases h; exact absurd rfl hc
      · rename_i h
        cases h
        rw [hdc, e1, e2]
        rfl
    have hi : parseInt0 (c :: s) = match parseDigits 10 0 (c :: s) with
        | some n => if n < 2 ^ 31 then some (n : Int) else none
        | none => none := by
      unfold parseInt0
      split
      · rename_i h; cases h
      · rename_i h; cases h; exact absurd rfl hc
      · rename_i h; cases h; exact absurd rfl hc
      · rfl
    simp only [unmarshalI32, hp, hi, parseDigits_of hd]
  | octal s v hd =>
    have hall : ∀ x ∈ s, isOct x = true := fun x hx => by
      obtain ⟨d, h1, h2⟩ := digits_val hd x hx
      exact isOct_of h1 h2
    cases s with
    | nil =>
      have : v = 0 := by have := parseDigits_of hd; simpa [parseDigits] using this.symm
      subst this
      rfl
    | cons c s =>
      have hc := hall c (List.mem_cons_self ..)
      obtain ⟨e1, e2⟩ := takeWhile_all (fun x hx => hall x (List.mem_cons_of_mem _ hx))
      have hx : ¬ (c = 'x' ∨ c = 'X') := by
        rintro (h | h) <;> subst h <;> exact absurd hc (by decide)
      have hp : parseNumber ('0' :: c :: s) = some ('0' :: c :: s, []) := by
        simp [parseNumber, hx, hc, e1, e2]
      simp only [unmarshalI32, hp, parseInt0, hx, false_and, if_false, parseDigits_of hd]
  | hex x s v hx hne hd =>
    have hall : ∀ y ∈ s, isHex y = true := fun y hy => by
      obtain ⟨d, h1, h2⟩ := digits_val hd y hy
      exact isHex_of h1
    obtain ⟨e1, e2⟩ := takeWhile_all hall
    have hp : parseNumber ('0' :: x :: s) = some ('0' :: x :: s, []) := by
      simp [parseNumber, hx, e1, e2, hne]
    simp only [unmarshalI32, hp, parseInt0, hx, hne, ne_eq, not_false_eq_true, and_self, if_true, parseDigits_of hd]

theorem parseInt10_iff {s : Str} {v : Int} :
    parseInt10 s = some v ↔ s ≠ [] ∧ ∃ n : Nat, Digits 10 s n ∧ n < 2 ^ 31 ∧ v = n := by
  unfold parseInt10
  by_cases hs : s = []
  · simp [hs]
  · rw [if_neg hs]
    cases hp : parseDigits 10 0 s with
    | none =>
      constructor
      · intro h; cases h
      · rintro ⟨_, n, hn, _⟩
        rw [parseDigits_of hn] at hp; cases hp
    | some n =>
      have hn := (parseDigits_iff (by omega)).1 hp
      constructor
      · intro h
        dsimp only at h
        split at h
        · cases h; exact ⟨hs, n, hn, by assumption, rfl⟩
        · cases h
      · rintro ⟨_, m, hm, hlt, hv⟩
        rw [parseDigits_of hm] at hp
        cases hp
        dsimp only
        rw [if_pos hlt, hv]

theorem digits_inj {b : Nat} {s : Str} {v w : Nat} (h : Digits b s v) (h' : Digits b s w) : v = w := by
  have := parseDigits_of h
  rw [parseDigits_of h'] at this
  cases this; rfl

end Gen

open Gen

/-- C53: a field number is accepted exactly when it is below 2^31, and then it is the value of the literal, decimal, octal
or hexadecimal. -/
theorem C53_numbers (lit : Str) (v : Nat) (h : IntLit lit v) :
    unmarshalI32 lit = if v < 2 ^ 31 then some (v : Int) else none := unmarshalI32_lit h

example : IntLit "0x1F".toList 31 := .hex 'x' _ _ (.inl rfl) (by decide) ((parseDigits_iff (by omega)).1 (by decide +kernel))
example : IntLit "017".toList 15 := .octal _ _ ((parseDigits_iff (by omega)).1 (by decide +kernel))
example : unmarshalI32 "0x1F".toList = some 31 := by decide +kernel

/-- C53: the number of an enum value is the value of its literal, with its sign, if the literal is below 2^31. -/
theorem C53_enum_partial (neg : Bool) (lit : Str) (v : Nat) (h : IntLit lit v) (hv : v < 2 ^ 31) :
    enumValue neg lit = some (if neg then -(v : Int) else v) := by
  simp only [enumValue, unmarshalI32_lit h, if_pos hv]

example : enumValue true "0x10".toList = some (-16) := by decide +kernel

/-- C53: the smallest number an enum value can have, -2147483648, is rejected. -/
theorem C53_min_violated : ∃ lit v, IntLit lit v ∧ -(2 ^ 31 : Int) ≤ -(v : Int) ∧ enumValue true lit = none :=
  ⟨"2147483648".toList, 2147483648, .decimal '2' _ _ (by decide) ((parseDigits_iff (by omega)).1 (by decide +kernel)),
    by decide, by decide +kernel⟩

/-- C53: the bounds of a reserved range written in decimal are the values of the literals. -/
theorem C53_ranges_partial (lo hi : Str) (a b : Nat) (hlo : lo ≠ []) (hhi : hi ≠ []) (ha : Digits 10 lo a) (hb : Digits 10 hi b)
    (h1 : a < 2 ^ 31) (h2 : b < 2 ^ 31) :
    oneRange lo (.lit hi) = some ((a : Int), (b : Int)) ∧ oneRange lo .single = some ((a : Int), (a : Int)) ∧
      oneRange lo .max = some ((a : Int), 2 ^ 31 - 1) := by
  have e1 := parseInt10_iff.2 ⟨hlo, a, ha, h1, rfl⟩
  have e2 := parseInt10_iff.2 ⟨hhi, b, hb, h2, rfl⟩
  simp only [oneRange, e1, e2]
  exact ⟨trivial, trivial, rfl⟩

example : oneRange "5".toList (.lit "10".toList) = some (5, 10) := by decide +kernel

/-- C53: the bounds of reserved ranges written in octal are read as if they were decimal, unlike field numbers. -/
theorem C53_octal_violated : ∃ lit v, IntLit lit v ∧ unmarshalI32 lit = some (v : Int) ∧ oneRange lit .single = some (10, 10) ∧ v = 8 :=
  ⟨"010".toList, 8, .octal _ _ ((parseDigits_iff (by omega)).1 (by decide +kernel)), by decide +kernel, by decide +kernel, rfl⟩

/-- C53: hexadecimal bounds of reserved ranges are rejected. -/
theorem C53_hex_violated : ∃ lit v, IntLit lit v ∧ v < 2 ^ 31 ∧ oneRange lit .single = none :=
  ⟨"0x10".toList, 16, .hex 'x' _ _ (.inl rfl) (by decide) ((parseDigits_iff (by omega)).1 (by decide +kernel)), by decide,
    by decide +kernel⟩

end Verif.Props
