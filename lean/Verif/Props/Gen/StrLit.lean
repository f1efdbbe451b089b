import Verif.Model.Gen.StrLit
import Verif.Spec.Gen.StrLit
/-!
# C48: string literals
-/
namespace Verif.Props
open Verif.Spec.Gen Verif.Model.Gen

namespace Gen

theorem encodeRune_eq (n : Nat) : encodeRune n = utf8 n := by
  unfold encodeRune utf8
  repeat' split
  all_goals first | rfl | omega

theorem utf8_len (c : Nat) : 1 ≤ (utf8 c).length := by
  unfold utf8
  repeat' split
  all_goals simp

/-- Decoding the encoding of a character. -/
theorem decode_utf8 {c : Nat} (h : IsScalar c) (r : List Nat) : decodeRune (utf8 c ++ r) = some (c, (utf8 c).length) := by
  unfold IsScalar at h
  unfold utf8
  split
  · rename_i h1
    simp [decodeRune, h1]
  · split
    · have a1 : ¬ (0xC0 + c / 0x40 < 0x80) := by omega
      have a2 : 0xC2 ≤ 0xC0 + c / 0x40 := by omega
      have a3 : 0xC0 + c / 0x40 ≤ 0xDF := by omega
      have a4 : 0x80 + c % 0x40 ≤ 0xBF := by omega
      have a5 : (192 + c / 64) % 32 * 64 + (128 + c % 64) % 64 = c := by omega
      have a4' : 0x80 ≤ 0x80 + c % 0x40 := by omega
      simp only [decodeRune, List.cons_append, List.nil_append, a1, a2, a3, a4, a4', a5, decide_false, decide_true, Bool.and_self, Bool.false_eq_true, if_false, if_true,
        List.length_cons, List.length_nil]
    · split
      · have a1 : ¬ (0xE0 + c / 0x1000 < 0x80) := by omega
        have a2 : ¬ (0xE0 + c / 0x1000 ≤ 0xDF) := by omega
        have a3 : 0xE0 ≤ 0xE0 + c / 0x1000 := by omega
        have a4 : 0xE0 + c / 0x1000 ≤ 0xEF := by omega
        have a5 : 0xE0 + c / 0x1000 ≠ 0xE0 ∨ 0xA0 ≤ 0x80 + c / 0x40 % 0x40 := by omega
        have a6 : 0xE0 + c / 0x1000 ≠ 0xED ∨ 0x80 + c / 0x40 % 0x40 ≤ 0x9F := by omega
        have a7 : 0x80 ≤ 0x80 + c / 0x40 % 0x40 ∧ 0x80 + c / 0x40 % 0x40 ≤ 0xBF := by omega
        have a7' : 0x80 ≤ 0x80 + c % 0x40 ∧ 0x80 + c % 0x40 ≤ 0xBF := by omega
        have a9 : ((0xE0 + c / 0x1000 ≠ 0xE0 || 0xA0 ≤ 0x80 + c / 0x40 % 0x40) && (0xE0 + c / 0x1000 ≠ 0xED || 0x80 + c / 0x40 % 0x40 ≤ 0x9F) &&
            (0x80 ≤ 0x80 + c / 0x40 % 0x40 && 0x80 + c / 0x40 % 0x40 ≤ 0xBF) && (0x80 ≤ 0x80 + c % 0x40 && 0x80 + c % 0x40 ≤ 0xBF)) = true := by
          simp only [Bool.and_eq_true, Bool.or_eq_true, decide_eq_true_eq]
          exact ⟨⟨⟨a5, a6⟩, a7⟩, a7'⟩
        have a8 : (224 + c / 4096) % 16 * 4096 + (128 + c / 64 % 64) % 64 * 64 + (128 + c % 64) % 64 = c := by omega
        simp only [decodeRune, List.cons_append, List.nil_append]
        rw [if_neg a1, if_neg (by simp only [Bool.and_eq_true, decide_eq_true_eq]; omega), if_pos (by simp only [Bool.and_eq_true, decide_eq_true_eq]; omega),
          if_pos a9, a8]
        rfl
      · have a1 : ¬ (0xF0 + c / 0x40000 < 0x80) := by omega
        have a2 : ¬ (0xF0 + c / 0x40000 ≤ 0xDF) := by omega
        have a3 : ¬ (0xF0 + c / 0x40000 ≤ 0xEF) := by omega
        have a4 : 0xF0 ≤ 0xF0 + c / 0x40000 := by omega
        have a4' : 0xF0 + c / 0x40000 ≤ 0xF4 := by omega
        have a5 : 0xF0 + c / 0x40000 ≠ 0xF0 ∨ 0x90 ≤ 0x80 + c / 0x1000 % 0x40 := by omega
        have a6 : 0xF0 + c / 0x40000 ≠ 0xF4 ∨ 0x80 + c / 0x1000 % 0x40 ≤ 0x8F := by omega
        have a7 : 0x80 ≤ 0x80 + c / 0x1000 % 0x40 ∧ 0x80 + c / 0x1000 % 0x40 ≤ 0xBF := by omega
        have a7' : 0x80 ≤ 0x80 + c / 0x40 % 0x40 ∧ 0x80 + c / 0x40 % 0x40 ≤ 0xBF := by omega
        have a7'' : 0x80 ≤ 0x80 + c % 0x40 ∧ 0x80 + c % 0x40 ≤ 0xBF := by omega
        have a9 : ((0xF0 + c / 0x40000 ≠ 0xF0 || 0x90 ≤ 0x80 + c / 0x1000 % 0x40) && (0xF0 + c / 0x40000 ≠ 0xF4 || 0x80 + c / 0x1000 % 0x40 ≤ 0x8F) &&
            (0x80 ≤ 0x80 + c / 0x1000 % 0x40 && 0x80 + c / 0x1000 % 0x40 ≤ 0xBF) && (0x80 ≤ 0x80 + c / 0x40 % 0x40 && 0x80 + c / 0x40 % 0x40 ≤ 0xBF) &&
            (0x80 ≤ 0x80 + c % 0x40 && 0x80 + c % 0x40 ≤ 0xBF)) = true := by
          simp only [Bool.and_eq_true, Bool.or_eq_true, decide_eq_true_eq]
          exact ⟨⟨⟨⟨a5, a6⟩, a7⟩, a7'⟩, a7''⟩
        have a8 : (240 + c / 262144) % 8 * 262144 + (128 + c / 4096 % 64) % 64 * 4096 + (128 + c / 64 % 64) % 64 * 64 + (128 + c % 64) % 64 = c := by omega
        simp only [decodeRune, List.cons_append, List.nil_append]
        rw [if_neg a1, if_neg (by simp only [Bool.and_eq_true, decide_eq_true_eq]; omega), if_neg (by simp only [Bool.and_eq_true, decide_eq_true_eq]; omega),
          if_pos (by simp only [Bool.and_eq_true, decide_eq_true_eq]; omega), if_pos a9, a8]
        rfl

/-- Only encodings of characters are decoded. -/
theorem decode_sound {s : List Nat} {c n : Nat} (h : decodeRune s = some (c, n)) : IsScalar c ∧ n = (utf8 c).length ∧ s = utf8 c ++ s.drop n := by
  unfold IsScalar
  cases s with
  | nil => cases h
  | cons a s =>
    unfold decodeRune at h
    dsimp only at h
    split at h
    · rename_i h1
      simp only [Option.some.injEq, Prod.mk.injEq] at h
      obtain ⟨e1, e2⟩ := h
      subst e1 e2
      refine ⟨by omega, ?_, ?_⟩ <;> simp [utf8, h1]
    · split at h
      · rename_i h1
        simp only [Bool.and_eq_true, decide_eq_true_eq] at h1
        split at h
        · rename_i b s
          split at h
          · rename_i h2
            simp only [Bool.and_eq_true, decide_eq_true_eq] at h2
            simp only [Option.some.injEq, Prod.mk.injEq] at h
            obtain ⟨e1, e2⟩ := h
            have r1 : ¬ c < 0x80 := by omega
            have r2 : c < 0x800 := by omega
            have r3 : 0xC0 + c / 0x40 = a := by omega
            have r4 : 0x80 + c % 0x40 = b := by omega
            refine ⟨by omega, ?_, ?_⟩
            · simp [utf8, r1, r2, ← e2]
            · simp [utf8, r1, r2, ← e2, r3, r4]
          · cases h
        · cases h
      · split at h
        · rename_i h1
          simp only [Bool.and_eq_true, decide_eq_true_eq] at h1
          split at h
          · rename_i b d s
            split at h
            · rename_i h2
              simp only [Bool.and_eq_true, Bool.or_eq_true, decide_eq_true_eq] at h2
              simp only [Option.some.injEq, Prod.mk.injEq] at h
              obtain ⟨e1, e2⟩ := h
              have r1 : ¬ c < 0x80 := by omega
              have r2 : ¬ c < 0x800 := by omega
              have r2' : c < 0x10000 := by omega
              have r3 : 0xE0 + c / 0x1000 = a := by omega
              have r4 : 0x80 + c / 0x40 % 0x40 = b := by omega
              have r5 : 0x80 + c % 0x40 = d := by omega
              refine ⟨by omega, ?_, ?_⟩
              · simp [utf8, r1, r2, r2', ← e2]
              · simp [utf8, r1, r2, r2', ← e2, r3, r4, r5]
            · cases h
          · cases h
        · split at h
          · rename_i h1
            simp only [Bool.and_eq_true, decide_eq_true_eq] at h1
            split at h
            · rename_i b d f s
              split at h
              · rename_i h2
                simp only [Bool.and_eq_true, Bool.or_eq_true, decide_eq_true_eq] at h2
                simp only [Option.some.injEq, Prod.mk.injEq] at h
                obtain ⟨e1, e2⟩ := h
                have r1 : ¬ c < 0x80 := by omega
                have r2 : ¬ c < 0x800 := by omega
                have r2' : ¬ c < 0x10000 := by omega
                have r3 : 0xF0 + c / 0x40000 = a := by omega
                have r3' : 0x80 + c / 0x1000 % 0x40 = b := by omega
                have r4 : 0x80 + c / 0x40 % 0x40 = d := by omega
                have r5 : 0x80 + c % 0x40 = f := by omega
                refine ⟨by omega, ?_, ?_⟩
                · simp [utf8, r1, r2, r2', ← e2]
                · simp [utf8, r1, r2, r2', ← e2, r3, r3', r4, r5]
              · cases h
            · cases h
          · cases h

/-- Digits. -/
theorem digit_of {c v : Nat} (h : DigitIs c v) : byteDigit c = v ∧ v < 16 := by
  cases h with
  | dec v h => unfold byteDigit; exact ⟨by rw [if_pos (by omega)]; omega, by omega⟩
  | lower v h1 h2 => unfold byteDigit; exact ⟨by rw [if_neg (by omega), if_pos (by omega)]; omega, by omega⟩
  | upper v h1 h2 => unfold byteDigit; exact ⟨by rw [if_neg (by omega), if_neg (by omega), if_pos (by omega)]; omega, by omega⟩

theorem of_digit {c : Nat} (h : byteDigit c < 16) : DigitIs c (byteDigit c) := by
  unfold byteDigit at h ⊢
  split
  · have := DigitIs.dec (c - 48) (by omega)
    rwa [show 48 + (c - 48) = c by omega] at this
  · split
    · rename_i h1 h2
      rw [if_neg h1, if_pos h2] at h
      have := DigitIs.lower (c - 97 + 10) (by omega) (by omega)
      rwa [show 87 + (c - 97 + 10) = c by omega] at this
    · split
      · rename_i h1 h2 h3
        rw [if_neg h1, if_neg h2, if_pos h3] at h
        have := DigitIs.upper (c - 65 + 10) (by omega) (by omega)
        rwa [show 55 + (c - 65 + 10) = c by omega] at this
      · rename_i h1 h2 h3
        rw [if_neg h1, if_neg h2, if_neg h3] at h
        omega

theorem number_fold {base : Nat} {ds : List Nat} {n : Nat} (h : NumberIs base ds n) :
    ds ≠ [] ∧ (∀ c ∈ ds, byteDigit c < base) ∧ ds.foldl (fun n c => n * base + byteDigit c) 0 = n := by
  induction h with
  | one c v h hb =>
    obtain ⟨e, _⟩ := digit_of h
    exact ⟨by simp, by simp [e, hb], by simp [e]⟩
  | more ds n c v _ hd hb ih =>
    obtain ⟨e, _⟩ := digit_of hd
    refine ⟨by simp, ?_, by simp [List.foldl_append, ih.2.2, e]⟩
    intro x hx
    rcases List.mem_append.1 hx with hx | hx
    · exact ih.2.1 x hx
    · simp only [List.mem_singleton] at hx
      rw [hx, e]; exact hb

theorem number_of {base : Nat} (hb : base ≤ 16) : ∀ (n : Nat) (ds : List Nat), ds.length = n → ds ≠ [] → (∀ c ∈ ds, byteDigit c < base) →
    NumberIs base ds (ds.foldl (fun n c => n * base + byteDigit c) 0)
  | 0, ds, hl, hne, _ => absurd (List.length_eq_zero_iff.1 hl) hne
  | n + 1, ds, hl, hne, hall => by
    have e := List.dropLast_concat_getLast hne
    have hc : byteDigit (ds.getLast hne) < base := hall _ (List.getLast_mem hne)
    have hd : DigitIs (ds.getLast hne) (byteDigit (ds.getLast hne)) := of_digit (by omega)
    by_cases h0 : ds.dropLast = []
    · rw [h0, List.nil_append] at e
      rw [← e]
      simp only [List.foldl_cons, List.foldl_nil, Nat.zero_mul, Nat.zero_add]
      exact .one _ _ hd hc
    · have ih := number_of hb n ds.dropLast (by simp; omega) h0 fun c hc => hall c (List.dropLast_subset _ hc)
      have := NumberIs.more _ _ _ _ ih hd hc
      rw [e] at this
      have e2 : ds.foldl (fun n c => n * base + byteDigit c) 0 =
          (ds.dropLast.foldl (fun n c => n * base + byteDigit c) 0) * base + byteDigit (ds.getLast hne) := by
        conv => lhs; rw [← e, List.foldl_append]
        rfl
      rw [e2]
      exact this

theorem parseUint_iff {base lim : Nat} (hb : base ≤ 16) (s : List Nat) (n : Nat) : parseUint base lim s = some n ↔ NumberIs base s n ∧ n < lim := by
  unfold parseUint
  constructor
  · intro h
    split at h
    · cases h
    · rename_i hne
      split at h
      · rename_i hall
        simp only [List.all_eq_true, decide_eq_true_eq] at hall
        dsimp only at h
        split at h
        · rename_i hlt
          simp only [Option.some.injEq] at h
          subst h
          exact ⟨number_of hb _ s rfl hne hall, hlt⟩
        · cases h
      · cases h
  · rintro ⟨h, hl⟩
    obtain ⟨h1, h2, h3⟩ := number_fold h
    rw [if_neg h1, if_pos (by simpa using h2), h3, if_pos hl]

theorem octByte_iff (c : Nat) : isOctByte c = true ↔ byteDigit c < 8 := by
  unfold isOctByte byteDigit
  simp only [Bool.and_eq_true, decide_eq_true_eq]
  split
  · omega
  · split
    · omega
    · split <;> omega

theorem hexByte_iff (c : Nat) : isHexByte c = true ↔ byteDigit c < 16 := by
  unfold isHexByte byteDigit
  simp only [Bool.or_eq_true, Bool.and_eq_true, decide_eq_true_eq]
  split
  · omega
  · split
    · omega
    · split <;> omega

theorem noDigit_iff {base : Nat} (hb : base ≤ 16) (s : List Nat) : NoDigit base s ↔ ∀ c ∈ s.head?, ¬ byteDigit c < base := by
  unfold NoDigit
  cases s with
  | nil => simp
  | cons a s =>
    simp only [List.cons.injEq, List.head?_cons, Option.mem_def, Option.some.injEq, forall_eq']
    constructor
    · intro h hlt
      have := h a s _ ⟨rfl, rfl⟩ (of_digit (by omega))
      omega
    · rintro h c r v ⟨rfl, _⟩ hd
      obtain ⟨e, _⟩ := digit_of hd
      omega

/-- The digits that an escape takes: up to `k`, as many as there are. -/
theorem take_digits {p : Nat → Bool} {k : Nat} {ds r : List Nat} (hall : ∀ c ∈ ds, p c = true) (hk : ds.length ≤ k)
    (hr : ds.length = k ∨ ∀ c ∈ r.head?, p c = false) : ((ds ++ r).takeWhile p).take k = ds := by
  have : (ds ++ r).takeWhile p = ds ++ r.takeWhile p := by
    rw [List.takeWhile_append_of_pos hall]
  rw [this]
  rcases hr with hr | hr
  · rw [List.take_append_of_le_length (by omega), List.take_of_length_le (by omega)]
  · have : r.takeWhile p = [] := by
      cases r with
      | nil => rfl
      | cons c r => simp [List.takeWhile_cons, hr c (by simp)]
    rw [this, List.append_nil, List.take_of_length_le hk]

theorem taken_digits (p : Nat → Bool) (k : Nat) (s : List Nat) : ∃ r, s = (s.takeWhile p).take k ++ r ∧ (∀ c ∈ (s.takeWhile p).take k, p c = true) ∧
    ((s.takeWhile p).take k).length ≤ k ∧ (((s.takeWhile p).take k).length = k ∨ ∀ c ∈ r.head?, p c = false) ∧
    s.drop ((s.takeWhile p).take k).length = r := by
  have e : s = s.takeWhile p ++ s.dropWhile p := (List.takeWhile_append_dropWhile).symm
  refine ⟨(s.takeWhile p).drop k ++ s.dropWhile p, ?_, ?_, List.length_take_le .., ?_, ?_⟩
  · rw [← List.append_assoc, List.take_append_drop]; exact e
  · intro c hc
    have := List.mem_of_mem_take hc
    exact (List.all_takeWhile (l := s) (p := p) |> List.all_eq_true.1) c this
  · by_cases hk : k ≤ (s.takeWhile p).length
    · left; simp [List.length_take]; omega
    · right
      rw [List.drop_of_length_le (by omega), List.nil_append]
      intro c hc
      cases hd : s.dropWhile p with
      | nil => rw [hd] at hc; cases hc
      | cons x l =>
        rw [hd] at hc
        simp only [List.head?_cons, Option.mem_def, Option.some.injEq] at hc
        subst hc
        have := List.head?_dropWhile_not (p := p) (l := s)
        rw [hd] at this
        simpa using this
  · conv => lhs; arg 2; rw [e, ← List.take_append_drop k (s.takeWhile p), List.append_assoc]
    exact List.drop_left

/-- Facts about the plain bytes, which are copied without looking at them one by one. -/
theorem plain_facts {c : Nat} (h : plainByte c = true) : IsScalar c ∧ c ≠ 0 ∧ c ≠ 10 ∧ c ≠ 92 ∧ c ≠ 34 ∧ c ≠ 39 ∧ utf8 c = [c] := by
  simp only [plainByte, Bool.not_eq_true', Bool.or_eq_false_iff, decide_eq_false_iff_not] at h
  unfold IsScalar utf8
  rw [if_pos (by omega)]
  exact ⟨by omega, by omega, by omega, by omega, by omega, by omega, rfl⟩

theorem quote_not_plain {q : Nat} (hq : q = 34 ∨ q = 39) : plainByte q = false := by
  rcases hq with e | e <;> subst e <;> rfl

theorem utf8_plain {c : Nat} {a : Nat} {r s : List Nat} (h : utf8 c ++ r = a :: s) (ha : a < 0x80) : c = a ∧ r = s := by
  unfold utf8 at h
  split at h
  · simpa using h
  · split at h
    · simp only [List.cons_append, List.cons.injEq] at h; omega
    · split at h
      · simp only [List.cons_append, List.cons.injEq] at h; omega
      · simp only [List.cons_append, List.cons.injEq] at h; omega

theorem body_ne {q : Nat} {t v : List Nat} (h : LitBody q t v) : t ≠ [] := by
  cases h with
  | char c r v =>
    intro e
    have h1 := congrArg List.length e
    have h2 := utf8_len c
    rw [List.length_append, List.length_nil] at h1
    omega
  | _ => simp

/-- A plain byte can be taken off. -/
theorem body_plain {q c : Nat} {s v : List Nat} (hq : q = 34 ∨ q = 39) (hc : plainByte c = true) (h : LitBody q (c :: s) v) :
    ∃ v', v = c :: v' ∧ LitBody q s v' := by
  obtain ⟨_, _, _, h92, h34, h39, hu⟩ := plain_facts hc
  have hlt : c < 0x80 := by
    simp only [plainByte, Bool.not_eq_true', Bool.or_eq_false_iff, decide_eq_false_iff_not] at hc
    omega
  generalize e : c :: s = t at h
  cases h with
  | done => simp only [List.cons.injEq] at e; omega
  | char d r v _ _ _ _ _ hb =>
    obtain ⟨e1, e2⟩ := utf8_plain e.symm hlt
    subst e1 e2
    rw [hu]
    exact ⟨v, rfl, hb⟩
  | letter => simp only [List.cons.injEq] at e; omega
  | oct => simp only [List.cons_append, List.cons.injEq] at e; omega
  | hex => simp only [List.cons_append, List.cons.injEq] at e; omega
  | uni => simp only [List.cons_append, List.cons.injEq] at e; omega
  | pair => simp only [List.cons_append, List.cons.injEq] at e; omega

/-- A run of plain bytes can be taken off. -/
theorem body_run {q : Nat} (hq : q = 34 ∨ q = 39) : ∀ (s v rest : List Nat), LitBody q s v →
    ∃ i s' v', s = s.take i ++ s' ∧ v = s.take i ++ v' ∧ LitBody q s' v' ∧ ((s ++ rest).takeWhile plainByte).length = i ∧ i ≤ s.length
  | [], v, rest, h => absurd rfl (body_ne h)
  | c :: s, v, rest, h => by
    cases hc : plainByte c with
    | false => exact ⟨0, c :: s, v, by simp, by simp, h, by simp [hc], by simp⟩
    | true =>
      obtain ⟨v1, e1, h1⟩ := body_plain hq hc h
      obtain ⟨i, s', v', e2, e3, h2, h3, h4⟩ := body_run hq s v1 rest h1
      refine ⟨i + 1, s', v', ?_, ?_, h2, by simp [hc, h3], by simp; omega⟩
      · rw [List.take_succ_cons, List.cons_append, ← e2]
      · rw [List.take_succ_cons, List.cons_append, ← e3]; exact e1

/-- A run of plain bytes can be put before. -/
theorem run_body {q : Nat} (hq : q = 34 ∨ q = 39) : ∀ (p s v : List Nat), (∀ c ∈ p, plainByte c = true) → LitBody q s v → LitBody q (p ++ s) (p ++ v)
  | [], s, v, _, h => h
  | c :: p, s, v, hp, h => by
    have ih := run_body hq p s v (fun c hc => hp c (List.mem_cons_of_mem _ hc)) h
    obtain ⟨h1, h2, h3, h4, h5, h6, h7⟩ := plain_facts (hp c (List.mem_cons_self ..))
    have := LitBody.char (q := q) c _ _ h1 h2 h3 h4 (by omega) ih
    rw [h7] at this
    exact this

theorem letter_iff (e x : Nat) : simpleEscape e = some x ↔ (e, x) ∈ letterEscapes := by
  constructor
  · intro h
    unfold simpleEscape at h
    repeat' split at h
    · simp only [Option.some.injEq] at h
      subst h
      rename_i h
      rcases h with e | e | e | e <;> subst e <;> decide
    all_goals first | (simp only [Option.some.injEq] at h; subst h; rename_i h; subst h; decide) | cases h
  · intro h
    have : ∀ p ∈ letterEscapes, simpleEscape p.1 = some p.2 := by decide
    exact this _ h

theorem head_append {r rest : List Nat} (hr : r ≠ []) : (r ++ rest).head? = r.head? := by
  cases r with
  | nil => exact absurd rfl hr
  | cons a r => rfl

/-- The escapes that are understood are the escapes of the language. -/
theorem escape_sound {q : Nat} {s x s' : List Nat} (h : escape s = some (x, s')) (r rest v : List Nat) (hs : s' = r ++ rest) (hb : LitBody q r v) :
    ∃ t, s = t ++ rest ∧ LitBody q (92 :: t) (x ++ v) := by
  have hne := body_ne hb
  cases s with
  | nil => cases h
  | cons a s =>
    unfold escape at h
    dsimp only at h
    split at h
    · rename_i y hy
      simp only [Option.some.injEq, Prod.mk.injEq] at h
      obtain ⟨e1, e2⟩ := h
      subst e1
      refine ⟨a :: r, by rw [e2, hs]; rfl, ?_⟩
      exact .letter a y r v ((letter_iff a y).1 hy) hb
    · split at h
      · rename_i ho
        split at h
        · rename_i n hn
          simp only [Option.some.injEq, Prod.mk.injEq] at h
          obtain ⟨e1, e2⟩ := h
          subst e1
          obtain ⟨hnum, hlt⟩ := (parseUint_iff (by decide) _ _).1 hn
          obtain ⟨r', h1, h2, h3, h4, h5⟩ := taken_digits isOctByte 3 (a :: s)
          rw [e2, hs] at h5
          subst h5
          refine ⟨((a :: s).takeWhile isOctByte).take 3 ++ r, by rw [List.append_assoc]; exact h1, ?_⟩
          refine .oct _ n r v hnum h3 hlt (h4.imp id fun h => ?_) hb
          rw [noDigit_iff (by decide)]
          rw [head_append hne] at h
          intro c hc hlt
          exact absurd (h c hc) (by simp [(octByte_iff c).2 hlt])
        · cases h
      · split at h
        · rename_i _ hx
          subst hx
          split at h
          · rename_i n hn
            simp only [Option.some.injEq, Prod.mk.injEq] at h
            obtain ⟨e1, e2⟩ := h
            subst e1
            obtain ⟨hnum, hlt⟩ := (parseUint_iff (by decide) _ _).1 hn
            obtain ⟨r', h1, h2, h3, h4, h5⟩ := taken_digits isHexByte 2 s
            rw [e2, hs] at h5
            subst h5
            refine ⟨120 :: (s.takeWhile isHexByte).take 2 ++ r, by rw [List.cons_append, List.cons_append, List.append_assoc, ← h1], ?_⟩
            refine .hex _ n r v hnum h3 (h4.imp id fun h => ?_) hb
            rw [noDigit_iff (by decide)]
            rw [head_append hne] at h
            intro c hc hlt
            exact absurd (h c hc) (by simp [(hexByte_iff c).2 hlt])
          · cases h
        · split at h
          · rename_i hu
            generalize hk : (if a = 85 then 8 else 4) = k at h
            have hlk : a = 117 ∧ k = 4 ∨ a = 85 ∧ k = 8 := by
              rcases hu with e | e
              · subst e; exact .inl ⟨rfl, by rw [← hk]; rfl⟩
              · subst e; exact .inr ⟨rfl, by rw [← hk]; rfl⟩
            split at h
            · cases h
            · rename_i hlen
              have hlen' : (s.take k).length = k := by simp; omega
              split at h
              · cases h
              · rename_i n hn
                obtain ⟨hnum, _⟩ := (parseUint_iff (by decide) _ _).1 hn
                have hshape : a = 117 ∧ (s.take k).length = 4 ∨ a = 85 ∧ (s.take k).length = 8 := by rw [hlen']; exact hlk
                split at h
                · cases h
                · split at h
                  · rename_i hmax hsur
                    split at h
                    · rename_i b u d1 d2 d3 d4 rest' hd
                      split at h
                      · cases h
                      · rename_i w hw
                        obtain ⟨hnum', _⟩ := (parseUint_iff (by decide) _ _).1 hw
                        split at h
                        · rename_i hc
                          obtain ⟨hb92, hu117, h1, h2, h3⟩ := hc
                          simp only [Option.some.injEq, Prod.mk.injEq] at h
                          obtain ⟨e1, e2⟩ := h
                          subst e1
                          rw [e2, hs] at hd
                          subst hb92 hu117
                          refine ⟨a :: s.take k ++ (92 :: 117 :: [d1, d2, d3, d4] ++ r), ?_, ?_⟩
                          · have : s = s.take k ++ s.drop k := (List.take_append_drop k s).symm
                            rw [hd] at this
                            conv => lhs; rw [this]
                            simp
                          · have hp := LitBody.pair (q := q) a (s.take k) [d1, d2, d3, d4] (n - 0xD800) (w - 0xDC00) r v
                              (by rw [show 0xD800 + (n - 0xD800) = n by omega]; exact hnum) hshape (by omega)
                              (by rw [show 0xDC00 + (w - 0xDC00) = w by omega]; exact hnum') rfl (by omega) hb
                            rw [show 0x10000 + 0x400 * (n - 0xD800) + (w - 0xDC00) = (n - 0xD800) * 1024 + (w - 0xDC00) + 0x10000 by omega] at hp
                            rw [encodeRune_eq]
                            exact hp
                        · cases h
                    · cases h
                  · rename_i hmax hsur
                    simp only [Option.some.injEq, Prod.mk.injEq] at h
                    obtain ⟨e1, e2⟩ := h
                    subst e1
                    refine ⟨a :: s.take k ++ r, ?_, ?_⟩
                    · have : s = s.take k ++ s.drop k := (List.take_append_drop k s).symm
                      rw [e2, hs] at this
                      conv => lhs; rw [this]
                      simp
                    · rw [encodeRune_eq]
                      exact .uni a (s.take k) n r v hnum hshape (by unfold IsScalar; omega) hb
          · cases h

theorem drop_cons_append (ds r : List Nat) : (ds ++ r).drop ds.length = r := List.drop_left

/-- The escapes of the language are understood. -/
theorem escape_letter {e x : Nat} (r : List Nat) (h : (e, x) ∈ letterEscapes) : escape (e :: r) = some ([x], r) := by
  unfold escape
  dsimp only
  rw [(letter_iff e x).2 h]

theorem digit_not_letter {c : Nat} (h : byteDigit c < 8) : simpleEscape c = none := by
  have := (octByte_iff c).2 h
  simp only [isOctByte, Bool.and_eq_true, decide_eq_true_eq] at this
  unfold simpleEscape
  repeat' split
  all_goals first | rfl | omega

theorem escape_oct {ds r : List Nat} {n : Nat} (h : NumberIs 8 ds n) (hl : ds.length ≤ 3) (hn : n < 256) (hr : ds.length = 3 ∨ NoDigit 8 r) :
    escape (ds ++ r) = some ([n], r) := by
  obtain ⟨hne, hall, _⟩ := number_fold h
  have htake : ((ds ++ r).takeWhile isOctByte).take 3 = ds := by
    refine take_digits (fun c hc => (octByte_iff c).2 (hall c hc)) hl (hr.imp id fun hr => ?_)
    rw [noDigit_iff (by decide)] at hr
    intro c hc
    cases ho : isOctByte c with
    | false => rfl
    | true => exact absurd ((octByte_iff c).1 ho) (hr c hc)
  cases ds with
  | nil => exact absurd rfl hne
  | cons d ds =>
    rw [List.cons_append] at htake ⊢
    unfold escape
    dsimp only
    rw [digit_not_letter (hall d (List.mem_cons_self ..))]
    dsimp only
    rw [if_pos ((octByte_iff d).2 (hall d (List.mem_cons_self ..))), htake, (parseUint_iff (by decide) _ _).2 ⟨h, hn⟩]
    dsimp only
    rw [← List.cons_append, drop_cons_append]

theorem number_lt {base : Nat} {ds : List Nat} {n : Nat} (h : NumberIs base ds n) : n < base ^ ds.length := by
  induction h with
  | one c v _ hb => simpa using hb
  | more ds n c v _ _ hb ih =>
    rw [List.length_append, List.length_singleton, Nat.pow_succ]
    have : n + 1 ≤ base ^ ds.length := ih
    have := Nat.mul_le_mul_right base this
    rw [Nat.add_mul, Nat.one_mul] at this
    omega

theorem escape_hex {ds r : List Nat} {n : Nat} (h : NumberIs 16 ds n) (hl : ds.length ≤ 2) (hr : ds.length = 2 ∨ NoDigit 16 r) :
    escape (120 :: ds ++ r) = some ([n], r) := by
  obtain ⟨hne, hall, _⟩ := number_fold h
  have htake : ((ds ++ r).takeWhile isHexByte).take 2 = ds := by
    refine take_digits (fun c hc => (hexByte_iff c).2 (hall c hc)) hl (hr.imp id fun hr => ?_)
    rw [noDigit_iff (by decide)] at hr
    intro c hc
    cases ho : isHexByte c with
    | false => rfl
    | true => exact absurd ((hexByte_iff c).1 ho) (hr c hc)
  have hn : n < 256 := by
    have h1 := number_lt h
    have h2 : 16 ^ ds.length ≤ 16 ^ 2 := Nat.pow_le_pow_right (by decide) hl
    omega
  rw [List.cons_append]
  unfold escape
  dsimp only
  rw [show simpleEscape 120 = none by rfl]
  dsimp only
  rw [if_neg (show ¬ isOctByte 120 = true by decide), if_pos rfl, htake, (parseUint_iff (by decide) _ _).2 ⟨h, hn⟩]
  dsimp only
  rw [drop_cons_append]

theorem escape_uni {l : Nat} {ds r : List Nat} {n : Nat} (h : NumberIs 16 ds n) (hl : l = 117 ∧ ds.length = 4 ∨ l = 85 ∧ ds.length = 8) (hs : IsScalar n) :
    escape (l :: ds ++ r) = some (utf8 n, r) := by
  have hk : (if l = 85 then 8 else 4) = ds.length := by rcases hl with ⟨e, e2⟩ | ⟨e, e2⟩ <;> simp [e, e2]
  have hn := number_lt h
  have hn2 : 16 ^ ds.length ≤ 16 ^ 8 := Nat.pow_le_pow_right (by decide) (by omega)
  unfold IsScalar at hs
  rw [List.cons_append]
  unfold escape
  dsimp only
  rw [show simpleEscape l = none by rcases hl with ⟨e, _⟩ | ⟨e, _⟩ <;> subst e <;> rfl]
  dsimp only
  rw [if_neg (show ¬ isOctByte l = true by rcases hl with ⟨e, _⟩ | ⟨e, _⟩ <;> subst e <;> decide), if_neg (by omega), if_pos (by omega), hk,
    if_neg (by simp), List.take_left, (parseUint_iff (by decide) _ _).2 ⟨h, by omega⟩]
  dsimp only
  rw [if_neg (by omega), if_neg (by omega), List.drop_left, encodeRune_eq]

theorem escape_pair {l : Nat} {ds es r : List Nat} {hi lo : Nat} (h : NumberIs 16 ds (0xD800 + hi)) (hl : l = 117 ∧ ds.length = 4 ∨ l = 85 ∧ ds.length = 8)
    (hhi : hi < 0x400) (h' : NumberIs 16 es (0xDC00 + lo)) (hle : es.length = 4) (hlo : lo < 0x400) :
    escape (l :: ds ++ (92 :: 117 :: es ++ r)) = some (utf8 (0x10000 + 0x400 * hi + lo), r) := by
  have hk : (if l = 85 then 8 else 4) = ds.length := by rcases hl with ⟨e, e2⟩ | ⟨e, e2⟩ <;> simp [e, e2]
  rw [List.cons_append]
  unfold escape
  dsimp only
  rw [show simpleEscape l = none by rcases hl with ⟨e, _⟩ | ⟨e, _⟩ <;> subst e <;> rfl]
  dsimp only
  rw [if_neg (show ¬ isOctByte l = true by rcases hl with ⟨e, _⟩ | ⟨e, _⟩ <;> subst e <;> decide), if_neg (by omega), if_pos (by omega), hk,
    if_neg (by simp), List.take_left, (parseUint_iff (by decide) _ _).2 ⟨h, by omega⟩]
  dsimp only
  rw [if_neg (by omega), if_pos (by omega), List.drop_left]
  match es, hle with
  | [d1, d2, d3, d4], _ =>
    simp only [List.cons_append, List.nil_append]
    rw [(parseUint_iff (by decide) _ _).2 ⟨h', by omega⟩]
    dsimp only
    rw [if_pos ⟨trivial, trivial, by omega, by omega, by omega⟩, encodeRune_eq]
    rw [show (0xD800 + hi - 0xD800) * 1024 + (0xDC00 + lo - 0xDC00) + 0x10000 = 0x10000 + 0x400 * hi + lo by omega]

/-- One step of the loop at a character that is none of the special ones. -/
theorem loop_char {q c fuel : Nat} {r out : List Nat} (hs : IsScalar c) (h0 : c ≠ 0) (h10 : c ≠ 10) (h92 : c ≠ 92) (hq : c ≠ q) :
    stringLoop q (fuel + 1) (utf8 c ++ r) out =
      stringLoop q fuel (r.drop (r.takeWhile plainByte).length) (out ++ (utf8 c ++ r.take (r.takeWhile plainByte).length)) := by
  have hne : utf8 c ++ r ≠ [] := fun e => by
    have h1 := congrArg List.length e
    have h2 := utf8_len c
    rw [List.length_append, List.length_nil] at h1
    omega
  conv => lhs; unfold stringLoop
  rw [if_neg hne, decode_utf8 hs]
  dsimp only
  rw [if_neg (by omega), if_neg hq, if_neg h92, List.drop_left]
  congr 1
  · rw [← List.drop_drop, List.drop_left]
  · rw [List.take_append, List.take_of_length_le (by omega)]
    congr 3
    omega

theorem loop_escape {q fuel : Nat} {s s' x out : List Nat} (hq : q = 34 ∨ q = 39) (h : escape s = some (x, s')) :
    stringLoop q (fuel + 1) (92 :: s) out = stringLoop q fuel s' (out ++ x) := by
  conv => lhs; unfold stringLoop
  rw [if_neg (by simp), show decodeRune (92 :: s) = some (92, 1) by simp [decodeRune]]
  dsimp only
  rw [if_neg (by omega), if_neg (by omega), if_pos rfl, List.drop_one, List.tail_cons, h]

theorem loop_quote {q fuel : Nat} {s out : List Nat} (hq : q = 34 ∨ q = 39) : stringLoop q (fuel + 1) (q :: s) out = some out := by
  conv => lhs; unfold stringLoop
  rw [if_neg (by simp), show decodeRune (q :: s) = some (q, 1) by simp [decodeRune]; omega]
  dsimp only
  rw [if_neg (by omega), if_pos rfl]

/-- The loop reads what a literal says. -/
theorem loop_complete {q : Nat} (hq : q = 34 ∨ q = 39) (rest : List Nat) : ∀ (fuel : Nat) (t v out : List Nat), t.length ≤ fuel → LitBody q t v →
    stringLoop q fuel (t ++ rest) out = some (out ++ v)
  | 0, t, v, out, hf, h => absurd (List.length_eq_zero_iff.1 (Nat.le_zero.1 hf)) (body_ne h)
  | fuel + 1, t, v, out, hf, h => by
    cases h with
    | done => rw [List.cons_append, loop_quote hq, List.append_nil]
    | char c r v hs h0 h10 h92 hcq hb =>
      rw [List.append_assoc, loop_char hs h0 h10 h92 hcq]
      obtain ⟨i, s', v', e1, e2, h1, h2, h3⟩ := body_run hq r v rest hb
      rw [h2, List.drop_append_of_le_length h3, List.take_append_of_le_length h3]
      have hdrop : r.drop i = s' := by
        conv => lhs; rw [e1]
        have : (r.take i).length = i := by simp; omega
        conv => lhs; arg 1; rw [← this]
        exact List.drop_left
      have hlen : (utf8 c ++ r).length ≤ fuel + 1 := hf
      rw [List.length_append] at hlen
      have := utf8_len c
      have hs' : s'.length ≤ fuel := by
        rw [← hdrop, List.length_drop]; omega
      rw [hdrop, loop_complete hq rest fuel s' v' _ hs' h1, e2]
      simp
    | letter e x r v hm hb =>
      simp only [List.cons_append]
      rw [loop_escape hq (escape_letter _ hm), loop_complete hq rest fuel r v _ (by simp at hf; omega) hb]
      simp
    | oct ds n r v hn hl hlt hr hb =>
      simp only [List.cons_append, List.append_assoc]
      have hr' : ds.length = 3 ∨ NoDigit 8 (r ++ rest) := hr.imp id fun h => by
        rw [noDigit_iff (by decide)] at h ⊢
        rwa [head_append (body_ne hb)]
      rw [loop_escape hq (escape_oct hn hl hlt hr'), loop_complete hq rest fuel r v _ (by simp at hf; omega) hb]
      simp
    | hex ds n r v hn hl hr hb =>
      simp only [List.cons_append, List.append_assoc]
      have hr' : ds.length = 2 ∨ NoDigit 16 (r ++ rest) := hr.imp id fun h => by
        rw [noDigit_iff (by decide)] at h ⊢
        rwa [head_append (body_ne hb)]
      rw [← List.cons_append, loop_escape hq (escape_hex hn hl hr'), loop_complete hq rest fuel r v _ (by simp at hf; omega) hb]
      simp
    | uni l ds n r v hn hl hs hb =>
      simp only [List.cons_append, List.append_assoc]
      rw [← List.cons_append, loop_escape hq (escape_uni hn hl hs), loop_complete hq rest fuel r v _ (by simp at hf; omega) hb]
      simp
    | pair l ds es hi lo r v hn hl hhi hn' hl' hlo hb =>
      have e : 92 :: l :: ds ++ (92 :: 117 :: es ++ r) ++ rest = 92 :: (l :: ds ++ (92 :: 117 :: es ++ (r ++ rest))) := by simp
      rw [e, loop_escape hq (escape_pair hn hl hhi hn' hl' hlo), loop_complete hq rest fuel r v _ (by simp at hf; omega) hb]
      simp

/-- What the loop reads is a literal. -/
theorem loop_sound {q : Nat} (hq : q = 34 ∨ q = 39) : ∀ (fuel : Nat) (s out res : List Nat), stringLoop q fuel s out = some res →
    ∃ t v rest, s = t ++ rest ∧ res = out ++ v ∧ LitBody q t v
  | 0, _, _, _, h => by cases h
  | fuel + 1, s, out, res, h => by
    unfold stringLoop at h
    split at h
    · cases h
    · split at h
      · cases h
      · rename_i r n hd
        obtain ⟨hs, hn, es⟩ := decode_sound hd
        split at h
        · cases h
        · split at h
          · rename_i _ hrq
            simp only [Option.some.injEq] at h
            subst h hrq
            have hu : utf8 r = [r] := by unfold utf8; rw [if_pos (by omega)]
            rw [hu] at es
            exact ⟨[r], [], _, es, by simp, .done⟩
          · split at h
            · rename_i _ _ h92
              subst h92
              split at h
              · cases h
              · rename_i x s' he
                obtain ⟨t, v, rest, e1, e2, hb⟩ := loop_sound hq fuel s' _ _ h
                obtain ⟨t', e3, hb'⟩ := escape_sound he t rest v e1 hb
                refine ⟨92 :: t', x ++ v, rest, ?_, by rw [e2, List.append_assoc], hb'⟩
                have hu : utf8 92 = [92] := rfl
                rw [hu] at es hn
                simp only [List.length_singleton] at hn
                subst hn
                rw [es, e3]
                rfl
            · rename_i h0 hrq h92
              obtain ⟨t, v, rest, e1, e2, hb⟩ := loop_sound hq fuel _ _ _ h
              have hp : ∀ c ∈ (s.drop n).take ((s.drop n).takeWhile plainByte).length, plainByte c = true := by
                intro c hc
                have e : (s.drop n).take ((s.drop n).takeWhile plainByte).length = (s.drop n).takeWhile plainByte := by
                  conv => lhs; arg 2; rw [← List.takeWhile_append_dropWhile (p := plainByte) (l := s.drop n)]
                  exact List.take_left
                rw [e] at hc
                exact (List.all_takeWhile (l := s.drop n) (p := plainByte) |> List.all_eq_true.1) c hc
              generalize ((s.drop n).takeWhile plainByte).length = i at hp e1 e2
              have hb1 := run_body hq _ _ _ hp hb
              have hb2 := LitBody.char (q := q) r _ _ hs (by omega) (by omega) h92 hrq hb1
              refine ⟨_, _, rest, ?_, ?_, hb2⟩
              · conv => lhs; rw [es, ← List.take_append_drop i (s.drop n), List.drop_drop, e1]
                simp
              · have : s.take (n + i) = utf8 r ++ (s.drop n).take i := by
                  conv => lhs; rw [es, List.take_append, ← hn, List.take_of_length_le (by omega)]
                  rw [show n + i - n = i by omega]
                rw [e2, this]
                simp

end Gen

open Gen

/-- C48: reading a text that starts with a literal gives the bytes the literal denotes. -/
theorem C48_decode (lit value rest : List Nat) (h : IsLit lit value) : unmarshalString (lit ++ rest) = some value := by
  cases h with
  | mk q t v hq hb =>
    obtain ⟨i, s', v', e1, e2, h1, h2, h3⟩ := body_run hq t value rest hb
    rw [List.cons_append]
    unfold unmarshalString
    dsimp only
    rw [h2, List.drop_append_of_le_length h3, List.take_append_of_le_length h3]
    have hdrop : t.drop i = s' := by
      conv => lhs; rw [e1]
      have : (t.take i).length = i := by simp; omega
      conv => lhs; arg 1; rw [← this]
      exact List.drop_left
    rw [hdrop, loop_complete hq rest _ s' v' _ (by rw [← hdrop]; simp; omega) h1, ← e2]

/-- C48: every other text is rejected: when reading a text that starts with a quote succeeds, the text starts with a literal that denotes the result. -/
theorem C48_reject (s value : List Nat) (hq : s.head? = some 34 ∨ s.head? = some 39) (h : unmarshalString s = some value) :
    ∃ lit rest, s = lit ++ rest ∧ IsLit lit value := by
  cases s with
  | nil => cases h
  | cons q s =>
    simp only [List.head?_cons, Option.some.injEq] at hq
    unfold unmarshalString at h
    dsimp only at h
    obtain ⟨t, v, rest, e1, e2, hb⟩ := loop_sound hq _ _ _ _ h
    have hp : ∀ c ∈ s.take (s.takeWhile plainByte).length, plainByte c = true := by
      intro c hc
      have e : s.take (s.takeWhile plainByte).length = s.takeWhile plainByte := by
        conv => lhs; arg 2; rw [← List.takeWhile_append_dropWhile (p := plainByte) (l := s)]
        exact List.take_left
      rw [e] at hc
      exact (List.all_takeWhile (l := s) (p := plainByte) |> List.all_eq_true.1) c hc
    generalize (s.takeWhile plainByte).length = i at hp e1 e2
    have hb1 := run_body hq _ _ _ hp hb
    refine ⟨q :: (s.take i ++ t), rest, ?_, ?_⟩
    · conv => lhs; rw [← List.take_append_drop i s, e1]
      simp
    · rw [e2]; exact .mk q _ _ hq hb1

/-- Non-vacuity: `"a\x41\n\u00e9\1' "`, followed by something. -/
example : IsLit [34, 97, 92, 120, 52, 49, 92, 110, 92, 117, 48, 48, 101, 57, 92, 49, 39, 32, 34] [97, 65, 10, 0xC3, 0xA9, 1, 39, 32] := by
  refine .mk 34 _ _ (.inl rfl) ?_
  have d (n : Nat) (hn : n < 10) : DigitIs (48 + n) n := .dec n hn
  have h1 := LitBody.char (q := 34) 32 _ _ (by unfold IsScalar; omega) (by omega) (by omega) (by omega) (by omega) .done
  have h2 := LitBody.char (q := 34) 39 _ _ (by unfold IsScalar; omega) (by omega) (by omega) (by omega) (by omega) h1
  have h3 := LitBody.oct (q := 34) [49] 1 _ _ (.one _ 1 (d 1 (by omega)) (by omega)) (by decide) (by omega)
    (.inr fun c r v e hd => by
      simp only [show utf8 39 = [39] by rfl, List.cons_append, List.cons.injEq] at e
      obtain ⟨e, _⟩ := e
      cases hd <;> omega) h2
  have h4 := LitBody.uni (q := 34) 117 [48, 48, 101, 57] 0xE9 _ _
    (.more [48, 48, 101] 14 57 9 (.more [48, 48] 0 101 14 (.more [48] 0 48 0 (.one 48 0 (d 0 (by omega)) (by omega)) (d 0 (by omega)) (by omega))
      (.lower 14 (by omega) (by omega)) (by omega)) (d 9 (by omega)) (by omega))
    (.inl ⟨rfl, rfl⟩) (by unfold IsScalar; omega) h3
  have h5 := LitBody.letter (q := 34) 110 10 _ _ (by decide) h4
  have h6 := LitBody.hex (q := 34) [52, 49] 65 _ _ (.more [52] 4 49 1 (.one 52 4 (d 4 (by omega)) (by omega)) (d 1 (by omega)) (by omega)) (by decide)
    (.inl rfl) h5
  exact .char (q := 34) 97 _ _ (by unfold IsScalar; omega) (by omega) (by omega) (by omega) (by omega) h6
example : unmarshalString [34, 97, 92, 120, 52, 49, 92, 110, 92, 117, 48, 48, 101, 57, 92, 49, 39, 32, 34, 1, 2, 3] =
    some [97, 65, 10, 0xC3, 0xA9, 1, 39, 32] := by decide +kernel

theorem Gen.escaped_body (q : Nat) : ∀ s : List Nat, (∀ b ∈ s, b < 256) → LitBody q (s.flatMap escapeByte ++ [q]) s
  | [], _ => .done
  | b :: s, h => by
    have ih := escaped_body q s (fun b hb => h b (List.mem_cons_of_mem _ hb))
    have hb := h b (List.mem_cons_self ..)
    have hn : NumberIs 8 [48 + b / 64, 48 + b / 8 % 8, 48 + b % 8] ((b / 64 * 8 + b / 8 % 8) * 8 + b % 8) :=
      .more [48 + b / 64, 48 + b / 8 % 8] (b / 64 * 8 + b / 8 % 8) _ _
        (.more [48 + b / 64] (b / 64) _ _ (.one _ _ (.dec _ (by omega)) (by omega)) (.dec _ (by omega)) (by omega)) (.dec _ (by omega)) (by omega)
    rw [show (b / 64 * 8 + b / 8 % 8) * 8 + b % 8 = b by omega] at hn
    have := LitBody.oct (q := q) _ b _ _ hn (by simp) hb (.inl rfl) ih
    rw [List.flatMap_cons, List.append_assoc]
    exact this

/-- C48: every string of bytes has a literal that reads back as that string: the one in which every byte is escaped. -/
theorem C48_escaped (q : Nat) (hq : q = 34 ∨ q = 39) (s : List Nat) (h : ∀ b ∈ s, b < 256) :
    unmarshalString (q :: (s.flatMap escapeByte ++ [q])) = some s := by
  have := C48_decode _ _ [] (.mk q _ _ hq (escaped_body q s h))
  rwa [List.append_nil] at this

example : (∀ b ∈ [0, 255, 34, 10], b < 256) ∧ unmarshalString (34 :: ([0, 255, 34, 10].flatMap escapeByte ++ [34])) = some [0, 255, 34, 10] :=
  ⟨by decide, by decide +kernel⟩

/-- C48: a literal denotes one string only (so there is nothing to choose in `C48_decode`). -/
theorem C48_unique (lit v v' : List Nat) (h : IsLit lit v) (h' : IsLit lit v') : v = v' := by
  have h1 := C48_decode _ _ [] h
  have h2 := C48_decode _ _ [] h'
  rw [h1] at h2
  exact Option.some.inj h2

/-- Violation of C48: of literals written one after the other, only the first is read. -/
theorem C48_concat_violated : ∃ t v, IsStr t v ∧ unmarshalString t ≠ some v := by
  refine ⟨[34, 97, 34, 34, 98, 34], [97, 98], ?_, by decide +kernel⟩
  have h (c : Nat) (hs : IsScalar c) (h0 : c ≠ 0) (h1 : c ≠ 10) (h2 : c ≠ 92) (h3 : c ≠ 34) (hu : utf8 c = [c]) : IsLit [34, c, 34] [c] := by
    have := LitBody.char (q := 34) c _ _ hs h0 h1 h2 h3 .done
    rw [hu] at this
    exact .mk 34 _ _ (.inl rfl) this
  exact .more [34, 97, 34] [97] [34, 98, 34] [98]
    (h 97 (by unfold IsScalar; omega) (by omega) (by omega) (by omega) (by omega) rfl)
    (.one _ _ (h 98 (by unfold IsScalar; omega) (by omega) (by omega) (by omega) (by omega) rfl))

/-- Violation of C48: `\X41` is an escape in the language, and in the generator's own grammar (`Protobuf.g4`, `HEX_ESCAPE`), but is rejected. -/
theorem C48_bigX_violated : unmarshalString [34, 92, 88, 52, 49, 34] = none := by decide +kernel

end Verif.Props
