import Verif.Lemmas.Gen.Antlr.Cache
import Verif.Lemmas.Gen.Antlr.Words
import Verif.Lemmas.Gen.Lexer
/-!
# Runs through the table of the lexer: words, white space, strings and comments
-/
namespace Verif.Lemmas.Gen.Antlr
open Verif.Model.Gen Verif.Model.Gen.Antlr Verif.Spec.Gen
open Verif.Lemmas.Gen

theorem nextIn_nil (n : Nat) : nextIn [] n = none := rfl
theorem nextIn_cons (h : Nat) (t : Option Nat) (es : List (Nat × Option Nat)) (n : Nat) : nextIn ((h, t) :: es) n = if n < h then t else nextIn es n := by
  simp only [nextIn]
  by_cases hn : n < h
  · rw [Nat.blt_eq.mpr hn, if_pos hn]; rfl
  · rw [blt_false (by omega), if_neg hn]; rfl

theorem next_row {i : Nat} {r : Row} (h : table.get i = some r) (c : Char) : next i c = nextIn r.edges c.toNat := by simp only [next, h]

theorem acc_row {i : Nat} {r : Row} (h : table.get i = some r) : accOf i = r.acc := by simp only [accOf, h]

theorem run_nil (i : Nat) (p : Option Accept) : run i [] p = (p, []) := rfl

theorem run_stop {i : Nat} {c : Char} (h : next i c = none) (s : Str) (p : Option Accept) : run i (c :: s) p = (p, c :: s) := by
  simp only [run, h]

theorem run_step {i j : Nat} {c : Char} (h : next i c = some j) (s : Str) (p : Option Accept) : run i (c :: s) p = run j s (accept j s p) := by
  simp only [run, h]

theorem accept_some {j t : Nat} {e : Option (List Action)} (h : accOf j = some (t, e)) (s : Str) (p : Option Accept) : accept j s p = some ⟨s, t, e⟩ := by
  simp only [accept, h]

theorem accept_none {j : Nat} (h : accOf j = none) (s : Str) (p : Option Accept) : accept j s p = p := by
  simp only [accept, h]

/-- A state without transitions. -/
theorem run_end {i : Nat} (h : ∀ c, next i c = none) (s : Str) (p : Option Accept) : run i s p = (p, s) := by
  cases s with
  | nil => rfl
  | cons c s => exact run_stop (h c) s p

/-- A state with a loop for some characters, and nothing else. -/
theorem run_loop {i t : Nat} {e : Option (List Action)} {f : Char → Bool} (ha : accOf i = some (t, e)) (hn : ∀ c, next i c = if f c then some i else none) :
    ∀ s : Str, run i s (some ⟨s, t, e⟩) = (some ⟨s.dropWhile f, t, e⟩, s.dropWhile f)
  | [] => rfl
  | c :: s => by
    by_cases hc : f c = true
    · rw [run_step (by rw [hn, if_pos hc]), accept_some ha, run_loop ha hn s, List.dropWhile_cons, if_pos hc]
    · rw [run_stop (by rw [hn, if_neg hc]), List.dropWhile_cons, if_neg hc]

/-! ## White space and line comments -/

theorem get1 : table.get 1 = some row1 := rfl
theorem get42 : table.get 42 = some row42 := rfl

theorem next1 (c : Char) : next 1 c = if isWsChar c then some 1 else none := by
  rw [next_row get1]
  simp only [row1, nextIn_cons, nextIn_nil, isWsChar_num]
  repeat' split
  all_goals first | rfl | (exfalso; omega)

theorem next42 (c : Char) : next 42 c = if notEol c then some 42 else none := by
  rw [next_row get42]
  have hm := char_le c
  simp only [maxChar] at hm
  have : notEol c = true ↔ c.toNat ≠ 13 ∧ c.toNat ≠ 10 := by
    simp only [notEol, Bool.and_eq_true, bne_iff_ne, ne_eq, charEq]
    rfl
  simp only [row42, nextIn_cons, nextIn_nil, this]
  repeat' split
  all_goals first | rfl | (exfalso; omega)

theorem run_ws (s : Str) : run 1 s (some ⟨s, 59, some [⟨2⟩]⟩) = (some ⟨s.dropWhile isWsChar, 59, some [⟨2⟩]⟩, s.dropWhile isWsChar) :=
  run_loop rfl next1 s

theorem run_line (s : Str) : run 42 s (some ⟨s, 60, some [⟨3⟩]⟩) = (some ⟨s.dropWhile notEol, 60, some [⟨3⟩]⟩, s.dropWhile notEol) :=
  run_loop rfl next42 s

/-! ## Words -/

theorem nextIn_high : ∀ (es : List (Nat × Option Nat)), es.all (fun e => e.2.isNone || Nat.ble e.1 128) = true → ∀ n, 128 ≤ n → nextIn es n = none
  | [], _, _, _ => rfl
  | (h, t) :: es, ha, n, hn => by
    simp only [List.all_cons, Bool.and_eq_true, Bool.or_eq_true, Nat.ble_eq] at ha
    rw [nextIn_cons]
    split
    · rcases ha.1 with h | h
      · exact Option.isNone_iff_eq_none.mp h
      · omega
    · exact nextIn_high es ha.2 n hn

theorem range_all {p : Nat → Bool} (h : (List.range 128).all p = true) {n : Nat} (hn : n < 128) : p n = true :=
  List.all_eq_true.mp h n (List.mem_range.mpr hn)

theorem wordState {i : Nat} {w : Str} (h : (i, w) ∈ wordStates) :
    accOf i = some (wordType w, none) ∧ (∀ c, isWordChar c = false → next i c = none) ∧
    ∀ c, isWordChar c = true → ∃ j, next i c = some j ∧ (j = 18 ∨ (j, w ++ [c]) ∈ wordStates) := by
  have hok := List.all_eq_true.mp words_ok _ h
  unfold wordStateOk at hok
  split at hok
  · cases hok
  · rename_i r hr
    simp only [Bool.and_eq_true, decide_eq_true_eq] at hok
    obtain ⟨⟨hacc, hhigh⟩, hch⟩ := hok
    refine ⟨by rw [acc_row hr, hacc], ?_, ?_⟩
    · intro c hc
      rw [next_row hr]
      by_cases hn : c.toNat < 128
      · have := range_all hch hn
        unfold wordCharOk at this
        rw [Char.ofNat_toNat, hc] at this
        split at this
        · assumption
        · cases this
      · exact nextIn_high _ hhigh _ (by omega)
    · intro c hc
      have hn : c.toNat < 128 := by
        have := (isWordChar_num c).1 hc
        omega
      have := range_all hch hn
      unfold wordCharOk at this
      rw [Char.ofNat_toNat, hc] at this
      rw [next_row hr]
      split at this
      · cases this
      · rename_i j hj
        refine ⟨j, hj, ?_⟩
        simp only [Bool.true_and, Bool.or_eq_true, decide_eq_true_eq] at this
        rcases this with h | h
        · exact Or.inl (Nat.eq_of_beq_eq_true h)
        · exact Or.inr h

theorem get18 : table.get 18 = some row18 := rfl

theorem next18 (c : Char) : next 18 c = if isWordChar c then some 18 else none := by
  rw [next_row get18]
  by_cases hn : c.toNat < 128
  · have := range_all other_ok hn
    simp only [Char.ofNat_toNat, decide_eq_true_eq] at this
    exact this
  · rw [nextIn_high _ other_high _ (by omega), if_neg]
    intro h
    have := (isWordChar_num c).1 h
    omega

def walk : Nat → Str → Option Nat
  | i, [] => some i
  | i, c :: s =>
    match next i c with
    | none => none
    | some j => walk j s

theorem walk_append : ∀ (a b : Str) (i j : Nat), walk i a = some j → walk i (a ++ b) = walk j b
  | [], _, _, _, h => by simp only [walk, Option.some.injEq] at h; subst h; rfl
  | c :: a, b, i, j, h => by
    simp only [walk] at h
    simp only [List.cons_append, walk]
    match hn : next i c with
    | none => rw [hn] at h; cases h
    | some k =>
      rw [hn] at h
      exact walk_append a b k j h

theorem notOther_walk : ∀ (k : Str) (i : Nat), notOther i k = true → k ≠ [] → walk i k ≠ some 18
  | [], _, _, h => absurd rfl h
  | c :: k, i, h, _ => by
    unfold notOther at h
    split at h
    · cases h
    · rename_i r hr
      split at h
      · cases h
      · rename_i j hj
        simp only [Bool.and_eq_true, Bool.not_eq_true'] at h
        simp only [walk, next_row hr, hj]
        cases k with
        | nil =>
          intro e
          simp only [walk, Option.some.injEq] at e
          subst e
          exact absurd h.1 (by decide)
        | cons d k => exact notOther_walk (d :: k) j h.2 (by simp)

theorem wordType_other {w : Str} (hw : w ≠ []) (h : walk 0 w = some 18) : wordType w = 58 := by
  have hk : ∀ k ∈ Keywords ++ ["true", "false", "inf", "nan"].map String.toList, w ≠ k := by
    intro k hk e
    subst e
    exact notOther_walk w 0 (List.all_eq_true.mp keywords_notOther _ hk) hw h
  unfold wordType
  have : Keywords.idxOf? w = none := List.idxOf?_eq_none_iff.mpr (fun hm => hk w (List.mem_append_left _ hm) rfl)
  rw [this]
  dsimp only
  rw [if_neg, if_neg]
  · rintro (e | e)
    · exact hk _ (by simp) e
    · exact hk _ (by simp) e
  · rintro (e | e)
    · exact hk _ (by simp) e
    · exact hk _ (by simp) e

/-- The word `w` leads to the state `i`. -/
def WordAt (i : Nat) (w : Str) : Prop := walk 0 w = some i ∧ (i = 18 ∨ (i, w) ∈ wordStates)

theorem wordAt_acc {i : Nat} {w : Str} (hw : w ≠ []) (h : WordAt i w) : accOf i = some (wordType w, none) := by
  obtain ⟨h1, rfl | h2⟩ := h
  · rw [wordType_other hw h1]; rfl
  · exact (wordState h2).1

theorem wordAt_stop {i : Nat} {w : Str} (h : WordAt i w) {c : Char} (hc : isWordChar c = false) : next i c = none := by
  obtain ⟨_, rfl | h2⟩ := h
  · rw [next18, hc]; rfl
  · exact (wordState h2).2.1 c hc

theorem wordAt_step {i : Nat} {w : Str} (h : WordAt i w) {c : Char} (hc : isWordChar c = true) : ∃ j, next i c = some j ∧ WordAt j (w ++ [c]) := by
  have hwalk : ∀ j, next i c = some j → walk 0 (w ++ [c]) = some j := by
    intro j hj
    rw [walk_append w [c] 0 i h.1]
    simp only [walk, hj]
  obtain ⟨h1, rfl | h2⟩ := h
  · exact ⟨18, by rw [next18, hc]; rfl, hwalk 18 (by rw [next18, hc]; rfl), Or.inl rfl⟩
  · obtain ⟨j, hj, ho⟩ := (wordState h2).2.2 c hc
    exact ⟨j, hj, hwalk j hj, ho⟩

theorem run_word : ∀ (s : Str) (i : Nat) (w : Str), w ≠ [] → WordAt i w →
    run i s (some ⟨s, wordType w, none⟩) = (some ⟨s.dropWhile isWordChar, wordType (w ++ s.takeWhile isWordChar), none⟩, s.dropWhile isWordChar)
  | [], _, _, _, _ => by simp [run]
  | c :: s, i, w, hw, h => by
    by_cases hc : isWordChar c = true
    · obtain ⟨j, hj, hw'⟩ := wordAt_step h hc
      have hne : w ++ [c] ≠ [] := by simp
      rw [run_step hj, accept_some (wordAt_acc hne hw'), run_word s j (w ++ [c]) hne hw']
      simp only [List.dropWhile_cons, List.takeWhile_cons, hc, if_true, List.append_assoc, List.singleton_append]
    · have hc : isWordChar c = false := by simpa using hc
      rw [run_stop (wordAt_stop h hc)]
      simp [hc]

theorem get0 : table.get 0 = some row0 := rfl

theorem next0_letter {c : Char} (hc : isLetter c = true) : ∃ j, next 0 c = some j ∧ WordAt j [c] := by
  have hn : c.toNat < 128 := by
    have := (isLetter_num c).1 hc
    omega
  have := range_all start_ok hn
  rw [Char.ofNat_toNat, hc] at this
  simp only [Bool.not_true, Bool.false_or] at this
  unfold wordCharOk at this
  rw [Char.ofNat_toNat, hc] at this
  rw [next_row get0]
  split at this
  · cases this
  · rename_i j hj
    refine ⟨j, hj, ?_, ?_⟩
    · simp only [walk, next_row get0, hj]
    · simp only [Bool.true_and, Bool.or_eq_true, decide_eq_true_eq] at this
      rcases this with h | h
      · exact Or.inl (Nat.eq_of_beq_eq_true h)
      · exact Or.inr h

/-! ## Strings -/

/-- The state in a literal between the quotes `q`. -/
def strAt (q : Char) : StrState → Nat
  | .body => if q = '"' then 2 else 3
  | .esc => if q = '"' then 38 else 39
  | .hex n => if q = '"' then (if n = 0 then 120 else 78) else (if n = 0 then 122 else 80)
  | .oct n => if q = '"' then (if n = 0 then 119 else 77) else (if n = 0 then 121 else 79)

theorem isCharEscape_num (c : Char) : isCharEscape c = true ↔ c.toNat = 97 ∨ c.toNat = 98 ∨ c.toNat = 102 ∨ c.toNat = 110 ∨ c.toNat = 114 ∨ c.toNat = 116 ∨
    c.toNat = 118 ∨ c.toNat = 92 ∨ c.toNat = 39 ∨ c.toNat = 34 := by
  simp only [isCharEscape, Bool.or_eq_true, decide_eq_true_eq, charEq, or_assoc]
  exact Iff.rfl

/-- The state after a character of a literal. -/
def strStep (q : Char) : Option (Option StrState) → Option Nat
  | none => none
  | some none => some 37
  | some (some st) => some (strAt q st)

theorem get2 : table.get 2 = some row2 := rfl
theorem get3 : table.get 3 = some row3 := rfl
theorem get38 : table.get 38 = some row38 := rfl
theorem get39 : table.get 39 = some row39 := rfl
theorem get77 : table.get 77 = some row77 := rfl
theorem get78 : table.get 78 = some row78 := rfl
theorem get79 : table.get 79 = some row79 := rfl
theorem get80 : table.get 80 = some row80 := rfl
theorem get119 : table.get 119 = some row119 := rfl
theorem get120 : table.get 120 = some row120 := rfl
theorem get121 : table.get 121 = some row121 := rfl
theorem get122 : table.get 122 = some row122 := rfl

theorem str_body (q : Char) (hq : q = '"' ∨ q = '\'') (c : Char) : next (strAt q .body) c = strStep q (strNext q .body c) := by
  have hm := char_le c
  simp only [maxChar] at hm
  have h92 : c = '\\' ↔ c.toNat = 92 := charEq c _
  have h0 : c = '\x00' ↔ c.toNat = 0 := charEq c _
  have h10 : c = '\n' ↔ c.toNat = 10 := charEq c _
  rcases hq with rfl | rfl
  · have h34 : c = '"' ↔ c.toNat = 34 := charEq c _
    show next 2 c = _
    rw [next_row get2]
    simp only [row2, nextIn_cons, nextIn_nil, strNext, h92, h0, h10, h34]
    repeat' split
    all_goals first | rfl | (exfalso; omega)
  · have h34 : c = '\'' ↔ c.toNat = 39 := charEq c _
    show next 3 c = _
    rw [next_row get3]
    simp only [row3, nextIn_cons, nextIn_nil, strNext, h92, h0, h10, h34]
    repeat' split
    all_goals first | rfl | (exfalso; omega)

set_option maxRecDepth 10000 in
theorem esc_low : ((List.range 128).all fun n => decide (nextIn row38.edges n = strStep '"' (strNext '"' .esc (Char.ofNat n))) &&
    decide (nextIn row39.edges n = strStep '\'' (strNext '\'' .esc (Char.ofNat n)))) = true := by decide +kernel

theorem esc_high (q c : Char) (h : 128 ≤ c.toNat) : strNext q .esc c = none := by
  have hx : c = 'x' ↔ c.toNat = 120 := charEq c _
  have hX : c = 'X' ↔ c.toNat = 88 := charEq c _
  rw [strNext, if_neg, if_neg, if_neg]
  · rw [isOctChar_num]; omega
  · rw [hx, hX]; omega
  · rw [isCharEscape_num]; omega

theorem str_esc (q : Char) (hq : q = '"' ∨ q = '\'') (c : Char) : next (strAt q .esc) c = strStep q (strNext q .esc c) := by
  by_cases hn : c.toNat < 128
  · have := range_all esc_low hn
    simp only [Char.ofNat_toNat, Bool.and_eq_true, decide_eq_true_eq] at this
    rcases hq with rfl | rfl
    · exact (next_row get38 c).trans this.1
    · exact (next_row get39 c).trans this.2
  · rw [esc_high q c (by omega)]
    rcases hq with rfl | rfl
    · exact (next_row get38 c).trans (nextIn_high _ (by decide +kernel) _ (by omega))
    · exact (next_row get39 c).trans (nextIn_high _ (by decide +kernel) _ (by omega))

theorem str_hex (q : Char) (hq : q = '"' ∨ q = '\'') (n : Nat) (hn : n ≤ 1) (c : Char) : next (strAt q (.hex n)) c = strStep q (strNext q (.hex n) c) := by
  have : n = 0 ∨ n = 1 := by omega
  rcases hq with rfl | rfl <;> rcases this with rfl | rfl
  · show next 120 c = _
    rw [next_row get120]
    simp only [row120, nextIn_cons, nextIn_nil, strNext, isHexChar_num, ↓reduceIte, Nat.one_ne_zero, Nat.sub_self]
    repeat' split
    all_goals first | rfl | (exfalso; omega)
  · show next 78 c = _
    rw [next_row get78]
    simp only [row78, nextIn_cons, nextIn_nil, strNext, isHexChar_num, ↓reduceIte, Nat.one_ne_zero, Nat.sub_self]
    repeat' split
    all_goals first | rfl | (exfalso; omega)
  · show next 122 c = _
    rw [next_row get122]
    simp only [row122, nextIn_cons, nextIn_nil, strNext, isHexChar_num, ↓reduceIte, Nat.one_ne_zero, Nat.sub_self]
    repeat' split
    all_goals first | rfl | (exfalso; omega)
  · show next 80 c = _
    rw [next_row get80]
    simp only [row80, nextIn_cons, nextIn_nil, strNext, isHexChar_num, ↓reduceIte, Nat.one_ne_zero, Nat.sub_self]
    repeat' split
    all_goals first | rfl | (exfalso; omega)

theorem str_oct (q : Char) (hq : q = '"' ∨ q = '\'') (n : Nat) (hn : n ≤ 1) (c : Char) : next (strAt q (.oct n)) c = strStep q (strNext q (.oct n) c) := by
  have : n = 0 ∨ n = 1 := by omega
  rcases hq with rfl | rfl <;> rcases this with rfl | rfl
  · show next 119 c = _
    rw [next_row get119]
    simp only [row119, nextIn_cons, nextIn_nil, strNext, isOctChar_num, ↓reduceIte, Nat.one_ne_zero, Nat.sub_self]
    repeat' split
    all_goals first | rfl | (exfalso; omega)
  · show next 77 c = _
    rw [next_row get77]
    simp only [row77, nextIn_cons, nextIn_nil, strNext, isOctChar_num, ↓reduceIte, Nat.one_ne_zero, Nat.sub_self]
    repeat' split
    all_goals first | rfl | (exfalso; omega)
  · show next 121 c = _
    rw [next_row get121]
    simp only [row121, nextIn_cons, nextIn_nil, strNext, isOctChar_num, ↓reduceIte, Nat.one_ne_zero, Nat.sub_self]
    repeat' split
    all_goals first | rfl | (exfalso; omega)
  · show next 79 c = _
    rw [next_row get79]
    simp only [row79, nextIn_cons, nextIn_nil, strNext, isOctChar_num, ↓reduceIte, Nat.one_ne_zero, Nat.sub_self]
    repeat' split
    all_goals first | rfl | (exfalso; omega)

theorem str_next (q : Char) (hq : q = '"' ∨ q = '\'') (st : StrState) (ho : StrOk st) (c : Char) : next (strAt q st) c = strStep q (strNext q st c) := by
  cases st with
  | body => exact str_body q hq c
  | esc => exact str_esc q hq c
  | hex n => exact str_hex q hq n ho c
  | oct n => exact str_oct q hq n ho c

theorem str_acc (q : Char) (hq : q = '"' ∨ q = '\'') (st : StrState) (ho : StrOk st) : accOf (strAt q st) = none := by
  cases st with
  | body => rcases hq with rfl | rfl <;> rfl
  | esc => rcases hq with rfl | rfl <;> rfl
  | hex n =>
    have : n = 0 ∨ n = 1 := by have : n ≤ 1 := ho; omega
    rcases hq with rfl | rfl <;> rcases this with rfl | rfl <;> rfl
  | oct n =>
    have : n = 0 ∨ n = 1 := by have : n ≤ 1 := ho; omega
    rcases hq with rfl | rfl <;> rcases this with rfl | rfl <;> rfl

theorem next37 (c : Char) : next 37 c = none := by
  rw [next_row (r := row37) rfl]
  simp only [row37, nextIn_cons, nextIn_nil]
  split <;> rfl

theorem run_str (q : Char) (hq : q = '"' ∨ q = '\'') : ∀ (s : Str) (st : StrState), StrOk st →
    match strScan q st s with
    | .ok (_, r) => run (strAt q st) s none = (some ⟨r, 54, none⟩, r)
    | .error r => ∃ x, run (strAt q st) s none = (none, x) ∧ x.tail = r
  | [], st, _ => by simp only [strScan]; exact ⟨[], rfl, rfl⟩
  | c :: s, st, ho => by
    have hn := str_next q hq st ho c
    rw [strScan]
    match hs : strNext q st c with
    | none =>
      rw [hs] at hn
      exact ⟨c :: s, run_stop hn s none, rfl⟩
    | some none =>
      rw [hs] at hn
      show run (strAt q st) (c :: s) none = _
      rw [run_step hn, accept_some (t := 54) (e := none) rfl, run_end next37]
    | some (some st') =>
      rw [hs] at hn
      have ho' := strNext_ok hs ho
      have ih := run_str q hq s st' ho'
      have hr : run (strAt q st) (c :: s) none = run (strAt q st') s none := by
        rw [run_step hn, accept_none (str_acc q hq st' ho')]
      dsimp only
      rw [hr]
      match he : strScan q st' s with
      | .ok (a, r) => rw [he] at ih; exact ih
      | .error r => rw [he] at ih; exact ih

/-! ## Block comments -/

theorem next41 (c : Char) : next 41 c = if c = '*' then some 82 else some 41 := by
  have hm := char_le c
  simp only [maxChar] at hm
  have h42 : c = '*' ↔ c.toNat = 42 := charEq c _
  rw [next_row (r := row41) rfl]
  simp only [row41, nextIn_cons, nextIn_nil, h42]
  repeat' split
  all_goals first | rfl | (exfalso; omega)

theorem next82 (c : Char) : next 82 c = if c = '*' then some 82 else if c = '/' then some 125 else some 41 := by
  have hm := char_le c
  simp only [maxChar] at hm
  have h42 : c = '*' ↔ c.toNat = 42 := charEq c _
  have h47 : c = '/' ↔ c.toNat = 47 := charEq c _
  rw [next_row (r := row82) rfl]
  simp only [row82, nextIn_cons, nextIn_nil, h42, h47]
  repeat' split
  all_goals first | rfl | (exfalso; omega)

theorem next125 (c : Char) : next 125 c = none := by
  rw [next_row (r := row125) rfl]
  simp only [row125, nextIn_cons, nextIn_nil]
  split <;> rfl

/-- How a run through a comment ends. -/
def blockEnd (s : Str) : Option Accept × Str :=
  match blockScan s with
  | none => (none, [])
  | some (_, r) => (some ⟨r, 61, some [⟨3⟩]⟩, r)

theorem blockEnd_skip {c : Char} {s : Str} (h : ¬ (c = '*' ∧ s.head? = some '/')) : blockEnd (c :: s) = blockEnd s := by
  unfold blockEnd
  rw [blockScan, if_neg h]
  match blockScan s with
  | none => rfl
  | some (_, r) => rfl

theorem run_block : ∀ s : Str, run 41 s none = blockEnd s ∧ run 82 s none = blockEnd ('*' :: s)
  | [] => ⟨rfl, rfl⟩
  | c :: s => by
    obtain ⟨ih1, ih2⟩ := run_block s
    have a41 : accOf 41 = none := rfl
    have a82 : accOf 82 = none := rfl
    constructor
    · by_cases hc : c = '*'
      · subst hc
        rw [run_step (j := 82) (by rw [next41]; rfl), accept_none a82, ih2]
      · rw [run_step (j := 41) (by rw [next41, if_neg hc]), accept_none a41, ih1, blockEnd_skip (fun h => hc h.1)]
    · by_cases hc : c = '*'
      · subst hc
        rw [run_step (j := 82) (by rw [next82]; rfl), accept_none a82, ih2, blockEnd_skip (c := '*') (s := '*' :: s)]
        rintro ⟨_, h⟩
        simp only [List.head?_cons, Option.some.injEq] at h
        exact absurd h (by decide)
      · by_cases hs : c = '/'
        · subst hs
          rw [run_step (j := 125) (by rw [next82]; rfl), accept_some (t := 61) (e := some [⟨3⟩]) rfl, run_end next125]
          rfl
        · rw [run_step (j := 41) (by rw [next82, if_neg hc, if_neg hs]), accept_none a41, ih1, blockEnd_skip (c := '*'), blockEnd_skip (c := c)]
          · exact fun h => hc h.1
          · rintro ⟨_, h⟩
            simp only [List.head?_cons, Option.some.injEq] at h
            exact hs h

end Verif.Lemmas.Gen.Antlr
