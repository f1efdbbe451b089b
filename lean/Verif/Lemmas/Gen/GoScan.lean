import Verif.Spec.Gen.GoText
/-!
# The tokens of a text are unique

`scan` finds the only tokens that a text can have.
-/
namespace Verif.Props.Gen
open Verif.Spec.Gen
open Verif.Model.Gen (Str)

/-- The text up to the first end of a general comment, and the text after it. -/
def closeAt : Str → Option (Str × Str)
  | '*' :: '/' :: s => some ([], s)
  | c :: s => (closeAt s).map fun x => (c :: x.1, x.2)
  | [] => none

/-- Is this the longest operator at the start of the text? -/
def isOp (s o : Str) : Bool := o.isPrefixOf s && goOperators.all fun o' => !o'.isPrefixOf s || decide (o'.length ≤ o.length)

/-- The tokens of a text, if it has any (some restrictions are not checked). -/
def scan : Nat → Bool → Str → Option (List GTok)
  | 0, _, _ => none
  | _ + 1, b, [] => some (semis b)
  | n + 1, b, c :: s =>
    if c = ' ' ∨ c = '\t' ∨ c = '\r' then scan n b s
    else if c = '\n' then (scan n false s).map (semis b ++ ·)
    else if wordStart c then (scan n (semiAfter (.word (c :: s.takeWhile wordChar))) (s.dropWhile wordChar)).map (.word (c :: s.takeWhile wordChar) :: ·)
    else if c.isDigit then (scan n true (s.dropWhile Char.isDigit)).map (.int (c :: s.takeWhile Char.isDigit) :: ·)
    else if c = '"' then (scan n true (s.dropWhile (· ≠ '"')).tail).map (.str (s.takeWhile (· ≠ '"')) :: ·)
    else if c = '`' then (scan n true (s.dropWhile (· ≠ '`')).tail).map (.str (s.takeWhile (· ≠ '`')) :: ·)
    else if c = '/' ∧ s.head? = some '/' then scan n b (s.tail.dropWhile (· ≠ '\n'))
    else if c = '/' ∧ s.head? = some '*' then
      match closeAt s.tail with
      | some (body, r) => if '\n' ∈ body then (scan n false r).map (semis b ++ ·) else scan n b r
      | none => none
    else
      match goOperators.find? (isOp (c :: s)) with
      | some o => (scan n (semiAfter (opTok o)) ((c :: s).drop o.length)).map (opTok o :: ·)
      | none => none

theorem takeWhile_app {p : Char → Bool} : ∀ {a s : Str}, (∀ c ∈ a, p c = true) → (∀ c ∈ s.head?, p c = false) → (a ++ s).takeWhile p = a
  | [], [], _, _ => rfl
  | [], c :: s, _, h => by
    rw [List.nil_append, List.takeWhile_cons, if_neg (by rw [h c rfl]; exact Bool.false_ne_true)]
  | c :: a, s, h, h' => by
    rw [List.cons_append, List.takeWhile_cons, if_pos (h c (List.mem_cons_self ..)), takeWhile_app (fun x hx => h x (List.mem_cons_of_mem _ hx)) h']

theorem dropWhile_app {p : Char → Bool} : ∀ {a s : Str}, (∀ c ∈ a, p c = true) → (∀ c ∈ s.head?, p c = false) → (a ++ s).dropWhile p = s
  | [], [], _, _ => rfl
  | [], c :: s, _, h => by
    rw [List.nil_append, List.dropWhile_cons, if_neg (by rw [h c rfl]; exact Bool.false_ne_true)]
  | c :: a, s, h, h' => by
    rw [List.cons_append, List.dropWhile_cons, if_pos (h c (List.mem_cons_self ..)), dropWhile_app (fun x hx => h x (List.mem_cons_of_mem _ hx)) h']

theorem closeAt_app : ∀ {body s : Str}, Unclosed body → closeAt (body ++ '*' :: '/' :: s) = some (body, s)
  | [], s, _ => rfl
  | [c], s, h => by
    have h1 : ¬ (c = '*' ∧ '*' = '/') := fun e => absurd e.2 (by decide)
    rw [List.cons_append, closeAt.eq_def]
    split
    · rename_i e
      cases e
    · rename_i e
      cases e
      rfl
    · rename_i e
      cases e
  | c :: d :: body, s, h => by
    have ih : closeAt ((d :: body) ++ '*' :: '/' :: s) = some (d :: body, s) := closeAt_app fun hh => h (hh.trans (List.suffix_cons ..).isInfix)
    rw [List.cons_append, closeAt.eq_def]
    split
    · rename_i e
      cases e
      exact absurd ⟨[], body ++ ['*'], rfl⟩ h
    · rename_i e
      cases e
      rw [ih]
      rfl
    · rename_i e
      cases e

theorem find_isOp {o s : Str} (h : o ∈ goOperators) (hp : ∀ o' ∈ goOperators, o' <+: o ++ s → o'.length ≤ o.length) : goOperators.find? (isOp (o ++ s)) = some o := by
  have h1 : isOp (o ++ s) o = true := by
    unfold isOp
    rw [Bool.and_eq_true, List.isPrefixOf_iff_prefix]
    refine ⟨List.prefix_append .., List.all_eq_true.2 fun o' ho' => ?_⟩
    cases e : o'.isPrefixOf (o ++ s) with
    | false => rfl
    | true => simpa using hp o' ho' (List.isPrefixOf_iff_prefix.1 e)
  cases e : goOperators.find? (isOp (o ++ s)) with
  | none => exact absurd h1 (List.find?_eq_none.1 e o h)
  | some o' =>
    have h2 := List.find?_some e
    have h3 := List.mem_of_find?_eq_some e
    unfold isOp at h2
    rw [Bool.and_eq_true, List.isPrefixOf_iff_prefix] at h2
    have h4 := List.all_eq_true.1 h2.2 o h
    rw [List.isPrefixOf_iff_prefix.2 (List.prefix_append ..)] at h4
    have h5 : o.length ≤ o'.length := by simpa using h4
    have h6 := hp o' h3 h2.1
    have h7 : o' = o := by
      obtain ⟨r, hr⟩ := h2.1
      exact (List.append_inj hr (by omega)).1
    rw [h7]

theorem op_start {o : Str} (h : o ∈ goOperators) : ∃ c r, o = c :: r ∧ ¬ (c = ' ' ∨ c = '\t' ∨ c = '\r') ∧ c ≠ '\n' ∧ wordStart c = false ∧ c.isDigit = false ∧
    c ≠ '"' ∧ c ≠ '`' := by
  have : ∀ o ∈ goOperators, o ≠ [] ∧ ∀ c ∈ o.head?, ¬ (c = ' ' ∨ c = '\t' ∨ c = '\r') ∧ c ≠ '\n' ∧ wordStart c = false ∧ c.isDigit = false ∧ c ≠ '"' ∧ c ≠ '`' := by
    decide +kernel
  obtain ⟨h1, h2⟩ := this o h
  cases o with
  | nil => exact absurd rfl h1
  | cons c r => exact ⟨c, r, rfl, h2 c rfl⟩

theorem digit_not {c : Char} (h : c.isDigit = true) : ¬ (c = ' ' ∨ c = '\t' ∨ c = '\r') ∧ c ≠ '\n' ∧ wordStart c = false := by
  have h1 : 48 ≤ c.toNat ∧ c.toNat ≤ 57 := by
    simp only [Char.isDigit, Bool.and_eq_true, decide_eq_true_eq, UInt32.le_iff_toNat_le] at h
    exact h
  refine ⟨?_, ?_, ?_⟩
  · rintro (rfl | rfl | rfl) <;> exact absurd h (by decide)
  · rintro rfl
    exact absurd h (by decide)
  · unfold wordStart
    rw [Bool.or_eq_false_iff]
    constructor
    · simp only [Char.isAlpha, Char.isUpper, Char.isLower, Bool.or_eq_false_iff, Bool.and_eq_false_iff, decide_eq_false_iff_not, UInt32.le_iff_toNat_le]
      have : c.val.toNat = c.toNat := rfl
      rw [this]
      constructor
      · show ¬ (65 ≤ c.toNat ∧ c.toNat ≤ 90)
        omega
      · left
        show ¬ 97 ≤ c.toNat
        omega
    · rw [beq_eq_false_iff_ne]
      rintro rfl
      exact absurd h (by decide)

theorem start_not {c : Char} (h : wordStart c = true) : ¬ (c = ' ' ∨ c = '\t' ∨ c = '\r') ∧ c ≠ '\n' := by
  constructor
  · rintro (rfl | rfl | rfl) <;> exact absurd h (by decide)
  · rintro rfl
    exact absurd h (by decide)

theorem digit_end {s : Str} (h : EndsWord s) : ∀ c ∈ s.head?, c.isDigit = false := fun c hc => by
  have h1 := (h c hc).2
  unfold wordChar Char.isAlphanum at h1
  rw [Bool.or_eq_false_iff, Bool.or_eq_false_iff] at h1
  exact h1.1.2

theorem scan_complete {b : Bool} {s : Str} {ts : List GTok} (h : Lexes b s ts) : ∀ n, s.length < n → scan n b s = some ts := by
  induction h with
  | eof b =>
    intro n hn
    cases n with
    | zero => cases hn
    | succ n => rfl
  | space b c s ts hc _ ih =>
    intro n hn
    cases n with
    | zero => cases hn
    | succ n =>
      rw [scan, if_pos hc]
      exact ih n (by simp at hn; omega)
  | newline b s ts _ ih =>
    intro n hn
    cases n with
    | zero => cases hn
    | succ n =>
      rw [scan, if_neg (by decide), if_pos rfl, ih n (by simp at hn; omega)]
      rfl
  | line b body s ts hb he _ ih =>
    intro n hn
    cases n with
    | zero => cases hn
    | succ n =>
      rw [scan, if_neg (by decide), if_neg (by decide), if_neg (by decide), if_neg (by decide), if_neg (by decide), if_neg (by decide), if_pos ⟨rfl, rfl⟩]
      show scan n b ((body ++ s).dropWhile _) = _
      rw [dropWhile_app (fun c hc => by simpa using (hb c hc).1) (fun c hc => by simpa using he c hc)]
      exact ih n (by simp at hn; omega)
  | block b body s ts h1 h2 _ _ ih =>
    intro n hn
    cases n with
    | zero => cases hn
    | succ n =>
      rw [scan, if_neg (by decide), if_neg (by decide), if_neg (by decide), if_neg (by decide), if_neg (by decide), if_neg (by decide),
        if_neg (fun hh => absurd hh.2 (by simp)), if_pos ⟨rfl, rfl⟩]
      show (match closeAt (body ++ '*' :: '/' :: s) with
        | some (body, r) => if '\n' ∈ body then (scan n false r).map (semis b ++ ·) else scan n b r
        | none => none) = _
      rw [closeAt_app h2]
      dsimp only
      rw [if_neg h1]
      exact ih n (by simp at hn; omega)
  | blockLines b body s ts h1 h2 _ _ ih =>
    intro n hn
    cases n with
    | zero => cases hn
    | succ n =>
      rw [scan, if_neg (by decide), if_neg (by decide), if_neg (by decide), if_neg (by decide), if_neg (by decide), if_neg (by decide),
        if_neg (fun hh => absurd hh.2 (by simp)), if_pos ⟨rfl, rfl⟩]
      show (match closeAt (body ++ '*' :: '/' :: s) with
        | some (body, r) => if '\n' ∈ body then (scan n false r).map (semis b ++ ·) else scan n b r
        | none => none) = _
      rw [closeAt_app h2]
      dsimp only
      rw [if_pos h1, ih n (by simp at hn; omega)]
      rfl
  | word b c w s ts hc hw he _ ih =>
    intro n hn
    cases n with
    | zero => cases hn
    | succ n =>
      have e1 : (w ++ s).takeWhile wordChar = w := takeWhile_app hw fun c hc => (he c hc).2
      have e2 : (w ++ s).dropWhile wordChar = s := dropWhile_app hw fun c hc => (he c hc).2
      obtain ⟨n1, n2⟩ := start_not hc
      rw [List.cons_append, scan, if_neg n1, if_neg n2, if_pos hc, e1, e2, ih n (by simp at hn; omega)]
      rfl
  | int b c w s ts hc hw _ he _ _ ih =>
    intro n hn
    cases n with
    | zero => cases hn
    | succ n =>
      have e1 : (w ++ s).takeWhile Char.isDigit = w := takeWhile_app hw (digit_end he)
      have e2 : (w ++ s).dropWhile Char.isDigit = s := dropWhile_app hw (digit_end he)
      obtain ⟨n1, n2, n3⟩ := digit_not hc
      rw [List.cons_append, scan, if_neg n1, if_neg n2, if_neg (by rw [n3]; exact Bool.false_ne_true), if_pos hc, e1, e2, ih n (by simp at hn; omega)]
      rfl
  | str b body s ts hb _ ih =>
    intro n hn
    cases n with
    | zero => cases hn
    | succ n =>
      have hh : ∀ c ∈ body, decide (c ≠ '"') = true := fun c hc => by simpa using (hb c hc).1
      have hq : ∀ c ∈ ('"' :: s).head?, decide (c ≠ '"') = false := fun c hc => by cases hc; rfl
      rw [scan, if_neg (by decide), if_neg (by decide), if_neg (by decide), if_neg (by decide), if_pos rfl, takeWhile_app hh hq, dropWhile_app hh hq, List.tail_cons,
        ih n (by simp at hn; omega)]
      rfl
  | raw b body s ts hb _ ih =>
    intro n hn
    cases n with
    | zero => cases hn
    | succ n =>
      have hh : ∀ c ∈ body, decide (c ≠ '`') = true := fun c hc => by simpa using (hb c hc).1
      have hq : ∀ c ∈ ('`' :: s).head?, decide (c ≠ '`') = false := fun c hc => by cases hc; rfl
      rw [scan, if_neg (by decide), if_neg (by decide), if_neg (by decide), if_neg (by decide), if_neg (by decide), if_pos rfl, takeWhile_app hh hq, dropWhile_app hh hq,
        List.tail_cons, ih n (by simp at hn; omega)]
      rfl
  | op b o s ts ho hp hl hb _ _ ih =>
    intro n hn
    cases n with
    | zero => cases hn
    | succ n =>
      have hf := find_isOp ho hp
      obtain ⟨c, r, rfl, h1, h2, h3, h4, h5, h6⟩ := op_start ho
      have hl' : ¬ (c = '/' ∧ (r ++ s).head? = some '/') := by
        rintro ⟨rfl, e⟩
        cases hrs : r ++ s with
        | nil =>
          rw [hrs] at e
          cases e
        | cons d t =>
          rw [hrs] at e
          cases e
          exact hl ⟨t, congrArg ('/' :: ·) hrs.symm⟩
      have hb' : ¬ (c = '/' ∧ (r ++ s).head? = some '*') := by
        rintro ⟨rfl, e⟩
        cases hrs : r ++ s with
        | nil =>
          rw [hrs] at e
          cases e
        | cons d t =>
          rw [hrs] at e
          cases e
          exact hb ⟨t, congrArg ('/' :: ·) hrs.symm⟩
      have hd : ((c :: r) ++ s).drop (c :: r).length = s := List.drop_left
      rw [List.cons_append] at hf hd
      rw [List.cons_append, scan, if_neg h1, if_neg h2, if_neg (by rw [h3]; exact Bool.false_ne_true), if_neg (by rw [h4]; exact Bool.false_ne_true), if_neg h5, if_neg h6,
        if_neg hl', if_neg hb', hf]
      dsimp only
      rw [hd, ih n (by simp at hn; omega)]
      rfl

/-- The tokens of a text are unique. -/
theorem lexes_unique {b : Bool} {s : Str} {ts ts' : List GTok} (h : Lexes b s ts) (h' : Lexes b s ts') : ts = ts' :=
  Option.some.inj ((scan_complete h _ (Nat.lt_succ_self _)).symm.trans (scan_complete h' _ (Nat.lt_succ_self _)))

end Verif.Props.Gen
