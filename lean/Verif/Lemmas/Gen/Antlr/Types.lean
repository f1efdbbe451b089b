import Verif.Lemmas.Gen.Antlr.Tokens
/-!
# The type of a token is determined; the cache is bounded
-/
namespace Verif.Lemmas.Gen.Antlr
open Verif.Model.Gen Verif.Model.Gen.Antlr Verif.Spec.Gen
open Verif.Lemmas.Gen

/-- The second character is that of a hexadecimal number. -/
def hexSecond (s : Str) : Bool :=
  match s[1]? with
  | some x => decide (x = 'x') || decide (x = 'X')
  | none => false

/-- The characters of a number are those of an integer. -/
def intText (s : Str) : Bool := s.all isDecChar || hexSecond s

/-- The type of a visible token. -/
def visibleType (w : Str) : Nat :=
  match w with
  | [] => 0
  | c :: _ =>
    if isLetter c then wordType w
    else if c = '"' ∨ c = '\'' then 54
    else if isDecChar c then (if intText w then 57 else 56)
    else if w = ['.'] then 49
    else if c = '.' then 56
    else (Symbols.idxOf c) + 39

theorem keyword_type (i : Nat) (w : Str) (h : Keywords[i]? = some w) : visibleType w = i + 1 := by
  have hi : i < 38 := (List.getElem?_eq_some_iff.mp h).1
  have : ((List.range 38).all fun i => match Keywords[i]? with | some w => decide (visibleType w = i + 1) | none => false) = true := by decide +kernel
  have := List.all_eq_true.mp this i (List.mem_range.mpr hi)
  rw [h] at this
  simpa using this

theorem symbol_type (i : Nat) (c : Char) (h : Symbols[i]? = some c) : visibleType [c] = i + 39 := by
  have hi : i < 15 := (List.getElem?_eq_some_iff.mp h).1
  have : ((List.range 15).all fun i => match Symbols[i]? with | some c => decide (visibleType [c] = i + 39) | none => false) = true := by decide +kernel
  have := List.all_eq_true.mp this i (List.mem_range.mpr hi)
  rw [h] at this
  simpa using this

theorem number_type {c : Char} {s : Str} (hc : isDecChar c = true) : visibleType (c :: s) = if intText (c :: s) then 57 else 56 := by
  have h := (isDecChar_num c).1 hc
  have h1 : ¬ isLetter c = true := by rw [isLetter_num]; omega
  have h2 : ¬ (c = '"' ∨ c = '\'') := by rw [charEq, charEq]; simp; omega
  rw [visibleType, if_neg h1, if_neg h2, if_pos hc]

theorem digits_all {b : Nat} (hb : b ≤ 10) {s : Str} {v : Nat} (h : Digits b s v) : ∀ c ∈ s, isDecChar c = true := by
  induction h with
  | nil => intro c hc; cases hc
  | snoc s v c d _ hd hlt ih =>
    intro x hx
    rcases List.mem_append.mp hx with hx | hx
    · exact ih x hx
    · simp only [List.mem_singleton] at hx
      subst hx
      rw [isDecChar_num]
      rw [isDigit_num] at hd
      omega

theorem int_type {s : Str} {v : Nat} (h : IntLit s v) : visibleType s = 57 := by
  cases h with
  | decimal c s v h0 hd =>
    have := digits_all (Nat.le_refl _) hd
    rw [number_type (this c (by simp)), if_pos]
    rw [intText, List.all_eq_true.mpr this]
    rfl
  | octal s v hd =>
    have := digits_all (by decide) hd
    rw [number_type (by decide), if_pos]
    rw [intText, List.all_cons, List.all_eq_true.mpr this]
    rfl
  | hex x s v hx _ _ =>
    rw [number_type (by decide), if_pos]
    rcases hx with rfl | rfl <;> simp [intText, hexSecond]

/-- Not an integer: after digits there is a point or an exponent. -/
theorem not_int {c : Char} {ds r : Str} {d : Char} (hc : isDecChar c = true) (hds : ∀ x ∈ ds, isDecChar x = true) (hd : d = '.' ∨ d = 'e' ∨ d = 'E') :
    intText (c :: (ds ++ d :: r)) = false := by
  have hd' : isDecChar d = false := by rcases hd with rfl | rfl | rfl <;> decide
  have h1 : (c :: (ds ++ d :: r)).all isDecChar = false := by
    rw [List.all_eq_false]
    exact ⟨d, by simp, by simp [hd']⟩
  rw [intText, h1]
  cases ds with
  | nil => rcases hd with rfl | rfl | rfl <;> rfl
  | cons x ds =>
    have hx := (isDecChar_num x).1 (hds x (by simp))
    show (false || (decide (x = 'x') || decide (x = 'X'))) = false
    simp only [charEq, Bool.false_or, Bool.or_eq_false_iff, decide_eq_false_iff_not]
    constructor
    · intro h
      rw [h] at hx
      exact absurd hx (by decide)
    · intro h
      rw [h] at hx
      exact absurd hx (by decide)

theorem float_type {s : Str} (h : FloatLit s) : visibleType s = 56 := by
  cases h with
  | point ds fs ex hd _ _ =>
    obtain ⟨hne, hd⟩ := hd
    cases ds with
    | nil => exact absurd rfl hne
    | cons c ds =>
      have hc := (dec_digit c).2 (hd c (by simp))
      rw [List.cons_append, number_type hc, not_int hc (fun x hx => (dec_digit x).2 (hd x (by simp [hx]))) (Or.inl rfl)]
      rfl
  | exp ds ex hd he =>
    obtain ⟨hne, hd⟩ := hd
    cases ds with
    | nil => exact absurd rfl hne
    | cons c ds =>
      have hc := (dec_digit c).2 (hd c (by simp))
      have hds : ∀ x ∈ ds, isDecChar x = true := fun x hx => (dec_digit x).2 (hd x (by simp [hx]))
      cases he with
      | plain e t h1 _ =>
        rw [List.cons_append, number_type hc, not_int hc hds (Or.inr h1)]
        rfl
      | signed e s t h1 _ _ =>
        rw [List.cons_append, number_type hc, not_int hc hds (Or.inr h1)]
        rfl
  | dot fs ex hf _ =>
    obtain ⟨hne, _⟩ := hf
    cases fs with
    | nil => exact absurd rfl hne
    | cons c fs => rfl

theorem ident_type {w : Str} (h : ProtoIdent w) : visibleType w = wordType w := by
  obtain ⟨c, r, rfl, hd, hc⟩ := h
  have h1 := (identChar_num c).1 (hc c (by simp))
  rw [digit_num] at hd
  rw [visibleType, if_pos (by rw [isLetter_num]; omega)]

/-- **The type and the channel of a token are determined by it.** -/
theorem tokenType_unique {t : Tok} {a c b d : Nat} (h : TokenType t a c) (g : TokenType t b d) : a = b ∧ c = d := by
  have key : ∀ {t : Tok} {a c : Nat}, TokenType t a c →
      match t.kind with | .visible => a = visibleType t.text ∧ c = 0 | .ws => a = 59 ∧ c = 2 | .line => a = 60 ∧ c = 3 | .block => a = 61 ∧ c = 3 | .hidden => False := by
    intro t a c h
    cases h with
    | keyword i w h => exact ⟨(keyword_type i w h).symm, rfl⟩
    | symbol i c h => exact ⟨(symbol_type i c h).symm, rfl⟩
    | str q s hq hb => rcases hq with rfl | rfl <;> exact ⟨rfl, rfl⟩
    | bool w h => rcases h with rfl | rfl <;> exact ⟨by decide +kernel, rfl⟩
    | inf w h => rcases h with rfl | rfl <;> exact ⟨by decide +kernel, rfl⟩
    | float s h => exact ⟨(float_type h).symm, rfl⟩
    | int s v h => exact ⟨(int_type h).symm, rfl⟩
    | ident w h h1 h2 =>
      refine ⟨?_, rfl⟩
      show 58 = visibleType w
      have h3 : Keywords.idxOf? w = none := List.idxOf?_eq_none_iff.mpr h1
      simp only [List.map_cons, List.map_nil, List.mem_cons, List.not_mem_nil, or_false, not_or] at h2
      rw [ident_type h, wordType, h3]
      dsimp only
      rw [if_neg (fun h => h.elim h2.1 h2.2.1), if_neg (fun h => h.elim h2.2.2.1 h2.2.2.2)]
    | space s => exact ⟨rfl, rfl⟩
    | line s => exact ⟨rfl, rfl⟩
    | block s => exact ⟨rfl, rfl⟩
  have h := key h
  have g := key g
  cases hk : t.kind <;> rw [hk] at h g <;> first | exact h.elim | exact ⟨h.1.trans g.1.symm, h.2.trans g.2.symm⟩

/-- Each lexical element has a type. -/
theorem lexeme_typed {t : Tok} (h : Lexeme t) : ∃ a c, TokenType t a c := by
  cases h with
  | word s h => exact ⟨_, 0, wordType_type h⟩
  | int s v h => exact ⟨57, 0, .int s v h⟩
  | float s h => exact ⟨56, 0, .float s h⟩
  | str q s h1 h2 => exact ⟨54, 0, .str q s h1 h2⟩
  | symbol c h =>
    obtain ⟨i, hi, h⟩ := List.getElem_of_mem h
    exact ⟨i + 39, 0, .symbol i c (by rw [← h]; exact List.getElem?_eq_getElem hi)⟩
  | space s _ _ => exact ⟨59, 2, .space s⟩
  | line s _ => exact ⟨60, 3, .line _⟩
  | block s _ => exact ⟨61, 3, .block _⟩

theorem nodup_length {α : Type} [DecidableEq α] : ∀ (l m : List α), l.Nodup → (∀ x ∈ l, x ∈ m) → l.length ≤ m.length
  | [], _, _, _ => Nat.zero_le _
  | a :: l, m, h, hm => by
    have ha := hm a (by simp)
    have h' := List.nodup_cons.mp h
    have := nodup_length l (m.erase a) h'.2 (fun x hx => (List.mem_erase_of_ne (fun (e : x = a) => h'.1 (by rw [← e]; exact hx))).mpr (hm x (by simp [hx])))
    rw [List.length_erase_of_mem ha] at this
    have := List.length_pos_of_mem ha
    simp only [List.length_cons]
    omega

theorem states_bounded {D : Dfa} (hD : DfaOk D) : D.states.length ≤ 232 := by
  have := nodup_length (D.states.map DState.configs) (table.toList.map Row.cfgs) hD.nodup (by
    intro x hx
    obtain ⟨s, hs, rfl⟩ := List.mem_map.mp hx
    obtain ⟨k, hk, rfl⟩ := List.getElem_of_mem hs
    obtain ⟨i, r, hi, hr, _⟩ := hD.states k _ (List.getElem?_eq_getElem hk)
    rw [table_get] at hi
    exact List.mem_map.mpr ⟨r, List.mem_of_getElem? hi, hr.symm⟩)
  rw [List.length_map, List.length_map] at this
  have hl : table.toList.length = 232 := by
    have := congrArg List.length table_hashes
    rw [List.length_map] at this
    rw [this]
    rfl
  omega

end Verif.Lemmas.Gen.Antlr
