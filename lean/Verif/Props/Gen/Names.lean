import Verif.Model.Gen.Strs
import Verif.Spec.Gen.Names
/-!
# C46: generated names
-/
namespace Verif.Props
open Verif.Spec.Gen Verif.Model.Gen

namespace Gen

theorem lower_iff (c : Char) : isLower c = true ↔ Lower c := by
  simp only [isLower, Lower, Bool.and_eq_true, decide_eq_true_eq, Char.le_def, UInt32.le_iff_toNat_le, Char.toNat]
  exact Iff.rfl

theorem digit_iff (c : Char) : isDigit c = true ↔ Digit c := by
  simp only [isDigit, Digit, Bool.and_eq_true, decide_eq_true_eq, Char.le_def, UInt32.le_iff_toNat_le, Char.toNat]
  exact Iff.rfl

theorem upper_iff (c : Char) : isUpper c = true ↔ Upper c := by
  simp only [isUpper, Upper, Bool.and_eq_true, decide_eq_true_eq, Char.le_def, UInt32.le_iff_toNat_le, Char.toNat]
  exact Iff.rfl

theorem nat_of_lower {c : Char} (h : Lower c) : 97 ≤ c.toNat ∧ c.toNat ≤ 122 := by
  have := (lower_iff c).2 h
  simpa [isLower] using this

theorem nat_of_upper {c : Char} (h : Upper c) : 65 ≤ c.toNat ∧ c.toNat ≤ 90 := by
  have := (upper_iff c).2 h
  simpa [isUpper] using this

theorem nat_of_digit {c : Char} (h : Digit c) : 48 ≤ c.toNat ∧ c.toNat ≤ 57 := by
  have := (digit_iff c).2 h
  simpa [isDigit] using this

theorem upper_of_nat {c : Char} (h : 65 ≤ c.toNat ∧ c.toNat ≤ 90) : Upper c := (upper_iff c).1 (by simpa [isUpper] using h)
theorem lower_of_nat {c : Char} (h : 97 ≤ c.toNat ∧ c.toNat ≤ 122) : Lower c := (lower_iff c).1 (by simpa [isLower] using h)

theorem char_eq_of_toNat {c d : Char} (h : c.toNat = d.toNat) : c = d := Char.toNat_inj.1 h

theorem toUpper_lower {c : Char} (h : Lower c) : (toUpper c).toNat = c.toNat - 32 := by
  have hn := nat_of_lower h
  simp only [toUpper, (lower_iff c).2 h, if_true]
  have hv : (c.toNat - 32).isValidChar := .inl (by omega)
  rw [Char.ofNat, dif_pos hv]
  rfl

theorem toUpper_not_lower {c : Char} (h : ¬ Lower c) : toUpper c = c := by
  simp only [toUpper, ← lower_iff] at *
  rw [if_neg h]

theorem casePair_toUpper {l : Char} (h : Lower l) : CasePair l (toUpper l) := by
  have := nat_of_lower h
  exact ⟨h, by rw [toUpper_lower h]; omega⟩

theorem casePair_eq {l u : Char} (h : CasePair l u) : u = toUpper l := by
  apply char_eq_of_toNat
  rw [toUpper_lower h.1]
  have := h.2
  omega

theorem upper_toUpper {c : Char} (h : Lower c) : Upper (toUpper c) := by
  have := nat_of_lower h
  exact upper_of_nat (by rw [toUpper_lower h]; omega)

/-- An `IdentChar` with the tests of the model decided. -/
theorem ident_cases {c : Char} (h : IdentChar c) :
    (isLower c = true ∧ isDigit c = false ∧ c ≠ '_' ∧ c ≠ '.') ∨
    (isLower c = false ∧ isDigit c = false ∧ c ≠ '_' ∧ c ≠ '.' ∧ Upper c) ∨
    (isLower c = false ∧ isDigit c = true ∧ c ≠ '_' ∧ c ≠ '.') ∨
    (c = '_') := by
  have ne : ∀ {d : Char}, c.toNat ≠ d.toNat → c ≠ d := fun h e => h (e ▸ rfl)
  rcases h with h | h | h | h
  · have := nat_of_lower h
    refine .inl ⟨(lower_iff c).2 h, ?_, ne (by show _ ≠ 95; omega), ne (by show _ ≠ 46; omega)⟩
    simp [isDigit]; omega
  · have := nat_of_upper h
    refine .inr (.inl ⟨?_, ?_, ne (by show _ ≠ 95; omega), ne (by show _ ≠ 46; omega), h⟩)
    · simp [isLower]; omega
    · simp [isDigit]; omega
  · have := nat_of_digit h
    refine .inr (.inr (.inl ⟨?_, (digit_iff c).2 h, ne (by show _ ≠ 95; omega), ne (by show _ ≠ 46; omega)⟩))
    simp [isLower]; omega
  · exact .inr (.inr (.inr h))

theorem ident_toUpper {c : Char} (h : Lower c) : IdentChar (toUpper c) := .inr (.inl (upper_toUpper h))

/-- Equations of the loop on identifier characters. -/
theorem camel_lower_word {p : Option Char} {c : Char} {s : List Char} (h : isLower c = true) :
    camelLoop p true (c :: s) = c :: camelLoop (some c) true s := by
  simp [camelLoop, h]

theorem camel_lower {p : Option Char} {c : Char} {s : List Char} (h : Lower c) :
    camelLoop p false (c :: s) = toUpper c :: camelLoop (some c) true s := by
  rcases ident_cases (.inl h) with ⟨h1, h2, h3, h4⟩ | ⟨h1, _⟩ | ⟨h1, _⟩ | h1
  · simp [camelLoop, h2, h3, h4]
  · rw [(lower_iff c).2 h] at h1; cases h1
  · rw [(lower_iff c).2 h] at h1; cases h1
  · subst h1; exact absurd h (by decide)

theorem camel_upper {p : Option Char} {w : Bool} {c : Char} {s : List Char} (h : Upper c) :
    camelLoop p w (c :: s) = c :: camelLoop (some c) true s := by
  have hn := nat_of_upper h
  have hl : ¬ Lower c := fun hl => by have := nat_of_lower hl; omega
  rcases ident_cases (.inr (.inl h)) with ⟨h1, _⟩ | ⟨h1, h2, h3, h4, _⟩ | ⟨_, h2, _⟩ | h1
  · exact absurd ((lower_iff c).1 h1) hl
  · simp [camelLoop, h1, h2, h3, h4, toUpper_not_lower hl]
  · have := nat_of_digit ((digit_iff c).1 h2); omega
  · subst h1; exact absurd h (by decide)

theorem camel_digit {p : Option Char} {w : Bool} {c : Char} {s : List Char} (h : Digit c) :
    camelLoop p w (c :: s) = c :: camelLoop (some c) false s := by
  have hn := nat_of_digit h
  have h1 : isLower c = false := by simp [isLower]; omega
  have ne : ∀ {d : Char}, c.toNat ≠ d.toNat → c ≠ d := fun h e => h (e ▸ rfl)
  have h3 : c ≠ '_' := ne (by show _ ≠ 95; omega)
  have h4 : c ≠ '.' := ne (by show _ ≠ 46; omega)
  simp [camelLoop, h1, h3, h4, (digit_iff c).2 h]

theorem camel_under_lower {p : Char} {w : Bool} {l : Char} {s : List Char} (hp : p ≠ '.') (h : Lower l) :
    camelLoop (some p) w ('_' :: l :: s) = toUpper l :: camelLoop (some l) true s := by
  have : camelLoop (some p) w ('_' :: l :: s) = camelLoop (some '_') false (l :: s) := by
    conv => lhs; unfold camelLoop
    have e1 : (w && isLower '_') = false := by cases w <;> rfl
    simp [e1, nextLower, (lower_iff l).2 h, hp]
  rw [this, camel_lower h]

theorem camel_under {p : Char} {w : Bool} {s : List Char} (hp : p ≠ '.') (h : nextLower s = false) :
    camelLoop (some p) w ('_' :: s) = '_' :: camelLoop (some '_') true s := by
  conv => lhs; unfold camelLoop
  have e1 : (w && isLower '_') = false := by cases w <;> rfl
  have e2 : isDigit '_' = false := by rfl
  have e3 : toUpper '_' = '_' := by rfl
  simp [e1, h, hp, e2, e3]

theorem camel_first_under (s : List Char) : camelLoop none false ('_' :: s) = 'X' :: camelLoop (some '_') false s := by
  simp [camelLoop]

/-- The word flag matters for a lower case letter only. -/
theorem camel_flag {p : Option Char} {s : List Char} (h : nextLower s = false) (w w' : Bool) :
    camelLoop p w s = camelLoop p w' s := by
  cases s with
  | nil => simp [camelLoop]
  | cons c s =>
    have hc : isLower c = false := h
    simp [camelLoop, hc]

/-- What precedes the rest of an identifier while the loop runs. -/
def Ctx (a : List Char) (w : Bool) : Prop := (w = true ∧ a ≠ []) ∨ (w = false ∧ ∃ a' d, a = a' ++ [d] ∧ Digit d)

theorem Ctx.ne {a : List Char} {w : Bool} (h : Ctx a w) : a ≠ [] := by
  rcases h with ⟨_, h⟩ | ⟨_, a', d, h, _⟩
  · exact h
  · subst h; simp

theorem ctx_snoc (a : List Char) (c : Char) : Ctx (a ++ [c]) true := .inl ⟨rfl, by simp⟩

theorem same_trans {s t u : List Char} (h1 : SameGoName s t) (h2 : SameGoName t u) : SameGoName s u := .trans s t u h1 h2

theorem ident_ne_dot {c : Char} (h : IdentChar c) : c ≠ '.' := by
  intro e; subst e; exact absurd h (by decide)

/-- An identifier has the same Go name as the result of the loop, and the result consists of identifier characters. -/
theorem loop_same : ∀ (n : Nat) (s : List Char), s.length ≤ n → (∀ x ∈ s, IdentChar x) →
    ∀ (a : List Char) (p : Char) (w : Bool), p ≠ '.' → Ctx a w →
    SameGoName (a ++ s) (a ++ camelLoop (some p) w s) ∧ (∀ x ∈ camelLoop (some p) w s, IdentChar x) := by
  intro n
  induction n with
  | zero =>
    intro s hs _ a p w _ _
    cases s with
    | nil => exact ⟨.refl _, by simp [camelLoop]⟩
    | cons c s => simp at hs
  | succ n ih =>
    intro s hs hid a p w hp hctx
    cases s with
    | nil => exact ⟨.refl _, by simp [camelLoop]⟩
    | cons c s =>
      have hlen : s.length ≤ n := by simpa using hs
      have hids : ∀ x ∈ s, IdentChar x := fun x hx => hid x (List.mem_cons_of_mem _ hx)
      have hc := hid c (List.mem_cons_self ..)
      -- copying a character
      have copy : ∀ (w' : Bool), Ctx (a ++ [c]) w' → camelLoop (some p) w (c :: s) = c :: camelLoop (some c) w' s →
          SameGoName (a ++ c :: s) (a ++ camelLoop (some p) w (c :: s)) ∧
            (∀ x ∈ camelLoop (some p) w (c :: s), IdentChar x) := by
        intro w' hctx' e
        obtain ⟨i1, i2⟩ := ih s hlen hids (a ++ [c]) c w' (ident_ne_dot hc) hctx'
        rw [e]
        refine ⟨by simpa using i1, ?_⟩
        intro x hx
        rcases List.mem_cons.1 hx with h | h
        · subst h; exact hc
        · exact i2 x h
      rcases hc with h | h | h | h
      · cases w with
        | true => exact copy true (ctx_snoc _ _) (camel_lower_word ((lower_iff c).2 h))
        | false =>
          rcases hctx with ⟨e, _⟩ | ⟨_, a', d, ha, hd⟩
          · cases e
          · subst ha
            obtain ⟨i1, i2⟩ := ih s hlen hids ((a' ++ [d]) ++ [toUpper c]) c true (ident_ne_dot (.inl h)) (ctx_snoc _ _)
            rw [camel_lower h]
            refine ⟨same_trans ?_ (by simpa using i1), ?_⟩
            · have := SameGoName.digit a' d c (toUpper c) s (casePair_toUpper h) hd
              simpa using this
            · intro x hx
              rcases List.mem_cons.1 hx with h' | h'
              · subst h'; exact ident_toUpper h
              · exact i2 x h'
      · exact copy true (ctx_snoc _ _) (camel_upper h)
      · exact copy false (.inr ⟨rfl, a, c, rfl, h⟩) (camel_digit h)
      · subst h
        cases hnl : nextLower s with
        | false => exact copy true (ctx_snoc _ _) (camel_under hp hnl)
        | true =>
          cases s with
          | nil => cases hnl
          | cons l s =>
            have hl : Lower l := (lower_iff l).1 hnl
            have hlen' : s.length ≤ n := by simp at hlen; omega
            have hids' : ∀ x ∈ s, IdentChar x := fun x hx => hids x (List.mem_cons_of_mem _ hx)
            obtain ⟨i1, i2⟩ := ih s hlen' hids' (a ++ [toUpper l]) l true (ident_ne_dot (.inl hl)) (ctx_snoc _ _)
            rw [camel_under_lower hp hl]
            refine ⟨same_trans (.word a l (toUpper l) s (casePair_toUpper hl) hctx.ne) (by simpa using i1), ?_⟩
            intro x hx
            rcases List.mem_cons.1 hx with h' | h'
            · subst h'; exact ident_toUpper hl
            · exact i2 x h'

/-- The whole function. -/
theorem camel_same {s : List Char} (h : ProtoIdent s) : SameGoName s (goCamelCase s) ∧ ExportedIdent (goCamelCase s) := by
  obtain ⟨c, r, e, hd, hid⟩ := h
  subst e
  have hc := hid c (List.mem_cons_self ..)
  have hidr : ∀ x ∈ r, IdentChar x := fun x hx => hid x (List.mem_cons_of_mem _ hx)
  -- a first character `u` followed by the loop on `r`
  have key : ∀ (u p : Char) (t : List Char) (w : Bool), Upper u → p ≠ '.' → Ctx [u] w → (∀ x ∈ t, IdentChar x) →
      SameGoName (u :: t) (u :: camelLoop (some p) w t) ∧ ExportedIdent (u :: camelLoop (some p) w t) := by
    intro u p t w hu hp hctx ht
    obtain ⟨i1, i2⟩ := loop_same t.length t (Nat.le_refl _) ht [u] p w hp hctx
    refine ⟨by simpa using i1, u, _, rfl, hu, ?_⟩
    intro x hx
    rcases List.mem_cons.1 hx with h | h
    · subst h; exact .inr (.inl hu)
    · exact i2 x h
  have ctx1 : ∀ u : Char, Ctx [u] true := fun u => .inl ⟨rfl, by simp⟩
  unfold goCamelCase
  rcases hc with h | h | h | h
  · rw [camel_lower h]
    obtain ⟨k1, k2⟩ := key (toUpper c) c r true (upper_toUpper h) (ident_ne_dot (.inl h)) (ctx1 _) hidr
    exact ⟨same_trans (.first c _ r (casePair_toUpper h)) k1, k2⟩
  · rw [camel_upper h]
    exact key c c r true h (ident_ne_dot (.inr (.inl h))) (ctx1 _) hidr
  · exact absurd h hd
  · subst h
    rw [camel_first_under]
    cases hnl : nextLower r with
    | false =>
      rw [camel_flag hnl false true]
      obtain ⟨k1, k2⟩ := key 'X' '_' r true (by decide) (by decide) (ctx1 _) hidr
      refine ⟨same_trans (.under r ?_) k1, k2⟩
      intro l r' e hl
      subst e
      rw [nextLower, (lower_iff l).2 hl] at hnl
      cases hnl
    | true =>
      cases r with
      | nil => cases hnl
      | cons l r =>
        have hl : Lower l := (lower_iff l).1 hnl
        rw [camel_lower hl]
        obtain ⟨i1, i2⟩ := loop_same r.length r (Nat.le_refl _) (fun x hx => hidr x (List.mem_cons_of_mem _ hx))
          ['X', toUpper l] l true (ident_ne_dot (.inl hl)) (.inl ⟨rfl, by simp⟩)
        refine ⟨same_trans (.underWord l _ r (casePair_toUpper hl)) (by simpa using i1), 'X', _, rfl, by decide, ?_⟩
        intro x hx
        rcases List.mem_cons.1 hx with h | h
        · subst h; decide
        · rcases List.mem_cons.1 h with h | h
          · subst h; exact ident_toUpper hl
          · exact i2 x h

theorem casePair_upper {l u : Char} (h : CasePair l u) : Upper u := by
  have := nat_of_lower h.1
  have := h.2
  exact upper_of_nat (by omega)

theorem nextLower_append {a r1 r2 : List Char} (h : nextLower r1 = nextLower r2) : nextLower (a ++ r1) = nextLower (a ++ r2) := by
  cases a with
  | nil => exact h
  | cons c a => rfl

/-- Replacing the end of an identifier by one the loop treats alike. -/
theorem loop_tail {r1 r2 : List Char} (hnl : nextLower r1 = nextLower r2)
    (hr : ∀ (p : Char) (w : Bool), p ≠ '.' → camelLoop (some p) w r1 = camelLoop (some p) w r2) :
    ∀ (a : List Char) (p : Option Char) (w : Bool), a ≠ [] ∨ (∃ x, p = some x ∧ x ≠ '.') → (∀ x ∈ a, IdentChar x) →
      camelLoop p w (a ++ r1) = camelLoop p w (a ++ r2) := by
  intro a
  induction a with
  | nil =>
    intro p w h _
    rcases h with h | ⟨x, e, hx⟩
    · exact absurd rfl h
    · subst e; exact hr x w hx
  | cons c a ih =>
    intro p w _ hid
    have hc := hid c (List.mem_cons_self ..)
    have hstep : ∀ w', camelLoop (some c) w' (a ++ r1) = camelLoop (some c) w' (a ++ r2) :=
      fun w' => ih (some c) w' (.inr ⟨c, rfl, ident_ne_dot hc⟩) (fun x hx => hid x (List.mem_cons_of_mem _ hx))
    have hn := nextLower_append (a := a) hnl
    simp only [List.cons_append, camelLoop, hstep, hn]

/-- Which character precedes does not matter, unless it is a dot. -/
theorem camel_prev {c d : Char} (hc : c ≠ '.') (hd : d ≠ '.') (w : Bool) (s : List Char) :
    camelLoop (some c) w s = camelLoop (some d) w s := by
  cases s with
  | nil => simp [camelLoop]
  | cons x s => simp [camelLoop, hc, hd]

theorem upper_ne_dot {c : Char} (h : Upper c) : c ≠ '.' := ident_ne_dot (.inr (.inl h))
theorem lower_ne_dot {c : Char} (h : Lower c) : c ≠ '.' := ident_ne_dot (.inl h)

theorem not_lower_upper {c : Char} (h : Upper c) : isLower c = false := by
  have := nat_of_upper h
  simp [isLower]; omega

theorem not_lower_digit {c : Char} (h : Digit c) : isLower c = false := by
  have := nat_of_digit h
  simp [isLower]; omega

theorem same_camel {s t : List Char} (h : SameGoName s t) :
    ((∀ x ∈ s, IdentChar x) ↔ (∀ x ∈ t, IdentChar x)) ∧ ((∀ x ∈ s, IdentChar x) → goCamelCase s = goCamelCase t) := by
  induction h with
  | first l u s hp =>
    have hu := casePair_upper hp
    have hl := hp.1
    refine ⟨?_, fun _ => ?_⟩
    · simp only [List.forall_mem_cons]
      exact ⟨fun h => ⟨.inr (.inl hu), h.2⟩, fun h => ⟨.inl hl, h.2⟩⟩
    · unfold goCamelCase
      rw [camel_lower hl, camel_upper hu, ← casePair_eq hp, camel_prev (lower_ne_dot hl) (upper_ne_dot hu)]
  | word a l u s hp ha =>
    have hu := casePair_upper hp
    have hl := hp.1
    refine ⟨?_, fun hid => ?_⟩
    · simp only [List.forall_mem_append, List.forall_mem_cons]
      exact ⟨fun h => ⟨h.1, .inr (.inl hu), h.2.2.2⟩, fun h => ⟨h.1, by decide, .inl hl, h.2.2⟩⟩
    · unfold goCamelCase
      refine loop_tail ?_ ?_ a none false (.inl ha) (fun x hx => hid x (List.mem_append_left _ hx))
      · show isLower '_' = isLower u
        rw [not_lower_upper hu]; rfl
      · intro p w hpd
        rw [camel_under_lower hpd hl, camel_upper hu, ← casePair_eq hp, camel_prev (lower_ne_dot hl) (upper_ne_dot hu)]
  | digit a d l u s hp hd =>
    have hu := casePair_upper hp
    have hl := hp.1
    refine ⟨?_, fun hid => ?_⟩
    · simp only [List.forall_mem_append, List.forall_mem_cons]
      exact ⟨fun h => ⟨h.1, h.2.1, .inr (.inl hu), h.2.2.2⟩, fun h => ⟨h.1, h.2.1, .inl hl, h.2.2.2⟩⟩
    · have hr : ∀ (p : Option Char) (w : Bool), camelLoop p w (d :: l :: s) = camelLoop p w (d :: u :: s) := by
        intro p w
        rw [camel_digit hd, camel_digit hd, camel_lower hl, camel_upper hu, ← casePair_eq hp,
          camel_prev (lower_ne_dot hl) (upper_ne_dot hu)]
      unfold goCamelCase
      cases a with
      | nil => exact hr none false
      | cons c a =>
        exact loop_tail (r1 := d :: l :: s) (r2 := d :: u :: s) rfl (fun p w _ => hr (some p) w) (c :: a) none false (.inl (by simp))
          (fun x hx => hid x (List.mem_append_left _ hx))
  | under s hs =>
    refine ⟨?_, fun _ => ?_⟩
    · simp only [List.forall_mem_cons]
      exact ⟨fun h => ⟨by decide, h.2⟩, fun h => ⟨by decide, h.2⟩⟩
    · have hnl : nextLower s = false := by
        cases s with
        | nil => rfl
        | cons l r =>
          cases hb : isLower l with
          | false => exact hb
          | true => exact absurd ((lower_iff l).1 hb) (hs l r rfl)
      unfold goCamelCase
      rw [camel_first_under, camel_upper (by decide), camel_flag hnl false true, camel_prev (d := 'X') (by decide) (by decide)]
  | underWord l u s hp =>
    have hu := casePair_upper hp
    have hl := hp.1
    refine ⟨?_, fun _ => ?_⟩
    · simp only [List.forall_mem_cons]
      exact ⟨fun h => ⟨by decide, .inr (.inl hu), h.2.2⟩, fun h => ⟨by decide, .inl hl, h.2.2⟩⟩
    · unfold goCamelCase
      rw [camel_first_under, camel_lower hl, camel_upper (c := 'X') (by decide), camel_upper hu, ← casePair_eq hp,
        camel_prev (lower_ne_dot hl) (upper_ne_dot hu)]
  | refl s => exact ⟨Iff.rfl, fun _ => rfl⟩
  | symm s t _ ih => exact ⟨ih.1.symm, fun h => (ih.2 (ih.1.2 h)).symm⟩
  | trans s t u _ _ ih1 ih2 => exact ⟨ih1.1.trans ih2.1, fun h => (ih1.2 h).trans (ih2.2 (ih1.1.1 h))⟩

theorem exported_proto {s : List Char} (h : ExportedIdent s) : ProtoIdent s := by
  obtain ⟨c, r, e, hu, hid⟩ := h
  refine ⟨c, r, e, ?_, hid⟩
  intro hd
  have := nat_of_upper hu
  have := nat_of_digit hd
  omega

end Gen

open Gen

/-- C46: the Go name of a protobuf identifier is an exported Go identifier. -/
theorem C46_exported (s : List Char) (h : ProtoIdent s) : ExportedIdent (goCamelCase s) := (camel_same h).2

example : ProtoIdent "foo_bar_9x__Y".toList := ⟨'f', _, rfl, by decide, by decide⟩
example : goCamelCase "foo_bar_9x__Y".toList = "FooBar_9X__Y".toList := by decide +kernel

/-- C46: two protobuf identifiers get the same Go name exactly when they differ only in what Go names do not show: the
case of the first letter, `_x` against `X` inside, the case of a letter after a digit, and `_` against `X` at the start. -/
theorem C46_collisions (s t : List Char) (hs : ProtoIdent s) (ht : ProtoIdent t) :
    goCamelCase s = goCamelCase t ↔ SameGoName s t := by
  constructor
  · intro h
    have h1 := (camel_same hs).1
    have h2 := (camel_same ht).1
    rw [h] at h1
    exact .trans _ _ _ h1 (.symm _ _ h2)
  · intro h
    obtain ⟨_, _, _, _, hid⟩ := hs
    exact (same_camel h).2 hid

example : SameGoName "foo_bar".toList "FooBar".toList :=
  .trans _ _ _ (.first 'f' 'F' _ (by constructor <;> decide)) (.word "Foo".toList 'b' 'B' "ar".toList (by constructor <;> decide) (by decide))

/-- C46: names that already are Go names stay as they are: applying the conversion twice changes nothing more. -/
theorem C46_idempotent (s : List Char) (h : ProtoIdent s) : goCamelCase (goCamelCase s) = goCamelCase s :=
  ((same_camel (camel_same h).1).2 (by obtain ⟨_, _, _, _, hid⟩ := h; exact hid)).symm

end Verif.Props
