import Verif.Model.Gen.Options
import Verif.Spec.Gen.Text
/-!
# C47: options and directives
-/
namespace Verif.Props
open Verif.Spec.Gen Verif.Model.Gen

namespace Gen

theorem optGo_some {l : List Opt} {n v : Str} : optGet.go n l = some v ↔ ∃ a b, l = a ++ (n, v) :: b ∧ ∀ o ∈ a, o.1 ≠ n := by
  induction l with
  | nil => simp [optGet.go]
  | cons o l ih =>
    obtain ⟨k, w⟩ := o
    simp only [optGet.go]
    by_cases h : k = n
    · subst h
      simp only [if_true, Option.some.injEq]
      constructor
      · intro e; subst e; exact ⟨[], l, rfl, by simp⟩
      · rintro ⟨a, b, e, ha⟩
        cases a with
        | nil => simp only [List.nil_append, List.cons.injEq, Prod.mk.injEq] at e; exact e.1.2
        | cons x a =>
          simp only [List.cons_append, List.cons.injEq] at e
          exact absurd (e.1 ▸ rfl : x.1 = k) (ha x (List.mem_cons_self ..))
    · simp only [h, if_false]
      rw [ih]
      constructor
      · rintro ⟨a, b, e, ha⟩
        refine ⟨(k, w) :: a, b, by rw [e]; rfl, ?_⟩
        intro o ho
        rcases List.mem_cons.1 ho with h' | h'
        · subst h'; exact h
        · exact ha o h'
      · rintro ⟨a, b, e, ha⟩
        cases a with
        | nil => simp only [List.nil_append, List.cons.injEq, Prod.mk.injEq] at e; exact absurd e.1.1 h
        | cons x a =>
          simp only [List.cons_append, List.cons.injEq] at e
          exact ⟨a, b, e.2, fun o ho => ha o (List.mem_cons_of_mem _ ho)⟩

theorem optGo_none {l : List Opt} {n : Str} : optGet.go n l = none ↔ ∀ o ∈ l, o.1 ≠ n := by
  induction l with
  | nil => simp [optGet.go]
  | cons o l ih =>
    simp only [optGet.go]
    by_cases h : o.1 = n
    · simp [h]
    · simp [h, ih]

theorem dirHas_iff {dd : List Str} {d : Str} : dirHas dd d = true ↔ d ∈ dd := by
  induction dd with
  | nil => simp [dirHas]
  | cons s dd ih =>
    simp only [dirHas]
    by_cases h : s = d
    · simp [h]
    · simp [h, ih, Ne.symm h]

theorem space_iff (c : Char) : isSpace c = true ↔ Blank c := by
  simp only [isSpace, Blank, Bool.or_eq_true, decide_eq_true_eq, Bool.and_eq_true, List.mem_cons, List.not_mem_nil, or_false]
  constructor <;> intro h <;> omega

theorem cut_spec (sep : Char) : ∀ s : Str,
    sep ∉ (cut sep s).1 ∧ ((s = (cut sep s).1 ∧ (cut sep s).2 = []) ∨ s = (cut sep s).1 ++ sep :: (cut sep s).2)
  | [] => by simp [cut]
  | c :: s => by
    obtain ⟨h1, h2⟩ := cut_spec sep s
    by_cases h : c = sep
    · simp [cut, h]
    · simp only [cut, h, if_false]
      refine ⟨by simp [h1, Ne.symm h], ?_⟩
      rcases h2 with ⟨e, e'⟩ | e
      · exact .inl ⟨congrArg (c :: ·) e, e'⟩
      · exact .inr (congrArg (c :: ·) e)

theorem cut_length (sep : Char) (c : Char) (s : Str) : (cut sep (c :: s)).2.length ≤ s.length := by
  rcases (cut_spec sep (c :: s)).2 with ⟨_, e⟩ | e
  · rw [e]; simp
  · have := congrArg List.length e
    simp at this
    omega

theorem cut_sep (sep : Char) (r : Str) : ∀ a : Str,
    (cut sep (a ++ sep :: r)).2 = r ∨ ∃ a', (cut sep (a ++ sep :: r)).2 = a' ++ sep :: r
  | [] => by simp [cut]
  | c :: a => by
    by_cases h : c = sep
    · right; exact ⟨a, by simp [cut, h]⟩
    · have := cut_sep sep r a
      simpa [cut, h] using this

theorem cut_piece (sep : Char) (p b : Str) (hp : sep ∉ p) (hb : b = [] ∨ ∃ b', b = sep :: b') : (cut sep (p ++ b)).1 = p := by
  induction p with
  | nil =>
    rcases hb with e | ⟨b', e⟩
    · subst e; rfl
    · subst e; simp [cut]
  | cons c p ih =>
    have hc : c ≠ sep := fun e => hp (e ▸ List.mem_cons_self ..)
    have := ih (fun h => hp (List.mem_cons_of_mem _ h))
    simp only [List.cons_append, cut, hc, if_false, this]

/-- The pieces of a string: the first one, and those of what follows its separator. -/
theorem piece_iff {sep : Char} {p s : Str} (hne : p ≠ []) : Piece sep p s ↔ p = (cut sep s).1 ∨ Piece sep p (cut sep s).2 := by
  constructor
  · rintro ⟨a, b, e, hp, ha, hb⟩
    rcases ha with ha | ⟨a', ha⟩
    · subst ha e
      exact .inl (cut_piece sep p b hp hb).symm
    · subst ha
      right
      have e' : s = a' ++ sep :: (p ++ b) := by simp [e]
      rw [e']
      rcases cut_sep sep (p ++ b) a' with h | ⟨a'', h⟩
      · rw [h]; exact ⟨[], b, by simp, hp, .inl rfl, hb⟩
      · rw [h]; exact ⟨a'' ++ [sep], b, by simp, hp, .inr ⟨a'', rfl⟩, hb⟩
  · intro h
    obtain ⟨h1, h2⟩ := cut_spec sep s
    rcases h with h | ⟨a, b, e, hp, ha, hb⟩
    · subst h
      rcases h2 with ⟨e, _⟩ | e
      · exact ⟨[], [], by simpa using e, h1, .inl rfl, .inl rfl⟩
      · exact ⟨[], sep :: (cut sep s).2, by simpa using e, h1, .inl rfl, .inr ⟨_, rfl⟩⟩
    · rcases h2 with ⟨_, e'⟩ | e'
      · rw [e'] at e
        have : p = [] := by
          cases p with
          | nil => rfl
          | cons c p => simp at e
        exact absurd this hne
      · refine ⟨(cut sep s).1 ++ sep :: a, b, ?_, hp, .inr ?_, hb⟩
        · conv => lhs; rw [e', e]
          simp
        · rcases ha with ha | ⟨a', ha⟩
          · exact ⟨(cut sep s).1, by simp [ha]⟩
          · exact ⟨(cut sep s).1 ++ sep :: a', by simp [ha]⟩

theorem dropWhile_spec (f : Char → Bool) : ∀ s : Str, ∃ a, s = a ++ s.dropWhile f ∧ (∀ c ∈ a, f c = true) ∧
    (∀ c r, s.dropWhile f = c :: r → f c = false)
  | [] => ⟨[], by simp⟩
  | c :: s => by
    obtain ⟨a, h1, h2, h3⟩ := dropWhile_spec f s
    cases hc : f c with
    | true =>
      refine ⟨c :: a, ?_, ?_, ?_⟩
      · simp only [List.dropWhile, hc, List.cons_append]; exact congrArg _ h1
      · intro x hx
        rcases List.mem_cons.1 hx with h | h
        · subst h; exact hc
        · exact h2 x h
      · simpa only [List.dropWhile, hc] using h3
    | false =>
      refine ⟨[], by simp [List.dropWhile, hc], by simp, ?_⟩
      intro x r e
      simp only [List.dropWhile, hc, List.cons.injEq] at e
      rw [← e.1]; exact hc

theorem trimSpace_trimmed (s : Str) : Trimmed s (trimSpace s) := by
  obtain ⟨a, h1, h2, h3⟩ := dropWhile_spec isSpace s
  obtain ⟨b, g1, g2, g3⟩ := dropWhile_spec isSpace (s.dropWhile isSpace).reverse
  have g1' : s.dropWhile isSpace = trimSpace s ++ b.reverse := by
    have := congrArg List.reverse g1
    simpa [trimSpace] using this
  refine ⟨a, b.reverse, ?_, fun c hc => (space_iff c).1 (h2 c hc), fun c hc => (space_iff c).1 (g2 c (List.mem_reverse.1 hc)), ?_, ?_⟩
  · rw [List.append_assoc, ← g1']; exact h1
  · intro c r e hb
    have := h3 c (r ++ b.reverse) (by rw [g1', e]; rfl)
    rw [(space_iff c).2 hb] at this
    cases this
  · intro c r e hb
    have := g3 c r.reverse (by
      have : trimSpace s = (List.dropWhile isSpace (s.dropWhile isSpace).reverse).reverse := rfl
      rw [e] at this
      have := congrArg List.reverse this
      simpa using this.symm)
    rw [(space_iff c).2 hb] at this
    cases this

/-- Trimming has one result. -/
theorem trimmed_unique {s t u : Str} (ht : Trimmed s t) (hu : Trimmed s u) : t = u := by
  obtain ⟨a, b, e, ha, hb, h1, h2⟩ := ht
  obtain ⟨a', b', e', ha', hb', h1', h2'⟩ := hu
  have key : ∀ (x : Str) (a t b a' t' b' : Str), x = a ++ t ++ b → x = a' ++ t' ++ b' → (∀ c ∈ a, Blank c) → (∀ c ∈ a', Blank c) →
      (∀ c ∈ b, Blank c) → (∀ c ∈ b', Blank c) → (∀ c r, t = c :: r → ¬ Blank c) → (∀ c r, t' = c :: r → ¬ Blank c) →
      t ++ b = t' ++ b' ∨ (t = [] ∧ t' = []) := by
    intro x a t b a' t' b' e e' ha ha' hb hb' h1 h1'
    subst e
    induction a generalizing a' with
    | nil =>
      cases a' with
      | nil => left; simpa using e'
      | cons c a' =>
        right
        have hc := ha' c (List.mem_cons_self ..)
        cases t with
        | nil =>
          refine ⟨rfl, ?_⟩
          cases t' with
          | nil => rfl
          | cons d t' =>
            have hd := h1' d t' rfl
            exfalso
            have hm : d ∈ b := by
              have : d ∈ (c :: a') ++ d :: t' ++ b' := by simp
              rw [← e'] at this
              simpa using this
            exact hd (hb d hm)
        | cons d t =>
          simp only [List.nil_append, List.cons_append, List.cons.injEq] at e'
          exact absurd (e'.1 ▸ hc) (h1 d t rfl)
    | cons c a ih =>
      cases a' with
      | nil =>
        right
        have hc := ha c (List.mem_cons_self ..)
        cases t' with
        | nil =>
          refine ⟨?_, rfl⟩
          cases t with
          | nil => rfl
          | cons d t =>
            have hd := h1 d t rfl
            exfalso
            have hm : d ∈ b' := by
              have : d ∈ (c :: a) ++ d :: t ++ b := by simp
              rw [e'] at this
              simpa using this
            exact hd (hb' d hm)
        | cons d t' =>
          simp only [List.nil_append, List.cons_append, List.cons.injEq] at e'
          exact absurd (e'.1 ▸ hc) (h1' d t' rfl)
      | cons c' a' =>
        simp only [List.cons_append, List.cons.injEq] at e'
        exact ih a' (fun x hx => ha x (List.mem_cons_of_mem _ hx)) (fun x hx => ha' x (List.mem_cons_of_mem _ hx)) (by simpa using e'.2)
  rcases key s a t b a' u b' e e' ha ha' hb hb' h1 h1' with h | ⟨h, h'⟩
  · -- the same from the other end
    have := key (t ++ b).reverse b.reverse t.reverse [] b'.reverse u.reverse [] (by simp) (by rw [h]; simp)
      (by simpa using hb) (by simpa using hb') (by simp) (by simp)
      (fun c r e => h2 c r.reverse (by have := congrArg List.reverse e; simpa using this))
      (fun c r e => h2' c r.reverse (by have := congrArg List.reverse e; simpa using this))
    rcases this with g | ⟨g, g'⟩
    · simpa using g
    · rw [List.reverse_eq_nil_iff.1 g, List.reverse_eq_nil_iff.1 g']
  · rw [h, h']

theorem trim_iff {s t : Str} : trimSpace s = t ↔ Trimmed s t :=
  ⟨fun h => h ▸ trimSpace_trimmed s, fun h => trimmed_unique (trimSpace_trimmed s) h⟩

theorem trim_nonempty {s t : Str} (h : Trimmed s t) (ht : t ≠ []) : s ≠ [] := by
  intro e
  obtain ⟨a, b, e', _⟩ := h
  subst e
  cases t with
  | nil => exact ht rfl
  | cons c t => simp at e'

theorem stripPrefix_iff {p s r : Str} : stripPrefix p s = some r ↔ s = p ++ r := by
  induction p generalizing s with
  | nil => simp [stripPrefix]
  | cons c p ih =>
    cases s with
    | nil => simp [stripPrefix]
    | cons d s =>
      simp only [stripPrefix]
      by_cases h : c = d
      · subst h; simp [ih]
      · simp [h, Ne.symm h]

theorem dirItems_iff {d : Str} (hd : d ≠ []) : ∀ (n : Nat) (s : Str), s.length ≤ n →
    (d ∈ dirItems n s ↔ ∃ item, Piece ',' item s ∧ Trimmed item d) := by
  intro n
  induction n with
  | zero =>
    intro s hs
    have : s = [] := List.length_eq_zero_iff.1 (by omega)
    subst this
    constructor
    · intro h; simp [dirItems] at h
    · rintro ⟨item, ⟨a, b, e, _⟩, ht⟩
      have hi := trim_nonempty ht hd
      cases item with
      | nil => exact absurd rfl hi
      | cons c t => simp at e
  | succ n ih =>
    intro s hs
    cases s with
    | nil =>
      constructor
      · intro h; simp [dirItems] at h
      · rintro ⟨item, ⟨a, b, e, _⟩, ht⟩
        have hi := trim_nonempty ht hd
        cases item with
        | nil => exact absurd rfl hi
        | cons c t => simp at e
    | cons c s =>
      have hlen : (cut ',' (c :: s)).2.length ≤ n := by
        have := cut_length ',' c s
        simp at hs
        omega
      have hrest := ih _ hlen
      have hmem : d ∈ dirItems (n + 1) (c :: s) ↔
          trimSpace (cut ',' (c :: s)).1 = d ∨ d ∈ dirItems n (cut ',' (c :: s)).2 := by
        simp only [dirItems]
        by_cases ht : trimSpace (cut ',' (c :: s)).1 = []
        · simp [ht, Ne.symm hd]
        · simp [ht, eq_comm]
      rw [hmem, hrest]
      constructor
      · rintro (h | ⟨item, h1, h2⟩)
        · have ht := trim_iff.1 h
          exact ⟨_, (piece_iff (trim_nonempty ht hd)).2 (.inl rfl), ht⟩
        · exact ⟨item, (piece_iff (trim_nonempty h2 hd)).2 (.inr h1), h2⟩
      · rintro ⟨item, h1, h2⟩
        rcases (piece_iff (trim_nonempty h2 hd)).1 h1 with h | h
        · subst h; exact .inl (trim_iff.2 h2)
        · exact .inr ⟨item, h, h2⟩

theorem dirItems_ne {n : Nat} {s d : Str} (h : d ∈ dirItems n s) : d ≠ [] := by
  induction n generalizing s with
  | zero => simp [dirItems] at h
  | succ n ih =>
    simp only [dirItems] at h
    split at h
    · simp at h
    · split at h
      · exact ih h
      · rename_i hne
        rcases List.mem_cons.1 h with h | h
        · subst h; exact hne
        · exact ih h

theorem prefix_ne (rest : Str) : directivePrefix ++ rest ≠ [] := by
  intro e
  have h := congrArg List.length e
  rw [List.length_append, List.length_nil] at h
  have h12 : directivePrefix.length = 12 := by decide +kernel
  omega

theorem carries_iff (s d : Str) : Carries s d ↔
    (d ≠ [] ∧ ∃ line rest item, Piece '\n' line s ∧ Trimmed line (directivePrefix ++ rest) ∧ Piece ',' item rest ∧ Trimmed item d) := by
  unfold Carries directivePrefix
  exact Iff.rfl

theorem dirLines_iff (d : Str) : ∀ (n : Nat) (s : Str), s.length ≤ n → (d ∈ dirLines n s ↔ Carries s d) := by
  simp only [carries_iff]
  have hempty : ¬ (d ≠ [] ∧ ∃ line rest item, Piece '\n' line [] ∧ Trimmed line (directivePrefix ++ rest) ∧ Piece ',' item rest ∧ Trimmed item d) := by
    rintro ⟨_, line, rest, item, ⟨a, b, e, _⟩, ht, _⟩
    have hi := trim_nonempty ht (prefix_ne rest)
    cases line with
    | nil => exact absurd rfl hi
    | cons c t => simp at e
  intro n
  induction n with
  | zero =>
    intro s hs
    have : s = [] := List.length_eq_zero_iff.1 (by omega)
    subst this
    exact ⟨fun h => by simp [dirLines] at h, fun h => absurd h hempty⟩
  | succ n ih =>
    intro s hs
    cases s with
    | nil => exact ⟨fun h => by simp [dirLines] at h, fun h => absurd h hempty⟩
    | cons c s =>
      have hlen : (cut '\n' (c :: s)).2.length ≤ n := by
        have := cut_length '\n' c s
        simp at hs
        omega
      have hrest := ih _ hlen
      have hmem : d ∈ dirLines (n + 1) (c :: s) ↔
          (∃ r, trimSpace (cut '\n' (c :: s)).1 = directivePrefix ++ r ∧ d ∈ dirItems r.length r) ∨
            d ∈ dirLines n (cut '\n' (c :: s)).2 := by
        simp only [dirLines]
        rw [if_neg (by simp)]
        cases hp : stripPrefix directivePrefix (trimSpace (cut '\n' (c :: s)).1) with
        | none =>
          constructor
          · exact fun h => .inr h
          · rintro (⟨r, e, _⟩ | h)
            · rw [stripPrefix_iff.2 e] at hp; cases hp
            · exact h
        | some r =>
          have e := stripPrefix_iff.1 hp
          simp only [List.mem_append]
          constructor
          · rintro (h | h)
            · exact .inl ⟨r, e, h⟩
            · exact .inr h
          · rintro (⟨r', e', h⟩ | h)
            · rw [stripPrefix_iff.2 e'] at hp
              cases hp
              exact .inl h
            · exact .inr h
      rw [hmem, hrest]
      constructor
      · rintro (⟨r, e, h⟩ | ⟨hd, line, rest, item, h1, h2, h3⟩)
        · have hd := dirItems_ne h
          obtain ⟨item, h1, h2⟩ := (dirItems_iff hd r.length r (Nat.le_refl _)).1 h
          have ht := trim_iff.1 e
          exact ⟨hd, _, r, item, (piece_iff (trim_nonempty ht (prefix_ne r))).2 (.inl rfl), ht, h1, h2⟩
        · exact ⟨hd, line, rest, item, (piece_iff (trim_nonempty h2 (prefix_ne rest))).2 (.inr h1), h2, h3⟩
      · rintro ⟨hd, line, rest, item, h1, h2, h3, h4⟩
        rcases (piece_iff (trim_nonempty h2 (prefix_ne rest))).1 h1 with h | h
        · subst h
          exact .inl ⟨rest, trim_iff.2 h2, (dirItems_iff hd _ _ (Nat.le_refl _)).2 ⟨item, h3, h4⟩⟩
        · exact .inr ⟨hd, line, rest, item, h, h2, h3, h4⟩

end Gen

open Gen

/-- C47: looking up an option finds the value of its last setting. -/
theorem C47_last (oo : List (Str × Str)) (name v : Str) :
    optGet oo name = some v ↔ ∃ a b, oo = a ++ (name, v) :: b ∧ ∀ o ∈ b, o.1 ≠ name := by
  unfold optGet
  rw [optGo_some]
  constructor
  · rintro ⟨a, b, e, h⟩
    refine ⟨b.reverse, a.reverse, ?_, by simpa using h⟩
    have := congrArg List.reverse e
    simpa using this
  · rintro ⟨a, b, e, h⟩
    exact ⟨b.reverse, a.reverse, by simp [e], by simpa using h⟩

/-- C47: an option that is not set is not found. -/
theorem C47_absent (oo : List (Str × Str)) (name : Str) : optGet oo name = none ↔ ∀ v, (name, v) ∉ oo := by
  unfold optGet
  rw [optGo_none]
  constructor
  · intro h v hm
    exact h (name, v) (by simpa using hm) rfl
  · intro h o ho e
    exact h o.2 (by rw [← e]; simpa using ho)

example : optGet [("packed".toList, "true".toList), ("a".toList, "b".toList), ("packed".toList, "false".toList)] "packed".toList
    = some "false".toList := by decide +kernel

/-- C47: a directive is in force exactly when one of the comments carries it. -/
theorem C47_directives (comments : List Str) (d : Str) :
    dirHas (dirParse comments) d = true ↔ ∃ c ∈ comments, Carries c d := by
  rw [dirHas_iff]
  simp only [dirParse, List.mem_flatMap]
  constructor
  · rintro ⟨c, hc, h⟩; exact ⟨c, hc, (dirLines_iff d _ c (Nat.le_refl _)).1 h⟩
  · rintro ⟨c, hc, h⟩; exact ⟨c, hc, (dirLines_iff d _ c (Nat.le_refl _)).2 h⟩

/-- Non-vacuity: two directives on the second line of a comment. -/
example : dirParse ["// hello\n  //prutalgen:no_pointer, unknown_fields ,\n// bye".toList]
    = ["no_pointer".toList, "unknown_fields".toList] := by decide +kernel

/-- C47: a switch that can be turned on (`d`) and off (`no_d`) has the value of the first of the two that was given. -/
theorem C47_switch (dd : List Str) (d : Str) (v : Bool) :
    dirIsSet dd d = some v ↔
      ∃ a b, dd = a ++ (if v then d else "no_".toList ++ d) :: b ∧ ∀ x ∈ a, x ≠ d ∧ x ≠ "no_".toList ++ d := by
  have hne : ("no_".toList ++ d) ≠ d := by
    intro e
    have := congrArg List.length e
    simp at this
    omega
  have hdef : ∀ s dd, dirIsSet (s :: dd) d = if s = d then some true else if s = "no_".toList ++ d then some false else dirIsSet dd d :=
    fun _ _ => rfl
  generalize "no_".toList ++ d = nod at hne hdef ⊢
  induction dd with
  | nil => simp [dirIsSet]
  | cons s dd ih =>
    have shape : ∀ (w : Bool), s = (if w then d else nod) →
        (some w = some v ↔ ∃ a b, s :: dd = a ++ (if v then d else nod) :: b ∧ ∀ x ∈ a, x ≠ d ∧ x ≠ nod) := by
      intro w hs
      constructor
      · intro e
        cases e
        exact ⟨[], dd, by rw [← hs]; rfl, by simp⟩
      · rintro ⟨a, b, e, ha⟩
        cases a with
        | nil =>
          simp only [List.nil_append, List.cons.injEq] at e
          rw [hs] at e
          cases v <;> cases w <;> simp_all [eq_comm]
        | cons x a =>
          simp only [List.cons_append, List.cons.injEq] at e
          have := ha x (List.mem_cons_self ..)
          rw [← e.1, hs] at this
          cases w <;> simp_all
    rw [hdef]
    by_cases h1 : s = d
    · rw [if_pos h1]; exact shape true (by simp [h1])
    · rw [if_neg h1]
      by_cases h2 : s = nod
      · rw [if_pos h2]; exact shape false (by simp [h2])
      · rw [if_neg h2]
        refine ih.trans ?_
        constructor
        · rintro ⟨a, b, e, ha⟩
          refine ⟨s :: a, b, by rw [e]; rfl, ?_⟩
          intro x hx
          rcases List.mem_cons.1 hx with h | h
          · subst h; exact ⟨h1, h2⟩
          · exact ha x h
        · rintro ⟨a, b, e, ha⟩
          cases a with
          | nil =>
            simp only [List.nil_append, List.cons.injEq] at e
            cases v <;> simp_all
          | cons x a =>
            simp only [List.cons_append, List.cons.injEq] at e
            exact ⟨a, b, e.2, fun y hy => ha y (List.mem_cons_of_mem _ hy)⟩

example : dirIsSet ["x".toList, "no_unknown_fields".toList, "unknown_fields".toList] "unknown_fields".toList = some false := by
  decide +kernel

end Verif.Props
