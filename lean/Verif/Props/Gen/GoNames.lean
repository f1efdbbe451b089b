import Verif.Model.Gen.GoNames
import Verif.Props.Gen.Names
/-!
# C45 and C54: names do not collide
-/
namespace Verif.Props
open Verif.Spec.Gen Verif.Model.Gen

namespace Gen

theorem le_longest {used : List Str} {s : Str} (h : s ∈ used) : s.length ≤ longest used := by
  have mono : ∀ (l : List Str) (n : Nat), n ≤ l.foldl (fun n s => max n s.length) n := by
    intro l
    induction l with
    | nil => intro n; exact Nat.le_refl _
    | cons x l ih => intro n; exact Nat.le_trans (Nat.le_max_left ..) (ih _)
  have key : ∀ (l : List Str) (n : Nat), s ∈ l → s.length ≤ l.foldl (fun n s => max n s.length) n := by
    intro l
    induction l with
    | nil => intro n h; cases h
    | cons x l ih =>
      intro n h
      rcases List.mem_cons.1 h with e | h
      · subst e; exact Nat.le_trans (Nat.le_max_right ..) (mono l _)
      · exact ih _ h
  exact key used 0 h

/-- The loop that appends underscores ends with a name that is not in use, if the bound is large enough. -/
theorem dodge_good {bad : Str → Bool} {L : Nat} (hbad : ∀ s, bad s = true → s.length ≤ L) :
    ∀ (n : Nat) (s : Str), L < n + s.length → bad (dodge bad n s) = false
  | 0, s, h => by
    cases hb : bad s with
    | false => exact hb
    | true => have := hbad s hb; omega
  | n + 1, s, h => by
    simp only [dodge]
    cases hb : bad s with
    | false => simpa using hb
    | true =>
      simp only [if_true]
      exact dodge_good hbad n (s ++ ['_']) (by simp; omega)

/-- It appends underscores only. -/
theorem dodge_shape (bad : Str → Bool) : ∀ (n : Nat) (s : Str), ∃ k, dodge bad n s = s ++ List.replicate k '_'
  | 0, s => ⟨0, by simp [dodge]⟩
  | n + 1, s => by
    simp only [dodge]
    cases hb : bad s with
    | false => exact ⟨0, by simp⟩
    | true =>
      obtain ⟨k, e⟩ := dodge_shape bad n (s ++ ['_'])
      refine ⟨k + 1, ?_⟩
      simp only [if_true]
      rw [e, List.append_assoc]
      rfl

theorem getter_len (s : Str) : (getterName s).length = s.length + 3 := by
  unfold getterName
  rw [List.length_append, show ("Get".toList).length = 3 by decide +kernel]
  omega

theorem getter_ne (s : Str) : getterName s ≠ s := fun e => by
  have := congrArg List.length e
  rw [getter_len] at this
  omega

theorem getter_inj {s t : Str} (h : getterName s = getterName t) : s = t := List.append_cancel_left h

/-- What the loop over the fields keeps: all the names in use are different, and they are the names of methods, fields, getters and
oneofs. -/
structure NInv (fs : List FieldDecl) (σ : Names) : Prop where
  nodup : σ.used.Nodup
  perm : σ.used.Perm (methodNames ++ σ.fields ++ σ.fields.map getterName ++ σ.oneofs.map Prod.snd)
  length : σ.fields.length = fs.length

theorem nameField_inv (on : Nat → Str) (fs : List FieldDecl) (σ : Names) (f : FieldDecl) (h : NInv fs σ) : NInv (fs ++ [f]) (nameField on σ f) := by
  have hn : ∀ n, n = dodge (fun s => σ.used.contains s || σ.used.contains (getterName s)) (longest σ.used + 1) (goCamelCase f.name) →
      n ∉ σ.used ∧ getterName n ∉ σ.used := by
    intro n e
    have := dodge_good (bad := fun s => σ.used.contains s || σ.used.contains (getterName s)) (L := longest σ.used)
      (by
        intro s hs
        simp only [Bool.or_eq_true, List.contains_iff_mem] at hs
        rcases hs with hs | hs
        · exact le_longest hs
        · have := le_longest hs
          rw [getter_len] at this
          omega) (longest σ.used + 1) (goCamelCase f.name) (by omega)
    rw [← e] at this
    simpa using this
  unfold nameField
  generalize dodge (fun s => σ.used.contains s || σ.used.contains (getterName s)) (longest σ.used + 1) (goCamelCase f.name) = n at hn ⊢
  obtain ⟨h1, h2⟩ := hn n rfl
  have hnodup : (getterName n :: n :: σ.used).Nodup := by
    refine List.nodup_cons.2 ⟨?_, List.nodup_cons.2 ⟨h1, h.nodup⟩⟩
    intro hm
    rcases List.mem_cons.1 hm with e | hm
    · exact getter_ne n e
    · exact h2 hm
  have hperm : (getterName n :: n :: σ.used).Perm
      (methodNames ++ (σ.fields ++ [n]) ++ (σ.fields ++ [n]).map getterName ++ σ.oneofs.map Prod.snd) := by
    have := ((h.perm.cons n).cons (getterName n))
    refine this.trans ?_
    rw [List.perm_iff_count]
    intro x
    simp only [List.count_cons, List.count_append, List.map_append, List.map_cons, List.map_nil, List.count_nil]
    omega
  have hlen : (σ.fields ++ [n]).length = (fs ++ [f]).length := by simp [h.length]
  dsimp only
  cases f.oneof with
  | none => exact ⟨hnodup, hperm, hlen⟩
  | some k =>
    dsimp only
    split
    · exact ⟨hnodup, hperm, hlen⟩
    · have ho := dodge_good (bad := fun s => (getterName n :: n :: σ.used).contains s) (L := longest (getterName n :: n :: σ.used))
        (by intro s hs; exact le_longest (by simpa using hs)) (longest (getterName n :: n :: σ.used) + 1) (on k) (by omega)
      generalize dodge (fun s => (getterName n :: n :: σ.used).contains s) (longest (getterName n :: n :: σ.used) + 1) (on k) = o at ho ⊢
      have ho' : o ∉ getterName n :: n :: σ.used := by
        intro hm
        rw [List.contains_iff_mem.2 hm] at ho
        cases ho
      refine ⟨List.nodup_cons.2 ⟨ho', hnodup⟩, ?_, hlen⟩
      refine (hperm.cons o).trans ?_
      rw [List.perm_iff_count]
      intro x
      simp only [List.count_cons, List.count_append, List.map_append, List.map_cons, List.map_nil, List.count_nil]
      omega

theorem nameFields_inv (on : Nat → Str) : ∀ (gs fs : List FieldDecl) (σ : Names), NInv fs σ → NInv (fs ++ gs) (gs.foldl (nameField on) σ)
  | [], fs, σ, h => by simpa using h
  | g :: gs, fs, σ, h => by
    have := nameFields_inv on gs (fs ++ [g]) (nameField on σ g) (nameField_inv on fs σ g h)
    simpa using this

theorem resolve_inv (m : MsgDecl) : NInv m.fields (resolveFieldConflicts m) := by
  have : NInv [] ⟨methodNames, [], []⟩ := ⟨by decide +kernel, by simp, rfl⟩
  have := nameFields_inv (fun k => goCamelCase (m.oneofs.getD k [])) m.fields [] _ this
  rw [List.nil_append] at this
  exact this

end Gen

open Gen

/-- C45: the Go names of the fields of a message, their getters, the fields that hold its oneofs and the methods every message has
are all different. -/
theorem C45_partial (m : MsgDecl) :
    ((["Reset", "String", "ProtoMessage", "Marshal", "Unmarshal", "ExtensionRangeArray", "ExtensionMap", "Descriptor"].map String.toList) ++
      (resolveFieldConflicts m).fields ++ (resolveFieldConflicts m).fields.map ("Get".toList ++ ·) ++
      (resolveFieldConflicts m).oneofs.map Prod.snd).Nodup ∧
    (resolveFieldConflicts m).fields.length = m.fields.length := by
  have h := resolve_inv m
  exact ⟨h.perm.nodup_iff.1 h.nodup, h.length⟩

/-- A message with fields that ask for trouble. -/
def troubled : MsgDecl :=
  .mk "A".toList [] [] [
    { name := "reset".toList, typ := "int32".toList, number := 1 },
    { name := "get_foo".toList, typ := "int32".toList, number := 2 },
    { name := "foo".toList, typ := "int32".toList, number := 3 },
    { name := "Foo".toList, typ := "int32".toList, number := 4 },
    { name := "bar".toList, typ := "int32".toList, number := 5, oneof := some 0 }] ["foo_".toList] [] [] []

/-- Non-vacuity: four of the names have to be changed, one of them twice. -/
example : (resolveFieldConflicts troubled).fields = ["Reset_", "GetFoo", "Foo_", "Foo__", "Bar"].map String.toList ∧
    (resolveFieldConflicts troubled).oneofs = [(0, "Foo___".toList)] := by decide +kernel

/-- C45: the names are not changed otherwise than by appending underscores. -/
theorem C45_shape (m : MsgDecl) : ∃ ks : List Nat, ks.length = m.fields.length ∧
    (resolveFieldConflicts m).fields = List.zipWith (fun f k => goCamelCase f.name ++ List.replicate k '_') m.fields ks := by
  unfold resolveFieldConflicts
  have step : ∀ (on : Nat → Str) (σ : Names) (f : FieldDecl),
      ∃ k, (nameField on σ f).fields = σ.fields ++ [goCamelCase f.name ++ List.replicate k '_'] := by
    intro on σ f
    obtain ⟨k, e⟩ := dodge_shape (fun s => σ.used.contains s || σ.used.contains (getterName s)) (longest σ.used + 1) (goCamelCase f.name)
    refine ⟨k, ?_⟩
    rw [← e]
    unfold nameField
    dsimp only
    cases f.oneof with
    | none => rfl
    | some k => dsimp only; split <;> rfl
  have all : ∀ (on : Nat → Str) (fs : List FieldDecl) (σ : Names), ∃ ks : List Nat, ks.length = fs.length ∧
      (fs.foldl (nameField on) σ).fields = σ.fields ++ List.zipWith (fun f k => goCamelCase f.name ++ List.replicate k '_') fs ks := by
    intro on fs
    induction fs with
    | nil => intro σ; exact ⟨[], rfl, by simp⟩
    | cons f fs ih =>
      intro σ
      obtain ⟨k, e⟩ := step on σ f
      obtain ⟨ks, hl, e'⟩ := ih (nameField on σ f)
      exact ⟨k :: ks, by simp [hl], by rw [List.foldl_cons, e', e, List.append_assoc]; rfl⟩
  exact all _ m.fields _

/-- C45: but the getter of a oneof may collide with a field: the oneof `foo` has the getter `GetFoo`, and so is the name of the
field `get_foo`. -/
theorem C45_oneof_getter_violated : ∃ m : MsgDecl,
    ∃ o ∈ (resolveFieldConflicts m).oneofs, "Get".toList ++ o.2 ∈ (resolveFieldConflicts m).fields :=
  ⟨.mk "A".toList [] [] [{ name := "a".toList, typ := "int32".toList, number := 1, oneof := some 0 },
      { name := "get_foo".toList, typ := "int32".toList, number := 2 }] ["foo".toList] [] [] [],
    (0, "Foo".toList), by decide +kernel, by decide +kernel⟩

/-- C45: and so may the method that lists the wrappers of oneofs. -/
theorem C45_wrappers_violated : ∃ m : MsgDecl, m.oneofs ≠ [] ∧ "XXX_OneofWrappers".toList ∈ (resolveFieldConflicts m).fields :=
  ⟨.mk "A".toList [] [] [{ name := "a".toList, typ := "int32".toList, number := 1, oneof := some 0 },
      { name := "XXX_OneofWrappers".toList, typ := "int32".toList, number := 2 }] ["foo".toList] [] [] [],
    by decide +kernel, by decide +kernel⟩

namespace Gen

theorem dots_cons (a : Str) (p : List Str) (hp : p ≠ []) : joinDots (a :: p) = a ++ '.' :: joinDots p := by
  cases p with
  | nil => exact absurd rfl hp
  | cons b p => rfl

/-- All characters of the converted name are characters of identifiers. -/
theorem camel_chars : ∀ (s : List Char) (p : Option Char) (w : Bool), (∀ x ∈ s, IdentChar x ∨ x = '.') → ∀ x ∈ camelLoop p w s, IdentChar x
  | [], _, _, _, x, hx => by cases hx
  | c :: s, p, w, h, x, hx => by
    have ih : ∀ w, ∀ x ∈ camelLoop (some c) w s, IdentChar x := fun w => camel_chars s (some c) w fun x hx => h x (List.mem_cons_of_mem _ hx)
    have hc := h c (List.mem_cons_self ..)
    have mem : ∀ {y : Char} {w : Bool}, IdentChar y → x ∈ y :: camelLoop (some c) w s → IdentChar x := by
      intro y w hy hx
      rcases List.mem_cons.1 hx with e | hx
      · exact e ▸ hy
      · exact ih _ _ hx
    unfold camelLoop at hx
    split at hx
    · rename_i hw
      simp only [Bool.and_eq_true] at hw
      exact mem (.inl ((lower_iff c).1 hw.2)) hx
    · split at hx
      · exact ih _ _ hx
      · split at hx
        · exact mem (.inr (.inr (.inr rfl))) hx
        · rename_i hdot
          have hid : IdentChar c := hc.resolve_right hdot
          split at hx
          · exact mem (.inr (.inl (by decide))) hx
          · split at hx
            · exact ih _ _ hx
            · split at hx
              · exact mem hid hx
              · refine mem ?_ hx
                by_cases hl : Lower c
                · exact ident_toUpper hl
                · rw [toUpper_not_lower hl]; exact hid

theorem dots_chars : ∀ (p : List Str), (∀ s ∈ p, ∀ x ∈ s, IdentChar x) → ∀ x ∈ joinDots p, IdentChar x ∨ x = '.'
  | [], _, x, hx => by cases hx
  | [a], h, x, hx => .inl (h a (List.mem_cons_self ..) x hx)
  | a :: b :: p, h, x, hx => by
    rw [dots_cons a (b :: p) (by simp)] at hx
    rcases List.mem_append.1 hx with hx | hx
    · exact .inl (h a (List.mem_cons_self ..) x hx)
    · rcases List.mem_cons.1 hx with e | hx
      · exact .inr e
      · exact dots_chars (b :: p) (fun s hs => h s (List.mem_cons_of_mem _ hs)) x hx

theorem camel_head {c : Char} {s : List Char} (hc : IdentChar c) (hd : ¬ Digit c) : ∃ u r, camelLoop none false (c :: s) = u :: r ∧ Upper u := by
  rcases hc with h | h | h | h
  · exact ⟨_, _, camel_lower h, upper_toUpper h⟩
  · exact ⟨_, _, camel_upper h, h⟩
  · exact absurd h hd
  · subst h; exact ⟨_, _, camel_first_under s, by decide⟩

/-- Names in the recommended style are copied. -/
theorem camel_tame : ∀ (s : List Char) (p : Char) (w : Bool) (t : List Char), (∀ x ∈ s, Lower x ∨ Upper x ∨ Digit x) →
    (w = true ∨ ∀ l r, s = l :: r → ¬ Lower l) → (∀ a d l b, s = a ++ d :: l :: b → Digit d → ¬ Lower l) → t ≠ [] ∧ t.head? = some '.' ∨ t = [] →
    camelLoop (some p) w (s ++ t) = s ++ camelLoop (some ((p :: s).getLast (by simp))) ((s.getLast?.map fun c => decide (¬ Digit c)).getD w) t
  | [], p, w, t, _, _, _, _ => by simp
  | c :: s, p, w, t, hall, hw, hdl, ht => by
    have hl : (c :: s).getLast? = some ((c :: s).getLast (by simp)) := List.getLast?_eq_some_getLast (by simp)
    have hall' : ∀ x ∈ s, Lower x ∨ Upper x ∨ Digit x := fun x hx => hall x (List.mem_cons_of_mem _ hx)
    have hdl' : ∀ a d l b, s = a ++ d :: l :: b → Digit d → ¬ Lower l := fun a d l b e => hdl (c :: a) d l b (by rw [e]; rfl)
    have fin : ∀ {w' : Bool}, w' = decide (¬ Digit c) → (w' = true ∨ ∀ l r, s = l :: r → ¬ Lower l) →
        c :: camelLoop (some c) w' (s ++ t) = c :: s ++ camelLoop (some ((p :: c :: s).getLast (by simp)))
          (((c :: s).getLast?.map fun c => decide (¬ Digit c)).getD w) t := by
      intro w' e hw'
      rw [camel_tame s c w' t hall' hw' hdl' ht]
      cases s with
      | nil => simp [e]
      | cons d s =>
        rw [List.getLast?_cons_cons, List.getLast?_eq_some_getLast (by simp)]
        simp
    rw [List.cons_append]
    rcases hall c (List.mem_cons_self ..) with h | h | h
    · have hw1 : w = true := hw.resolve_right fun hn => hn c s rfl h
      subst hw1
      rw [camel_lower_word ((lower_iff c).2 h)]
      refine fin ?_ (.inl rfl)
      have : ¬ Digit c := fun hd => by have := nat_of_lower h; have := nat_of_digit hd; omega
      simp [this]
    · rw [camel_upper h]
      refine fin ?_ (.inl rfl)
      have : ¬ Digit c := fun hd => by have := nat_of_upper h; have := nat_of_digit hd; omega
      simp [this]
    · rw [camel_digit h]
      refine fin (by simp [h]) (.inr ?_)
      intro l r e
      exact hdl [] c l r (by rw [e]; rfl) h

/-- The same for a whole name, whatever came before. -/
theorem camel_style {s : List Char} (h : TypeStyle s) (p : Option Char) (w : Bool) (t : List Char) (ht : t ≠ [] ∧ t.head? = some '.' ∨ t = []) :
    ∃ q w', camelLoop p w (s ++ t) = s ++ camelLoop (some q) w' t := by
  obtain ⟨⟨c, r, e, hu⟩, hall, hdl⟩ := h
  subst e
  rw [List.cons_append, camel_upper hu, camel_tame r c true t (fun x hx => hall x (List.mem_cons_of_mem _ hx)) (.inl rfl)
    (fun a d l b e => hdl (c :: a) d l b (by rw [e]; rfl)) ht]
  exact ⟨_, _, rfl⟩

/-- Names joined by underscores. -/
def joinUnder : List Str → Str
  | [] => []
  | [s] => s
  | s :: t :: rest => s ++ '_' :: joinUnder (t :: rest)

theorem camel_path : ∀ (path : List Str) (p : Option Char) (w : Bool), (∀ s ∈ path, TypeStyle s) → camelLoop p w (joinDots path) = joinUnder path
  | [], _, _, _ => by simp [joinDots, joinUnder, camelLoop]
  | [s], p, w, h => by
    obtain ⟨q, w', e⟩ := camel_style (h s (List.mem_cons_self ..)) p w [] (.inr rfl)
    simp only [List.append_nil] at e
    simp [joinDots, joinUnder, e, camelLoop]
  | s :: t :: rest, p, w, h => by
    rw [dots_cons s (t :: rest) (by simp)]
    obtain ⟨q, w', e⟩ := camel_style (h s (List.mem_cons_self ..)) p w ('.' :: joinDots (t :: rest)) (.inl ⟨by simp, rfl⟩)
    rw [e]
    have hn : nextLower (joinDots (t :: rest)) = false := by
      obtain ⟨⟨c, r, et, hu⟩, _⟩ := h t (by simp)
      cases rest with
      | nil => rw [show joinDots [t] = t from rfl, et]; exact not_lower_upper hu
      | cons u rest => rw [dots_cons t (u :: rest) (by simp), et]; exact not_lower_upper hu
    have : camelLoop (some q) w' ('.' :: joinDots (t :: rest)) = '_' :: camelLoop (some '.') false (joinDots (t :: rest)) := by
      conv => lhs; unfold camelLoop
      have e1 : (w' && isLower '.') = false := by cases w' <;> rfl
      simp [e1, hn]
    rw [this, camel_path (t :: rest) (some '.') false fun s hs => h s (List.mem_cons_of_mem _ hs)]
    rfl

/-- Splitting at the first underscore. -/
theorem under_split {a b r1 r2 : List Char} (ha : '_' ∉ a) (hb : '_' ∉ b) (h : a ++ '_' :: r1 = b ++ '_' :: r2) : a = b ∧ r1 = r2 := by
  induction a generalizing b with
  | nil =>
    cases b with
    | nil => simpa using h
    | cons c b =>
      simp only [List.nil_append, List.cons_append, List.cons.injEq] at h
      exact absurd (by rw [← h.1]; exact List.mem_cons_self ..) hb
  | cons c a ih =>
    cases b with
    | nil =>
      simp only [List.nil_append, List.cons_append, List.cons.injEq] at h
      exact absurd (by rw [h.1]; exact List.mem_cons_self ..) ha
    | cons d b =>
      simp only [List.cons_append, List.cons.injEq] at h
      obtain ⟨e1, e2⟩ := ih (fun h => ha (List.mem_cons_of_mem _ h)) (fun h => hb (List.mem_cons_of_mem _ h)) h.2
      exact ⟨by rw [h.1, e1], e2⟩

theorem style_no_under {s : List Char} (h : TypeStyle s) : '_' ∉ s := fun hm => by
  rcases h.2.1 _ hm with h | h | h <;> exact absurd h (by decide)

theorem joinUnder_inj : ∀ (p q : List Str), p ≠ [] → q ≠ [] → (∀ s ∈ p, TypeStyle s) → (∀ s ∈ q, TypeStyle s) → joinUnder p = joinUnder q → p = q
  | [], _, h, _, _, _, _ => absurd rfl h
  | _, [], _, h, _, _, _ => absurd rfl h
  | [a], [b], _, _, _, _, h => by simpa [joinUnder] using h
  | [a], b :: c :: q, _, _, hp, _, h => by
    exfalso
    simp only [joinUnder] at h
    exact style_no_under (hp a (List.mem_cons_self ..)) (by rw [h]; simp)
  | a :: c :: p, [b], _, _, _, hq, h => by
    exfalso
    simp only [joinUnder] at h
    exact style_no_under (hq b (List.mem_cons_self ..)) (by rw [← h]; simp)
  | a :: c :: p, b :: d :: q, _, _, hp, hq, h => by
    simp only [joinUnder] at h
    obtain ⟨e1, e2⟩ := under_split (style_no_under (hp a (List.mem_cons_self ..))) (style_no_under (hq b (List.mem_cons_self ..))) h
    rw [e1, joinUnder_inj (c :: p) (d :: q) (by simp) (by simp) (fun s hs => hp s (List.mem_cons_of_mem _ hs))
      (fun s hs => hq s (List.mem_cons_of_mem _ hs)) e2]

end Gen

/-- C46: the Go name of a message or enum, however deeply nested, is an exported Go identifier. -/
theorem C46_nested (path : List Str) (hne : path ≠ []) (h : ∀ s ∈ path, ProtoIdent s) : ExportedIdent (goTypeName path) := by
  unfold goTypeName goCamelCase
  have hall : ∀ s ∈ path, ∀ x ∈ s, IdentChar x := fun s hs => by obtain ⟨_, _, _, _, hid⟩ := h s hs; exact hid
  have hchars := camel_chars (joinDots path) none false (dots_chars path hall)
  cases path with
  | nil => exact absurd rfl hne
  | cons a p =>
    obtain ⟨c, r, e, hd, hid⟩ := h a (List.mem_cons_self ..)
    have hj : ∃ r', joinDots (a :: p) = c :: r' := by
      cases p with
      | nil => exact ⟨r, e⟩
      | cons b p => rw [dots_cons a (b :: p) (by simp), e]; exact ⟨_, rfl⟩
    obtain ⟨r', e'⟩ := hj
    rw [e'] at hchars ⊢
    obtain ⟨u, t, e2, hu⟩ := camel_head (s := r') (hid c (by rw [e]; exact List.mem_cons_self ..)) hd
    exact ⟨u, t, e2, hu, hchars⟩

example : goTypeName ["Outer".toList, "_inner".toList, "x".toList] = "Outer_XInnerX".toList := by decide +kernel

/-- C54: types whose names are in the recommended style, and which are nested in such messages, have different Go names if they are
declared in different places or with different names. -/
theorem C54_types_partial (p q : List Str) (hp : p ≠ []) (hq : q ≠ []) (h1 : ∀ s ∈ p, TypeStyle s) (h2 : ∀ s ∈ q, TypeStyle s)
    (h : goTypeName p = goTypeName q) : p = q := by
  unfold goTypeName goCamelCase at h
  rw [camel_path p none false h1, camel_path q none false h2] at h
  exact joinUnder_inj p q hp hq h1 h2 h

/-- Non-vacuity: two such names. -/
example : TypeStyle "Foo9Bar".toList := by
  refine ⟨⟨'F', _, rfl, by decide⟩, by decide, ?_⟩
  intro a d l b e hd hl
  match a, e with
  | [], e => injection e with e1 e2; injection e2 with e3 e4; exact absurd hd (by rw [← e1]; decide)
  | [_], e => injection e with _ e; injection e with e1 e2; exact absurd hd (by rw [← e1]; decide)
  | [_, _], e => injection e with _ e; injection e with _ e; injection e with e1 e2; exact absurd hd (by rw [← e1]; decide)
  | [_, _, _], e =>
    injection e with _ e; injection e with _ e; injection e with _ e; injection e with e1 e2; injection e2 with e3 e4
    exact absurd hl (by rw [← e3]; decide)
  | [_, _, _, _], e =>
    injection e with _ e; injection e with _ e; injection e with _ e; injection e with _ e; injection e with e1 e2
    exact absurd hd (by rw [← e1]; decide)
  | [_, _, _, _, _], e =>
    injection e with _ e; injection e with _ e; injection e with _ e; injection e with _ e; injection e with _ e
    injection e with e1 e2; exact absurd hd (by rw [← e1]; decide)
  | _ :: _ :: _ :: _ :: _ :: _ :: a, e =>
    exfalso
    have := congrArg List.length e
    rw [show ("Foo9Bar".toList).length = 7 by decide +kernel] at this
    simp at this
    omega

/-- C54: in general two types can have the same Go name: `B` nested in `A`, and `A_B`. -/
theorem C54_types_violated : ∃ p q : List Str, p ≠ q ∧ (∀ s ∈ p ++ q, ProtoIdent s) ∧ goTypeName p = goTypeName q :=
  ⟨["A".toList, "B".toList], ["A_B".toList], by decide +kernel,
    fun s hs => by
      simp only [List.cons_append, List.nil_append, List.mem_cons, List.not_mem_nil, or_false] at hs
      rcases hs with e | e | e
      · exact ⟨'A', [], by rw [e]; rfl, by decide, by rw [e]; decide⟩
      · exact ⟨'B', [], by rw [e]; rfl, by decide, by rw [e]; decide⟩
      · exact ⟨'A', ['_', 'B'], by rw [e]; rfl, by decide, by rw [e]; decide⟩,
    by decide +kernel⟩

/-- C54: the wrapper of a oneof field does not have the name of a type declared in the same message. -/
theorem C54_wrapper_nested_partial (path : List Str) (m : MsgDecl) (w : Str) (hw : w ∈ wrapperNames path m) : w ∉ nestedNames path m := by
  unfold wrapperNames at hw
  obtain ⟨p, _, hp⟩ := List.mem_filterMap.1 hw
  split at hp
  · simp only [Option.some.injEq] at hp
    have := dodge_good (bad := fun s => (nestedNames path m).contains s) (L := longest (nestedNames path m))
      (by intro s hs; exact le_longest (by simpa using hs)) (longest (nestedNames path m) + 1) (goTypeName path ++ '_' :: p.2) (by omega)
    intro hm
    unfold oneofStructName at hp
    rw [hp, List.contains_iff_mem.2 hm] at this
    cases this
  · cases hp

/-- A message with a nested type that has the name of the wrapper of a field. -/
def clashing (second : String) : MsgDecl :=
  .mk "A".toList [] [.mk "Foo".toList [] [] [] [] [] [] []] [
    { name := "foo".toList, typ := "int32".toList, number := 1, oneof := some 0 },
    { name := second.toList, typ := "int32".toList, number := 2, oneof := some 0 }] ["o".toList] [] [] []

example : wrapperNames ["A".toList] (clashing "bar") = ["A_Foo_".toList, "A_Bar".toList] ∧
    nestedNames ["A".toList] (clashing "bar") = ["A_Foo".toList] := by decide +kernel

/-- C54: two wrappers in one message can have the same name. -/
theorem C54_wrappers_violated : ∃ m : MsgDecl, m.fields.map FieldDecl.name = ["foo".toList, "foo_".toList] ∧
    ¬ (wrapperNames ["A".toList] m).Nodup :=
  ⟨clashing "foo_", by decide +kernel, by decide +kernel⟩

/-- C54: if no type nested in the message has the name of a wrapper, the wrappers have different names. -/
theorem C54_wrappers_partial (path : List Str) (m : MsgDecl)
    (hfree : ∀ n ∈ (resolveFieldConflicts m).fields, goTypeName path ++ '_' :: n ∉ nestedNames path m) : (wrapperNames path m).Nodup := by
  have hnd : (resolveFieldConflicts m).fields.Nodup := by
    have h := (C45_partial m).1
    rw [List.append_assoc, List.append_assoc, List.nodup_append] at h
    exact ((List.nodup_append.1 h.2.1).1)
  unfold wrapperNames
  have key : ∀ (fs : List FieldDecl) (ns : List Str), ns.Nodup → (∀ n ∈ ns, goTypeName path ++ '_' :: n ∉ nestedNames path m) →
      ((fs.zip ns).filterMap fun p => if p.1.oneof.isSome then some (oneofStructName (goTypeName path) (nestedNames path m) p.2) else none).Nodup ∧
      ∀ w ∈ ((fs.zip ns).filterMap fun p => if p.1.oneof.isSome then some (oneofStructName (goTypeName path) (nestedNames path m) p.2) else none),
        ∃ n ∈ ns, w = goTypeName path ++ '_' :: n := by
    intro fs
    induction fs with
    | nil => intro ns _ _; simp
    | cons f fs ih =>
      intro ns hn hf
      cases ns with
      | nil => simp
      | cons n ns =>
        obtain ⟨hnn, hns⟩ := List.nodup_cons.1 hn
        obtain ⟨i1, i2⟩ := ih ns hns (fun x hx => hf x (List.mem_cons_of_mem _ hx))
        have hname : oneofStructName (goTypeName path) (nestedNames path m) n = goTypeName path ++ '_' :: n := by
          have : (nestedNames path m).contains (goTypeName path ++ '_' :: n) = false := by
            have := hf n (List.mem_cons_self ..)
            simpa using this
          unfold oneofStructName dodge
          simp only [this, Bool.false_eq_true, if_false]
        simp only [List.zip_cons_cons, List.filterMap_cons]
        cases f.oneof.isSome with
        | false =>
          simp only [Bool.false_eq_true, if_false]
          exact ⟨i1, fun w hw => by obtain ⟨x, hx, e⟩ := i2 w hw; exact ⟨x, List.mem_cons_of_mem _ hx, e⟩⟩
        | true =>
          simp only [if_true, hname]
          refine ⟨List.nodup_cons.2 ⟨?_, i1⟩, ?_⟩
          · intro hm
            obtain ⟨x, hx, e⟩ := i2 _ hm
            have := List.append_cancel_left e
            simp only [List.cons.injEq, true_and] at this
            exact hnn (this ▸ hx)
          · intro w hw
            rcases List.mem_cons.1 hw with e | hw
            · exact ⟨n, List.mem_cons_self .., e⟩
            · obtain ⟨x, hx, e⟩ := i2 w hw
              exact ⟨x, List.mem_cons_of_mem _ hx, e⟩
  exact (key _ _ hnd hfree).1

example : (wrapperNames ["A".toList] (clashing "bar")).Nodup := by decide +kernel

end Verif.Props
