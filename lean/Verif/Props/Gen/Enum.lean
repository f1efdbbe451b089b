import Verif.Model.Gen.Enum
import Verif.Props.Gen.Verify
import Verif.Props.Gen.GoNames
/-!
# C49: the tables generated for enums
-/
namespace Verif.Props
open Verif.Spec.Gen Verif.Model.Gen

/-- `s` is the name that was declared first with number `x`. -/
def FirstName (e : EnumDecl) (x : Int) (s : Str) : Prop :=
  ∃ a f b, e.fields = a ++ f :: b ∧ f.value = x ∧ f.name = s ∧ ∀ g ∈ a, g.value ≠ x

namespace Gen

theorem nameTable_seen : ∀ (fs : List EnumField) (seen : List Int), (∀ e ∈ nameTable seen fs, e.1 ∉ seen) ∧ ((nameTable seen fs).map Prod.fst).Nodup
  | [], seen => by simp [nameTable]
  | f :: fs, seen => by
    unfold nameTable
    split
    · exact nameTable_seen fs seen
    · rename_i hs
      obtain ⟨h1, h2⟩ := nameTable_seen fs (f.value :: seen)
      refine ⟨?_, ?_⟩
      · intro e he
        rcases List.mem_cons.1 he with e' | he
        · subst e'; simpa using hs
        · exact fun hm => h1 e he (List.mem_cons_of_mem _ hm)
      · simp only [List.map_cons]
        refine List.nodup_cons.2 ⟨?_, h2⟩
        intro hm
        obtain ⟨e, he, ee⟩ := List.mem_map.1 hm
        exact h1 e he (by rw [ee]; exact List.mem_cons_self ..)

theorem nameTable_mem : ∀ (fs : List EnumField) (seen : List Int) (x : Int) (s : Str),
    (x, s) ∈ nameTable seen fs ↔ x ∉ seen ∧ ∃ a f b, fs = a ++ f :: b ∧ f.value = x ∧ f.name = s ∧ ∀ g ∈ a, g.value ≠ x
  | [], seen, x, s => by simp [nameTable]
  | f :: fs, seen, x, s => by
    unfold nameTable
    have tail : f.value ≠ x → ((∃ a g b, f :: fs = a ++ g :: b ∧ g.value = x ∧ g.name = s ∧ ∀ h ∈ a, h.value ≠ x) ↔
        ∃ a g b, fs = a ++ g :: b ∧ g.value = x ∧ g.name = s ∧ ∀ h ∈ a, h.value ≠ x) := by
      intro hne
      constructor
      · rintro ⟨a, g, b, e, h1, h2, h3⟩
        cases a with
        | nil =>
          simp only [List.nil_append, List.cons.injEq] at e
          exact absurd (e.1 ▸ h1) hne
        | cons c a =>
          simp only [List.cons_append, List.cons.injEq] at e
          exact ⟨a, g, b, e.2, h1, h2, fun h hh => h3 h (List.mem_cons_of_mem _ hh)⟩
      · rintro ⟨a, g, b, e, h1, h2, h3⟩
        refine ⟨f :: a, g, b, by rw [e]; rfl, h1, h2, ?_⟩
        intro h hh
        rcases List.mem_cons.1 hh with e' | hh
        · exact e' ▸ hne
        · exact h3 h hh
    split
    · rename_i hs
      rw [nameTable_mem fs seen x s]
      by_cases hx : f.value = x
      · subst hx
        simp only [List.contains_iff_mem] at hs
        exact ⟨fun h => absurd hs h.1, fun h => absurd hs h.1⟩
      · rw [tail hx]
    · rename_i hs
      simp only [List.contains_iff_mem] at hs
      rw [List.mem_cons, nameTable_mem fs (f.value :: seen) x s]
      by_cases hx : f.value = x
      · subst hx
        constructor
        · rintro (h | h)
          · simp only [Prod.mk.injEq, true_and] at h
            exact ⟨hs, [], f, fs, rfl, rfl, h.symm, by simp⟩
          · exact absurd (List.mem_cons_self ..) h.1
        · rintro ⟨_, a, g, b, e, h1, h2, h3⟩
          left
          cases a with
          | nil =>
            simp only [List.nil_append, List.cons.injEq] at e
            rw [← h2, e.1]
          | cons c a =>
            simp only [List.cons_append, List.cons.injEq] at e
            exact absurd (by rw [e.1]) (h3 c (List.mem_cons_self ..))
      · rw [tail hx]
        constructor
        · rintro (h | h)
          · simp only [Prod.mk.injEq] at h
            exact absurd h.1.symm hx
          · exact ⟨fun hm => h.1 (List.mem_cons_of_mem _ hm), h.2⟩
        · rintro ⟨h1, h2⟩
          refine .inr ⟨?_, h2⟩
          intro hm
          rcases List.mem_cons.1 hm with e | hm
          · exact hx e.symm
          · exact h1 hm

theorem mapIndex_iff {α β : Type} [DecidableEq α] {m : List (α × β)} (h : (m.map Prod.fst).Nodup) (k : α) (v : β) :
    mapIndex m k = some v ↔ (k, v) ∈ m := by
  induction m with
  | nil => simp [mapIndex]
  | cons e m ih =>
    obtain ⟨k', v'⟩ := e
    simp only [List.map_cons, List.nodup_cons] at h
    unfold mapIndex at ih ⊢
    rw [List.find?_cons]
    by_cases hk : k' = k
    · subst hk
      simp only [decide_true, Option.map_some, Option.some.injEq, List.mem_cons, Prod.mk.injEq, true_and]
      constructor
      · exact fun e => .inl e.symm
      · rintro (e | hm)
        · exact e.symm
        · exact absurd (List.mem_map.2 ⟨_, hm, rfl⟩) h.1
    · simp only [hk, decide_false, List.mem_cons, Prod.mk.injEq]
      rw [ih h.2]
      constructor
      · exact .inr
      · rintro (e | hm)
        · exact absurd e.1.symm hk
        · exact hm

theorem mapIndex_none {α β : Type} [DecidableEq α] {m : List (α × β)} (k : α) : mapIndex m k = none ↔ ∀ v, (k, v) ∉ m := by
  unfold mapIndex
  simp only [Option.map_eq_none_iff, List.find?_eq_none, decide_eq_true_eq]
  constructor
  · intro h v hm; exact h _ hm rfl
  · rintro h ⟨k', v⟩ hm rfl; exact h v hm

/-- The decimal text of a number starts with a digit or a minus sign. -/
theorem itoa_head (x : Int) : ∃ c r, itoa x = c :: r ∧ (c = '-' ∨ Digit c) := by
  unfold itoa
  split
  · exact ⟨_, _, rfl, .inl rfl⟩
  · have hne : Nat.toDigits 10 x.natAbs ≠ [] := Nat.toDigits_ne_nil
    cases hd : Nat.toDigits 10 x.natAbs with
    | nil => exact absurd hd hne
    | cons c r =>
      have : c.isDigit := Nat.isDigit_of_mem_toDigits (b := 10) (n := x.natAbs) (by decide) (by decide) (by rw [hd]; exact List.mem_cons_self ..)
      refine ⟨c, r, rfl, .inr ?_⟩
      simp only [Char.isDigit, Bool.and_eq_true, decide_eq_true_eq] at this
      exact this

theorem toDigits_inj {m n : Nat} (h : Nat.toDigits 10 m = Nat.toDigits 10 n) : m = n := by
  have := congrArg (Nat.ofDigitChars 10 · 0) h
  simpa using this

theorem itoa_inj {x y : Int} (h : itoa x = itoa y) : x = y := by
  have nominus : ∀ n : Nat, ∀ r, Nat.toDigits 10 n ≠ '-' :: r := by
    intro n r e
    have : ('-').isDigit = true := Nat.isDigit_of_mem_toDigits (b := 10) (n := n) (by decide) (by decide) (by rw [e]; exact List.mem_cons_self ..)
    exact absurd this (by decide)
  unfold itoa at h
  split at h <;> split at h
  · have := toDigits_inj (List.cons.inj h).2
    omega
  · exact absurd h.symm (nominus _ _)
  · exact absurd h (nominus _ _)
  · have := toDigits_inj h
    omega

end Gen

open Gen

/-- C49: the table of names has no number twice, and holds for each declared number the name that was declared first with it.  (The
Go compiler rejects map literals in which a key occurs twice.) -/
theorem C49_names (p : FileDecl) (parent : List Str) (e : EnumDecl) (names : List (Int × Str)) (values : List (Str × Int))
    (h : (enumGen p parent e).tables = some (names, values)) :
    (names.map Prod.fst).Nodup ∧ ∀ x s, mapIndex names x = some s ↔ FirstName e x s := by
  unfold enumGen at h
  dsimp only at h
  split at h
  · simp only [Option.some.injEq, Prod.mk.injEq] at h
    obtain ⟨h1, h2⟩ := h
    subst h1
    have hn := (nameTable_seen e.fields []).2
    refine ⟨hn, fun x s => ?_⟩
    rw [mapIndex_iff hn, nameTable_mem]
    simp [FirstName]
  · cases h

/-- C49: the table of values holds each declared name with its number, if no name is declared twice. -/
theorem C49_values (p : FileDecl) (parent : List Str) (e : EnumDecl) (names : List (Int × Str)) (values : List (Str × Int))
    (h : (enumGen p parent e).tables = some (names, values)) (hd : (e.fields.map EnumField.name).Nodup) :
    (values.map Prod.fst).Nodup ∧ ∀ s x, mapIndex values s = some x ↔ ∃ f ∈ e.fields, f.name = s ∧ f.value = x := by
  unfold enumGen at h
  dsimp only at h
  split at h
  · simp only [Option.some.injEq, Prod.mk.injEq] at h
    obtain ⟨h1, h2⟩ := h
    subst h2
    have hk : ((e.fields.map fun f => (f.name, f.value)).map Prod.fst).Nodup := by
      rw [List.map_map]; exact hd
    refine ⟨hk, fun s x => ?_⟩
    rw [mapIndex_iff hk, List.mem_map]
    simp [Prod.ext_iff]
  · cases h

/-- C49: `String` gives the name declared first, and the number if there is no name. -/
theorem C49_string (p : FileDecl) (parent : List Str) (e : EnumDecl) (names : List (Int × Str)) (values : List (Str × Int))
    (h : (enumGen p parent e).tables = some (names, values)) (x : Int) :
    (∀ s, FirstName e x s → enumString names x = s) ∧ ((∀ f ∈ e.fields, f.value ≠ x) → enumString names x = itoa x) := by
  obtain ⟨_, hn⟩ := C49_names p parent e names values h
  refine ⟨fun s hs => ?_, fun hx => ?_⟩
  · rw [enumString, (hn x s).2 hs]
  · have : mapIndex names x = none := by
      cases hm : mapIndex names x with
      | none => rfl
      | some s =>
        obtain ⟨a, f, b, he, hv, _⟩ := (hn x s).1 hm
        exact absurd hv (hx f (by rw [he]; simp))
    rw [enumString, this]

/-- C49: the text that `String` gives for a number determines the number, if no name is declared twice. -/
theorem C49_injective (p : FileDecl) (parent : List Str) (e : EnumDecl) (names : List (Int × Str)) (values : List (Str × Int))
    (h : (enumGen p parent e).tables = some (names, values)) (hd : (e.fields.map EnumField.name).Nodup)
    (hid : ∀ f ∈ e.fields, ProtoIdent f.name) (x y : Int) (hxy : enumString names x = enumString names y) : x = y := by
  obtain ⟨_, hn⟩ := C49_names p parent e names values h
  have mem : ∀ {x : Int} {s : Str}, mapIndex names x = some s → ∃ f ∈ e.fields, f.value = x ∧ f.name = s := by
    intro x s hm
    obtain ⟨a, f, b, he, hv, hs, _⟩ := (hn x s).1 hm
    exact ⟨f, by rw [he]; simp, hv, hs⟩
  have nonum : ∀ {z : Int} {f : EnumField}, f ∈ e.fields → f.name ≠ itoa z := by
    intro z f hf he
    obtain ⟨c, r, e1, h1⟩ := itoa_head z
    obtain ⟨c', r', e2, h2, hall⟩ := hid f hf
    rw [e2, e1] at he
    have hc : c' = c := (List.cons.inj he).1
    rcases h1 with h1 | h1
    · have := hall c' (by rw [e2]; exact List.mem_cons_self ..)
      rw [hc, h1] at this
      exact absurd this (by decide)
    · exact h2 (hc ▸ h1)
  unfold enumString at hxy
  cases hx : mapIndex names x with
  | some s =>
    obtain ⟨f, hf, hv, hs⟩ := mem hx
    cases hy : mapIndex names y with
    | some t =>
      obtain ⟨g, hg, hv', hs'⟩ := mem hy
      rw [hx, hy] at hxy
      dsimp only at hxy
      have hname : f.name = g.name := by rw [hs, hs', hxy]
      obtain ⟨i, hi, ei⟩ := List.getElem_of_mem hf
      obtain ⟨j, hj, ej⟩ := List.getElem_of_mem hg
      have : i = j := by
        refine (List.getElem_inj (xs := e.fields.map EnumField.name) (h₀ := by simpa using hi) (h₁ := by simpa using hj) hd).1 ?_
        simp [ei, ej, hname]
      subst this
      rw [ei] at ej
      rw [← hv, ← hv', ej]
    | none =>
      rw [hx, hy] at hxy
      dsimp only at hxy
      exact absurd (hs.trans hxy) (nonum hf)
  | none =>
    cases hy : mapIndex names y with
    | some t =>
      obtain ⟨g, hg, hv', hs'⟩ := mem hy
      rw [hx, hy] at hxy
      dsimp only at hxy
      exact absurd (hs'.trans hxy.symm) (nonum hg)
    | none =>
      rw [hx, hy] at hxy
      exact itoa_inj hxy

/-- An enum with an alias. -/
def colors : EnumDecl where
  name := "Color".toList
  fields := [{ name := "RED".toList, value := 0 }, { name := "GREEN".toList, value := -5 }, { name := "VERT".toList, value := -5 }]
  options := [("allow_alias".toList, "true".toList)]

example : enumGen { edition := .proto3 } [] colors =
    { name := "Color".toList,
      consts := [("Color_RED".toList, 0), ("Color_GREEN".toList, -5), ("Color_VERT".toList, -5)],
      tables := some ([(0, "RED".toList), (-5, "GREEN".toList)], [("RED".toList, 0), ("GREEN".toList, -5), ("VERT".toList, -5)]) } := by
  decide +kernel
example : (colors.fields.map EnumField.name).Nodup := by decide +kernel
example : enumString [(0, "RED".toList), (-5, "GREEN".toList)] (-5) = "GREEN".toList ∧
    enumString [(0, "RED".toList), (-5, "GREEN".toList)] (-17) = "-17".toList := by decide +kernel

/-- The constants of an enum have different names, if the names of the values are different and all are prefixed. -/
theorem Gen.consts_prefixed (p : FileDecl) (parent : List Str) (e : EnumDecl) (hd : (e.fields.map EnumField.name).Nodup)
    (hp : ∀ f ∈ e.fields, enumNoPrefix p e f = false) : ((enumGen p parent e).consts.map Prod.fst).Nodup := by
  have : (enumGen p parent e).consts.map Prod.fst =
      (e.fields.map EnumField.name).map fun n => (if parent ≠ [] then goTypeName parent else goTypeName [e.name]) ++ '_' :: n := by
    unfold enumGen
    dsimp only
    rw [List.map_map, List.map_map]
    refine List.map_congr_left fun f hf => ?_
    simp only [Function.comp, enumConst, hp f hf, Bool.false_eq_true, if_false]
    split <;> rfl
  rw [this]
  generalize (if parent ≠ [] then goTypeName parent else goTypeName [e.name]) = pre
  generalize e.fields.map EnumField.name = ns at hd
  induction ns with
  | nil => simp
  | cons n ns ih =>
    obtain ⟨h1, h2⟩ := List.nodup_cons.1 hd
    rw [List.map_cons]
    refine List.nodup_cons.2 ⟨?_, ih h2⟩
    intro hm
    obtain ⟨m, hm, em⟩ := List.mem_map.1 hm
    have := List.append_cancel_left em
    simp only [List.cons.injEq, true_and] at this
    exact h1 (this ▸ hm)

end Verif.Props
