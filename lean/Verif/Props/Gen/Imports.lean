import Verif.Model.Gen.Imports
import Verif.Spec.Gen.Imports
import Verif.Lemmas.Gen.Getters
/-!
# C58: imports of generated files
-/
namespace Verif.Props
open Verif.Spec Verif.Spec.Gen Verif.Model Verif.Model.Gen Verif.Props.Gen

namespace Gen

/-! ## The order of imports -/

theorem goLess_asymm : ∀ s t : Str, goLess s t = true → goLess t s = false
  | _, [], h => by cases ‹Str› <;> cases h
  | [], _ :: _, _ => rfl
  | a :: s, b :: t, h => by
    rw [goLess] at h ⊢
    rw [Bool.or_eq_true, Bool.and_eq_true, decide_eq_true_eq, decide_eq_true_eq] at h
    rw [Bool.or_eq_false_iff, decide_eq_false_iff_not, Bool.and_eq_false_iff, decide_eq_false_iff_not]
    rcases h with h | ⟨h1, h2⟩
    · exact ⟨by omega, .inl (by omega)⟩
    · exact ⟨by omega, .inr (goLess_asymm s t h2)⟩

theorem goLess_antisymm : ∀ s t : Str, goLess s t = false → goLess t s = false → s = t
  | [], [], _, _ => rfl
  | [], _ :: _, h, _ => by cases h
  | _ :: _, [], _, h => by cases h
  | a :: s, b :: t, h, h' => by
    rw [goLess, Bool.or_eq_false_iff, decide_eq_false_iff_not, Bool.and_eq_false_iff, decide_eq_false_iff_not] at h h'
    have hab : a.toNat = b.toNat := by omega
    have h1 : goLess s t = false := by
      rcases h.2 with h | h
      · exact absurd hab h
      · exact h
    have h2 : goLess t s = false := by
      rcases h'.2 with h | h
      · exact absurd hab.symm h
      · exact h
    rw [Char.toNat_inj.1 hab, goLess_antisymm s t h1 h2]

theorem goLess_trans : ∀ s t u : Str, goLess t s = false → goLess u t = false → goLess u s = false
  | [], _, u, _, _ => by cases u <;> rfl
  | _ :: _, [], _, h, _ => by cases h
  | _ :: _, _ :: _, [], _, h => by cases h
  | a :: s, b :: t, c :: u, h, h' => by
    rw [goLess, Bool.or_eq_false_iff, decide_eq_false_iff_not, Bool.and_eq_false_iff, decide_eq_false_iff_not] at h h' ⊢
    refine ⟨by omega, ?_⟩
    by_cases hc : c.toNat = a.toNat
    · refine .inr (goLess_trans s t u ?_ ?_)
      · rcases h.2 with h | h
        · omega
        · exact h
      · rcases h'.2 with h | h
        · omega
        · exact h
    · exact .inl hc

/-- The order by which imports are sorted. -/
def importLe (grouping : Str → Int) (a b : Str × Str) : Bool := !importLess grouping b a

theorem importLe_iff {grouping : Str → Int} {a b : Str × Str} :
    importLe grouping a b = true ↔ grouping a.1 < grouping b.1 ∨ (grouping a.1 = grouping b.1 ∧ goLess b.1 a.1 = false) := by
  unfold importLe importLess
  by_cases h : grouping b.1 = grouping a.1
  · rw [if_neg (fun h' => h' h)]
    simp [h]
  · rw [if_pos h]
    simp only [Bool.not_eq_true', decide_eq_false_iff_not]
    constructor
    · intro h'
      exact .inl (by omega)
    · rintro (h' | h') <;> omega

theorem importLe_trans {grouping : Str → Int} (a b c : Str × Str) (h : importLe grouping a b = true) (h' : importLe grouping b c = true) : importLe grouping a c = true := by
  rw [importLe_iff] at *
  rcases h with h | ⟨h1, h2⟩ <;> rcases h' with h' | ⟨h1', h2'⟩
  · exact .inl (by omega)
  · exact .inl (by omega)
  · exact .inl (by omega)
  · exact .inr ⟨by omega, goLess_trans _ _ _ h2 h2'⟩

theorem importLe_total {grouping : Str → Int} (a b : Str × Str) : (importLe grouping a b || importLe grouping b a) = true := by
  rw [Bool.or_eq_true, importLe_iff, importLe_iff]
  by_cases h : grouping a.1 = grouping b.1
  · cases hl : goLess b.1 a.1 with
    | false => exact .inl (.inr ⟨h, rfl⟩)
    | true => exact .inr (.inr ⟨h.symm, goLess_asymm _ _ hl⟩)
  · by_cases h' : grouping a.1 < grouping b.1
    · exact .inl (.inl h')
    · exact .inr (.inl (by omega))

theorem importLe_antisymm {grouping : Str → Int} {a b : Str × Str} (h : importLe grouping a b = true) (h' : importLe grouping b a = true) : a.1 = b.1 := by
  rw [importLe_iff] at *
  rcases h with h | ⟨h1, h2⟩ <;> rcases h' with h' | ⟨h1', h2'⟩
  · omega
  · omega
  · omega
  · exact goLess_antisymm _ _ h2' h2

theorem insert_perm (less : Str × Str → Str × Str → Bool) (x : Str × Str) : ∀ l, (insertImport less x l).Perm (x :: l)
  | [] => .refl _
  | y :: l => by
    rw [insertImport]
    split
    · exact ((insert_perm less x l).cons y).trans (.swap x y l)
    · exact .refl _

theorem sort_perm (less : Str × Str → Str × Str → Bool) : ∀ l, (sortImports less l).Perm l
  | [] => .refl _
  | x :: l => (insert_perm less x _).trans ((sort_perm less l).cons x)

theorem insert_sorted {grouping : Str → Int} (x : Str × Str) : ∀ l : List (Str × Str), l.Pairwise (fun a b => importLe grouping a b = true) →
    (insertImport (importLess grouping) x l).Pairwise fun a b => importLe grouping a b = true
  | [], _ => List.pairwise_singleton ..
  | y :: l, h => by
    rw [List.pairwise_cons] at h
    rw [insertImport]
    split
    · rename_i hl
      rw [List.pairwise_cons]
      refine ⟨fun z hz => ?_, insert_sorted x l h.2⟩
      rw [(insert_perm _ x l).mem_iff, List.mem_cons] at hz
      rcases hz with rfl | hz
      · have := importLe_total (grouping := grouping) y z
        rw [Bool.or_eq_true] at this
        rcases this with h | h
        · exact h
        · unfold importLe at h
          rw [hl] at h
          cases h
      · exact h.1 z hz
    · rename_i hl
      have hxy : importLe grouping x y = true := by
        unfold importLe
        simpa using hl
      rw [List.pairwise_cons, List.pairwise_cons]
      refine ⟨fun z hz => ?_, h⟩
      rcases List.mem_cons.1 hz with rfl | hz
      · exact hxy
      · exact importLe_trans _ _ _ hxy (h.1 z hz)

theorem sort_sorted {grouping : Str → Int} : ∀ l : List (Str × Str), (sortImports (importLess grouping) l).Pairwise fun a b => importLe grouping a b = true
  | [] => .nil
  | x :: l => insert_sorted x _ (sort_sorted l)

theorem sorted_eq {grouping : Str → Int} {l l' : List (Str × Str)} (hn : (l.map Prod.fst).Nodup) (hp : l.Perm l') :
    sortImports (importLess grouping) l = sortImports (importLess grouping) l' := by
  refine List.Perm.eq_of_pairwise (le := fun a b => importLe grouping a b = true) ?_ (sort_sorted l) (sort_sorted l')
    ((sort_perm _ l).trans (hp.trans (sort_perm _ l').symm))
  intro a b ha hb h h'
  rw [(sort_perm _ l).mem_iff] at ha
  rw [(sort_perm _ l').mem_iff, ← hp.mem_iff] at hb
  exact mem_of_nodup_map (g := Prod.fst) hn ha hb (importLe_antisymm h h')

theorem genImports_perm {grouping : Str → Int} {l l' : List (Str × Str)} (hn : (l.map Prod.fst).Nodup) (hp : l.Perm l') :
    genImports grouping l = genImports grouping l' := by
  match l, l', hp.length_eq with
  | [], [], _ => rfl
  | [a], [b], _ =>
    have := List.perm_singleton.1 hp.symm
    cases this
    rfl
  | a :: b :: l, a' :: b' :: l', _ =>
    have := sorted_eq (grouping := grouping) hn hp
    show "import (\n".toList ++ importLines grouping none (sortImports (importLess grouping) (a :: b :: l)) ++ [')'] =
      "import (\n".toList ++ importLines grouping none (sortImports (importLess grouping) (a' :: b' :: l')) ++ [')']
    rw [this]

/-! ## The text of imports -/

/-- An entry of the map as an import. -/
def toImport (e : Str × Str) : Import := ⟨if e.2 = [] then none else some e.2, e.1⟩

theorem spec_text (e : Str × Str) : ImportSpec (e.2 ++ ' ' :: quoted e.1) (toImport e) := by
  unfold toImport quoted
  split
  · rename_i h
    rw [h]
    exact .plain _
  · rename_i h
    exact .named _ _ h

theorem lines_text (grouping : Str → Int) : ∀ (l : List (Str × Str)) (prev : Option Int), ImportLines (importLines grouping prev l) (l.map toImport)
  | [], _ => .nil
  | (p, a) :: rest, prev => by
    have ih := lines_text grouping rest (some (grouping p))
    have hc : ImportLines ((a ++ ' ' :: quoted p) ++ '\n' :: importLines grouping (some (grouping p)) rest) (toImport (p, a) :: rest.map toImport) :=
      .cons _ _ _ _ (spec_text (p, a)) ih
    have e : ∀ pre : Str, pre ++ a ++ ' ' :: quoted p ++ '\n' :: importLines grouping (some (grouping p)) rest =
        pre ++ ((a ++ ' ' :: quoted p) ++ '\n' :: importLines grouping (some (grouping p)) rest) := by
      intro pre
      simp
    unfold importLines
    rw [e]
    cases prev with
    | none => exact hc
    | some w =>
      dsimp only
      split
      · exact .empty _ _ hc
      · exact hc

theorem imports_text (grouping : Str → Int) (l : List (Str × Str)) : ∃ l' : List (Str × Str), l'.Perm l ∧ ImportDecl (genImports grouping l) (l'.map toImport) := by
  match l with
  | [] => exact ⟨[], .nil, .none⟩
  | [(p, a)] =>
    refine ⟨[(p, a)], .refl _, ?_⟩
    have := ImportDecl.one _ _ (spec_text (p, a))
    have e : genImports grouping [(p, a)] = "import ".toList ++ (a ++ ' ' :: quoted p) := by
      show "import ".toList ++ a ++ ' ' :: quoted p = _
      rw [List.append_assoc]
    rw [e]
    exact this
  | a :: b :: l => exact ⟨sortImports (importLess grouping) (a :: b :: l), sort_perm .., .many _ _ (lines_text grouping _ none)⟩

/-! ## The map -/

theorem use_nodup {l : List (Str × Str)} (hn : (l.map Prod.fst).Nodup) (u : Str × Str) : ((usePkg l u).map Prod.fst).Nodup := by
  unfold usePkg
  split
  · exact hn
  · rw [List.map_cons, List.nodup_cons]
    refine ⟨fun h => ?_, ?_⟩
    · obtain ⟨e, he, h⟩ := List.mem_map.1 h
      exact absurd h (by simpa using (List.mem_filter.1 he).2)
    · rw [List.nodup_iff_pairwise_ne, List.pairwise_map] at *
      exact hn.filter _

theorem uses_nodup : ∀ (us : List (Str × Str)) (l : List (Str × Str)), (l.map Prod.fst).Nodup → ((us.foldl usePkg l).map Prod.fst).Nodup
  | [], _, h => h
  | u :: us, l, h => uses_nodup us _ (use_nodup h u)

/-- What an alias becomes: none if it is the last element of the path. -/
def aliasOf (u : Str × Str) : Str := if pathBase u.1 = u.2 then [] else u.2

theorem mem_use {l : List (Str × Str)} {u e : Str × Str} : e ∈ usePkg l u ↔ (u.1 ≠ [] ∧ e = (u.1, aliasOf u)) ∨ (e ∈ l ∧ (u.1 = [] ∨ e.1 ≠ u.1)) := by
  unfold usePkg aliasOf
  split
  · rename_i h
    simp [h]
  · rename_i h
    rw [List.mem_cons, List.mem_filter]
    simp [h]

/-- What is in the map after some calls: for each package, the alias of the last call. -/
theorem mem_uses : ∀ (us : List (Str × Str)) (l : List (Str × Str)) (e : Str × Str), e ∈ us.foldl usePkg l ↔
    (∃ before u after, us = before ++ u :: after ∧ u.1 ≠ [] ∧ e = (u.1, aliasOf u) ∧ ∀ v ∈ after, v.1 ≠ u.1) ∨ (e ∈ l ∧ ∀ v ∈ us, v.1 = [] ∨ e.1 ≠ v.1)
  | [], l, e => by
    constructor
    · exact fun h => .inr ⟨h, fun v hv => by cases hv⟩
    · rintro (⟨b, u, a, h, _⟩ | h)
      · cases b <;> cases h
      · exact h.1
  | u :: us, l, e => by
    rw [List.foldl_cons, mem_uses us (usePkg l u) e]
    constructor
    · rintro (⟨b, w, a, rfl, h⟩ | ⟨h, h'⟩)
      · exact .inl ⟨u :: b, w, a, rfl, h⟩
      · rcases mem_use.1 h with ⟨h1, rfl⟩ | ⟨h1, h2⟩
        · refine .inl ⟨[], u, us, rfl, h1, rfl, fun v hv e => ?_⟩
          rcases h' v hv with h' | h'
          · exact h1 (e.symm.trans h')
          · exact h' e.symm
        · refine .inr ⟨h1, fun v hv => ?_⟩
          rcases List.mem_cons.1 hv with rfl | hv
          · exact h2
          · exact h' v hv
    · rintro (⟨b, w, a, h, h1, h2, h3⟩ | ⟨h1, h2⟩)
      · cases b with
        | nil =>
          cases h
          refine .inr ⟨mem_use.2 (.inl ⟨h1, h2⟩), fun v hv => ?_⟩
          rw [h2]
          exact .inr fun e => h3 v hv e.symm
        | cons x b =>
          cases h
          exact .inl ⟨b, w, a, rfl, h1, h2, h3⟩
      · exact .inr ⟨mem_use.2 (.inr ⟨h1, h2 u (List.mem_cons_self ..)⟩), fun v hv => h2 v (List.mem_cons_of_mem _ hv)⟩

end Gen

/-! ## C58: the imports are those asked for, whatever the order of the map -/

/-- The import declaration of a file is a well-formed Go declaration, imports each package that was used exactly once and nothing else, under the name
that was given last (none if that is the last element of the path anyway), and its text does not depend on the order in which Go iterates over the
map. -/
theorem C58_writer (grouping : Str → Int) (uses : List (Str × Str)) :
    (∀ l, l.Perm (uses.foldl usePkg []) → genImports grouping l = genImports grouping (uses.foldl usePkg [])) ∧
    ∃ l, ImportDecl (genImports grouping (uses.foldl usePkg [])) l ∧ (l.map Import.path).Nodup ∧
      ∀ i, i ∈ l ↔ ∃ before u after, uses = before ++ u :: after ∧ u.1 ≠ [] ∧ (∀ v ∈ after, v.1 ≠ u.1) ∧ i.path = u.1 ∧
        i.name = if u.2 = [] ∨ u.2 = pathBase u.1 then none else some u.2 := by
  have hn : ((uses.foldl usePkg []).map Prod.fst).Nodup := uses_nodup uses [] List.nodup_nil
  refine ⟨fun l hl => (genImports_perm hn hl.symm).symm, ?_⟩
  obtain ⟨l, hp, ht⟩ := imports_text grouping (uses.foldl usePkg [])
  refine ⟨l.map toImport, ht, ?_, fun i => ?_⟩
  · rw [List.map_map]
    exact ((hp.map Prod.fst).nodup_iff).2 hn
  · have halias : ∀ u : Str × Str, (toImport (u.1, aliasOf u)).name = if u.2 = [] ∨ u.2 = pathBase u.1 then none else some u.2 := by
      intro u
      unfold toImport aliasOf
      dsimp only
      by_cases h : pathBase u.1 = u.2
      · rw [if_pos h, if_pos rfl, if_pos (.inr h.symm)]
      · rw [if_neg h]
        by_cases h' : u.2 = []
        · rw [if_pos h', if_pos (.inl h')]
        · rw [if_neg h', if_neg]
          rintro (e | e)
          · exact h' e
          · exact h e.symm
    rw [List.mem_map]
    constructor
    · rintro ⟨e, he, rfl⟩
      rw [hp.mem_iff, mem_uses] at he
      rcases he with ⟨b, u, a, h1, h2, rfl, h3⟩ | ⟨he, _⟩
      · exact ⟨b, u, a, h1, h2, h3, rfl, halias u⟩
      · cases he
    · rintro ⟨b, u, a, h1, h2, h3, h4, h5⟩
      refine ⟨(u.1, aliasOf u), ?_, ?_⟩
      · rw [hp.mem_iff, mem_uses]
        exact .inl ⟨b, u, a, h1, h2, rfl, h3⟩
      · cases i
        have : (toImport (u.1, aliasOf u)).name = _ := (halias u).trans h5.symm
        dsimp only at h4 this
        subst h4
        rw [← this]
        rfl

/-! ### Non-vacuity -/

/-- Three packages, one of them used twice. -/
example : genImports defaultGrouping ([("strconv".toList, []), ("b/c".toList, "x".toList), ("github.com/cloudwego/prutal".toList, "prutal".toList),
    ("b/c".toList, "y".toList)].foldl usePkg []) = "import (\ny \"b/c\"\n \"strconv\"\n\n \"github.com/cloudwego/prutal\"\n)".toList := by decide +kernel

namespace Gen

/-! ## The names in a generated file -/

theorem searchFiles_mem {W : World} {p : Nat} {name : Str} {x : Nat} (h : x ∈ (searchFiles W p name).1) : x = p ∨ ∃ i ∈ W.imports p, i.1 = x := by
  have hcases : x = p ∨ x ∈ ((W.imports p).filter fun x => (W.file p).package = (W.file x.1).package).map Prod.fst ∨
      x ∈ ((W.imports p).filter fun x => hasPathPrefix name (W.file x.1).package).map Prod.fst := by
    unfold searchFiles at h
    dsimp only at h
    split at h
    · rcases List.mem_cons.1 h with h | h
      · exact .inl h
      · exact .inr (.inl h)
    · rcases List.mem_append.1 h with h | h
      · rcases List.mem_cons.1 h with h | h
        · exact .inl h
        · exact .inr (.inl h)
      · exact .inr (.inr h)
  rcases hcases with h | h | h
  · exact .inl h
  · obtain ⟨i, hi, rfl⟩ := List.mem_map.1 h
    exact .inr ⟨i, (List.mem_filter.1 hi).1, rfl⟩
  · obtain ⟨i, hi, rfl⟩ := List.mem_map.1 h
    exact .inr ⟨i, (List.mem_filter.1 hi).1, rfl⟩

/-- A type of another package is one of an imported file. -/
theorem external {W : World} {p : Nat} {c : Chain} {f : FieldDecl} {r : Ref} {x : Nat} (h : fieldType W p c f = .decl r (some x)) :
    (W.file x).goImport ≠ (W.file p).goImport ∧ ∃ i ∈ W.imports p, i.1 = x := by
  unfold fieldType at h
  cases ht : typeResolve W p c true f.typ with
  | none => rw [ht] at h; cases h
  | some t =>
    rw [ht] at h
    have h : t = .decl r (some x) := h
    subst h
    unfold typeResolve at ht
    dsimp only at ht
    split at ht
    · cases ht
    · split at ht
      · cases ht
      · split at ht
        · cases ht
        · obtain ⟨y, hy, e⟩ := firstRef_some ht
          split at e
          · have e := Option.some.inj e
            injection e with e1 e2
            split at e2
            · rename_i hne
              cases e2
              refine ⟨hne, ?_⟩
              rcases searchFiles_mem hy with rfl | h
              · exact absurd rfl hne
              · exact h
            · cases e2
          · cases e

/-- The mentions in a type name. -/
def typeMentions (W : World) (p : Nat) (locals : List Str) : Resolved → List Mention
  | .decl _ (some x) => if (W.file x).goImport = (W.file p).goImport then [] else [⟨pathBase (W.file x).goImport, (W.file x).goImport, locals⟩]
  | _ => []

theorem mentions_name (W : World) (p : Nat) (L : List Str) (t : Resolved) : exprMentions (W.file p).goImport L (typeGoName W p t) = typeMentions W p L t := by
  cases t with
  | scalar g => rfl
  | decl r q =>
    cases q with
    | some x => rfl
    | none =>
      show (if (W.file p).goImport = (W.file p).goImport then _ else _) = []
      rw [if_pos rfl]

theorem mentions_elem (W : World) (p : Nat) (L : List Str) (t : Resolved) (b : Bool) :
    exprMentions (W.file p).goImport L (elemTypeName W p t b) = typeMentions W p L t := by
  unfold elemTypeName
  split
  · exact mentions_name W p L t
  · exact mentions_name W p L t

theorem mentions_type (W : World) (p : Nat) (L : List Str) (m : MsgDecl) (f : FieldDecl) (t : Resolved) :
    exprMentions (W.file p).goImport L (fieldGoType W p m f t) = typeMentions W p L t := by
  unfold fieldGoType
  split
  · show exprMentions _ L (keyGoName _) ++ exprMentions _ L (elemTypeName W p t _) = _
    rw [mentions_elem]
    rfl
  · split
    · exact mentions_elem W p L t _
    · split
      · exact mentions_name W p L t
      · exact mentions_name W p L t

/-- What is mentioned: a package and the last element of its path. -/
structure MentionOk (uses : List (Str × Str)) (m : Mention) : Prop where
  qual : m.qual = pathBase m.pkg
  used : (m.pkg, []) ∈ uses
  locals : m.qual ∉ m.locals ∨ (∀ s ∈ m.locals, s = "x".toList) 

theorem typeMentions_ok {W : World} {p : Nat} {c : Chain} {f : FieldDecl} {L : List Str} (hL : ∀ s ∈ L, s = "x".toList) {m : Mention}
    (h : m ∈ typeMentions W p L (fieldType W p c f)) : MentionOk (fieldUses W p c f) m := by
  unfold fieldUses
  revert h
  cases fieldType W p c f with
  | scalar g => intro h; cases h
  | decl r q =>
    cases q with
    | none => intro h; cases h
    | some x =>
      intro h
      have h : m ∈ (if (W.file x).goImport = (W.file p).goImport then [] else [(⟨pathBase (W.file x).goImport, (W.file x).goImport, L⟩ : Mention)]) := h
      split at h
      · cases h
      · rw [List.mem_singleton] at h
        subst h
        exact ⟨rfl, List.mem_cons_self .., .inr hL⟩

theorem zeroMentions_sub {W : World} {p : Nat} {m : MsgDecl} {f : FieldDecl} {t : Resolved} {L : List Str} {x : Mention}
    (h : x ∈ zeroMentions (W.file p).goImport L (fieldGoZero W p m f t)) : x ∈ typeMentions W p L t := by
  unfold fieldGoZero at h
  split at h
  · cases h
  · split at h
    · split at h
      · split at h
        · cases h
        · split at h
          · rw [← mentions_name]
            exact h
          · cases h
      · split at h
        · rw [← mentions_name]
          exact h
        · cases h
    · split at h
      · cases h
      · split at h
        · cases h
        · split at h
          · cases h
          · cases h

theorem getter_type_mentions {W : World} {p : Nat} {c : Chain} {f : FieldDecl} {n : Str} {L : List Str} :
    exprMentions (W.file p).goImport L (fieldGetter W p c f n).type = typeMentions W p L (fieldType W p c f) := by
  have h := mentions_type W p L c.msg f (fieldType W p c f)
  unfold fieldGetter
  dsimp only
  split
  · rename_i h'
    rw [h'] at h
    exact h
  · exact h

theorem getter_zero {W : World} {p : Nat} {c : Chain} {f : FieldDecl} {n : Str} : (fieldGetter W p c f n).zero = fieldGoZero W p c.msg f (fieldType W p c f) := by
  unfold fieldGetter
  dsimp only
  split <;> rfl

theorem ok_mono {us us' : List (Str × Str)} {m : Mention} (h : MentionOk us m) (hs : ∀ u ∈ us, u ∈ us') : MentionOk us' m := ⟨h.qual, hs _ h.used, h.locals⟩

/-- The positions of oneofs are positions of oneofs. -/
def OneofsExist (ms : List MsgDecl) : Prop := ∀ m, Within ms m → ∀ f ∈ m.fields, ∀ k, f.oneof = some k → k < m.oneofs.length

theorem fieldUses_sub {W : World} {o : GenOptions} {p : Nat} {c : Chain} (hk : ∀ f ∈ c.msg.fields, ∀ k, f.oneof = some k → k < c.msg.oneofs.length)
    {f : FieldDecl} (hf : f ∈ c.msg.fields) : ∀ u ∈ fieldUses W p c f, u ∈ messageUses W o p c := by
  intro u hu
  unfold messageUses
  cases ho : f.oneof with
  | none =>
    refine List.mem_append_left _ (List.mem_append_left _ (List.mem_flatMap.2 ⟨f, List.mem_filter.2 ⟨hf, by simp [ho]⟩, hu⟩))
  | some k =>
    refine List.mem_append_right _ (List.mem_flatMap.2 ⟨k, List.mem_range.2 (hk f hf k ho), ?_⟩)
    exact List.mem_flatMap.2 ⟨f, List.mem_filter.2 ⟨hf, by simp [ho]⟩, hu⟩

theorem messageMentions_ok {W : World} {o : GenOptions} {p : Nat} {c : Chain}
    (hk : ∀ f ∈ c.msg.fields, ∀ k, f.oneof = some k → k < c.msg.oneofs.length) {m : Mention} (h : m ∈ messageMentions W o p c) :
    MentionOk (messageUses W o p c) m := by
  have hfield : ∀ (x : FieldDecl × Str) (L : List Str), x ∈ namedFields c.msg → (∀ s ∈ L, s = "x".toList) →
      m ∈ typeMentions W p L (fieldType W p c x.1) → MentionOk (messageUses W o p c) m := fun x L hx hL h =>
    ok_mono (typeMentions_ok hL h) (fieldUses_sub hk (named_fst_mem hx))
  unfold messageMentions at h
  rcases List.mem_append.1 h with h | h
  · rcases List.mem_append.1 h with h | h
    · rcases List.mem_append.1 h with h | h
      · obtain ⟨g, hg, h⟩ := List.mem_flatMap.1 h
        have hg : g ∈ genSlots W p c [] (namedFields c.msg) ++ (if genUnknownFields (W.file p) c.msg then [Model.Gen.unknownSlot] else []) := hg
        rcases List.mem_append.1 hg with hg | hg
        · rcases (slots_mem W p c g _ _).1 hg with ⟨x, hx, _, rfl⟩ | ⟨x, hx, k, _, _, rfl⟩
          · exact hfield x [] hx (fun s h => by cases h) (by rw [← mentions_type]; exact h)
          · cases h
        · split at hg
          · rw [List.mem_singleton] at hg
            subst hg
            cases h
          · cases hg
      · obtain ⟨w, hw, h⟩ := List.mem_flatMap.1 h
        have hw : w ∈ genWrappers W p c := hw
        unfold genWrappers at hw
        obtain ⟨k, _, hw⟩ := List.mem_flatMap.1 hw
        obtain ⟨x, hx, rfl⟩ := List.mem_map.1 hw
        exact hfield x [] (List.mem_filter.1 hx).1 (fun s h => by cases h) (by rw [← mentions_type]; exact h)
    · split at h
      · rename_i ho
        rw [List.mem_singleton] at h
        subst h
        refine ⟨by decide, ?_, .inl (by decide)⟩
        unfold messageUses
        rw [ho]
        exact List.mem_append_left _ (List.mem_append_right _ (List.mem_cons_self ..))
      · cases h
  · split at h
    · obtain ⟨g, hg, h⟩ := List.mem_flatMap.1 h
      rcases (getters_mem W p c g _ _).1 hg with ⟨x, hx, _, rfl⟩ | ⟨x, hx, k, _, rfl⟩ | ⟨x, hx, k, _, _, rfl⟩
      · rcases List.mem_append.1 h with h | h
        · exact hfield x [] hx (fun s h => by cases h) (by rw [← getter_type_mentions]; exact h)
        · rw [getter_zero] at h
          exact hfield x _ hx (fun s h => List.mem_singleton.1 h) (zeroMentions_sub h)
      · rcases List.mem_append.1 h with h | h
        · exact hfield x [] hx (fun s h => by cases h) (by rw [← mentions_type]; exact h)
        · exact hfield x _ hx (fun s h => List.mem_singleton.1 h) (zeroMentions_sub h)
      · rcases List.mem_append.1 h with h | h
        · cases h
        · cases h
    · cases h

theorem fieldUses_mention {W : World} {p : Nat} {c : Chain} {f : FieldDecl} {u : Str × Str} (h : u ∈ fieldUses W p c f) :
    ∃ m ∈ typeMentions W p [] (fieldType W p c f), m.pkg = u.1 ∧ m.qual = pathBase u.1 ∧ u.2 = [] := by
  unfold fieldUses at h
  split at h
  · rename_i r x hx
    rw [List.mem_singleton] at h
    subst h
    refine ⟨⟨pathBase (W.file x).goImport, (W.file x).goImport, []⟩, ?_, rfl, rfl, rfl⟩
    rw [hx]
    show _ ∈ if _ then _ else _
    rw [if_neg (external hx).1]
    exact List.mem_cons_self ..
  · cases h

theorem messageUses_mention {W : World} {o : GenOptions} {p : Nat} {c : Chain} {u : Str × Str} (h : u ∈ messageUses W o p c) :
    ∃ m ∈ messageMentions W o p c, m.pkg = u.1 ∧ m.qual = pathBase u.1 ∧ u.2 = [] := by
  unfold messageUses at h
  unfold messageMentions
  rcases List.mem_append.1 h with h | h
  · rcases List.mem_append.1 h with h | h
    · obtain ⟨f, hf, h⟩ := List.mem_flatMap.1 h
      obtain ⟨hf, ho⟩ := List.mem_filter.1 hf
      obtain ⟨n, hx⟩ := named_of hf
      obtain ⟨m, hm, h1⟩ := fieldUses_mention h
      refine ⟨m, List.mem_append_left _ (List.mem_append_left _ (List.mem_append_left _ (List.mem_flatMap.2 ⟨fieldGen W p c f n, ?_, ?_⟩))), h1⟩
      · exact List.mem_append_left _ ((slots_mem W p c _ _ _).2 (.inl ⟨(f, n), hx, by simpa using ho, rfl⟩))
      · show m ∈ exprMentions _ _ (fieldGoType W p c.msg f (fieldType W p c f))
        rw [mentions_type]
        exact hm
    · split at h
      · rename_i ho
        rw [List.mem_singleton] at h
        subst h
        refine ⟨⟨"prutal".toList, "github.com/cloudwego/prutal".toList, ["x".toList, "in".toList]⟩, ?_, rfl, by decide, rfl⟩
        exact List.mem_append_left _ (List.mem_append_right _ (by rw [if_pos ho]; exact List.mem_cons_self ..))
      · cases h
  · obtain ⟨k, hk, h⟩ := List.mem_flatMap.1 h
    obtain ⟨f, hf, h⟩ := List.mem_flatMap.1 h
    obtain ⟨hf, ho⟩ := List.mem_filter.1 hf
    obtain ⟨n, hx⟩ := named_of hf
    obtain ⟨m, hm, h1⟩ := fieldUses_mention h
    refine ⟨m, List.mem_append_left _ (List.mem_append_left _ (List.mem_append_right _ (List.mem_flatMap.2 ⟨wrapperOf W p c k (f, n), ?_, ?_⟩))), h1⟩
    · exact List.mem_flatMap.2 ⟨k, hk, List.mem_map.2 ⟨(f, n), List.mem_filter.2 ⟨hx, ho⟩, rfl⟩⟩
    · show m ∈ exprMentions _ _ (fieldGoType W p c.msg f (fieldType W p c f))
      rw [mentions_type]
      exact hm

theorem fileMentions_ok {W : World} {o : GenOptions} {p : Nat} (hk : OneofsExist (W.file p).messages) {m : Mention} (h : m ∈ fileMentions W o p) :
    MentionOk (fileUses W o p) m := by
  unfold fileMentions at h
  unfold fileUses
  rcases List.mem_append.1 h with h | h
  · obtain ⟨e, he, h⟩ := List.mem_flatMap.1 h
    unfold enumMentions at h
    split at h
    · rename_i hm
      rw [List.mem_singleton] at h
      subst h
      refine ⟨by decide, List.mem_append_left _ (List.mem_flatMap.2 ⟨e, he, ?_⟩), .inl (by decide)⟩
      unfold enumUses
      rw [if_pos hm]
      exact List.mem_cons_self ..
    · cases h
  · obtain ⟨c, hc, h⟩ := List.mem_flatMap.1 h
    have ha : Around (W.file p).messages c := (chains_iff _ _).1 hc
    have hw : Within (W.file p).messages c.msg := by
      cases c with
      | nil => cases ha
      | cons a r => obtain ⟨o, m⟩ := a; exact around_within ha
    exact ok_mono (messageMentions_ok (hk _ hw) h) fun u hu => List.mem_append_right _ (List.mem_flatMap.2 ⟨c, hc, hu⟩)

theorem fileUses_mention {W : World} {o : GenOptions} {p : Nat} {u : Str × Str} (h : u ∈ fileUses W o p) :
    ∃ m ∈ fileMentions W o p, m.pkg = u.1 ∧ m.qual = pathBase u.1 ∧ u.2 = [] := by
  unfold fileUses at h
  unfold fileMentions
  rcases List.mem_append.1 h with h | h
  · obtain ⟨e, he, h⟩ := List.mem_flatMap.1 h
    unfold enumUses at h
    split at h
    · rename_i hm
      rw [List.mem_singleton] at h
      subst h
      refine ⟨⟨"strconv".toList, "strconv".toList, ["x".toList, "s".toList, "ok".toList]⟩, List.mem_append_left _ (List.mem_flatMap.2 ⟨e, he, ?_⟩), rfl,
        (by decide), rfl⟩
      unfold enumMentions
      rw [if_pos hm]
      exact List.mem_cons_self ..
    · cases h
  · obtain ⟨c, hc, h⟩ := List.mem_flatMap.1 h
    obtain ⟨m, hm, h1⟩ := messageUses_mention h
    exact ⟨m, List.mem_append_right _ (List.mem_flatMap.2 ⟨c, hc, hm⟩), h1⟩

theorem last_use {x : Str} : ∀ {us : List (Str × Str)}, (x, []) ∈ us → ∃ b u a, us = b ++ u :: a ∧ u.1 = x ∧ ∀ v ∈ a, v.1 ≠ u.1
  | u :: us, h => by
    by_cases hl : ∃ v ∈ us, v.1 = x
    · obtain ⟨v, hv, rfl⟩ := hl
      obtain ⟨b, w, a, e, h1, h2⟩ := last_any us v hv
      exact ⟨u :: b, w, a, by rw [e]; rfl, h1, h2⟩
    · rcases List.mem_cons.1 h with rfl | h
      · exact ⟨[], _, us, rfl, rfl, fun v hv e => hl ⟨v, hv, e⟩⟩
      · exact absurd ⟨_, h, rfl⟩ hl
where last_any : ∀ (us : List (Str × Str)) (v : Str × Str), v ∈ us → ∃ b u a, us = b ++ u :: a ∧ u.1 = v.1 ∧ ∀ w ∈ a, w.1 ≠ u.1
  | u :: us, v, h => by
    by_cases hl : ∃ w ∈ us, w.1 = v.1
    · obtain ⟨w, hw, e⟩ := hl
      obtain ⟨b, u', a, e', h1, h2⟩ := last_any us w hw
      exact ⟨u :: b, u', a, by rw [e']; rfl, h1.trans e, h2⟩
    · rcases List.mem_cons.1 h with rfl | h
      · exact ⟨[], _, us, rfl, rfl, fun w hw e => hl ⟨w, hw, e⟩⟩
      · exact absurd ⟨_, h, rfl⟩ hl

/-- The packages that are used: two fixed ones, and those of imported files. -/
theorem uses_paths {W : World} {o : GenOptions} {p : Nat} : ∀ u ∈ fileUses W o p,
    u.1 ∈ "strconv".toList :: "github.com/cloudwego/prutal".toList :: (W.imports p).map (fun i => (W.file i.1).goImport) := by
  intro u hu
  unfold fileUses at hu
  rcases List.mem_append.1 hu with hu | hu
  · obtain ⟨e, _, hu⟩ := List.mem_flatMap.1 hu
    unfold enumUses at hu
    split at hu
    · rw [List.mem_singleton] at hu
      subst hu
      exact List.mem_cons_self ..
    · cases hu
  · obtain ⟨c, _, hu⟩ := List.mem_flatMap.1 hu
    have hf : ∀ f, u ∈ fieldUses W p c f → u.1 ∈ "strconv".toList :: "github.com/cloudwego/prutal".toList ::
        (W.imports p).map (fun i => (W.file i.1).goImport) := by
      intro f hu
      unfold fieldUses at hu
      split at hu
      · rename_i r x hx
        rw [List.mem_singleton] at hu
        subst hu
        obtain ⟨_, i, hi, rfl⟩ := external hx
        exact List.mem_cons_of_mem _ (List.mem_cons_of_mem _ (List.mem_map.2 ⟨i, hi, rfl⟩))
      · cases hu
    unfold messageUses at hu
    rcases List.mem_append.1 hu with hu | hu
    · rcases List.mem_append.1 hu with hu | hu
      · obtain ⟨f, _, hu⟩ := List.mem_flatMap.1 hu
        exact hf f hu
      · split at hu
        · rw [List.mem_singleton] at hu
          subst hu
          exact List.mem_cons_of_mem _ (List.mem_cons_self ..)
        · cases hu
    · obtain ⟨k, _, hu⟩ := List.mem_flatMap.1 hu
      obtain ⟨f, _, hu⟩ := List.mem_flatMap.1 hu
      exact hf f hu

end Gen

/-- The names of other packages in a generated file refer to the packages that are meant, by exactly one import, and every import is used.
`declared` says how packages are named by their `package` clauses; those of imported files have the last element of their path as their name.

Missing: files with a package name that differs from the path (`C58_name_violated`), imports with the same last element (`C58_collision_violated`), and
packages named `x` (`C58_shadow_violated`). -/
theorem C58_file_partial (W : World) (o : GenOptions) (p : Nat) (declared : Str → Str) (hk : OneofsExist (W.file p).messages)
    (hstrconv : declared "strconv".toList = "strconv".toList) (hprutal : declared "github.com/cloudwego/prutal".toList = "prutal".toList)
    (himports : ∀ i ∈ W.imports p, (W.file i.1).goImport ≠ [] ∧ declared (W.file i.1).goImport = pathBase (W.file i.1).goImport ∧
      pathBase (W.file i.1).goImport ≠ "x".toList)
    (hdistinct : ∀ a ∈ "strconv".toList :: "github.com/cloudwego/prutal".toList :: (W.imports p).map (fun i => (W.file i.1).goImport),
      ∀ b ∈ "strconv".toList :: "github.com/cloudwego/prutal".toList :: (W.imports p).map (fun i => (W.file i.1).goImport),
        pathBase a = pathBase b → a = b) :
    ∃ l, ImportDecl (genImports defaultGrouping (filePkgs W o p)) l ∧ (l.map Import.path).Nodup ∧
      (∀ m ∈ fileMentions W o p, RefersTo declared l m.locals m.qual m.pkg) ∧
      ∀ i ∈ l, ∃ m ∈ fileMentions W o p, m.pkg = i.path ∧ m.qual = i.binds declared := by
  obtain ⟨_, l, h1, h2, h3⟩ := C58_writer defaultGrouping (fileUses W o p)
  refine ⟨l, h1, h2, ?_⟩
  have hpkg : ∀ u ∈ fileUses W o p, u.1 ∈ "strconv".toList :: "github.com/cloudwego/prutal".toList :: (W.imports p).map (fun i => (W.file i.1).goImport) := uses_paths
  have hgood : ∀ a ∈ "strconv".toList :: "github.com/cloudwego/prutal".toList :: (W.imports p).map (fun i => (W.file i.1).goImport),
      a ≠ [] ∧ declared a = pathBase a ∧ pathBase a ≠ "x".toList := by
    intro a ha
    rcases List.mem_cons.1 ha with rfl | ha
    · exact ⟨by decide, hstrconv.trans (by decide), by decide⟩
    · rcases List.mem_cons.1 ha with rfl | ha
      · exact ⟨by decide, hprutal.trans (by decide), by decide⟩
      · obtain ⟨i, hi, rfl⟩ := List.mem_map.1 ha
        exact himports i hi
  have hin : ∀ i ∈ l, i.path ∈ "strconv".toList :: "github.com/cloudwego/prutal".toList :: (W.imports p).map (fun i => (W.file i.1).goImport) ∧
      i.binds declared = pathBase i.path := by
    intro i hi
    obtain ⟨b, u, a, e, _, _, h4, h5⟩ := (h3 i).1 hi
    have hu : u ∈ fileUses W o p := by
      rw [e]
      exact List.mem_append_right _ (List.mem_cons_self ..)
    obtain ⟨m, _, _, _, he⟩ := fileUses_mention hu
    rw [he, if_pos (.inl rfl)] at h5
    refine ⟨by rw [h4]; exact hpkg u hu, ?_⟩
    unfold Import.binds
    rw [h5, h4]
    exact (hgood _ (hpkg u hu)).2.1
  constructor
  · intro m hm
    have ok := fileMentions_ok hk hm
    have hp := hpkg _ ok.used
    refine ⟨?_, ⟨none, m.pkg⟩, ?_, rfl, ?_, ?_⟩
    · rcases ok.locals with h | h
      · exact h
      · intro hq
        exact (hgood _ hp).2.2 (ok.qual.symm.trans (h _ hq))
    · obtain ⟨b, u, a, e, h4, h5⟩ : ∃ b u a, fileUses W o p = b ++ u :: a ∧ u.1 = m.pkg ∧ ∀ v ∈ a, v.1 ≠ u.1 := last_use ok.used
      have hu : u ∈ fileUses W o p := by
        rw [e]
        exact List.mem_append_right _ (List.mem_cons_self ..)
      obtain ⟨_, _, _, _, he⟩ := fileUses_mention hu
      refine (h3 _).2 ⟨b, u, a, e, ?_, h5, h4.symm, ?_⟩
      · rw [h4]
        exact (hgood _ hp).1
      · rw [he, if_pos (.inl rfl)]
    · exact (hgood _ hp).2.1.trans ok.qual.symm
    · intro j hj hb
      rw [(hin j hj).2, ok.qual] at hb
      have hpath := hdistinct _ (hin j hj).1 _ hp hb
      obtain ⟨b, u, a, e, _, _, h4, h5⟩ := (h3 j).1 hj
      have hu : u ∈ fileUses W o p := by
        rw [e]
        exact List.mem_append_right _ (List.mem_cons_self ..)
      obtain ⟨_, _, _, _, he⟩ := fileUses_mention hu
      rw [he, if_pos (.inl rfl)] at h5
      cases j
      dsimp only at hpath h5
      subst hpath h5
      rfl
  · intro i hi
    obtain ⟨b, u, a, e, _, _, h4, _⟩ := (h3 i).1 hi
    have hu : u ∈ fileUses W o p := by
      rw [e]
      exact List.mem_append_right _ (List.mem_cons_self ..)
    obtain ⟨m, hm, h6, h7, _⟩ := fileUses_mention hu
    exact ⟨m, hm, h6.trans h4.symm, by rw [(hin i hi).2, h7, h4]⟩

/-! ### Non-vacuity -/

namespace ImportSample

def file (imp pkg : String) : FileDecl where
  edition := .proto3
  package := pkg.toList
  goImport := imp.toList
  goPackage := pathBase imp.toList
  enums := [{ name := "E".toList, fields := [{ name := "A".toList, value := 0 }] }]
  messages := [.mk "N".toList [] [] [] [] [] [] []]

/-- A file with a message that has a field of each of these types; it imports the other files. -/
def world (types : List String) (files : List FileDecl) : World where
  files := { edition := .proto3, package := "m".toList, goImport := "x/m".toList, goPackage := "m".toList,
             messages := [.mk "M".toList [] []
              (types.mapIdx fun i t => { name := ['f', Char.ofNat (97 + i)], typ := t.toList, number := (i : Int) + 1 }) [] [] [] []] } :: files
  imports := fun f => if f = 0 then (List.range files.length).map fun i => (i + 1, false) else []

end ImportSample

/-- A file that refers to messages and enums of two other packages. -/
example : ∃ (W : World) (o : GenOptions) (declared : Str → Str), OneofsExist (W.file 0).messages ∧
    declared "strconv".toList = "strconv".toList ∧ declared "github.com/cloudwego/prutal".toList = "prutal".toList ∧
    (∀ i ∈ W.imports 0, (W.file i.1).goImport ≠ [] ∧ declared (W.file i.1).goImport = pathBase (W.file i.1).goImport ∧
      pathBase (W.file i.1).goImport ≠ "x".toList) ∧
    (∀ a ∈ "strconv".toList :: "github.com/cloudwego/prutal".toList :: (W.imports 0).map (fun i => (W.file i.1).goImport),
      ∀ b ∈ "strconv".toList :: "github.com/cloudwego/prutal".toList :: (W.imports 0).map (fun i => (W.file i.1).goImport),
        pathBase a = pathBase b → a = b) ∧
    ((fileMentions W o 0).map Mention.qual = ["q", "r", "prutal", "q", "q", "r"].map String.toList) ∧
    genImports defaultGrouping (filePkgs W o 0) = "import (\n \"x/q\"\n \"x/r\"\n\n \"github.com/cloudwego/prutal\"\n)".toList := by
  refine ⟨ImportSample.world ["q.E", "r.N"] [ImportSample.file "x/q" "q", ImportSample.file "x/r" "r"], ⟨true, true⟩, pathBase, ?_, ?_, ?_, ?_, ?_, ?_, ?_⟩
  · intro m hm f hf k hk
    cases hm with
    | here h =>
      rw [List.mem_singleton.1 h] at hf
      have : ∀ f ∈ (ImportSample.world ["q.E", "r.N"] [ImportSample.file "x/q" "q", ImportSample.file "x/r" "r"]).files.flatMap (fun p => p.messages.flatMap MsgDecl.fields),
          f.oneof = none := by decide +kernel
      rw [this f (List.mem_flatMap.2 ⟨_, List.mem_cons_self .., List.mem_flatMap.2 ⟨_, List.mem_cons_self .., hf⟩⟩)] at hk
      cases hk
    | deeper h h' =>
      rw [List.mem_singleton.1 h] at h'
      have h' : Within [] _ := h'
      cases h' with
      | here h => cases h
      | deeper h _ => cases h
  all_goals decide +kernel

/-! ### Violations -/

/-- C58 (violated): with `option go_package = "x/q;other"` in an imported file, the generated code says `q.N`, but the package is called `other` and
there is no import that binds `q`. -/
theorem C58_name_violated : ∃ (W : World) (o : GenOptions) (l : List Import), (W.file 1).goImport = "x/q".toList ∧ (W.file 1).goPackage = "other".toList ∧
    ImportDecl (genImports defaultGrouping (filePkgs W o 0)) l ∧ ∀ declared : Str → Str, declared (W.file 1).goImport = (W.file 1).goPackage →
      ∃ m ∈ fileMentions W o 0, ¬ RefersTo declared l m.locals m.qual m.pkg := by
  refine ⟨ImportSample.world ["q.N"] [{ ImportSample.file "x/q" "q" with goPackage := "other".toList }], ⟨false, false⟩, [⟨none, "x/q".toList⟩], rfl, rfl, ?_,
    fun declared hd => ⟨⟨"q".toList, "x/q".toList, []⟩, ?_, ?_⟩⟩
  · have e : genImports defaultGrouping (filePkgs (ImportSample.world ["q.N"] [{ ImportSample.file "x/q" "q" with goPackage := "other".toList }]) ⟨false, false⟩ 0) =
        "import ".toList ++ (' ' :: ('"' :: "x/q".toList ++ ['"'])) := by decide +kernel
    rw [e]
    exact .one _ _ (.plain _)
  · have e : fileMentions (ImportSample.world ["q.N"] [{ ImportSample.file "x/q" "q" with goPackage := "other".toList }]) ⟨false, false⟩ 0 =
        [⟨"q".toList, "x/q".toList, []⟩] := by rfl
    rw [e]
    exact List.mem_cons_self ..
  · rintro ⟨_, i, hi, _, hb, _⟩
    rw [List.mem_singleton] at hi
    subst hi
    have hb : declared "x/q".toList = "q".toList := hb
    have hd : declared "x/q".toList = "other".toList := hd
    rw [hd] at hb
    exact absurd hb (by decide)

/-- C58 (violated): two imported packages whose paths end alike; both are imported under the same name. -/
theorem C58_collision_violated : ∃ (W : World) (o : GenOptions) (l : List Import), (W.file 1).goImport = "x/q".toList ∧ (W.file 2).goImport = "y/q".toList ∧
    ImportDecl (genImports defaultGrouping (filePkgs W o 0)) l ∧ ∀ declared : Str → Str, (∀ f, declared (W.file f).goImport = (W.file f).goPackage) →
      ∃ m ∈ fileMentions W o 0, ¬ RefersTo declared l m.locals m.qual m.pkg := by
  refine ⟨ImportSample.world ["q.N", "r.N"] [ImportSample.file "x/q" "q", ImportSample.file "y/q" "r"], ⟨false, false⟩, [⟨none, "x/q".toList⟩, ⟨none, "y/q".toList⟩],
    rfl, rfl, ?_, fun declared hd => ⟨⟨"q".toList, "x/q".toList, []⟩, ?_, ?_⟩⟩
  · have e : genImports defaultGrouping (filePkgs (ImportSample.world ["q.N", "r.N"] [ImportSample.file "x/q" "q", ImportSample.file "y/q" "r"]) ⟨false, false⟩ 0) =
        "import (\n".toList ++ ((' ' :: ('"' :: "x/q".toList ++ ['"'])) ++ '\n' :: ((' ' :: ('"' :: "y/q".toList ++ ['"'])) ++ '\n' :: [])) ++ [')'] := by decide +kernel
    rw [e]
    exact .many _ _ (.cons _ _ _ _ (.plain _) (.cons _ _ _ _ (.plain _) .nil))
  · have e : fileMentions (ImportSample.world ["q.N", "r.N"] [ImportSample.file "x/q" "q", ImportSample.file "y/q" "r"]) ⟨false, false⟩ 0 =
        [⟨"q".toList, "x/q".toList, []⟩, ⟨"q".toList, "y/q".toList, []⟩] := by rfl
    rw [e]
    exact List.mem_cons_self ..
  · rintro ⟨_, i, hi, hp, hb, hu⟩
    have h1 : declared "x/q".toList = "q".toList := (hd 1).trans (by decide)
    have h2 : declared "y/q".toList = "q".toList := (hd 2).trans (by decide)
    have := congrArg Import.path ((hu ⟨none, "x/q".toList⟩ (List.mem_cons_self ..) h1).trans
      (hu ⟨none, "y/q".toList⟩ (List.mem_cons_of_mem _ (List.mem_cons_self ..)) h2).symm)
    exact absurd this (by decide)

/-- C58 (violated): in a getter, `x` is the receiver; a constant of a package called `x` cannot be named there. -/
theorem C58_shadow_violated : ∃ (W : World) (o : GenOptions), o.getter = true ∧ (W.file 1).goImport = "y/x".toList ∧ (W.file 1).goPackage = "x".toList ∧
    ∀ declared l, ∃ m ∈ fileMentions W o 0, ¬ RefersTo declared l m.locals m.qual m.pkg := by
  refine ⟨ImportSample.world ["q.E"] [ImportSample.file "y/x" "q"], ⟨true, false⟩, rfl, rfl, by decide +kernel,
    fun declared l => ⟨⟨"x".toList, "y/x".toList, ["x".toList]⟩, ?_, fun h => h.1 (List.mem_cons_self ..)⟩⟩
  have e : fileMentions (ImportSample.world ["q.E"] [ImportSample.file "y/x" "q"]) ⟨true, false⟩ 0 =
      [⟨"x".toList, "y/x".toList, []⟩, ⟨"x".toList, "y/x".toList, []⟩, ⟨"x".toList, "y/x".toList, ["x".toList]⟩] := by rfl
  rw [e]
  exact List.mem_cons_of_mem _ (List.mem_cons_of_mem _ (List.mem_cons_self ..))

end Verif.Props
