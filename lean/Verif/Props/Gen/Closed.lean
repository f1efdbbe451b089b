import Verif.Spec.Gen.Closed
import Verif.Lemmas.Gen.Chains
/-!
# C60: generated code declares the types it uses
-/
namespace Verif.Props
open Verif.Spec Verif.Spec.Gen Verif.Model Verif.Model.Gen Verif.Props.Gen

namespace Gen

/-! ## What is found exists, whatever the names are -/

mutual
theorem msg_exists {f : Nat} : ∀ {outer : List Str} {m : MsgDecl} {name : Str} {r : Ref}, msgGetType f outer m name = some r →
    r.file = f ∧ ∃ path, r.path = outer ++ path ∧ Declares [m] [] path r.isEnum
  | outer, .mk n enums messages a b c d e, name, r, h => by
    rw [msgGetType] at h
    split at h
    · cases h
      exact ⟨rfl, [n], rfl, .msg (m := .mk n enums messages a b c d e) (by simp)⟩
    · split at h
      · cases h
      · rename_i rest _
        split at h
        · rename_i he
          obtain ⟨e1, h1, h2⟩ := enum_any.1 he
          cases h
          refine ⟨rfl, [n, rest], rfl, ?_⟩
          rw [← h2]
          exact .nested (m := .mk n enums messages a b c d e) (by simp) (.enum h1)
        · obtain ⟨h1, path, h2, h3⟩ := msgs_exists h
          refine ⟨h1, n :: path, by rw [h2]; simp, ?_⟩
          exact .nested (m := .mk n enums messages a b c d e) (by simp) (declares_mono h3 (fun _ h => h) (by simp))
theorem msgs_exists {f : Nat} : ∀ {outer : List Str} {ms : List MsgDecl} {name : Str} {r : Ref}, msgsGetType f outer ms name = some r →
    r.file = f ∧ ∃ path, r.path = outer ++ path ∧ Declares ms [] path r.isEnum
  | _, [], _, _, h => by
    rw [msgsGetType] at h
    cases h
  | outer, m :: ms, name, r, h => by
    rw [msgsGetType] at h
    split at h
    · rename_i r' h'
      cases h
      obtain ⟨h1, path, h2, h3⟩ := msg_exists h'
      exact ⟨h1, path, h2, declares_mono h3 (by simp) (fun _ h => h)⟩
    · obtain ⟨h1, path, h2, h3⟩ := msgs_exists h
      exact ⟨h1, path, h2, declares_mono h3 (fun _ h => List.mem_cons_of_mem _ h) (fun _ h => h)⟩
end

theorem search_exists {W : World} {f : Nat} : ∀ {chain : Chain} {name : Str} {r : Ref}, Around (W.file f).messages chain → searchMessages f chain name = some r →
    r.file = f ∧ Exists W r
  | [], _, _, _, h => by cases h
  | (outer, x) :: rest, name, r, ha, h => by
    have key : ∀ (path : List Str) (k : Bool), r.file = f → r.path = outer ++ path → r.isEnum = k → Declares [x] [] path k → r.file = f ∧ Exists W r := by
      intro path k h1 h2 h3 h4
      refine ⟨h1, ?_⟩
      unfold Spec.Gen.Exists
      rw [h1, h2, h3]
      rcases self_declares h4 with ⟨e1, e2⟩ | ⟨p, _, e1, e2⟩
      · rw [e1, e2]
        exact (around_self ha).1
      · rw [e1]
        exact (around_self ha).2 p k e2
    rw [searchMessages] at h
    split at h
    · rename_i r' h'
      cases h
      obtain ⟨h1, path, h2, h3⟩ := msg_exists h'
      exact key path _ h1 h2 rfl h3
    · split at h
      · rename_i he
        obtain ⟨e1, h1, h2⟩ := enum_any.1 he
        cases h
        refine key [x.name, name] true rfl rfl rfl ?_
        rw [← h2]
        exact .nested (m := x) (by simp) (.enum h1)
      · split at h
        · rename_i r' h'
          cases h
          obtain ⟨h1, path, h2, h3⟩ := msgs_exists h'
          exact key (x.name :: path) _ h1 (by rw [h2]; simp) rfl (.nested (by simp) (declares_mono h3 (fun _ h => h) (by simp)))
        · rename_i h1 h2 h3
          rcases around_tail ha with ⟨e, _⟩ | ⟨h', _⟩
          · rw [e] at h
            cases h
          · exact search_exists h' h

theorem file_exists {W : World} : ∀ {n f : Nat} {name : Str} {r : Ref}, fileGetType W n f name = some r → Public W f r.file ∧ Exists W r
  | 0, _, _, _, h => by cases h
  | n + 1, f, name, r, h => by
    rw [fileGetType] at h
    split at h
    · rename_i r' h'
      cases h
      obtain ⟨h1, path, h2, h3⟩ := msgs_exists h'
      rw [List.nil_append] at h2
      refine ⟨by rw [h1]; exact .refl f, ?_⟩
      unfold Spec.Gen.Exists
      rw [h1, h2]
      exact declares_mono h3 (fun _ h => h) (by simp)
    · split at h
      · rename_i he
        obtain ⟨e1, h1, h2⟩ := enum_any.1 he
        cases h
        refine ⟨.refl f, ?_⟩
        show Declares _ _ [name] true
        rw [← h2]
        exact .enum h1
      · split at h
        · rename_i r' h'
          cases h
          obtain ⟨⟨x, pub⟩, hx, h''⟩ := firstRef_some h'
          dsimp only at h''
          cases pub with
          | false => cases h''
          | true =>
            rw [if_pos rfl] at h''
            obtain ⟨h1, h2⟩ := file_exists h''
            exact ⟨.step hx h1, h2⟩
        · split at h
          · exact file_exists h
          · cases h

theorem resolve_exists {W : World} {f : Nat} {c : Chain} {typ : Str} {r : Ref} {q : Option Nat} {b : Bool} (ha : Around (W.file f).messages c)
    (hp : ∀ g x, (x, true) ∈ W.imports g → (W.file x).goImport = (W.file g).goImport) (h : typeResolve W f c b typ = some (.decl r q)) :
    Exists W r ∧ resolvedImport W f q = (W.file r.file).goImport := by
  have hpub : ∀ {g x}, Public W g x → (W.file x).goImport = (W.file g).goImport := by
    intro g x h
    induction h with
    | refl => rfl
    | step hi _ ih => rw [ih, hp _ _ hi]
  unfold typeResolve at h
  split at h
  · cases h
  · split at h
    · rename_i r' h'
      cases h
      have hs : searchMessages f c typ = some r := by
        cases c with
        | nil => cases h'
        | cons x rest =>
          obtain ⟨outer, m⟩ := x
          dsimp only at h'
          rw [searchMessages, h']
      obtain ⟨h1, h2⟩ := search_exists ha hs
      exact ⟨h2, by rw [h1]; rfl⟩
    · split at h
      · rename_i r' h'
        cases h
        obtain ⟨h1, h2⟩ := search_exists ha h'
        exact ⟨h2, by rw [h1]; rfl⟩
      · dsimp only at h
        obtain ⟨x, hx, hg⟩ := firstRef_some h
        split at hg
        · rename_i r' h'
          cases hg
          obtain ⟨h1, h2⟩ := file_exists h'
          refine ⟨h2, ?_⟩
          rw [hpub h1]
          split
          · rfl
          · rename_i hh
            simp only [ne_eq, Decidable.not_not] at hh
            exact hh.symm
        · cases hg

theorem names_type {W : World} {p : Nat} {t : Resolved} {pkg n : Str} (h : Names (typeGoName W p t) pkg n) :
    ∃ r q, t = .decl r q ∧ pkg = resolvedImport W p q ∧ n = goTypeName r.path := by
  cases t with
  | scalar g => cases h
  | decl r q =>
    cases h
    exact ⟨r, q, rfl, rfl, rfl⟩

theorem names_elem {W : World} {p : Nat} {t : Resolved} {b : Bool} {pkg n : Str} (h : Names (elemTypeName W p t b) pkg n) :
    Names (typeGoName W p t) pkg n := by
  unfold elemTypeName at h
  split at h
  · cases h with
    | ptr h => exact h
  · exact h

theorem names_field {W : World} {p : Nat} {m : MsgDecl} {f : FieldDecl} {t : Resolved} {pkg n : Str} (h : Names (fieldGoType W p m f t) pkg n) :
    Names (typeGoName W p t) pkg n := by
  unfold fieldGoType at h
  split at h
  · cases h with
    | key h => cases h
    | value h => exact names_elem h
  · split at h
    · cases h with
      | slice h => exact names_elem h
    · split at h
      · cases h with
        | ptr h => exact h
      · exact h

theorem names_slots {W : World} {p : Nat} {c : Chain} {pkg n : Str} : ∀ {seen : List Nat} {l : List (FieldDecl × Str)} {g : GenField},
    g ∈ genSlots W p c seen l → Names g.type pkg n → ∃ x ∈ l, g = fieldGen W p c x.1 x.2
  | _, [], _, h, _ => by
    rw [genSlots] at h
    cases h
  | seen, (f, m) :: rest, g, h, hn => by
    have step : ∀ {seen'}, g ∈ genSlots W p c seen' rest → ∃ x ∈ (f, m) :: rest, g = fieldGen W p c x.1 x.2 := fun h => by
      obtain ⟨x, h1, h2⟩ := names_slots h hn
      exact ⟨x, List.mem_cons_of_mem _ h1, h2⟩
    rw [genSlots] at h
    split at h
    · split at h
      · exact step h
      · rcases List.mem_cons.1 h with h | h
        · rw [h] at hn
          cases hn
        · exact step h
    · rcases List.mem_cons.1 h with h | h
      · exact ⟨_, List.mem_cons_self .., h⟩
      · exact step h

/-- Every name in the code of a message comes from the type of one of its fields. -/
theorem names_struct {W : World} {p : Nat} {c : Chain} {pkg n : Str} {t : GoExpr} (hn : Names t pkg n)
    (h : (∃ f ∈ (genStruct W p c).fields, f.type = t) ∨ ∃ w ∈ (genStruct W p c).wrappers, w.field.type = t) :
    ∃ fd ∈ c.msg.fields, Names (typeGoName W p (fieldType W p c fd)) pkg n := by
  have key : ∀ x ∈ namedFields c.msg, (fieldGen W p c x.1 x.2).type = t → ∃ fd ∈ c.msg.fields, Names (typeGoName W p (fieldType W p c fd)) pkg n := by
    intro x hx e
    rw [← e] at hn
    exact ⟨x.1, (List.of_mem_zip (b := x.2) hx).1, names_field hn⟩
  rcases h with ⟨f, hf, e⟩ | ⟨w, hw, e⟩
  · unfold genStruct at hf
    dsimp only at hf
    rcases List.mem_append.1 hf with hf | hf
    · obtain ⟨x, hx, e'⟩ := names_slots hf (by rw [e]; exact hn)
      exact key x hx (by rw [← e', e])
    · split at hf
      · rw [List.mem_singleton.1 hf] at e
        rw [← e] at hn
        cases hn
      · cases hf
  · unfold genStruct genWrappers at hw
    dsimp only at hw
    obtain ⟨k, _, hw⟩ := List.mem_flatMap.1 hw
    obtain ⟨x, hx, rfl⟩ := List.mem_map.1 hw
    exact key x (List.mem_filter.1 hx).1 e

theorem exists_declared {W : World} {r : Ref} (h : Exists W r) (hl : r.isEnum = true → r.path.length ≤ 2) :
    DeclaredIn (genStructs W) (genEnums W) (W.file r.file).goImport (goTypeName r.path) := by
  cases he : r.isEnum with
  | true => exact .inr (exists_enum h he (hl he))
  | false =>
    obtain ⟨id, c, h1, h2⟩ := exists_message h he
    refine .inl ⟨genStruct W r.file c, ?_, rfl, ?_⟩
    · exact List.mem_map.2 ⟨_, List.mem_of_getElem? h1, rfl⟩
    · show goTypeName c.path = _
      rw [← h2, around_path ((all_iff W r.file c).1 (List.mem_of_getElem? h1))]

end Gen

/-! ## C60 -/

/-- Every type that the generated code uses is declared by the generated code, under the name and in the Go package by which it is used.  Nothing is assumed
about names or scopes.  Missing: enums nested in messages that are nested in messages (`C60_nested_enum_violated`: they are used but never declared); public
imports of files of another Go package (`C60_public_violated`: the type is looked for in the importing package). -/
theorem C60_closed_partial (W : World) (hf : AllFound W) (he : ∀ r, Exists W r → r.isEnum = true → r.path.length ≤ 2)
    (hp : ∀ g x, (x, true) ∈ W.imports g → (W.file x).goImport = (W.file g).goImport) (pkg n : Str) (h : Mentioned (genStructs W) pkg n) :
    DeclaredIn (genStructs W) (genEnums W) pkg n := by
  obtain ⟨g, hg, t, ht, hn⟩ := h
  obtain ⟨⟨p, c⟩, hx, rfl⟩ := List.mem_map.1 hg
  have ha := (all_iff W p c).1 hx
  obtain ⟨fd, hfd, hn⟩ := names_struct hn ht
  obtain ⟨r, q, e1, e2, e3⟩ := names_type hn
  obtain ⟨v, hv⟩ := Option.isSome_iff_exists.1 (hf p c ha fd hfd)
  have hv' : typeResolve W p c true fd.typ = some (.decl r q) := by
    unfold fieldType at e1
    rw [hv] at e1 ⊢
    rw [← e1]
    rfl
  obtain ⟨h1, h2⟩ := resolve_exists ha hp hv'
  rw [e2, e3, h2]
  exact exists_declared h1 (he r h1)

/-- The types that the generated code declares are those of the proto files: nothing else is declared, and nothing is left out except for enums nested in
messages that are nested in messages. -/
theorem C60_types_partial (W : World) (pkg n : Str) : DeclaredIn (genStructs W) (genEnums W) pkg n ↔
    ∃ r, Exists W r ∧ (r.isEnum = true → r.path.length ≤ 2) ∧ pkg = (W.file r.file).goImport ∧ n = goTypeName r.path := by
  constructor
  · rintro (⟨g, hg, h1, h2⟩ | h)
    · obtain ⟨⟨p, c⟩, hx, rfl⟩ := List.mem_map.1 hg
      have ha := (all_iff W p c).1 hx
      refine ⟨⟨false, p, scopeOf c⟩, ?_, by simp, h1.symm, ?_⟩
      · cases c with
        | nil => cases ha
        | cons x rest => exact (around_self ha).1
      · rw [around_path ha]
        exact h2.symm
    · unfold genEnums at h
      obtain ⟨p, _, h⟩ := List.mem_flatMap.1 h
      rcases List.mem_append.1 h with h | h
      · obtain ⟨e, h1, h2⟩ := List.mem_map.1 h
        cases h2
        exact ⟨⟨true, p, [e.name]⟩, .enum h1, by simp, rfl, rfl⟩
      · obtain ⟨m, hm, h⟩ := List.mem_flatMap.1 h
        obtain ⟨e, h1, h2⟩ := List.mem_map.1 h
        cases h2
        exact ⟨⟨true, p, [m.name, e.name]⟩, .nested hm (.enum h1), by simp, rfl, rfl⟩
  · rintro ⟨r, h1, h2, rfl, rfl⟩
    exact exists_declared h1 h2

/-! ### Concrete files -/

namespace ClosedSample

def fd (n t : String) (k : Int) : FieldDecl := { name := n.toList, typ := t.toList, number := k }

def colour : EnumDecl := { name := "Colour".toList, fields := [⟨"RED".toList, 0, [], []⟩] }

/-- `message Point { int32 x = 1; enum Colour { RED = 0; } }` -/
def point : MsgDecl := .mk "Point".toList [colour] [] [fd "x" "int32" 1] [] [] [] []

/-- `message Shape { message Corner { Point at = 1; } repeated Corner corners = 1; map<string, Point.Colour> colours = 2;
oneof o { Corner main = 3; } }` -/
def shape : MsgDecl := .mk "Shape".toList [] [.mk "Corner".toList [] [] [fd "at" "Point" 1] [] [] [] []]
  [{ fd "corners" "Corner" 1 with repeated := true }, { fd "colours" "Point.Colour" 2 with key := some "string".toList }, { fd "main" "Corner" 3 with oneof := some 0 }]
  ["o".toList] [] [] []

/-- Two files of a package in different Go packages. -/
def world : World where
  files := [{ edition := .proto3, package := "geo".toList, goImport := "example.com/a".toList, messages := [shape] },
    { edition := .proto3, package := "geo".toList, goImport := "example.com/b".toList, messages := [point] }]
  imports := fun f => if f = 0 then [(1, false)] else []

/-- `message A { message B { enum E { RED = 0; } E e = 1; } }` -/
def nested : World where
  files := [{ edition := .proto3, package := "geo".toList, goImport := "example.com/a".toList, messages := [.mk "A".toList []
    [.mk "B".toList [{ colour with name := "E".toList }] [] [fd "e" "E" 1] [] [] [] []] [] [] [] [] []] }]
  imports := fun _ => []

/-- `message M { Foo foo = 1; }` in a file that imports a file that imports publicly the file with `Foo`. -/
def indirect : World where
  files := [{ edition := .proto3, package := "p".toList, goImport := "example.com/a".toList, messages := [.mk "M".toList [] [] [fd "foo" "Foo" 1] [] [] [] []] },
    { edition := .proto3, package := "p".toList, goImport := "example.com/b".toList },
    { edition := .proto3, package := "p".toList, goImport := "example.com/c".toList, messages := [.mk "Foo".toList [] [] [] [] [] [] []] }]
  imports := fun f => if f = 0 then [(1, false)] else if f = 1 then [(2, true)] else []

theorem found_of {W : World} (h : ∀ x ∈ allMessages W, ∀ fd ∈ x.2.msg.fields, (typeResolve W x.1 x.2 true fd.typ).isSome = true) : AllFound W :=
  fun f c ha fd hfd => h (f, c) ((all_iff W f c).2 ha) fd hfd

end ClosedSample

open ClosedSample

/-- The hypotheses of `C60_closed_partial` are met by the files above. -/
example : AllFound world ∧ (∀ r, Exists world r → r.isEnum = true → r.path.length ≤ 2) ∧
    (∀ g x, (x, true) ∈ world.imports g → (world.file x).goImport = (world.file g).goImport) ∧
    Mentioned (genStructs world) "example.com/b".toList "Point_Colour".toList := by
  refine ⟨found_of (by decide +kernel), fun r h => ?_, fun g x h => ?_, ?_⟩
  · have : ∀ r ∈ allRefs world, r.isEnum = true → r.path.length ≤ 2 := by decide +kernel
    exact this r (allRefs_mem h)
  · unfold world at h
    dsimp only at h
    split at h
    · rw [List.mem_singleton] at h
      cases h
    · cases h
  · refine ⟨genStruct world 0 [([], shape)], ?_, .map (.basic "string".toList) (.named "example.com/b".toList "Point_Colour".toList), ?_, ?_⟩
    · decide +kernel
    · exact .inl (by decide +kernel)
    · exact .value (.here ..)

/-- Violation of C60: an enum nested in a message that is nested in a message is used but not declared. -/
theorem C60_nested_enum_violated : AllFound nested ∧ Mentioned (genStructs nested) "example.com/a".toList "A_B_E".toList ∧
    ¬ DeclaredIn (genStructs nested) (genEnums nested) "example.com/a".toList "A_B_E".toList := by
  refine ⟨found_of (by decide +kernel), ⟨_, List.mem_cons_of_mem _ (List.mem_cons_self ..), .named "example.com/a".toList "A_B_E".toList, .inl ?_, .here ..⟩, ?_⟩
  · decide +kernel
  · unfold DeclaredIn
    decide +kernel

/-- Violation of C60: a type of a publicly imported file is looked for in the wrong Go package. -/
theorem C60_public_violated : AllFound indirect ∧ Mentioned (genStructs indirect) "example.com/b".toList "Foo".toList ∧
    ¬ DeclaredIn (genStructs indirect) (genEnums indirect) "example.com/b".toList "Foo".toList := by
  refine ⟨found_of (by decide +kernel), ⟨_, List.mem_cons_self .., .ptr (.named "example.com/b".toList "Foo".toList), .inl ?_, .ptr (.here ..)⟩, ?_⟩
  · decide +kernel
  · unfold DeclaredIn
    decide +kernel

end Verif.Props
