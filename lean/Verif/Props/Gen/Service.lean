import Verif.Model.Gen.Service
import Verif.Props.Gen.Resolve
import Verif.Props.Gen.Listener
/-!
# C65: the methods of services
-/
namespace Verif.Props
open Verif.Model.Gen Verif.Spec.Gen

namespace Gen

theorem resolve_noScalar {W : World} {f : Nat} {chain : List (List Str × MsgDecl)} {name : Str} {x : Resolved}
    (h : typeResolve W f chain false name = some x) : ∃ r p, x = .decl r p := by
  cases x with
  | decl r p => exact ⟨r, p, rfl⟩
  | scalar t =>
    exfalso
    unfold typeResolve at h
    simp only [Bool.false_eq_true, if_false] at h
    repeat' split at h
    all_goals try simp at h
    obtain ⟨x, _, hx⟩ := firstRef_some h
    split at hx <;> cases hx

theorem trimPrefix_ident {p s : Str} (h : '.' ∉ s) : trimPrefix s (p ++ ['.']) = s := by
  unfold trimPrefix
  rw [if_neg]
  intro hp
  have := (List.isPrefixOf_iff_prefix.1 hp).subset (a := '.') (by simp)
  exact h this

end Gen

open Gen

/-- C65 (partial): request and response of a method are the messages that the scoping rules choose for the names written.  Missing: names that mean
something in an outer package, and the other cases of C55. -/
theorem C65_types_partial (W : World) (pkg : Nat → List Str) (f : Nat) (m : MethodRec) (q a : List Str) (r s : Ref) (i j : Nat)
    (hp : Packages W pkg) (ht : Tidy W pkg f) (hq : m.request = joinDots q) (ha : m.ret = joinDots a)
    (hne : q ≠ [] ∧ a ≠ []) (hi : (∀ s ∈ q, Ident s) ∧ ∀ s ∈ a, Ident s)
    (hdbl : ∀ x, Visible W f x → pkg x ≠ [] → ¬ pkg x ++ pkg x <+: q ∧ ¬ pkg x ++ pkg x <+: a)
    (h1 : Means W pkg f (pkg f) q r i) (h2 : Means W pkg f (pkg f) a s j)
    (hs1 : (pkg r.file = pkg f ∧ (pkg f).length ≤ i) ∨ (i = 0 ∧ pkg r.file ≠ []))
    (hs2 : (pkg s.file = pkg f ∧ (pkg f).length ≤ j) ∨ (j = 0 ∧ pkg s.file ≠ [])) :
    ∃ p p', methodResolve W f m = some (.decl r p, .decl s p') ∧ resolvedImport W f p = (W.file r.file).goImport ∧
      resolvedImport W f p' = (W.file s.file).goImport := by
  have e : pkg f ++ scopeOf [] = pkg f := List.append_nil _
  obtain ⟨p, r1, r2⟩ := resolves_any W pkg f [] false q r i hp ht (.inl rfl) hne.1 hi.1 (fun h => by cases h) (fun c h => by cases h)
    (fun x hv hx => (hdbl x hv hx).1) (by rw [e]; exact h1) hs1
  obtain ⟨p', s1, s2⟩ := resolves_any W pkg f [] false a s j hp ht (.inl rfl) hne.2 hi.2 (fun h => by cases h) (fun c h => by cases h)
    (fun x hv hx => (hdbl x hv hx).2) (by rw [e]; exact h2) hs2
  refine ⟨p, p', ?_, r2, s2⟩
  unfold methodResolve
  rw [hq, ha, r1]
  dsimp only
  rw [s1]

/-- C65 (partial): what request and response resolve to is always a declaration (a scalar type is never taken), one that is visible and whose full name is
the package or an outer package followed by the name written. -/
theorem C65_candidate_partial (W : World) (pkg : Nat → List Str) (f : Nat) (m : MethodRec) (q a : List Str) (x y : Resolved)
    (hp : Packages W pkg) (ht : Tidy W pkg f) (hq : m.request = joinDots q) (ha : m.ret = joinDots a)
    (hne : q ≠ [] ∧ a ≠ []) (hi : (∀ s ∈ q, Ident s) ∧ ∀ s ∈ a, Ident s)
    (hdbl : ∀ x, Visible W f x → pkg x ≠ [] → ¬ pkg x ++ pkg x <+: q ∧ ¬ pkg x ++ pkg x <+: a) (h : methodResolve W f m = some (x, y)) :
    (∃ r p i, x = .decl r p ∧ Visible W f r.file ∧ Exists W r ∧ resolvedImport W f p = (W.file r.file).goImport ∧ i ≤ (pkg f).length ∧
      FullName pkg r = (pkg f).take i ++ q) ∧
    ∃ r p i, y = .decl r p ∧ Visible W f r.file ∧ Exists W r ∧ resolvedImport W f p = (W.file r.file).goImport ∧ i ≤ (pkg f).length ∧
      FullName pkg r = (pkg f).take i ++ a := by
  have e : pkg f ++ scopeOf [] = pkg f := List.append_nil _
  unfold methodResolve at h
  rw [hq, ha] at h
  cases h1 : typeResolve W f [] false (joinDots q) with
  | none => rw [h1] at h; cases h
  | some x' =>
    rw [h1] at h
    dsimp only at h
    cases h2 : typeResolve W f [] false (joinDots a) with
    | none => rw [h2] at h; cases h
    | some y' =>
      rw [h2] at h
      dsimp only at h
      cases h
      obtain ⟨r, p, rfl⟩ := resolve_noScalar h1
      obtain ⟨s, p', rfl⟩ := resolve_noScalar h2
      obtain ⟨v1, v2, v3, i, v4, v5⟩ := candidate_any W pkg f [] false q r p hp ht (.inl rfl) hne.1 hi.1 (fun x hv hx => (hdbl x hv hx).1) h1
      obtain ⟨w1, w2, w3, j, w4, w5⟩ := candidate_any W pkg f [] false a s p' hp ht (.inl rfl) hne.2 hi.2 (fun x hv hx => (hdbl x hv hx).2) h2
      rw [e] at v4 v5 w4 w5
      exact ⟨⟨r, p, i, rfl, v1, v2, v3, v4, v5⟩, s, p', j, rfl, w1, w2, w3, w4, w5⟩

/-- C65: every service and method that is written is there, in order, with the types and the streams as written. -/
theorem C65_methods (p : ProtoNode) (hp : Parsed p) (s : LState) (h : walk p = .ok s) : All2 ServiceIs (topServices p.elems) s.services := by
  by_cases ha : Acceptable p
  · obtain ⟨s', e, m, h1, h2⟩ := (C64_load p hp).1 ha
    rw [h] at h1
    cases h1
    exact h2.services
  · rw [(C64_load p hp).2 ha] at h
    cases h

/-- C65: the name for Go is that of the service itself. -/
theorem C65_go_name (package : Str) (s : ServiceRec) (h : '.' ∉ s.name) : serviceGoName package s = goCamelCase s.name := by
  unfold serviceGoName
  rw [trimPrefix_ident h]

/-! ## Examples -/

namespace Gen

/-- `rpc Do(stream Outer) returns (c.Ext)` -/
def sampleMethod : MethodRec := { name := "Do".toList, request := "Outer".toList, ret := "c.Ext".toList, requestStream := true }

theorem sample_means1 : Means sampleWorld (samplePks.getD · []) 0 (samplePks.getD 0 []) (idents ["Outer"]) ⟨false, 0, idents ["Outer"]⟩ 2 :=
  means_of_test (by decide +kernel) (.inl (.refl 0)) (.msg (m := sampleOuter) (List.mem_cons_self ..)) (by decide +kernel)
    (fun j h1 h2 => by have h2 : j ≤ 2 := h2; omega)

theorem sample_means2 : Means sampleWorld (samplePks.getD · []) 0 (samplePks.getD 0 []) (idents ["c", "Ext"]) ⟨false, 2, idents ["Ext"]⟩ 0 :=
  means_of_test (by decide +kernel) (.inr ⟨(2, false), List.mem_cons_of_mem _ (List.mem_cons_self ..), .refl 2⟩)
    (.msg (m := tmsg "Ext" [] [tmsg "Leaf"]) (List.mem_cons_self ..)) (by decide +kernel) (fun j h1 h2 => by
      have h2 : j ≤ 2 := h2
      have : j = 1 ∨ j = 2 := by omega
      rcases this with e | e <;> subst e <;> decide +kernel)

end Gen

/-- Non-vacuity of C65. -/
example : ∃ p p', methodResolve sampleWorld 0 sampleMethod = some (.decl ⟨false, 0, idents ["Outer"]⟩ p, .decl ⟨false, 2, idents ["Ext"]⟩ p') ∧
    resolvedImport sampleWorld 0 p = "x/ab".toList ∧ resolvedImport sampleWorld 0 p' = "x/c".toList :=
  C65_types_partial sampleWorld (samplePks.getD · []) 0 sampleMethod (idents ["Outer"]) (idents ["c", "Ext"]) ⟨false, 0, idents ["Outer"]⟩
    ⟨false, 2, idents ["Ext"]⟩ 2 0 sample_packages sample_tidy (by decide +kernel) (by decide +kernel) ⟨by decide, by decide⟩
    ⟨by simp only [Ident]; decide +kernel, by simp only [Ident]; decide +kernel⟩
    (fun x hv hx => ⟨sample_double _ (by decide +kernel) x hv hx, sample_double _ (by decide +kernel) x hv hx⟩)
    sample_means1 sample_means2 (.inl ⟨rfl, by decide +kernel⟩) (.inr ⟨rfl, by decide +kernel⟩)

/-- Non-vacuity of C65: the file of C64. -/
example : ∃ s, walk sampleFile = .ok s ∧ All2 ServiceIs (topServices sampleFile.elems) s.services := by
  obtain ⟨s, _, _, h, _⟩ := (C64_load sampleFile sample_parsed).1 sample_acceptable
  exact ⟨s, h, C65_methods sampleFile sample_parsed s h⟩

/-! ## Where it is violated -/

/-- Violation of C65: an enum is taken as the type of a request. -/
theorem C65_enum_violated :
    methodResolve sampleWorld 0 { name := "Do".toList, request := "Color".toList, ret := "Outer".toList } =
      some (.decl ⟨true, 0, idents ["Color"]⟩ none, .decl ⟨false, 0, idents ["Outer"]⟩ none) := by decide +kernel

namespace Gen

/-- `message M {}  service S { rpc Do(M) returns (M); rpc Do(M) returns (M); }  service S {}` -/
def twiceFile : ProtoNode where
  edition := none
  elems := [.message "M".toList [] [], .service "S".toList [] [
      .rpc { name := "Do".toList, requestPos := 10, request := "M".toList, returnPos := 20, ret := "M".toList },
      .rpc { name := "Do".toList, requestPos := 30, request := "M".toList, returnPos := 40, ret := "M".toList }],
    .service "S".toList [] []]

end Gen

/-- Violation of C65: two services with the same name, and two methods with the same name, are accepted (neither `verify` nor anything else looks). -/
theorem C65_twice_violated : (walk twiceFile).toOption.map (fun s => s.services.map fun v => (v.name, v.methods.map (·.name), (serviceVerify v).length)) =
    some [("S".toList, ["Do".toList, "Do".toList], 0), ("S".toList, [], 0)] := by decide +kernel

/-- Violation of C65: the methods `get_user` and `GetUser` have the same name in Go. -/
theorem C65_go_names_violated : methodGoName { name := "get_user".toList } = methodGoName { name := "GetUser".toList } := by decide +kernel

end Verif.Props
