import Verif.Model.Oneof
import Verif.Spec.Declared
/-!
# Specification: the cases a Go struct type describes for its oneofs
-/
namespace Verif.Spec
open Verif.Model Verif.Model.Oneof

/-- `v`, possibly behind pointers and interfaces, is a struct with these fields. -/
inductive IsStruct : RVal → List (List Char × RVal) → Prop
  | here (fs : List (List Char × RVal)) : IsStruct (.struct fs) fs
  | ref (v : RVal) (fs : List (List Char × RVal)) : IsStruct v fs → IsStruct (.ref v) fs

/-- The value has a field `OneofWrappers` with a list that is not nil - itself, or in a struct at most `d` fields away from it, none of the structs
on the way having such a field of its own. -/
inductive Lists : Nat → RVal → List Wrapper → Prop
  | here (d : Nat) (v : RVal) (fs : List (List Char × RVal)) (ws : List Wrapper) : IsStruct v fs →
      ("OneofWrappers".toList, RVal.anys (some ws)) ∈ fs → Lists d v ws
  | field (d : Nat) (v : RVal) (fs : List (List Char × RVal)) (n : List Char) (x : RVal) (ws : List Wrapper) : IsStruct v fs →
      (∀ f ∈ fs, f.1 ≠ "OneofWrappers".toList) → (n, x) ∈ fs → Lists d x ws → Lists (d + 1) v ws

/-- The list that comes first: fields are looked at in order, each with all that is in it before the next. -/
inductive FirstList : Nat → RVal → List Wrapper → Prop
  | here (d : Nat) (v : RVal) (fs : List (List Char × RVal)) (ws : List Wrapper) : IsStruct v fs →
      ("OneofWrappers".toList, RVal.anys (some ws)) ∈ fs → FirstList d v ws
  | field (d : Nat) (v : RVal) (before after : List (List Char × RVal)) (n : List Char) (x : RVal) (ws : List Wrapper) :
      IsStruct v (before ++ (n, x) :: after) → (∀ f ∈ before ++ (n, x) :: after, f.1 ≠ "OneofWrappers".toList) →
      (∀ f ∈ before, ∀ ws', ¬ Lists d f.2 ws') → FirstList d x ws → FirstList (d + 1) v ws

/-- Within `d` fields, a field `OneofWrappers` is a `[]any`, and a struct has no two fields of the same name. -/
inductive Tidy : Nat → RVal → Prop
  | plain (d : Nat) (v : RVal) : (∀ fs, ¬ IsStruct v fs) → Tidy d v
  | last (v : RVal) (fs : List (List Char × RVal)) : IsStruct v fs → (fs.map (·.1)).Nodup →
      (∀ x, ("OneofWrappers".toList, x) ∈ fs → ∃ ws, x = .anys ws) → Tidy 0 v
  | step (d : Nat) (v : RVal) (fs : List (List Char × RVal)) : IsStruct v fs → (fs.map (·.1)).Nodup →
      (∀ x, ("OneofWrappers".toList, x) ∈ fs → ∃ ws, x = .anys ws) → (∀ f ∈ fs, Tidy d f.2) → Tidy (d + 1) v

/-- The type describes these cases: the method `ProtoReflect` returns a value that holds this list, and no other, at most four fields away; or there is no such method, and
`XXX_OneofWrappers` returns the list. -/
inductive DescribesCases : Methods → List Wrapper → Prop
  | reflect (m : Methods) (v : RVal) (ws : List Wrapper) : m.protoReflect = some v → Tidy 4 v → Lists 4 v ws → (∀ ws', Lists 4 v ws' → ws' = ws) →
      DescribesCases m ws
  | method (m : Methods) (ws : List Wrapper) : m.protoReflect = none → m.oneofWrappers = some (.anys (some ws)) → DescribesCases m ws

end Verif.Spec
