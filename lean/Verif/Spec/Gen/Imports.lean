import Verif.Model.Gen.Ast
/-!
# Specification: imports in a Go file
-/
namespace Verif.Spec.Gen
open Verif.Model.Gen (Str)

/-- An import: the name given to it, if any, and the path. -/
structure Import where
  name : Option Str
  path : Str

/-- The text of an import specification. -/
inductive ImportSpec : Str → Import → Prop
  | named (n p : Str) : n ≠ [] → ImportSpec (n ++ ' ' :: ('"' :: p ++ ['"'])) ⟨some n, p⟩
  | plain (p : Str) : ImportSpec (' ' :: ('"' :: p ++ ['"'])) ⟨none, p⟩

/-- Lines that are empty or hold an import specification. -/
inductive ImportLines : Str → List Import → Prop
  | nil : ImportLines [] []
  | empty (s : Str) (l : List Import) : ImportLines s l → ImportLines ('\n' :: s) l
  | cons (t s : Str) (i : Import) (l : List Import) : ImportSpec t i → ImportLines s l → ImportLines (t ++ '\n' :: s) (i :: l)

/-- The text of the import declaration of a file. -/
inductive ImportDecl : Str → List Import → Prop
  | none : ImportDecl [] []
  | one (t : Str) (i : Import) : ImportSpec t i → ImportDecl ("import ".toList ++ t) [i]
  | many (s : Str) (l : List Import) : ImportLines s l → ImportDecl ("import (\n".toList ++ s ++ [')']) l

/-- The name of an import in the file: the one given, or else the name of the package; `declared` says which name the package with a path has
(by its `package` clause). -/
def Import.binds (declared : Str → Str) (i : Import) : Str := i.name.getD (declared i.path)

/-- `q` in a Go file refers to the package with this path: there is no local variable of that name, and exactly one import binds it. -/
def RefersTo (declared : Str → Str) (l : List Import) (locals : List Str) (q path : Str) : Prop :=
  q ∉ locals ∧ ∃ i ∈ l, i.path = path ∧ i.binds declared = q ∧ ∀ j ∈ l, j.binds declared = q → j = i

end Verif.Spec.Gen
