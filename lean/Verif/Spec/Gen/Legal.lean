import Verif.Model.Gen.Code
import Verif.Spec.Gen.Scope
import Verif.Spec.Gen.Switches
/-!
# Specification: Go struct types that the compiler accepts

A Go struct type must not contain itself, directly or through other structs, arrays left aside (Go specification, "Struct types"); pointers, slices, maps and interfaces in between
are fine.
-/
namespace Verif.Spec.Gen
open Verif.Model Verif.Model.Gen

/-- Struct `i` has a field that is a struct `j`. -/
def HasInside (gs : List GenStruct) (enums : List (Str × Str)) (i j : Nat) : Prop :=
  ∃ g, gs[i]? = some g ∧ ∃ f ∈ g.fields, elabType enums (gs.map fun g => (g.pkg, g.name)) f.type = .struct j

/-- Struct `i` contains struct `j`. -/
inductive ContainsStruct (gs : List GenStruct) (enums : List (Str × Str)) : Nat → Nat → Prop
  | one (i j : Nat) : HasInside gs enums i j → ContainsStruct gs enums i j
  | more (i j k : Nat) : HasInside gs enums i j → ContainsStruct gs enums j k → ContainsStruct gs enums i k

/-- The declarations are accepted: the names of the types of a package differ, and no struct contains itself. -/
structure LegalTypes (gs : List GenStruct) (enums : List (Str × Str)) : Prop where
  distinct : ((gs.map fun g => (g.pkg, g.name)) ++ enums).Nodup
  finite : ∀ i, ¬ ContainsStruct gs enums i i

/-- In the proto files: message `i` has a field by itself, not in a oneof, of the type of message `j`, and the user asks for a value. -/
def HoldsValue (W : World) (i j : Nat) : Prop :=
  ∃ f c fd r q c', (allMessages W)[i]? = some (f, c) ∧ fd ∈ c.msg.fields ∧ fd.key = none ∧ fd.repeated = false ∧ fd.oneof = none ∧ ByValue c.msg fd ∧
    typeResolve W f c true fd.typ = some (.decl r q) ∧ r.isEnum = false ∧ (allMessages W)[j]? = some (r.file, c') ∧ scopeOf c' = r.path

/-- Following such fields from message `i` one comes to message `j`. -/
inductive LeadsTo (W : World) : Nat → Nat → Prop
  | one (i j : Nat) : HoldsValue W i j → LeadsTo W i j
  | more (i j k : Nat) : HoldsValue W i j → LeadsTo W j k → LeadsTo W i k

end Verif.Spec.Gen
