import Verif.Model.Desc
/-!
# Specification: the fields declared by a Go struct type
-/
namespace Verif.Spec
open Verif.Model

/-- Go struct field `i` holds a oneof. -/
def IsOneofSlot (s : StructDecl) (i : Nat) : Prop :=
  ∃ gf, s.fields[i]? = some gf ∧ gf.tag = [] ∧ gf.oneofTag ≠ []

/-- The declaration at a position - a tagged Go struct field (`inl`) or a oneof wrapper type (`inr`) - has
descriptor `f`.  A wrapper type belongs to the first oneof whose interface it implements. -/
inductive Declared (s : StructDecl) : Nat ⊕ Nat → FieldDesc → Prop
  | plain (i : Nat) (gf : GoField) (f : FieldDesc) : s.fields[i]? = some gf → gf.tag ≠ [] →
      parseField gf i none = .ok f → Declared s (.inl i) f
  | member (j : Nat) (w : Wrapper) (i : Nat) (gf : GoField) (f : FieldDesc) : s.wrappers[j]? = some w →
      IsOneofSlot s i → i ∈ w.implements → (∀ i', i' < i → IsOneofSlot s i' → i' ∉ w.implements) →
      w.fields = [gf] → parseField gf i (some w.id) = .ok f → Declared s (.inr j) f

end Verif.Spec
