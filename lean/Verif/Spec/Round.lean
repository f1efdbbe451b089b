import Verif.Spec.Output
import Verif.Spec.Records
import Verif.Spec.Same
/-!
# Specification: conditions on a value for a round trip
-/
namespace Verif.Spec
open Verif.Model (GoType Val Key)

/-- What stepping into a sub-message costs the decoder: two levels through a map, one otherwise. -/
def Shape.hop : Shape → Nat
  | .mapMsg _ _ _ => 2
  | _ => 1

/-- `NestedBy S c id v`: starting from the message `v`, one can step into sub-messages at a total cost of `c`. -/
inductive NestedBy (S : Schema) : Nat → Nat → Val → Prop
  | zero (id : Nat) (v : Val) : NestedBy S 0 id v
  | step (c id : Nat) (slots : List Val) (f : Field) (id' : Nat) (v' : Val) :
      f ∈ (S id).fields → FieldSub S slots f id' v' → NestedBy S c id' v' →
      NestedBy S (c + f.shape.hop) id (.struct slots)

/-- The unknown fields of the message are whole records of fields that are not declared (groups nested at most
10001 deep). -/
def UnknownOK (S : Schema) (id : Nat) (v : Val) : Prop :=
  ∀ slots, v = .struct slots → ∃ rs, Splits (unknownOf (S id) slots) rs ∧
    ∀ r ∈ rs, (∀ f ∈ (S id).fields, f.num ≠ r.num) ∧ IsValue 10001 r.num r.typ r.val

/-- No map in the message, or in a message held by it, has two entries. -/
def MapsSmall (S : Schema) (id : Nat) (v : Val) : Prop :=
  ∀ id' v', Reach S id v id' v' → ∀ slots, v' = .struct slots → ∀ f ∈ (S id').fields, ∀ x m,
    slots[f.slot]? = some x → f.content x = some (.map (some m)) → m.length ≤ 1

/-- No message is held by value in a Go struct of size 1, 4 or 8 (generated code holds messages by pointer, except in fields with the `no_pointer` directive). -/
def NoSmallInline (S : Schema) : Prop :=
  ∀ id, ∀ f ∈ (S id).fields, ∀ i, f.shape = .msg i false → (S i).small = false

end Verif.Spec
