import Verif.Spec.Schema
/-!
# Specification: what the getter of a field returns
-/
namespace Verif.Spec.Gen
open Verif.Model (Val)

/-- The value of a field that is not set. -/
def unsetValue (S : Schema) : Shape → Val
  | .single s => s.zero
  | .optional s => s.zero
  | .list _ _ => .slice []
  | .msg _ true => .ptr none
  | .msg id false => (S id).zero
  | .msgList _ _ => .slice []
  | .map _ _ => .map none
  | .mapMsg _ _ _ => .map none

/-- `Shows S g x r`: the value of field `g` in the message `x` (`none` is a nil message) is `r`: what the Go struct field holds; for a field that tracks
presence, what it points to; for a member of a oneof, what the oneof holds if it holds this member; and the zero value if there is no such
thing. -/
inductive Shows (S : Schema) (g : Field) : Option Val → Val → Prop
  | nil : Shows S g none (unsetValue S g.shape)
  | plain (fs : List Val) (v : Val) : g.member = none → (∀ s, g.shape ≠ .optional s) → fs[g.slot]? = some v → Shows S g (some (.struct fs)) v
  | set (fs : List Val) (s : Scalar) (v : Val) : g.member = none → g.shape = .optional s → fs[g.slot]? = some (.ptr (some v)) →
      Shows S g (some (.struct fs)) v
  | unset (fs : List Val) (s : Scalar) : g.member = none → g.shape = .optional s → fs[g.slot]? = some (.ptr none) →
      Shows S g (some (.struct fs)) s.zero
  | member (fs : List Val) (w : Nat) (v : Val) : g.member = some w → fs[g.slot]? = some (.iface (some (w, some v))) → Shows S g (some (.struct fs)) v
  | other (fs : List Val) (w w' : Nat) (v : Option Val) : g.member = some w → fs[g.slot]? = some (.iface (some (w', v))) → w' ≠ w →
      Shows S g (some (.struct fs)) (unsetValue S g.shape)
  | none (fs : List Val) (w : Nat) : g.member = some w → fs[g.slot]? = some (.iface none) → Shows S g (some (.struct fs)) (unsetValue S g.shape)

end Verif.Spec.Gen
