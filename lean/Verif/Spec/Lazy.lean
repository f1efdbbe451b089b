import Verif.Spec.Round
/-!
# Specification: messages that are held as bytes
-/
namespace Verif.Spec
open Verif.Model (Val Key)

/-- The shapes without messages. -/
def Shape.scalar : Shape → Bool
  | .single _ | .optional _ | .list _ _ | .map _ _ => true
  | _ => false

/-- `RawShape R T a b x y`: `x`, in a field of shape `a` of a message type of `T`, and `y`, in a field of shape `b`, are the
same, except that `y` has bytes where `x` has messages.  `R i m p`: the message `m` of type `i` has the bytes `p`. -/
inductive RawShape (R : Nat → Val → Bytes → Prop) (T : Schema) : Shape → Shape → Val → Val → Prop
  | scalar (a : Shape) (x : Val) : a.scalar = true → RawShape R T a a x x
  | noMsg (id : Nat) : RawShape R T (.msg id true) (.single .bytes) (.ptr none) (.bytes none)
  | msg (id : Nat) (m : Val) (p : Bytes) : R id m p → p ≠ [] → RawShape R T (.msg id true) (.single .bytes) (.ptr (some m)) (.bytes (some p))
  | list (id : Nat) (q : Bool) (zs : List (Val × Bytes)) : (∀ z ∈ zs, R id (deref T id q z.1) z.2) →
      RawShape R T (.msgList id q) (.list .bytes false) (.slice (zs.map (·.1))) (.slice (zs.map (fun z => .bytes (some z.2))))
  | noMap (k : Scalar) (id : Nat) (q : Bool) : RawShape R T (.mapMsg k id q) (.map k .bytes) (.map none) (.map none)
  | map (k : Scalar) (id : Nat) (q : Bool) (zs : List (Key × Val × Bytes)) : (∀ z ∈ zs, R id (deref T id q z.2.1) z.2.2) →
      RawShape R T (.mapMsg k id q) (.map k .bytes) (.map (some (zs.map (fun z => (z.1, z.2.1)))))
        (.map (some (zs.map (fun z => (z.1, .bytes (some z.2.2))))))

/-- The same for the fields of a message, which have the same numbers, and for its unknown fields. -/
structure RawMsg (R : Nat → Val → Bytes → Prop) (T S : Schema) (id : Nat) (xs ys : List Val) : Prop where
  length : (T id).fields.length = (S id).fields.length
  fields : ∀ f g, (f, g) ∈ (T id).fields.zip (S id).fields → g.num = f.num ∧
    ∀ x y, xs[f.slot]? = some x → ys[g.slot]? = some y → (f.content x = none ∧ g.content y = none) ∨
      ∃ d e, f.content x = some d ∧ g.content y = some e ∧ RawShape R T f.shape g.shape d e
  unknown : unknownOf (T id) xs = unknownOf (S id) ys

end Verif.Spec
