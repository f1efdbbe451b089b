import Verif.Spec.Schema
import Verif.Spec.Grammar
/-!
# Specification: nesting of messages, and the layout of an encoded message

Relations only; nothing here encodes anything.
-/
namespace Verif.Spec
open Verif.Model (GoType Val Key)

/-- The content `d` of a field of this shape holds the sub-message `v` of type `id`.  (A nil pointer
in a list or map counts as the empty message; a message held by value in a Go struct of size 1, 4 or
8 counts only if its memory is not all zero.) -/
inductive ShapeSub (S : Schema) : Shape → Val → Nat → Val → Prop
  | ptr (id : Nat) (m : Val) : ShapeSub S (.msg id true) (.ptr (some m)) id m
  | inline (id : Nat) (m : Val) : ((S id).small && m.memZero) = false →
      ShapeSub S (.msg id false) m id m
  | list (id : Nat) (p : Bool) (xs : List Val) (x : Val) : x ∈ xs →
      ShapeSub S (.msgList id p) (.slice xs) id (deref S id p x)
  | map (k : Scalar) (id : Nat) (p : Bool) (m : List (Key × Val)) (e : Key × Val) : e ∈ m →
      ShapeSub S (.mapMsg k id p) (.map (some m)) id (deref S id p e.2)

/-- Field `f` of a struct value holds the sub-message `v` of type `id`. -/
def FieldSub (S : Schema) (slots : List Val) (f : Field) (id : Nat) (v : Val) : Prop :=
  ∃ x d, slots[f.slot]? = some x ∧ f.content x = some d ∧ ShapeSub S f.shape d id v

/-- The message `v` of type `id` holds the message `v'` of type `id'`. -/
inductive SubMsg (S : Schema) : Nat → Val → Nat → Val → Prop
  | mk (id : Nat) (slots : List Val) (f : Field) (id' : Nat) (v' : Val) :
      f ∈ (S id).fields → FieldSub S slots f id' v' → SubMsg S id (.struct slots) id' v'

/-- `Nested S n id v`: starting from the message `v`, one can step `n` times into a sub-message. -/
inductive Nested (S : Schema) : Nat → Nat → Val → Prop
  | zero (id : Nat) (v : Val) : Nested S 0 id v
  | step (n id : Nat) (v : Val) (id' : Nat) (v' : Val) :
      SubMsg S id v id' v' → Nested S n id' v' → Nested S (n + 1) id v

/-- `v'` is `v` or a message (transitively) held by it. -/
inductive Reach (S : Schema) : Nat → Val → Nat → Val → Prop
  | refl (id : Nat) (v : Val) : Reach S id v id v
  | step (id : Nat) (v : Val) (id' : Nat) (v' : Val) (id'' : Nat) (v'' : Val) :
      SubMsg S id v id' v' → Reach S id' v' id'' v'' → Reach S id v id'' v''

/-- One record of field `num`. -/
def IsRecord (num : Nat) (r : Bytes) : Prop :=
  ∃ t k v, IsKey k num t ∧ IsValue 0 num t v ∧ r = k ++ v

/-- Shapes holding messages. -/
def Shape.isMsg : Shape → Bool
  | .msg _ _ | .msgList _ _ | .mapMsg _ _ _ => true
  | _ => false

mutual
/-- `Ordered S id v bs`: `bs` consists of records of declared fields in ascending order of number,
followed by the unknown fields of `v`; and this holds for the sub-messages, too. -/
inductive Ordered (S : Schema) : Nat → Val → Bytes → Prop
  | mk (id : Nat) (slots : List Val) (recs : List (Field × Bytes)) :
      recs.Pairwise (fun a b => a.1.num ≤ b.1.num) →
      (∀ r ∈ recs, r.1 ∈ (S id).fields) → (∀ r ∈ recs, RecordOf S slots r.1 r.2) →
      Ordered S id (.struct slots) ((recs.map (·.2)).flatten ++ unknownOf (S id) slots)
/-- A record of field `f` in the encoding of a struct value. -/
inductive RecordOf (S : Schema) : List Val → Field → Bytes → Prop
  | scalar (slots : List Val) (f : Field) (r : Bytes) : f.shape.isMsg = false →
      IsRecord f.num r → RecordOf S slots f r
  | msg (slots : List Val) (f : Field) (k l p : Bytes) (id : Nat) (v : Val) (q : Bool) :
      f.shape = .msg id q ∨ f.shape = .msgList id q →
      FieldSub S slots f id v → IsKey k f.num .len → IsLen l p → Ordered S id v p →
      RecordOf S slots f (k ++ l)
  | mapMsg (slots : List Val) (f : Field) (k l r1 k2 l2 p : Bytes) (id : Nat) (v : Val) (q : Bool)
      (ks : Scalar) : f.shape = .mapMsg ks id q →
      FieldSub S slots f id v → IsKey k f.num .len → IsLen l (r1 ++ (k2 ++ l2)) →
      IsRecord 1 r1 → IsKey k2 2 .len → IsLen l2 p → Ordered S id v p →
      RecordOf S slots f (k ++ l)
end

/-- How many records a field with this content gives.  An element of a list that is not packed and
an entry of a map are one record each; a single value is left out if it is the default; an optional
one only if it is absent. -/
def recordCount (S : Schema) : Shape → Val → Nat
  | .single _, x => if isDefault x then 0 else 1
  | .optional _, .ptr p => if p.isNone then 0 else 1
  | .list _ true, .slice xs => if xs.isEmpty then 0 else 1
  | .list _ false, .slice xs => xs.length
  | .msg _ true, .ptr p => if p.isNone then 0 else 1
  | .msg id false, x => if (S id).small && x.memZero then 0 else 1
  | .msgList _ _, .slice xs => xs.length
  | .map _ _, .map m => (m.getD []).length
  | .mapMsg _ _ _, .map m => (m.getD []).length
  | _, _ => 0

/-- How many records a field gives in a struct value. -/
def fieldCount (S : Schema) (slots : List Val) (f : Field) : Nat :=
  match slots[f.slot]? with
  | some x => match f.content x with
    | some d => recordCount S f.shape d
    | none => 0
  | none => 0

/-- No oneof of the message is set to a member holding a default value or a nil message. -/
def MembersShown (S : Schema) (id : Nat) (v : Val) : Prop :=
  ∀ slots, v = .struct slots → ∀ f ∈ (S id).fields, f.member ≠ none →
    ∀ x d, slots[f.slot]? = some x → f.content x = some d → recordCount S f.shape d ≠ 0

end Verif.Spec
