import Verif.Spec.Output
import Verif.Model.HeapCodec
/-!
# Specification: messages in a memory with sharing and cycles
-/
namespace Verif.Spec
open Verif.Model (Val Key HVal Heap)

variable (h : Heap) (S : Schema)

/-- A message held by pointer (possibly nil) or by value; `P id v` says that `v` is a message of type `id`. -/
inductive RefTypedH (P : Nat → HVal → Prop) : Nat → Bool → HVal → Prop
  | nil (id : Nat) : RefTypedH P id true (.ptr none)
  | ptr (id a : Nat) : P id (h.object a) → RefTypedH P id true (.ptr (some a))
  | inline (id : Nat) (v : HVal) : P id v → RefTypedH P id false v

/-- A Go value of the type of a field. -/
inductive ShapeTypedH (P : Nat → HVal → Prop) : Shape → HVal → Prop
  | data (s : Shape) (v : Val) : s.isMsg = false → ShapeTyped S s v → ShapeTypedH P s (.data v)
  | msg (id : Nat) (p : Bool) (v : HVal) : RefTypedH h P id p v → ShapeTypedH P (.msg id p) v
  | msgList (id : Nat) (p : Bool) (a : Nat) : (∀ v ∈ h.array a, RefTypedH h P id p v) → ShapeTypedH P (.msgList id p) (.slice a)
  | mapMsgNil (k : Scalar) (id : Nat) (p : Bool) : ShapeTypedH P (.mapMsg k id p) (.map none)
  | mapMsg (k : Scalar) (id : Nat) (p : Bool) (a : Nat) : ((h.table a).map (·.1)).Nodup → (∀ e ∈ h.table a, k.HasKey e.1) →
      (∀ e ∈ h.table a, RefTypedH h P id p e.2) → ShapeTypedH P (.mapMsg k id p) (.map (some a))

/-- The Go struct field `x` holding field `f`. -/
inductive FieldTypedH (P : Nat → HVal → Prop) : Field → HVal → Prop
  | plain (f : Field) (x : HVal) : f.member = none → ShapeTypedH h S P f.shape x → FieldTypedH P f x
  | unset (f : Field) (w : Nat) : f.member = some w → FieldTypedH P f (.iface none)
  | nilMember (f : Field) (w w' : Nat) : f.member = some w → FieldTypedH P f (.iface (some (w', none)))
  | member (f : Field) (w a : Nat) : f.member = some w → ShapeTypedH h S P f.shape (h.object a) → FieldTypedH P f (.iface (some (w, some a)))
  | otherMember (f : Field) (w w' a : Nat) : f.member = some w → w ≠ w' → FieldTypedH P f (.iface (some (w', some a)))

/-- A struct value of message type `id`, if the messages it refers to are as `P` says. -/
def MsgTypedH (P : Nat → HVal → Prop) (id : Nat) (v : HVal) : Prop :=
  ∃ slots, v = .struct slots ∧ slots.length = (S id).nslots ∧
    (∀ f ∈ (S id).fields, ∀ x, slots[f.slot]? = some x → FieldTypedH h S P f x) ∧
    (∀ s p x, (S id).unknown = some (s, p) → slots[s]? = some x → ∃ d, x = .data d ∧ UnknownTyped p d)

/-- `v` is a message of type `id`, and so are all messages it (transitively) refers to of their types. -/
def TypedH (id : Nat) (v : HVal) : Prop :=
  ∃ P : Nat → HVal → Prop, P id v ∧ ∀ id v, P id v → MsgTypedH h S P id v

/-- The message denoted by a list element or map value; `none` for a nil pointer. -/
inductive Denotes : Bool → HVal → Option HVal → Prop
  | nil : Denotes true (.ptr none) none
  | ptr (a : Nat) : Denotes true (.ptr (some a)) (some (h.object a))
  | inline (v : HVal) : Denotes false v (some v)

/-- The content of a field of this shape holds the sub-message. -/
inductive ShapeSubH : Shape → HVal → Nat → Option HVal → Prop
  | ptr (id a : Nat) : ShapeSubH (.msg id true) (.ptr (some a)) id (some (h.object a))
  | inline (id : Nat) (m : HVal) : ((S id).small && m.memZero) = false → ShapeSubH (.msg id false) m id (some m)
  | list (id : Nat) (p : Bool) (a : Nat) (x : HVal) (m : Option HVal) : x ∈ h.array a → Denotes h p x m → ShapeSubH (.msgList id p) (.slice a) id m
  | map (k : Scalar) (id : Nat) (p : Bool) (a : Nat) (e : Key × HVal) (m : Option HVal) : e ∈ h.table a → Denotes h p e.2 m →
      ShapeSubH (.mapMsg k id p) (.map (some a)) id m

/-- The Go struct field `x` of field `f` has content `d`. -/
inductive ContentH : Field → HVal → HVal → Prop
  | plain (f : Field) (x : HVal) : f.member = none → ContentH f x x
  | member (f : Field) (w a : Nat) : f.member = some w → ContentH f (.iface (some (w, some a))) (h.object a)

/-- The message `v` of type `id` holds a message of type `id'` (`none`: a nil pointer in a list or map). -/
inductive SubMsgH : Nat → HVal → Nat → Option HVal → Prop
  | mk (id : Nat) (slots : List HVal) (f : Field) (id' : Nat) (x d : HVal) (m : Option HVal) :
      f ∈ (S id).fields → slots[f.slot]? = some x → ContentH h f x d → ShapeSubH h S f.shape d id' m → SubMsgH id (.struct slots) id' m

/-- Starting from the message `v`, one can step `n` times into a sub-message.  A nil pointer in a list or map counts as the empty message. -/
inductive NestedH : Nat → Nat → HVal → Prop
  | zero (id : Nat) (v : HVal) : NestedH 0 id v
  | step (n id : Nat) (v : HVal) (id' : Nat) (v' : HVal) : SubMsgH h S id v id' (some v') → NestedH n id' v' → NestedH (n + 1) id v
  | nil (n id : Nat) (v : HVal) (id' : Nat) : SubMsgH h S id v id' none → Nested S n id' (S id').zero → NestedH (n + 1) id v

/-- `v'` is reached from `v` in one or more steps. -/
inductive ReachH : Nat → HVal → Nat → HVal → Prop
  | one (id : Nat) (v : HVal) (id' : Nat) (v' : HVal) : SubMsgH h S id v id' (some v') → ReachH id v id' v'
  | step (id : Nat) (v : HVal) (id' : Nat) (v' : HVal) (id'' : Nat) (v'' : HVal) : SubMsgH h S id v id' (some v') → ReachH id' v' id'' v'' → ReachH id v id'' v''

end Verif.Spec
