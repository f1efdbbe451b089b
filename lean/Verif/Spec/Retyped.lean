import Verif.Spec.Round
/-!
# Specification: changing the type of a field to a compatible one

The changes are among those the protobuf documentation calls safe: to a wider integer type, between `string` and
`bytes`, between signed and unsigned types of the same width, from no presence to explicit presence, from one value
to a list.
-/
namespace Verif.Spec
open Verif.Model (Val Key)

/-- A field of scalar type `s` may become one of type `t`, which can hold every value of `s`. -/
def Widens : Scalar → Scalar → Bool
  | .int32, t => t = .int32 || t = .int64 || t = .uint64
  | .uint32, t => t = .uint32 || t = .int64 || t = .uint64
  | .int64, t => t = .int64 || t = .uint64
  | .uint64, t => t = .int64 || t = .uint64
  | .bool, t => t = .bool || t = .int32 || t = .uint32 || t = .int64 || t = .uint64
  | .sint32, t => t = .sint32 || t = .sint64
  | .fixed32, t => t = .fixed32 || t = .sfixed32
  | .sfixed32, t => t = .fixed32 || t = .sfixed32
  | .fixed64, t => t = .fixed64 || t = .sfixed64
  | .sfixed64, t => t = .fixed64 || t = .sfixed64
  | .string, t => t = .string || t = .bytes
  | .bytes, t => t = .string || t = .bytes
  | s, t => t = s

/-- The value in the new type: signed numbers are extended with their sign, unsigned ones with zeros; `true` is 1;
strings and bytes keep their bytes (an empty string becomes nil bytes). -/
def widen : Scalar → Scalar → Val → Val
  | .int32, .int64, .w32 v | .int32, .uint64, .w32 v | .sint32, .sint64, .w32 v => .w64 (v.signExtend 64)
  | .uint32, .int64, .w32 v | .uint32, .uint64, .w32 v => .w64 (v.setWidth 64)
  | .bool, .int32, .bool b | .bool, .uint32, .bool b => .w32 (if b then 1#32 else 0#32)
  | .bool, .int64, .bool b | .bool, .uint64, .bool b => .w64 (if b then 1#64 else 0#64)
  | .string, .bytes, .str s => .bytes (if s.isEmpty then none else some s)
  | .bytes, .string, .bytes s => .str (s.getD [])
  | _, _, x => x

/-- A field with the first shape may become one with the second. -/
inductive ShapeChange : Shape → Shape → Prop
  | single (s t : Scalar) : Widens s t → ShapeChange (.single s) (.single t)
  | optional (s t : Scalar) : Widens s t → ShapeChange (.optional s) (.optional t)
  | list (s t : Scalar) (p : Bool) : Widens s t → ShapeChange (.list s p) (.list t p)
  | presence (s t : Scalar) : Widens s t → ShapeChange (.single s) (.optional t)
  | singleList (s t : Scalar) : Widens s t → ShapeChange (.single s) (.list t false)
  | optionalList (s t : Scalar) : Widens s t → ShapeChange (.optional s) (.list t false)
  | msg (id : Nat) : ShapeChange (.msg id true) (.msg id true)
  | oneToList (id : Nat) : ShapeChange (.msg id true) (.msgList id true)
  | msgList (id : Nat) (p : Bool) : ShapeChange (.msgList id p) (.msgList id p)
  | map (k v : Scalar) : ShapeChange (.map k v) (.map k v)
  | mapMsg (k : Scalar) (id : Nat) (p : Bool) : ShapeChange (.mapMsg k id p) (.mapMsg k id p)

/-- `T` is `S` with some types of fields changed; fields keep their numbers and their places. -/
structure Retyped (S T : Schema) : Prop where
  length : ∀ id, (S id).fields.length = (T id).fields.length
  fields : ∀ id, ∀ p ∈ (S id).fields.zip (T id).fields,
    p.2.num = p.1.num ∧ p.2.slot = p.1.slot ∧ p.2.member = p.1.member ∧ ShapeChange p.1.shape p.2.shape
  nslots : ∀ id, (S id).nslots = (T id).nslots
  unknown : ∀ id, (S id).unknown = (T id).unknown

mutual
/-- `Wide S T id v w`: `w`, of the message type with the new types of fields, has the content of `v`. -/
inductive Wide (S T : Schema) : Nat → Val → Val → Prop
  | mk (id : Nat) (xs ys : List Val) : xs.length = (S id).nslots → ys.length = (T id).nslots →
      (∀ f g, (f, g) ∈ (S id).fields.zip (T id).fields → ∀ x y, xs[f.slot]? = some x → ys[g.slot]? = some y →
        WideField S T f g x y) →
      unknownOf (S id) xs = unknownOf (T id) ys → Wide S T id (.struct xs) (.struct ys)
/-- A field: unset in both (as a member of a oneof), or with the same content. -/
inductive WideField (S T : Schema) : Field → Field → Val → Val → Prop
  | unset (f g : Field) (x y : Val) : f.content x = none → g.content y = none → WideField S T f g x y
  | set (f g : Field) (x y d e : Val) : f.content x = some d → g.content y = some e →
      WideShape S T f.shape g.shape d e → WideField S T f g x y
/-- The content of a field. -/
inductive WideShape (S T : Schema) : Shape → Shape → Val → Val → Prop
  | single (s t : Scalar) (x : Val) : s.goType.holds x = true → WideShape S T (.single s) (.single t) x (widen s t x)
  | absent (s t : Scalar) : WideShape S T (.optional s) (.optional t) (.ptr none) (.ptr none)
  | optional (s t : Scalar) (x : Val) : s.goType.holds x = true →
      WideShape S T (.optional s) (.optional t) (.ptr (some x)) (.ptr (some (widen s t x)))
  | list (s t : Scalar) (p : Bool) (xs : List Val) : (∀ x ∈ xs, s.goType.holds x = true) →
      WideShape S T (.list s p) (.list t p) (.slice xs) (.slice (xs.map (widen s t)))
  | noPresence (s t : Scalar) (x : Val) : s.goType.holds x = true → isDefault x = true →
      WideShape S T (.single s) (.optional t) x (.ptr none)
  | presence (s t : Scalar) (x : Val) : s.goType.holds x = true → isDefault x = false →
      WideShape S T (.single s) (.optional t) x (.ptr (some (widen s t x)))
  | noElem (s t : Scalar) (x : Val) : s.goType.holds x = true → isDefault x = true →
      WideShape S T (.single s) (.list t false) x (.slice [])
  | elem (s t : Scalar) (x : Val) : s.goType.holds x = true → isDefault x = false →
      WideShape S T (.single s) (.list t false) x (.slice [widen s t x])
  | absentElem (s t : Scalar) : WideShape S T (.optional s) (.list t false) (.ptr none) (.slice [])
  | optionalElem (s t : Scalar) (x : Val) : s.goType.holds x = true →
      WideShape S T (.optional s) (.list t false) (.ptr (some x)) (.slice [widen s t x])
  | noMsg (id : Nat) : WideShape S T (.msg id true) (.msg id true) (.ptr none) (.ptr none)
  | msg (id : Nat) (v w : Val) : Wide S T id v w → WideShape S T (.msg id true) (.msg id true) (.ptr (some v)) (.ptr (some w))
  | noMsgElem (id : Nat) : WideShape S T (.msg id true) (.msgList id true) (.ptr none) (.slice [])
  | msgElem (id : Nat) (v w : Val) : Wide S T id v w →
      WideShape S T (.msg id true) (.msgList id true) (.ptr (some v)) (.slice [.ptr (some w)])
  | msgList (id : Nat) (p : Bool) (zs : List (Val × Val)) :
      (∀ z ∈ zs, Wide S T id (deref S id p z.1) (deref T id p z.2)) →
      WideShape S T (.msgList id p) (.msgList id p) (.slice (zs.map (·.1))) (.slice (zs.map (·.2)))
  | map (k v : Scalar) (x : Val) : WideShape S T (.map k v) (.map k v) x x
  | nilMap (k : Scalar) (id : Nat) (p : Bool) : WideShape S T (.mapMsg k id p) (.mapMsg k id p) (.map none) (.map none)
  | mapMsg (k : Scalar) (id : Nat) (p : Bool) (zs : List (Key × Val × Val)) :
      (∀ z ∈ zs, Wide S T id (deref S id p z.2.1) (deref T id p z.2.2)) →
      WideShape S T (.mapMsg k id p) (.mapMsg k id p) (.map (some (zs.map (fun z => (z.1, z.2.1)))))
        (.map (some (zs.map (fun z => (z.1, z.2.2)))))
end

end Verif.Spec
