import Verif.Spec.Decode
import Verif.Spec.Same
/-!
# Specification: reading with other types of fields
-/
namespace Verif.Spec
open Verif.Model (Val Key)

/-- A field of type `t` may be read as one of type `s`, which possibly has fewer bits.  (`bool` is not among the narrower
types, see `C99_bool_violated`.) -/
def Narrows : Scalar → Scalar → Bool
  | .int64, s => s = .int64 || s = .uint64 || s = .int32 || s = .uint32
  | .uint64, s => s = .int64 || s = .uint64 || s = .int32 || s = .uint32
  | .int32, s => s = .int32 || s = .uint32
  | .uint32, s => s = .int32 || s = .uint32
  | .sint64, s => s = .sint64 || s = .sint32
  | .fixed32, s => s = .fixed32 || s = .sfixed32
  | .sfixed32, s => s = .fixed32 || s = .sfixed32
  | .fixed64, s => s = .fixed64 || s = .sfixed64
  | .sfixed64, s => s = .fixed64 || s = .sfixed64
  | .string, s => s = .string || s = .bytes
  | .bytes, s => s = .string || s = .bytes
  | t, s => s = t

/-- The value `x` of type `t` as one of type `s`: of numbers, only the lower 32 bits are kept (as in a conversion in Go or C);
strings and bytes keep their bytes. -/
def cut : Scalar → Scalar → Val → Val
  | .int64, .int32, .w64 v | .int64, .uint32, .w64 v | .uint64, .int32, .w64 v | .uint64, .uint32, .w64 v
  | .sint64, .sint32, .w64 v => .w32 (v.setWidth 32)
  | .string, .bytes, .str s => .bytes (some s)
  | .bytes, .string, .bytes s => .str (s.getD [])
  | _, _, x => x

/-- What is written as one of the types can be read as the other. -/
def Compat (t s : Scalar) : Bool := Narrows t s || Narrows s t

/-- `x` of type `t` and `y` of type `s` are what the two readers make of the same data: the value of the narrower type is
the other one, cut. -/
def Cut (t s : Scalar) (x y : Val) : Prop :=
  match Narrows t s with
  | true => SameScalar (cut t s x) y
  | false => SameScalar (cut s t y) x

/-- No map has messages as values. -/
def NoMapMsg (T : Schema) : Prop := ∀ id, ∀ f ∈ (T id).fields, ∀ k i p, f.shape ≠ .mapMsg k i p

/-- A field with the first shape may be read as one with the second: lists (of scalars that are not packed, or of messages)
as single values, and single values as lists or with presence, and messages as bytes, too.  (Keys of maps keep their types.  If they are booleans, so
do the values, because the rule by which a boolean key is read depends on the type of the values, see C25.) -/
inductive ShapeNarrows (T : Schema) : Shape → Shape → Prop
  | single (t s : Scalar) : Compat t s → ShapeNarrows T (.single t) (.single s)
  | optional (t s : Scalar) : Compat t s → ShapeNarrows T (.optional t) (.optional s)
  | list (t s : Scalar) (p q : Bool) : Compat t s → (p = true → q = true) → ShapeNarrows T (.list t p) (.list s q)
  | lastSingle (t s : Scalar) : Compat t s → ShapeNarrows T (.list t false) (.single s)
  | lastOptional (t s : Scalar) : Compat t s → ShapeNarrows T (.list t false) (.optional s)
  | lastMsg (id : Nat) : ShapeNarrows T (.msgList id true) (.msg id true)
  | noPresence (t s : Scalar) : Compat t s → ShapeNarrows T (.optional t) (.single s)
  | presence (t s : Scalar) : Compat t s → ShapeNarrows T (.single t) (.optional s)
  | singleList (t s : Scalar) (q : Bool) : Compat t s → ShapeNarrows T (.single t) (.list s q)
  | optionalList (t s : Scalar) (q : Bool) : Compat t s → ShapeNarrows T (.optional t) (.list s q)
  | oneToList (id : Nat) : ShapeNarrows T (.msg id true) (.msgList id true)
  | msg (id : Nat) (p : Bool) : ShapeNarrows T (.msg id p) (.msg id p)
  | msgList (id : Nat) (p : Bool) : ShapeNarrows T (.msgList id p) (.msgList id p)
  | map (k t s : Scalar) : Compat t s → (k = .bool → s = t) → ShapeNarrows T (.map k t) (.map k s)
  | mapMsg (k : Scalar) (id : Nat) (p : Bool) : ShapeNarrows T (.mapMsg k id p) (.mapMsg k id p)
  | raw (id : Nat) : NoMapMsg T → ShapeNarrows T (.msg id true) (.single .bytes)
  | rawList (id : Nat) : NoMapMsg T → ShapeNarrows T (.msgList id true) (.list .bytes false)

/-- The two fields are the same member of a oneof, or none; or the second is a member of a oneof and the first is not (a field
that has been moved into a oneof of its own, see `Narrowed.oneofs`). -/
def Moves (f g : Field) : Prop :=
  g.member = f.member ∨
  (f.member = none ∧ g.member ≠ none ∧ ((∃ s, g.shape = .single s) ∨ ∃ i, g.shape = .msg i true))

/-- `S` is `T` with some types of fields changed, and perhaps with the Go fields in another order; fields keep their numbers,
and are members of the same oneofs, except that single fields may have become the only members of new oneofs. -/
structure Narrowed (T S : Schema) : Prop where
  length : ∀ id, (T id).fields.length = (S id).fields.length
  fields : ∀ id, ∀ p ∈ (T id).fields.zip (S id).fields,
    p.2.num = p.1.num ∧ Moves p.1 p.2 ∧ ShapeNarrows T p.1.shape p.2.shape
  oneofs : ∀ id, ∀ p ∈ (T id).fields.zip (S id).fields, ∀ q ∈ (T id).fields.zip (S id).fields,
    p.1.slot = q.1.slot ↔ p.2.slot = q.2.slot

mutual
/-- `CutMsg T S id v w`: `w`, of the message type with the changed types of fields, has the content of `v`, as far as the
narrower of the types can hold it; where both keep unknown fields, both have the same. -/
inductive CutMsg (T S : Schema) : Nat → Val → Val → Prop
  | mk (id : Nat) (xs ys : List Val) : xs.length = (T id).nslots → ys.length = (S id).nslots →
      (∀ f g, (f, g) ∈ (T id).fields.zip (S id).fields → ∀ x y, xs[f.slot]? = some x → ys[g.slot]? = some y →
        CutField T S f g x y) →
      ((T id).unknown.isSome = true → (S id).unknown.isSome = true → unknownOf (T id) xs = unknownOf (S id) ys) →
      CutMsg T S id (.struct xs) (.struct ys)
/-- A field: with the same member of a oneof set, if any; a field that has been moved into a oneof may be set to its content, or
unset where the other has the zero value. -/
inductive CutField (T S : Schema) : Field → Field → Val → Val → Prop
  | plain (f g : Field) (x y : Val) : f.member = none → g.member = none → CutShape T S f.shape g.shape x y → CutField T S f g x y
  | moveUnset (f g : Field) : f.member = none → g.member ≠ none → CutField T S f g (f.shape.zero T) (.iface none)
  | moveSet (f g : Field) (w : Nat) (x y : Val) : f.member = none → g.member = some w → CutShape T S f.shape g.shape x y →
      CutField T S f g x (.iface (some (w, some y)))
  | unset (f g : Field) : f.member ≠ none → CutField T S f g (.iface none) (.iface none)
  | nilCase (f g : Field) (w : Nat) : f.member ≠ none → CutField T S f g (.iface (some (w, none))) (.iface (some (w, none)))
  | set (f g : Field) (w : Nat) (x y : Val) : f.member = some w → CutShape T S f.shape g.shape x y →
      CutField T S f g (.iface (some (w, some x))) (.iface (some (w, some y)))
  | other (f g : Field) (w w' : Nat) (x y : Val) : f.member = some w → w' ≠ w →
      CutField T S f g (.iface (some (w', some x))) (.iface (some (w', some y)))
/-- The content of a field: where one reader has a list and the
other a single value, the single value is the last element; where one has messages and the other bytes, the message is what is
decoded from the bytes. -/
inductive CutShape (T S : Schema) : Shape → Shape → Val → Val → Prop
  | single (t s : Scalar) (x y : Val) : Cut t s x y → CutShape T S (.single t) (.single s) x y
  | absent (t s : Scalar) : CutShape T S (.optional t) (.optional s) (.ptr none) (.ptr none)
  | optional (t s : Scalar) (x y : Val) : Cut t s x y →
      CutShape T S (.optional t) (.optional s) (.ptr (some x)) (.ptr (some y))
  | list (t s : Scalar) (p q : Bool) (zs : List (Val × Val)) : (∀ z ∈ zs, Cut t s z.1 z.2) →
      CutShape T S (.list t p) (.list s q) (.slice (zs.map (·.1))) (.slice (zs.map (·.2)))
  | noSingle (t s : Scalar) : CutShape T S (.list t false) (.single s) (.slice []) s.zero
  | lastSingle (t s : Scalar) (xs : List Val) (x y : Val) : Cut t s x y →
      CutShape T S (.list t false) (.single s) (.slice (xs ++ [x])) y
  | noOptional (t s : Scalar) : CutShape T S (.list t false) (.optional s) (.slice []) (.ptr none)
  | lastOptional (t s : Scalar) (xs : List Val) (x y : Val) : Cut t s x y →
      CutShape T S (.list t false) (.optional s) (.slice (xs ++ [x])) (.ptr (some y))
  | noMsg (id : Nat) : CutShape T S (.msgList id true) (.msg id true) (.slice []) (.ptr none)
  | lastMsg (id : Nat) (xs : List Val) (x y : Val) : CutMsg T S id x y →
      CutShape T S (.msgList id true) (.msg id true) (.slice (xs ++ [.ptr (some x)])) (.ptr (some y))
  | dropNone (t s : Scalar) : CutShape T S (.optional t) (.single s) (.ptr none) s.zero
  | dropSome (t s : Scalar) (x y : Val) : Cut t s x y → CutShape T S (.optional t) (.single s) (.ptr (some x)) y
  | addNone (t s : Scalar) : CutShape T S (.single t) (.optional s) t.zero (.ptr none)
  | addSome (t s : Scalar) (x y : Val) : Cut t s x y → CutShape T S (.single t) (.optional s) x (.ptr (some y))
  | singleNone (t s : Scalar) (q : Bool) : CutShape T S (.single t) (.list s q) t.zero (.slice [])
  | singleList (t s : Scalar) (q : Bool) (ys : List Val) (x y : Val) : Cut t s x y →
      CutShape T S (.single t) (.list s q) x (.slice (ys ++ [y]))
  | optionalNone (t s : Scalar) (q : Bool) : CutShape T S (.optional t) (.list s q) (.ptr none) (.slice [])
  | optionalList (t s : Scalar) (q : Bool) (ys : List Val) (x y : Val) : Cut t s x y →
      CutShape T S (.optional t) (.list s q) (.ptr (some x)) (.slice (ys ++ [y]))
  | msgNone (id : Nat) : CutShape T S (.msg id true) (.msgList id true) (.ptr none) (.slice [])
  | oneToList (id : Nat) (ys : List Val) (x y : Val) : CutMsg T S id x y →
      CutShape T S (.msg id true) (.msgList id true) (.ptr (some x)) (.slice (ys ++ [.ptr (some y)]))
  | rawNone (id : Nat) : CutShape T S (.msg id true) (.single .bytes) (.ptr none) (.bytes none)
  | raw (id : Nat) (x : Val) (b : Bytes) : Decodes T 1000 id b (T id).zero x →
      CutShape T S (.msg id true) (.single .bytes) (.ptr (some x)) (.bytes (some b))
  | rawList (id : Nat) (zs : List (Val × Bytes)) : (∀ z ∈ zs, Decodes T 1000 id z.2 (T id).zero z.1) →
      CutShape T S (.msgList id true) (.list .bytes false) (.slice (zs.map (fun z => .ptr (some z.1)))) (.slice (zs.map (fun z => .bytes (some z.2))))
  | noEntries (k t s : Scalar) : CutShape T S (.map k t) (.map k s) (.map none) (.map none)
  | map (k t s : Scalar) (zs : List (Key × Val × Val)) : (∀ z ∈ zs, Cut t s z.2.1 z.2.2) →
      CutShape T S (.map k t) (.map k s) (.map (some (zs.map (fun z => (z.1, z.2.1))))) (.map (some (zs.map (fun z => (z.1, z.2.2)))))
  | msg (id : Nat) (p : Bool) (x y : Val) : CutRef T S id p x y → CutShape T S (.msg id p) (.msg id p) x y
  | msgList (id : Nat) (p : Bool) (zs : List (Val × Val)) : (∀ z ∈ zs, CutRef T S id p z.1 z.2) →
      CutShape T S (.msgList id p) (.msgList id p) (.slice (zs.map (·.1))) (.slice (zs.map (·.2)))
  | nilMap (k : Scalar) (id : Nat) (p : Bool) : CutShape T S (.mapMsg k id p) (.mapMsg k id p) (.map none) (.map none)
  | mapMsg (k : Scalar) (id : Nat) (p : Bool) (zs : List (Key × Val × Val)) : (∀ z ∈ zs, CutRef T S id p z.2.1 z.2.2) →
      CutShape T S (.mapMsg k id p) (.mapMsg k id p) (.map (some (zs.map (fun z => (z.1, z.2.1)))))
        (.map (some (zs.map (fun z => (z.1, z.2.2)))))
/-- Messages held by pointer or by value. -/
inductive CutRef (T S : Schema) : Nat → Bool → Val → Val → Prop
  | nil (id : Nat) : CutRef T S id true (.ptr none) (.ptr none)
  | ptr (id : Nat) (v w : Val) : CutMsg T S id v w → CutRef T S id true (.ptr (some v)) (.ptr (some w))
  | inline (id : Nat) (v w : Val) : CutMsg T S id v w → CutRef T S id false v w
end

end Verif.Spec
