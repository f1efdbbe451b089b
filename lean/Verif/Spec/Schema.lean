import Verif.Spec.Varint
import Verif.Model.Value
/-!
# Specification: message schemas, their Go values, and the protobuf encoding of a value

Only the datatype of Go values (`GoType`, `Val`, `Key`) is shared with the model.
-/
namespace Verif.Spec
open Verif.Model (GoType Val Key)

/-- The scalar types of protobuf (an enum is an `int32`). -/
inductive Scalar
  | int32 | int64 | uint32 | uint64 | sint32 | sint64 | fixed32 | fixed64 | sfixed32 | sfixed64
  | float | double | bool | string | bytes
  deriving DecidableEq, Repr

/-- The Go type of a scalar. -/
def Scalar.goType : Scalar → GoType
  | .int32 | .sint32 | .sfixed32 => .int32
  | .int64 | .sint64 | .sfixed64 => .int64
  | .uint32 | .fixed32 => .uint32
  | .uint64 | .fixed64 => .uint64
  | .float => .float32
  | .double => .float64
  | .bool => .bool
  | .string => .string
  | .bytes => .bytes

/-- The wire type of a scalar. -/
def Scalar.wire : Scalar → WireType
  | .int32 | .int64 | .uint32 | .uint64 | .sint32 | .sint64 | .bool => .varint
  | .fixed32 | .sfixed32 | .float => .i32
  | .fixed64 | .sfixed64 | .double => .i64
  | .string | .bytes => .len

/-- The wire bytes of a scalar value, without the tag; `none` if the Go value has another type. -/
def Scalar.encode : Scalar → Val → Option Bytes
  | .int32, .w32 v => some (varint (v.toInt % 2 ^ 64).toNat)
  | .uint32, .w32 v => some (varint v.toNat)
  | .sint32, .w32 v => some (varint (zigzag v.toInt))
  | .fixed32, .w32 v => some (le 4 v.toNat)
  | .sfixed32, .w32 v => some (le 4 v.toNat)
  | .float, .w32 v => some (le 4 v.toNat)
  | .int64, .w64 v => some (varint (v.toInt % 2 ^ 64).toNat)
  | .uint64, .w64 v => some (varint v.toNat)
  | .sint64, .w64 v => some (varint (zigzag v.toInt))
  | .fixed64, .w64 v => some (le 8 v.toNat)
  | .sfixed64, .w64 v => some (le 8 v.toNat)
  | .double, .w64 v => some (le 8 v.toNat)
  | .bool, .bool b => some (varint (if b then 1 else 0))
  | .string, .str s => some (lenDelim s)
  | .bytes, .bytes s => some (lenDelim (s.getD []))
  | _, _ => none

/-- The zero value of a scalar. -/
def Scalar.zero : Scalar → Val
  | .int32 | .sint32 | .sfixed32 | .uint32 | .fixed32 | .float => .w32 0#32
  | .int64 | .sint64 | .sfixed64 | .uint64 | .fixed64 | .double => .w64 0#64
  | .bool => .bool false
  | .string => .str []
  | .bytes => .bytes none

/-- Scalars allowed in packed lists. -/
def Scalar.packable (s : Scalar) : Bool := s != .string && s != .bytes

/-- Scalars allowed as map keys. -/
def Scalar.isKey (s : Scalar) : Bool := s != .float && s != .double && s != .bytes

/-- What a field holds.  `byPtr` tells whether messages are held as `*M` or as `M`. -/
inductive Shape
  | single (s : Scalar)                       -- T
  | optional (s : Scalar)                     -- *T
  | list (s : Scalar) (packed : Bool)         -- []T
  | msg (id : Nat) (byPtr : Bool)             -- *M, M
  | msgList (id : Nat) (byPtr : Bool)         -- []*M, []M
  | map (k v : Scalar)                        -- map[K]V
  | mapMsg (k : Scalar) (id : Nat) (byPtr : Bool)  -- map[K]*M, map[K]M
  deriving DecidableEq, Repr

/-- The Go type of a message held by pointer or by value. -/
def msgType (id : Nat) (byPtr : Bool) : GoType := if byPtr then .ptr (.struct id) else .struct id

/-- The Go type of a field of this shape. -/
def Shape.goType : Shape → GoType
  | .single s => s.goType
  | .optional s => .ptr s.goType
  | .list s _ => .slice s.goType
  | .msg id p => msgType id p
  | .msgList id p => .slice (msgType id p)
  | .map k v => .map k.goType v.goType
  | .mapMsg k id p => .map k.goType (msgType id p)

/-- Shapes protobuf allows. -/
def Shape.legal : Shape → Bool
  | .list s packed => !packed || s.packable
  | .map k _ => k.isKey
  | .mapMsg k _ _ => k.isKey
  | _ => true

/-- A field: number, the Go struct field holding it (an index), for a oneof member the wrapper type
identifying it, and what it holds. -/
structure Field where
  num : Nat
  slot : Nat
  member : Option Nat := none
  shape : Shape
  deriving DecidableEq, Repr

/-- A message type: its fields in ascending order of number, the number of Go struct fields, where
unknown fields are kept (`true`: in a `*[]byte`), whether the Go struct has size 1, 4 or 8, and its
zero value. -/
structure Message where
  fields : List Field := []
  nslots : Nat := 0
  unknown : Option (Nat × Bool) := none
  small : Bool := false
  zero : Val := .struct []
  deriving Inhabited

/-- Message types by number. -/
abbrev Schema := Nat → Message

/-- The zero value of a Go struct field holding a field. -/
def Field.zero (S : Schema) (f : Field) : Val :=
  match f.member with
  | some _ => .iface none
  | none => match f.shape with
    | .single s => s.zero
    | .optional _ => .ptr none
    | .list _ _ => .slice []
    | .msg _ true => .ptr none
    | .msg id false => (S id).zero
    | .msgList _ _ => .slice []
    | .map _ _ => .map none
    | .mapMsg _ _ _ => .map none

/-- The zero value of the Go type of a shape. -/
def Shape.zero (S : Schema) (sh : Shape) : Val := Field.zero S { num := 0, slot := 0, shape := sh }

/-- A message type is well formed: field numbers are distinct and in range (the library handles all
numbers below 2^31, protobuf itself stops at 2^29), fields live in different Go struct fields unless
they are members of the same oneof, oneof members are single values, and the zero value is what it
should be. -/
structure Message.WF (S : Schema) (m : Message) : Prop where
  nums : ∀ f ∈ m.fields, 1 ≤ f.num ∧ f.num < 2 ^ 31
  sorted : m.fields.Pairwise (fun f g => f.num < g.num)
  slots : ∀ f ∈ m.fields, f.slot < m.nslots
  disjoint : ∀ f ∈ m.fields, ∀ g ∈ m.fields, f.num ≠ g.num → f.slot = g.slot →
    ∃ w w', f.member = some w ∧ g.member = some w' ∧ w ≠ w'
  legal : ∀ f ∈ m.fields, f.shape.legal = true
  members : ∀ f ∈ m.fields, f.member ≠ none →
    (∃ s, f.shape = .single s) ∨ (∃ id p, f.shape = .msg id p)
  unknown : ∀ s p, m.unknown = some (s, p) → s < m.nslots ∧ ∀ f ∈ m.fields, f.slot ≠ s
  zero : ∃ zs, m.zero = .struct zs ∧ zs.length = m.nslots ∧
    (∀ f ∈ m.fields, zs[f.slot]? = some (f.zero S)) ∧
    (∀ s, m.unknown = some (s, false) → zs[s]? = some (.bytes none)) ∧
    (∀ s, m.unknown = some (s, true) → zs[s]? = some (.ptr none))

/-- All message types are well formed. -/
def Schema.WF (S : Schema) : Prop := ∀ id, (S id).WF S

/-! ## Go values of a message type -/

/-- A key of a scalar type. -/
def Scalar.HasKey (s : Scalar) (k : Key) : Prop := s.goType.holds k.toVal = true

/-- Is `x` the content of the unknown-field storage? -/
def UnknownTyped (isPtr : Bool) (x : Val) : Prop :=
  match isPtr with
  | false => ∃ u, x = .bytes u
  | true => x = .ptr none ∨ ∃ u, x = .ptr (some (.bytes u))

mutual
/-- `Typed S id v`: `v` is a Go struct value of message type `id`.  (Go struct fields that hold
neither a field nor unknown fields can hold anything.) -/
inductive Typed (S : Schema) : Nat → Val → Prop
  | mk (id : Nat) (slots : List Val) :
      slots.length = (S id).nslots →
      (∀ f ∈ (S id).fields, ∀ x, slots[f.slot]? = some x → FieldTyped S f x) →
      (∀ s p x, (S id).unknown = some (s, p) → slots[s]? = some x → UnknownTyped p x) →
      Typed S id (.struct slots)
/-- The Go struct field `x` holding field `f` (an interface for a oneof member). -/
inductive FieldTyped (S : Schema) : Field → Val → Prop
  | plain (f : Field) (x : Val) : f.member = none → ShapeTyped S f.shape x → FieldTyped S f x
  | unset (f : Field) (w : Nat) : f.member = some w → FieldTyped S f (.iface none)
  | nilMember (f : Field) (w w' : Nat) : f.member = some w →
      FieldTyped S f (.iface (some (w', none)))
  | member (f : Field) (w : Nat) (d : Val) : f.member = some w → ShapeTyped S f.shape d →
      FieldTyped S f (.iface (some (w, some d)))
  | otherMember (f : Field) (w w' : Nat) (d : Val) : f.member = some w → w ≠ w' →
      FieldTyped S f (.iface (some (w', some d)))
/-- A Go value of the type of a field. -/
inductive ShapeTyped (S : Schema) : Shape → Val → Prop
  | single (s : Scalar) (v : Val) : s.goType.holds v = true → ShapeTyped S (.single s) v
  | optionalNil (s : Scalar) : ShapeTyped S (.optional s) (.ptr none)
  | optional (s : Scalar) (v : Val) : s.goType.holds v = true →
      ShapeTyped S (.optional s) (.ptr (some v))
  | list (s : Scalar) (p : Bool) (xs : List Val) : (∀ v ∈ xs, s.goType.holds v = true) →
      ShapeTyped S (.list s p) (.slice xs)
  | msg (id : Nat) (p : Bool) (v : Val) : RefTyped S id p v → ShapeTyped S (.msg id p) v
  | msgList (id : Nat) (p : Bool) (xs : List Val) : (∀ v ∈ xs, RefTyped S id p v) →
      ShapeTyped S (.msgList id p) (.slice xs)
  | mapNil (k v : Scalar) : ShapeTyped S (.map k v) (.map none)
  | map (k v : Scalar) (m : List (Key × Val)) : (m.map (·.1)).Nodup →
      (∀ e ∈ m, k.HasKey e.1 ∧ v.goType.holds e.2 = true) →
      ShapeTyped S (.map k v) (.map (some m))
  | mapMsgNil (k : Scalar) (id : Nat) (p : Bool) : ShapeTyped S (.mapMsg k id p) (.map none)
  | mapMsg (k : Scalar) (id : Nat) (p : Bool) (m : List (Key × Val)) : (m.map (·.1)).Nodup →
      (∀ e ∈ m, k.HasKey e.1) → (∀ e ∈ m, RefTyped S id p e.2) →
      ShapeTyped S (.mapMsg k id p) (.map (some m))
/-- A message held by pointer (possibly nil) or by value. -/
inductive RefTyped (S : Schema) : Nat → Bool → Val → Prop
  | nil (id : Nat) : RefTyped S id true (.ptr none)
  | ptr (id : Nat) (v : Val) : Typed S id v → RefTyped S id true (.ptr (some v))
  | inline (id : Nat) (v : Val) : Typed S id v → RefTyped S id false v
end

/-! ## The encoding of a value -/

/-- Is a single value the default of its type (so that a field without presence omits it)? -/
def isDefault : Val → Bool
  | .w32 v => v == 0#32
  | .w64 v => v == 0#64
  | .bool b => !b
  | .str s => s.isEmpty
  | .bytes s => (s.getD []).isEmpty
  | _ => false

/-- Concatenation of the encodings of the elements of a list. -/
def concatM {α : Type} (g : α → Option Bytes) : List α → Option Bytes
  | [] => some []
  | x :: xs => do
    let a ← g x
    let b ← concatM g xs
    return a ++ b

/-- The message denoted by a list element or map value: a nil pointer counts as the empty
message. -/
def deref (S : Schema) (id : Nat) (byPtr : Bool) (v : Val) : Val :=
  if byPtr then
    match v with
    | .ptr (some m) => m
    | _ => (S id).zero
  else v

/-- The content of field `f`, given the content `x` of the Go struct field; `none` if it is a oneof
member and not the one that is set. -/
def Field.content (f : Field) (x : Val) : Option Val :=
  match f.member with
  | none => some x
  | some w => match x with
    | .iface (some (w', some d)) => if w = w' then some d else none
    | _ => none

/-- The records of a field with number `num` and content `x`.  `keep`: the value is emitted even if
it is the default (the member a oneof is set to).  `enc` encodes sub-messages. -/
def encodeShape (S : Schema) (enc : Nat → Val → Option Bytes) (num : Nat) (keep : Bool) :
    Shape → Val → Option Bytes
  | .single s, x => do
    let a ← s.encode x
    return if isDefault x && !keep then [] else tag num s.wire ++ a
  | .optional s, x => match x with
    | .ptr none => some []
    | .ptr (some v) => do return tag num s.wire ++ (← s.encode v)
    | _ => none
  | .list s packed, x => match x with
    | .slice xs =>
      if packed then
        if xs.isEmpty then some []
        else do return tag num .len ++ lenDelim (← concatM s.encode xs)
      else concatM (fun v => do return tag num s.wire ++ (← s.encode v)) xs
    | _ => none
  | .msg id byPtr, x => match byPtr, x with
    | true, .ptr none => if keep then some (tag num .len ++ lenDelim []) else some []
    | true, .ptr (some m) => do return tag num .len ++ lenDelim (← enc id m)
    | true, _ => none
    | false, m =>
      if (S id).small && m.memZero && !keep then some []
      else do return tag num .len ++ lenDelim (← enc id m)
  | .msgList id byPtr, x => match x with
    | .slice xs =>
      concatM (fun v => do return tag num .len ++ lenDelim (← enc id (deref S id byPtr v))) xs
    | _ => none
  | .map k v, x => match x with
    | .map m => concatM (fun e => do
        let a ← k.encode e.1.toVal
        let b ← v.encode e.2
        return tag num .len ++ lenDelim (tag 1 k.wire ++ a ++ (tag 2 v.wire ++ b))) (m.getD [])
    | _ => none
  | .mapMsg k id byPtr, x => match x with
    | .map m => concatM (fun e => do
        let a ← k.encode e.1.toVal
        let b ← enc id (deref S id byPtr e.2)
        return tag num .len ++ lenDelim (tag 1 k.wire ++ a ++ (tag 2 .len ++ lenDelim b)))
        (m.getD [])
    | _ => none

/-- The records of a field in a struct value. -/
def encodeField (S : Schema) (keep : Bool) (enc : Nat → Val → Option Bytes) (slots : List Val)
    (f : Field) : Option Bytes := do
  match f.content (← slots[f.slot]?) with
  | none => return []
  | some d => encodeShape S enc f.num (f.member.isSome && keep) f.shape d

/-- The bytes kept as unknown fields. -/
def unknownOf (m : Message) (slots : List Val) : Bytes :=
  match m.unknown with
  | none => []
  | some (s, _) => match slots[s]? with
    | some (.bytes (some u)) => u
    | some (.ptr (some (.bytes (some u)))) => u
    | _ => []

/-- The encoding of a struct value of message type `id` nested at most `depth` levels deep: the
records of its fields in ascending order of number, then the unknown fields.  `none` if it is
nested deeper.  `keep` is what protobuf prescribes for the member a oneof is set to (`true`: always
emitted); see `C26` for what the library does. -/
def encode (S : Schema) (keep : Bool) : Nat → Nat → Val → Option Bytes
  | 0, _, _ => none
  | depth + 1, id, v => match v with
    | .struct slots => do
      let a ← concatM (encodeField S keep (encode S keep depth) slots) (S id).fields
      return a ++ unknownOf (S id) slots
    | _ => none

end Verif.Spec
