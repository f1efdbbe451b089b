import Verif.Spec.Output
import Verif.Spec.Decode
/-!
# Specification: two versions of a schema

A program built with an older version of the message definitions knows only some of the fields.
-/
namespace Verif.Spec
open Verif.Model (Val Key)

/-- The field in the Go struct of the other version, where Go struct fields are numbered differently. -/
def Field.at (f : Field) (slot : Nat) : Field := { f with slot := slot }

/-- `O` is an older version of `S`: its fields are some of the fields of `S`, with the same number, type
and oneof; the Go struct field with index `i` in `S` has the index `σ id i` in `O`. -/
structure Older (O S : Schema) (σ : Nat → Nat → Nat) : Prop where
  fields : ∀ id, ∀ g ∈ (O id).fields, ∃ f ∈ (S id).fields, g = f.at (σ id f.slot)
  apart : ∀ id, ∀ f ∈ (S id).fields, ∀ f' ∈ (S id).fields, σ id f.slot = σ id f'.slot → f.slot = f'.slot

mutual
/-- `Kept O S σ id v w`: the message `w` of the older type has the same content as the message `v` of the
newer type in all fields the older type knows; nested messages likewise. -/
inductive Kept (O S : Schema) (σ : Nat → Nat → Nat) : Nat → Val → Val → Prop
  | mk (id : Nat) (xs ys : List Val) : xs.length = (S id).nslots → ys.length = (O id).nslots →
      (∀ f ∈ (S id).fields, f.at (σ id f.slot) ∈ (O id).fields → ∀ x y, xs[f.slot]? = some x →
        ys[σ id f.slot]? = some y → KeptField O S σ f x y) → Kept O S σ id (.struct xs) (.struct ys)
/-- A field known to both.  If the newer value has the member `f` of a oneof set, then so has the older
one, and if it has no member set, then neither has the older one.  Nothing is said of a oneof whose
member set in the newer value is another one than `f`. -/
inductive KeptField (O S : Schema) (σ : Nat → Nat → Nat) : Field → Val → Val → Prop
  | plain (f : Field) (x y : Val) : f.member = none → KeptShape O S σ f.shape x y → KeptField O S σ f x y
  | unset (f : Field) : f.member ≠ none → KeptField O S σ f (.iface none) (.iface none)
  | setNil (f : Field) (w : Nat) : f.member = some w →
      KeptField O S σ f (.iface (some (w, none))) (.iface (some (w, none)))
  | set (f : Field) (w : Nat) (x y : Val) : f.member = some w → KeptShape O S σ f.shape x y →
      KeptField O S σ f (.iface (some (w, some x))) (.iface (some (w, some y)))
  | other (f : Field) (w w' : Nat) (x : Option Val) (y : Option (Nat × Option Val)) :
      f.member = some w → w' ≠ w → KeptField O S σ f (.iface (some (w', x))) (.iface y)
/-- The content of a field: equal up to the fields of messages in it that only the newer version knows. -/
inductive KeptShape (O S : Schema) (σ : Nat → Nat → Nat) : Shape → Val → Val → Prop
  | single (s : Scalar) (x : Val) : KeptShape O S σ (.single s) x x
  | optional (s : Scalar) (x : Val) : KeptShape O S σ (.optional s) x x
  | list (s : Scalar) (p : Bool) (x : Val) : KeptShape O S σ (.list s p) x x
  | map (k v : Scalar) (x : Val) : KeptShape O S σ (.map k v) x x
  | nilPtr (id : Nat) : KeptShape O S σ (.msg id true) (.ptr none) (.ptr none)
  | ptr (id : Nat) (v w : Val) : Kept O S σ id v w → KeptShape O S σ (.msg id true) (.ptr (some v)) (.ptr (some w))
  | inline (id : Nat) (v w : Val) : Kept O S σ id v w → KeptShape O S σ (.msg id false) v w
  | msgList (id : Nat) (p : Bool) (xs ys : List Val) : xs.length = ys.length →
      (∀ (i : Nat) (x y : Val), xs[i]? = some x → ys[i]? = some y → KeptShape O S σ (.msg id p) x y) →
      KeptShape O S σ (.msgList id p) (.slice xs) (.slice ys)
  | nilMap (k : Scalar) (id : Nat) (p : Bool) : KeptShape O S σ (.mapMsg k id p) (.map none) (.map none)
  | mapMsg (k : Scalar) (id : Nat) (p : Bool) (m m' : List (Key × Val)) : m.map (·.1) = m'.map (·.1) →
      (∀ (i : Nat) (e e' : Key × Val), m[i]? = some e → m'[i]? = some e' → KeptShape O S σ (.msg id p) e.2 e'.2) →
      KeptShape O S σ (.mapMsg k id p) (.map (some m)) (.map (some m'))
end

/-- Does the older version have the field? -/
def Known (O : Schema) (σ : Nat → Nat → Nat) (id : Nat) (f : Field) : Prop := f.at (σ id f.slot) ∈ (O id).fields

/-- The newer version adds fields, but no members to the oneofs of the older one, and a message is not held by
value in a field. -/
structure Grows (O S : Schema) (σ : Nat → Nat → Nat) : Prop where
  older : Older O S σ
  pointers : ∀ id, ∀ f ∈ (S id).fields, ∀ id', f.shape ≠ .msg id' false
  oneofs : ∀ id, ∀ f ∈ (S id).fields, ∀ f' ∈ (S id).fields, Known O σ id f → ¬ Known O σ id f' → f.slot ≠ f'.slot

/-- What it takes for messages of the newer version to pass unharmed through a program with the older one:
it stores unknown fields, too (except in message types without fields that do not store them in the newer
version either). -/
structure Relays (O S : Schema) (σ : Nat → Nat → Nat) : Prop extends Grows O S σ where
  keeps : ∀ id, (O id).unknown ≠ none ∨ ((S id).fields = [] ∧ (S id).unknown = none)

/-- The message holds nothing that the older version does not know. -/
def Bare (O S : Schema) (σ : Nat → Nat → Nat) (id : Nat) (v : Val) : Prop :=
  ∀ i xs, Reach S id v i (.struct xs) → (∀ f ∈ (S i).fields, ¬ Known O σ i f → xs[f.slot]? = some (f.zero S)) ∧ unknownOf (S i) xs = []

end Verif.Spec
