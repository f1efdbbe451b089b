import Verif.Spec.Schema
import Verif.Spec.Output
/-!
# Specification: when two Go values are the same message
-/
namespace Verif.Spec
open Verif.Model (GoType Val Key)

/-- `MapPerm a b`: the Go values `a` and `b` are equal, except that the entries of maps are listed
in a different order (Go iterates over a map in an unspecified order). -/
inductive MapPerm : Val → Val → Prop
  | refl (v : Val) : MapPerm v v
  | ptr (a b : Val) : MapPerm a b → MapPerm (.ptr (some a)) (.ptr (some b))
  | slice (xs ys : List Val) : xs.length = ys.length →
      (∀ (i : Nat) (x y : Val), xs[i]? = some x → ys[i]? = some y → MapPerm x y) →
      MapPerm (.slice xs) (.slice ys)
  | map (m m1 m' : List (Key × Val)) : m.Perm m1 → m1.map (·.1) = m'.map (·.1) →
      (∀ (i : Nat) (e e' : Key × Val), m1[i]? = some e → m'[i]? = some e' → MapPerm e.2 e'.2) →
      MapPerm (.map (some m)) (.map (some m'))
  | struct (xs ys : List Val) : xs.length = ys.length →
      (∀ (i : Nat) (x y : Val), xs[i]? = some x → ys[i]? = some y → MapPerm x y) →
      MapPerm (.struct xs) (.struct ys)
  | iface (w : Nat) (a b : Val) : MapPerm a b →
      MapPerm (.iface (some (w, some a))) (.iface (some (w, some b)))

mutual
/-- No map in the value has more than one entry. -/
def noBigMaps : Val → Bool
  | .ptr (some v) => noBigMaps v
  | .slice xs => noBigMapsL xs
  | .struct xs => noBigMapsL xs
  | .map (some []) => true
  | .map (some [e]) => noBigMaps e.2
  | .map (some _) => false
  | .iface (some (_, some v)) => noBigMaps v
  | _ => true
def noBigMapsL : List Val → Bool
  | [] => true
  | v :: vs => noBigMaps v && noBigMapsL vs
end

/-- Scalars denoting the same protobuf value (a nil `[]byte` is an empty one). -/
def SameScalar : Val → Val → Prop
  | .bytes a, .bytes b => a.getD [] = b.getD []
  | a, b => a = b

mutual
/-- `Same S l id v w`: the Go struct values `v` and `w` are the same message of type `id`: they agree
in all fields and have the same unknown fields.  Go struct fields that are no part of the message
are ignored.  With `l` (lossy), a oneof set in `v` to a member that gives no record (see `recordCount`) may be
unset in `w`. -/
inductive Same (S : Schema) (l : Bool) : Nat → Val → Val → Prop
  | mk (id : Nat) (xs ys : List Val) : xs.length = (S id).nslots → ys.length = (S id).nslots →
      (∀ f ∈ (S id).fields, ∀ x y, xs[f.slot]? = some x → ys[f.slot]? = some y → SameField S l f x y) →
      unknownOf (S id) xs = unknownOf (S id) ys →
      Same S l id (.struct xs) (.struct ys)
/-- Two Go struct fields agree on field `f`: it is unset in both, or set to the same value. -/
inductive SameField (S : Schema) (l : Bool) : Field → Val → Val → Prop
  | unset (f : Field) (x y : Val) : f.content x = none → f.content y = none → SameField S l f x y
  | set (f : Field) (x y d e : Val) : f.content x = some d → f.content y = some e →
      SameShape S l f.shape d e → SameField S l f x y
  | lost (f : Field) (x y d : Val) : l = true → f.member ≠ none → f.content x = some d →
      recordCount S f.shape d = 0 → f.content y = none → SameField S l f x y
/-- Two values of a field are the same: bit for bit for scalars, element by element for lists, as
finite maps for maps, recursively for messages. -/
inductive SameShape (S : Schema) (l : Bool) : Shape → Val → Val → Prop
  | single (s : Scalar) (a b : Val) : SameScalar a b → SameShape S l (.single s) a b
  | absent (s : Scalar) : SameShape S l (.optional s) (.ptr none) (.ptr none)
  | optional (s : Scalar) (a b : Val) : SameScalar a b →
      SameShape S l (.optional s) (.ptr (some a)) (.ptr (some b))
  | list (s : Scalar) (p : Bool) (xs ys : List Val) : xs.length = ys.length →
      (∀ (i : Nat) (x y : Val), xs[i]? = some x → ys[i]? = some y → SameScalar x y) →
      SameShape S l (.list s p) (.slice xs) (.slice ys)
  | noMsg (id : Nat) : SameShape S l (.msg id true) (.ptr none) (.ptr none)
  | msgPtr (id : Nat) (a b : Val) : Same S l id a b →
      SameShape S l (.msg id true) (.ptr (some a)) (.ptr (some b))
  | msgInline (id : Nat) (a b : Val) : Same S l id a b → SameShape S l (.msg id false) a b
  | msgList (id : Nat) (p : Bool) (xs ys : List Val) : xs.length = ys.length →
      (∀ (i : Nat) (x y : Val), xs[i]? = some x → ys[i]? = some y →
        Same S l id (deref S id p x) (deref S id p y)) →
      SameShape S l (.msgList id p) (.slice xs) (.slice ys)
  | map (k v : Scalar) (m m1 m' : Option (List (Key × Val))) : (m.getD []).Perm (m1.getD []) →
      (m1.getD []).map (·.1) = (m'.getD []).map (·.1) →
      (∀ (i : Nat) (e e' : Key × Val), (m1.getD [])[i]? = some e → (m'.getD [])[i]? = some e' →
        SameScalar e.2 e'.2) →
      SameShape S l (.map k v) (.map m) (.map m')
  | mapMsg (k : Scalar) (id : Nat) (p : Bool) (m m1 m' : Option (List (Key × Val))) :
      (m.getD []).Perm (m1.getD []) → (m1.getD []).map (·.1) = (m'.getD []).map (·.1) →
      (∀ (i : Nat) (e e' : Key × Val), (m1.getD [])[i]? = some e → (m'.getD [])[i]? = some e' →
        Same S l id (deref S id p e.2) (deref S id p e'.2)) →
      SameShape S l (.mapMsg k id p) (.map m) (.map m')
end

end Verif.Spec
