import Verif.Spec.Decode
/-!
# Specification: what a failing decoder leaves in the message

`LeftMsg S d id b v w`: the bytes `b` cannot be decoded into the message `v` of type `id`, and the attempt leaves `w`.
The records in front of the first bad one have been decoded; the first bad one may have changed the Go struct field of
its own field number, in the way `LeftShape` says, and nothing else.
-/
namespace Verif.Spec
open Verif.Model (Val Key)

/-- `k` is the varint key of a record with this field number and this wire type (one of the eight there is room for). -/
def StartsField (k : Bytes) (num typ : Nat) : Prop := ∃ m, IsVarint64 k m ∧ m / 8 = num ∧ m % 8 = typ

/-- A value in memory just allocated: numbers and booleans are anything, strings and byte slices are empty. -/
def JustAllocated (S : Schema) (s : Scalar) (z : Val) : Prop :=
  s.goType.holds z = true ∧ (s.packable = false → z = Shape.zero S (.single s))

/-- The content of a oneof member just allocated. -/
def MemberStart (S : Schema) : Shape → Val → Prop
  | .single s, z => JustAllocated S s z
  | sh, z => z = Shape.zero S sh

/-- A map after an entry that cannot be decoded: as before, except that a nil map may have become an empty one. -/
def MapKept (x y : Val) : Prop := y = x ∨ (x = .map none ∧ y = .map (some []))

/-- A message held by pointer or by value. -/
def wrapMsg (p : Bool) (m : Val) : Val := if p then .ptr (some m) else m

mutual
inductive LeftMsg (S : Schema) : Int → Nat → Bytes → Val → Val → Prop
  /-- Too deep: nothing is touched. -/
  | tooDeep (id : Nat) (b : Bytes) (v : Val) : LeftMsg S 0 id b v v
  /-- `pre` is decoded, and no longer beginning of the input can be. -/
  | stops (d : Int) (id : Nat) (pre rest : Bytes) (xs ys zs : List Val) : d ≠ 0 → rest ≠ [] →
      DecRecs S d id pre (clearUnknown (S id) xs) ys →
      (∀ pre' suf ws, pre ++ rest = pre' ++ suf → DecRecs S d id pre' (clearUnknown (S id) xs) ws → pre'.length ≤ pre.length) →
      LeftRec S d id rest ys zs → LeftMsg S d id (pre ++ rest) (.struct xs) (.struct zs)
/-- The Go struct fields before and after the attempt to decode the record at the start of the bytes. -/
inductive LeftRec (S : Schema) : Int → Nat → Bytes → List Val → List Val → Prop
  | undeclared (d : Int) (id : Nat) (b : Bytes) (xs : List Val) :
      (∀ f ∈ (S id).fields, ∀ k post typ, b = k ++ post → ¬ StartsField k f.num typ) → LeftRec S d id b xs xs
  | field (d : Int) (id : Nat) (f : Field) (k post : Bytes) (typ : Nat) (xs : List Val) (x y : Val) :
      f ∈ (S id).fields → StartsField k f.num typ → xs[f.slot]? = some x → LeftField S d f typ post x y →
      LeftRec S d id (k ++ post) xs (xs.set f.slot y)
/-- The Go struct field of the field before and after. -/
inductive LeftField (S : Schema) : Int → Field → Nat → Bytes → Val → Val → Prop
  | plain (d : Int) (f : Field) (typ : Nat) (b : Bytes) (x y : Val) : f.member = none →
      LeftShape S d f.shape typ b x y → LeftField S d f typ b x y
  | member (d : Int) (f : Field) (typ : Nat) (b : Bytes) (w : Nat) (x z y : Val) : f.member = some w →
      MemberStart S f.shape z → LeftShape S d f.shape typ b z y → LeftField S d f typ b x (.iface (some (w, some y)))
inductive LeftShape (S : Schema) : Int → Shape → Nat → Bytes → Val → Val → Prop
  /-- A plain scalar keeps its value. -/
  | single (d : Int) (s : Scalar) (typ : Nat) (b : Bytes) (x : Val) : LeftShape S d (.single s) typ b x x
  /-- An optional scalar points to memory just allocated. -/
  | optional (d : Int) (s : Scalar) (typ : Nat) (b : Bytes) (x z : Val) : JustAllocated S s z →
      LeftShape S d (.optional s) typ b x (.ptr (some z))
  /-- A bad packed block leaves the list as it is. -/
  | packed (d : Int) (s : Scalar) (b : Bytes) (x : Val) : LeftShape S d (.list s true) 2 b x x
  /-- A bad element leaves the list with an additional element, of any value. -/
  | elem (d : Int) (s : Scalar) (p : Bool) (typ : Nat) (b : Bytes) (xs : List Val) (z : Val) : (typ = 2 → p = false) →
      s.goType.holds z = true → LeftShape S d (.list s p) typ b (.slice xs) (.slice (xs ++ [z]))
  | msgPtr (d : Int) (id : Nat) (typ : Nat) (b : Bytes) (x m : Val) : LeftSub S d id typ b (S id).zero m →
      LeftShape S d (.msg id true) typ b x (.ptr (some m))
  | msgInline (d : Int) (id : Nat) (typ : Nat) (b : Bytes) (x m : Val) : LeftSub S d id typ b x m →
      LeftShape S d (.msg id false) typ b x m
  /-- A bad element of a list of messages leaves the list with an additional message: what could be decoded of it. -/
  | msgElem (d : Int) (id : Nat) (p : Bool) (typ : Nat) (b : Bytes) (xs : List Val) (m : Val) :
      LeftSub S d id typ b (S id).zero m →
      LeftShape S d (.msgList id p) typ b (.slice xs) (.slice (xs ++ [wrapMsg p m]))
  | mapFast (d : Int) (ks vs : Scalar) (typ : Nat) (b : Bytes) (x : Val) : fastPair ks vs = true →
      LeftShape S d (.map ks vs) typ b x x
  | map (d : Int) (ks vs : Scalar) (typ : Nat) (b : Bytes) (x y : Val) : fastPair ks vs = false → MapKept x y →
      LeftShape S d (.map ks vs) typ b x y
  | mapMsg (d : Int) (ks : Scalar) (id : Nat) (p : Bool) (typ : Nat) (b : Bytes) (x y : Val) : MapKept x y →
      LeftShape S d (.mapMsg ks id p) typ b x y
/-- A nested message. -/
inductive LeftSub (S : Schema) : Int → Nat → Nat → Bytes → Val → Val → Prop
  /-- The value is not a complete block. -/
  | cut (d : Int) (id typ : Nat) (b : Bytes) (v : Val) :
      (typ ≠ 2 ∨ ∀ blk rest p, b = blk ++ rest → ¬ IsLen blk p) → LeftSub S d id typ b v v
  | inside (d : Int) (id : Nat) (blk rest p : Bytes) (v w : Val) : IsLen blk p → LeftMsg S (d - 1) id p v w →
      LeftSub S d id 2 (blk ++ rest) v w
end

/-- Decoding a record of this field never makes memory visible before it is written: not a list of scalars, and neither an
optional number nor a oneof member that is a number. -/
def Settled (f : Field) : Prop :=
  match f.shape with
  | .single s => f.member = none ∨ s.packable = false
  | .optional s => s.packable = false
  | .list _ _ => False
  | _ => True

/-- The memory behaves: it holds values of the types asked for. -/
def JunkTyped (J : Bytes → Model.GoType → Val) : Prop := ∀ b (s : Scalar), s.goType.holds (J b s.goType) = true

end Verif.Spec
