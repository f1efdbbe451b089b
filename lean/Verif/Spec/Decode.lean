import Verif.Spec.Schema
import Verif.Spec.Grammar
/-!
# Specification: what decoding a byte string into a message means

A relation between the bytes, the target before and the target after, by cases on the records.  It
describes the library's rules, including those that are not protobuf's (see DESIGN.md); which of
them are protobuf's rules is the subject of the properties.
-/
namespace Verif.Spec
open Verif.Model (GoType Val Key)

/-- The value bytes `v` (without key) hold the scalar `d`.  Booleans are read in two ways: as one
byte that is true if it is not zero (`oneByte`), or as a varint of which only the lowest bit
counts. -/
def ScalarDec (oneByte : Bool) : Scalar → Bytes → Val → Prop
  | .int32, v, d => ∃ n, IsVarint64 v n ∧ d = .w32 (BitVec.ofNat 32 n)
  | .uint32, v, d => ∃ n, IsVarint64 v n ∧ d = .w32 (BitVec.ofNat 32 n)
  | .int64, v, d => ∃ n, IsVarint64 v n ∧ d = .w64 (BitVec.ofNat 64 n)
  | .uint64, v, d => ∃ n, IsVarint64 v n ∧ d = .w64 (BitVec.ofNat 64 n)
  | .sint32, v, d => ∃ n, IsVarint64 v n ∧ d = .w32 (BitVec.ofInt 32 (unzigzag n))
  | .sint64, v, d => ∃ n, IsVarint64 v n ∧ d = .w64 (BitVec.ofInt 64 (unzigzag n))
  | .fixed32, v, d => v.length = 4 ∧ d = .w32 (BitVec.ofNat 32 (leVal v))
  | .sfixed32, v, d => v.length = 4 ∧ d = .w32 (BitVec.ofNat 32 (leVal v))
  | .float, v, d => v.length = 4 ∧ d = .w32 (BitVec.ofNat 32 (leVal v))
  | .fixed64, v, d => v.length = 8 ∧ d = .w64 (BitVec.ofNat 64 (leVal v))
  | .sfixed64, v, d => v.length = 8 ∧ d = .w64 (BitVec.ofNat 64 (leVal v))
  | .double, v, d => v.length = 8 ∧ d = .w64 (BitVec.ofNat 64 (leVal v))
  | .bool, v, d =>
    if oneByte then ∃ c : Byte, v = [c] ∧ d = .bool (c != 0#8)
    else ∃ n, IsVarint64 v n ∧ d = .bool (n % 2 == 1)
  | .string, v, d => ∃ p, IsLen v p ∧ d = .str p
  | .bytes, v, d => ∃ p, IsLen v p ∧ d = .bytes (some p)

/-- A packed block: the elements one after the other. -/
inductive PackedDec (s : Scalar) : Bytes → List Val → Prop
  | nil : PackedDec s [] []
  | cons (v rest : Bytes) (y : Val) (ys : List Val) : ScalarDec true s v y → PackedDec s rest ys →
      PackedDec s (v ++ rest) (y :: ys)

/-- Pairs of key and value types with a decoder of their own, which reads booleans as one byte. -/
def fastPair (k v : Scalar) : Bool :=
  k != .string && k != .bytes && v != .string && v != .bytes &&
    !(v == .int32 && (k == .uint32 || k == .bool))

/-- Adding an entry to a map: it replaces the entry with the same key if there is one. -/
def putEntry (m : List (Key × Val)) (k : Key) (v : Val) : List (Key × Val) :=
  match m with
  | [] => [(k, v)]
  | e :: m => if e.1 = k then (k, v) :: m else e :: putEntry m k v

/-- Empty the storage of unknown fields. -/
def clearUnknown (m : Message) (slots : List Val) : List Val :=
  match m.unknown with
  | none => slots
  | some (s, _) => match slots[s]? with
    | some (.bytes (some _)) => slots.set s (.bytes (some []))
    | some (.ptr (some (.bytes (some _)))) => slots.set s (.ptr (some (.bytes (some []))))
    | _ => slots

/-- Add a record to the storage of unknown fields. -/
def addUnknown (m : Message) (slots : List Val) (raw : Bytes) : List Val :=
  match m.unknown with
  | none => slots
  | some (s, false) => slots.set s (.bytes (some (unknownOf m slots ++ raw)))
  | some (s, true) => slots.set s (.ptr (some (.bytes (some (unknownOf m slots ++ raw)))))

mutual
/-- `Decodes S d id b v w`: decoding `b` into the message `v` of type `id` gives `w`, with a depth
budget of `d`. -/
inductive Decodes (S : Schema) : Int → Nat → Bytes → Val → Val → Prop
  | mk (d : Int) (id : Nat) (b : Bytes) (xs ys : List Val) : d ≠ 0 →
      DecRecs S d id b (clearUnknown (S id) xs) ys → Decodes S d id b (.struct xs) (.struct ys)
/-- The records one after the other. -/
inductive DecRecs (S : Schema) : Int → Nat → Bytes → List Val → List Val → Prop
  | nil (d : Int) (id : Nat) (xs : List Val) : DecRecs S d id [] xs xs
  | unknown (d : Int) (id num : Nat) (t : WireType) (k v rest : Bytes) (xs ys : List Val) :
      IsKey k num t → (∀ f ∈ (S id).fields, f.num ≠ num) → IsValue 10001 num t v →
      DecRecs S d id rest (addUnknown (S id) xs (k ++ v)) ys →
      DecRecs S d id (k ++ v ++ rest) xs ys
  | field (d : Int) (id : Nat) (f : Field) (t : WireType) (k v rest : Bytes) (xs : List Val)
      (x y : Val) (ys : List Val) :
      f ∈ (S id).fields → IsKey k f.num t → xs[f.slot]? = some x → DecField S d f t v x y →
      DecRecs S d id rest (xs.set f.slot y) ys → DecRecs S d id (k ++ v ++ rest) xs ys
/-- A record of a declared field: its wire type, its value bytes, and the Go struct field before and
after. -/
inductive DecField (S : Schema) : Int → Field → WireType → Bytes → Val → Val → Prop
  | plain (d : Int) (f : Field) (t : WireType) (v : Bytes) (x y : Val) : f.member = none →
      DecShape S d f.shape t v x y → DecField S d f t v x y
  | member (d : Int) (f : Field) (t : WireType) (v : Bytes) (w : Nat) (x : Option (Nat × Option Val))
      (y : Val) : f.member = some w → DecShape S d f.shape t v (f.shape.zero S) y →
      DecField S d f t v (.iface x) (.iface (some (w, some y)))
/-- A record of a field of the given shape. -/
inductive DecShape (S : Schema) : Int → Shape → WireType → Bytes → Val → Val → Prop
  | single (d : Int) (s : Scalar) (v : Bytes) (x y : Val) : ScalarDec false s v y →
      DecShape S d (.single s) s.wire v x y
  | optional (d : Int) (s : Scalar) (v : Bytes) (x y : Val) : ScalarDec false s v y →
      DecShape S d (.optional s) s.wire v x (.ptr (some y))
  | elem (d : Int) (s : Scalar) (p : Bool) (v : Bytes) (xs : List Val) (y : Val) :
      ScalarDec false s v y → DecShape S d (.list s p) s.wire v (.slice xs) (.slice (xs ++ [y]))
  | packed (d : Int) (s : Scalar) (v p : Bytes) (x : Val) (ys : List Val) :
      IsLen v p → PackedDec s p ys → DecShape S d (.list s true) .len v x (.slice ys)
  | msgPtr (d : Int) (id : Nat) (v p : Bytes) (x m : Val) : IsLen v p →
      Decodes S (d - 1) id p (S id).zero m → DecShape S d (.msg id true) .len v x (.ptr (some m))
  | msgInline (d : Int) (id : Nat) (v p : Bytes) (x m : Val) : IsLen v p →
      Decodes S (d - 1) id p x m → DecShape S d (.msg id false) .len v x m
  | msgElemPtr (d : Int) (id : Nat) (v p : Bytes) (xs : List Val) (m : Val) : IsLen v p →
      Decodes S (d - 1) id p (S id).zero m →
      DecShape S d (.msgList id true) .len v (.slice xs) (.slice (xs ++ [.ptr (some m)]))
  | msgElemInline (d : Int) (id : Nat) (v p : Bytes) (xs : List Val) (m : Val) : IsLen v p →
      Decodes S (d - 1) id p (S id).zero m →
      DecShape S d (.msgList id false) .len v (.slice xs) (.slice (xs ++ [m]))
  | entry (d : Int) (ks vs : Scalar) (v kb vb rest : Bytes) (m : Option (List (Key × Val))) (k : Key)
      (y : Val) : IsLen v (tag 1 ks.wire ++ kb ++ (tag 2 vs.wire ++ vb) ++ rest) →
      ScalarDec (fastPair ks vs) ks kb k.toVal → ScalarDec (fastPair ks vs) vs vb y →
      DecShape S d (.map ks vs) .len v (.map m) (.map (some (putEntry (m.getD []) k y)))
  | entryPtr (d : Int) (ks : Scalar) (id : Nat) (v kb vb rest p : Bytes)
      (m : Option (List (Key × Val))) (k : Key) (y : Val) :
      IsLen v (tag 1 ks.wire ++ kb ++ (tag 2 .len ++ vb) ++ rest) →
      ScalarDec false ks kb k.toVal → IsLen vb p → Decodes S (d - 2) id p (S id).zero y →
      DecShape S d (.mapMsg ks id true) .len v (.map m)
        (.map (some (putEntry (m.getD []) k (.ptr (some y)))))
  | entryInline (d : Int) (ks : Scalar) (id : Nat) (v kb vb rest p : Bytes)
      (m : Option (List (Key × Val))) (k : Key) (y : Val) :
      IsLen v (tag 1 ks.wire ++ kb ++ (tag 2 .len ++ vb) ++ rest) →
      ScalarDec false ks kb k.toVal → IsLen vb p → Decodes S (d - 2) id p (S id).zero y →
      DecShape S d (.mapMsg ks id false) .len v (.map m) (.map (some (putEntry (m.getD []) k y)))
end

/-- The value bytes `v` of a record of a map field hold the entry `k`, `y`. -/
def IsEntry (S : Schema) (d : Int) : Shape → Bytes → Key → Val → Prop
  | .map ks vs, v, k, y => ∃ kb vb rest, IsLen v (tag 1 ks.wire ++ kb ++ (tag 2 vs.wire ++ vb) ++ rest) ∧
      ScalarDec (fastPair ks vs) ks kb k.toVal ∧ ScalarDec (fastPair ks vs) vs vb y
  | .mapMsg ks id byPtr, v, k, y => ∃ kb vb rest p m,
      IsLen v (tag 1 ks.wire ++ kb ++ (tag 2 .len ++ vb) ++ rest) ∧ ScalarDec false ks kb k.toVal ∧
      IsLen vb p ∧ Decodes S (d - 2) id p (S id).zero m ∧ y = if byPtr then .ptr (some m) else m
  | _, _, _, _ => False

/-- The wire types a field of this shape may have. -/
def Shape.accepts : Shape → WireType → Bool
  | .single s, t => t = s.wire
  | .optional s, t => t = s.wire
  | .list s packed, t => t = s.wire || (packed && t = .len)
  | _, t => t = .len

end Verif.Spec
