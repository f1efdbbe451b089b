import Verif.Spec.Decode
import Verif.Spec.Records
/-!
# Specification: input that has arrived completely

`io.ErrUnexpectedEOF` says that the input ends too early.  Here it is said when it does not: the input is
a sequence of records, and so are the messages and map entries in it, at every depth.
-/
namespace Verif.Spec
open Verif.Model (GoType Val Key)

mutual
/-- The bytes are a sequence of records, and what the records of declared fields hold is whole as well. -/
inductive Whole (S : Schema) : Nat → Bytes → Prop
  | mk (id : Nat) (b : Bytes) (rs : List Rec) : Splits b rs →
      (∀ r ∈ rs, ∀ f ∈ (S id).fields, f.num = r.num → r.typ = .len → ∀ p, IsLen r.val p → WholeIn S f.shape p) →
      Whole S id b
/-- The block `p` in a record of a field of the given shape. -/
inductive WholeIn (S : Schema) : Shape → Bytes → Prop
  | single (s : Scalar) (p : Bytes) : WholeIn S (.single s) p
  | optional (s : Scalar) (p : Bytes) : WholeIn S (.optional s) p
  | elem (s : Scalar) (p : Bytes) : WholeIn S (.list s false) p
  | packed (s : Scalar) (p : Bytes) (ys : List Val) : PackedDec s p ys → WholeIn S (.list s true) p
  | msg (id : Nat) (byPtr : Bool) (p : Bytes) : Whole S id p → WholeIn S (.msg id byPtr) p
  | msgList (id : Nat) (byPtr : Bool) (p : Bytes) : Whole S id p → WholeIn S (.msgList id byPtr) p
  /-- Entries of maps without booleans, and those with a decoder for all types. -/
  | map (ks vs : Scalar) (p : Bytes) (rs : List Rec) : (fastPair ks vs = true → ks ≠ .bool ∧ vs ≠ .bool) → Splits p rs →
      WholeIn S (.map ks vs) p
  /-- Entries of other maps: the key and the value are there. -/
  | mapRead (ks vs : Scalar) (kb vb rest : Bytes) (k y : Val) : fastPair ks vs = true → ScalarDec true ks kb k → ScalarDec true vs vb y →
      WholeIn S (.map ks vs) (tag 1 ks.wire ++ kb ++ (tag 2 vs.wire ++ vb) ++ rest)
  | mapMsg (ks : Scalar) (id : Nat) (byPtr : Bool) (p : Bytes) (rs : List Rec) : Splits p rs →
      (∀ r ∈ rs, r.num = 2 → r.typ = .len → ∀ q, IsLen r.val q → Whole S id q) → WholeIn S (.mapMsg ks id byPtr) p
end

end Verif.Spec
