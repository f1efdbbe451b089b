import Verif.Spec.Varint
/-!
# Specification: the grammar of protobuf wire data

A byte string is described by relations that only mention concatenation; no parser is involved.
-/
namespace Verif.Spec

/-- An encoded 64-bit varint: at most ten bytes, value below 2^64. -/
def IsVarint64 (bs : Bytes) (n : Nat) : Prop := IsVarint bs n ∧ bs.length ≤ 10 ∧ n < 2 ^ 64

/-- A concatenation of 64-bit varints. -/
inductive VarintSeq : Bytes → List Nat → Prop
  | nil : VarintSeq [] []
  | cons (pre rest : Bytes) (n : Nat) (ns : List Nat) :
      IsVarint64 pre n → VarintSeq rest ns → VarintSeq (pre ++ rest) (n :: ns)

/-- The key in front of a record: a varint holding `8 * number + wire type`; the number is
positive and fits `int32`. -/
def IsKey (bs : Bytes) (num : Nat) (t : WireType) : Prop :=
  IsVarint64 bs (key num t) ∧ 1 ≤ num ∧ num < 2 ^ 31

/-- A length-delimited block holding `payload`. -/
def IsLen (bs payload : Bytes) : Prop :=
  ∃ pre, IsVarint64 pre payload.length ∧ bs = pre ++ payload

mutual
/-- `IsValue d num t bs`: `bs` is one well-formed value of wire type `t` in a record of field
`num`, with groups nested at most `d` deep. -/
inductive IsValue : Nat → Nat → WireType → Bytes → Prop
  | varint (d num : Nat) (bs : Bytes) (n : Nat) : IsVarint64 bs n → IsValue d num .varint bs
  | i64 (d num : Nat) (bs : Bytes) : bs.length = 8 → IsValue d num .i64 bs
  | i32 (d num : Nat) (bs : Bytes) : bs.length = 4 → IsValue d num .i32 bs
  | len (d num : Nat) (bs payload : Bytes) : IsLen bs payload → IsValue d num .len bs
  | group (d num : Nat) (body e : Bytes) :
      IsRecords d body → IsKey e num .egroup → IsValue (d + 1) num .sgroup (body ++ e)
/-- `IsRecords d bs`: `bs` is a sequence of records (key and value). -/
inductive IsRecords : Nat → Bytes → Prop
  | nil (d : Nat) : IsRecords d []
  | cons (d num : Nat) (t : WireType) (k v rest : Bytes) :
      IsKey k num t → IsValue d num t v → IsRecords d rest → IsRecords d (k ++ v ++ rest)
end

end Verif.Spec
