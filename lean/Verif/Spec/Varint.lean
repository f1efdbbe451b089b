import Verif.Basic
/-!
# Specification: base-128 varints, zigzag, little-endian words

Independent of the model: everything is arithmetic on `Nat`/`Int`
(see https://protobuf.dev/programming-guides/encoding).
-/
namespace Verif.Spec

/-- The canonical (shortest) base-128 encoding of a natural number, least significant group
first, continuation bit (128) on every byte but the last. -/
def varint (n : Nat) : Bytes :=
  if n < 128 then [BitVec.ofNat 8 n]
  else BitVec.ofNat 8 (n % 128 + 128) :: varint (n / 128)
termination_by n
decreasing_by omega

/-- `IsVarint bs n`: `bs` is a (possibly padded) base-128 encoding of `n`, of any length. -/
inductive IsVarint : Bytes → Nat → Prop
  | last (b : Byte) : b.toNat < 128 → IsVarint [b] b.toNat
  | more (b : Byte) (bs : Bytes) (n : Nat) :
      128 ≤ b.toNat → IsVarint bs n → IsVarint (b :: bs) (b.toNat - 128 + 128 * n)

/-- Zigzag: 0, -1, 1, -2, 2, ... are numbered 0, 1, 2, 3, 4, ... -/
def zigzag (i : Int) : Nat := if 0 ≤ i then (2 * i).toNat else (-2 * i - 1).toNat

/-- The inverse numbering. -/
def unzigzag (n : Nat) : Int := if n % 2 = 0 then (n / 2 : Nat) else -((n / 2 : Nat) : Int) - 1

/-- `k` little-endian bytes of `n`. -/
def le : Nat → Nat → Bytes
  | 0, _ => []
  | k + 1, n => BitVec.ofNat 8 n :: le k (n / 256)

/-- The number denoted by little-endian bytes. -/
def leVal : Bytes → Nat
  | [] => 0
  | b :: bs => b.toNat + 256 * leVal bs

/-- Wire types of the protobuf encoding. -/
inductive WireType | varint | i64 | len | sgroup | egroup | i32
  deriving DecidableEq, Repr

/-- Their numbers on the wire. -/
def WireType.code : WireType → Nat
  | .varint => 0 | .i64 => 1 | .len => 2 | .sgroup => 3 | .egroup => 4 | .i32 => 5

/-- The key of a record: field number and wire type. -/
def key (num : Nat) (t : WireType) : Nat := 8 * num + t.code

/-- The tag of a record. -/
def tag (num : Nat) (t : WireType) : Bytes := varint (key num t)

/-- A length-delimited payload. -/
def lenDelim (payload : Bytes) : Bytes := varint payload.length ++ payload

end Verif.Spec
