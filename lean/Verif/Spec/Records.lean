import Verif.Spec.Schema
import Verif.Spec.Grammar
/-!
# Specification: the records of a byte string
-/
namespace Verif.Spec
open Verif.Model (GoType Val Key)

/-- A record: field number, wire type, the bytes of its key and the bytes of its value. -/
structure Rec where
  num : Nat
  typ : WireType
  key : Bytes
  val : Bytes

/-- The bytes of a record. -/
def Rec.raw (r : Rec) : Bytes := r.key ++ r.val

/-- The record is well formed (groups in it may be nested to any depth). -/
def Rec.OK (r : Rec) : Prop := IsKey r.key r.num r.typ ∧ ∃ d, IsValue d r.num r.typ r.val

/-- The bytes of a sequence of records. -/
def rawOf (rs : List Rec) : Bytes := (rs.map Rec.raw).flatten

/-- `Splits b rs`: the byte string `b` is the sequence of the records `rs`. -/
def Splits (b : Bytes) (rs : List Rec) : Prop := b = rawOf rs ∧ ∀ r ∈ rs, r.OK

/-- Is the number one of a declared field? -/
def Message.declares (m : Message) (num : Nat) : Bool := m.fields.any (fun f => f.num == num)

/-- Two struct values agree outside the storage of unknown fields. -/
def AgreeKnown (m : Message) (xs ys : List Val) : Prop :=
  xs.length = ys.length ∧ ∀ i, (∀ p, m.unknown ≠ some (i, p)) → xs[i]? = ys[i]?

end Verif.Spec
