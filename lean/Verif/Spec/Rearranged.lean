import Verif.Spec.Retyped
import Verif.Spec.Narrowed
/-!
# Specification: Go types that differ in the order of their fields
-/
namespace Verif.Spec

/-- `T` has the fields of `S`, with the same numbers and the same or wider types, but the Go struct fields may have any order,
there may be further Go fields without tags, and members of oneofs may have other wrapper types, or be fields of their own. -/
structure Rearranged (S T : Schema) : Prop where
  length : ∀ id, (S id).fields.length = (T id).fields.length
  fields : ∀ id, ∀ p ∈ (S id).fields.zip (T id).fields, p.2.num = p.1.num ∧ ShapeChange p.1.shape p.2.shape

/-- `S` has the fields of `T`, with the same numbers and types, in the same oneofs; only the Go struct fields may have another
order, and there may be further Go fields without tags. -/
structure Reordered (T S : Schema) : Prop where
  length : ∀ id, (T id).fields.length = (S id).fields.length
  fields : ∀ id, ∀ p ∈ (T id).fields.zip (S id).fields, p.2.num = p.1.num ∧ p.2.member = p.1.member ∧ p.2.shape = p.1.shape
  oneofs : ∀ id, ∀ p ∈ (T id).fields.zip (S id).fields, ∀ q ∈ (T id).fields.zip (S id).fields,
    p.1.slot = q.1.slot ↔ p.2.slot = q.2.slot

end Verif.Spec
