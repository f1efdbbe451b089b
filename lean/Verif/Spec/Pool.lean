import Verif.Model.DecodePool
import Verif.Spec.Regular
/-!
# Specification: pools in which every variable belongs to the pool it is in
-/
namespace Verif.Spec
open Verif.Model (GoType GoEnv Pools PoolEnv)

/-- The maps of the message types are those of protobuf: keys are integers, booleans or strings, values are not lists.
(Fields without a tag do not matter.) -/
def PlainMaps (env : GoEnv) : Prop :=
  ∀ d ∈ env.structs, ∀ gf, (gf ∈ d.fields ∧ gf.tag ≠ [] ∨ ∃ w ∈ d.wrappers, w.fields = [gf]) → ∀ k v, gf.type = .map k v →
    isKeyType k = true ∧ isList v = false

/-- Every variable in a pool belongs to the pool it is in, is there once, and is not in use.  Nothing is said about what the
variables contain. -/
structure PoolsOK (p : Pools) : Prop where
  type : ∀ t, ∀ a ∈ p.cells t, (p.vars a).type = t
  once : ∀ t, (p.cells t).Nodup
  free : ∀ t, ∀ a ∈ p.cells t, a < p.next ∧ a ∉ p.owned
  owned : ∀ a ∈ p.owned, a < p.next
  nodup : p.owned.Nodup

/-- Other goroutines leave the pools in this state, and do not touch the variables in use. -/
def Others (E : PoolEnv) : Prop :=
  ∀ n p, PoolsOK p → PoolsOK (E.adv n p) ∧ (E.adv n p).owned = p.owned ∧ ∀ a ∈ p.owned, (E.adv n p).vars a = p.vars a

end Verif.Spec
