import Verif.Model.TypeCache
/-!
# When a type should be accepted, without reference to any state
-/
namespace Verif.Spec
open Verif.Model Verif.Model.TypeCache

/-- The type of a field that is looked at. -/
def todoType : Todo → Option GoType
  | .field gf _ _ => some gf.type
  | _ => none

/-- The types a type refers to directly. -/
def kids (env : GoEnv) : GoType → List GoType
  | .map k v => [k, v]
  | .slice t => [t]
  | .ptr t => [t]
  | .struct i => (todo (decl env i)).filterMap todoType
  | _ => []

/-- The types a type refers to, itself included. -/
inductive Reaches (env : GoEnv) : GoType → GoType → Prop
  | refl (t : GoType) : Reaches env t t
  | step (t u v : GoType) : u ∈ kids env t → Reaches env u v → Reaches env t v

/-- The fields with their parsed tags, if all tags are well formed and all oneof wrappers are. -/
def initsOf : List Todo → Option (List FieldInit)
  | [] => some []
  | .bad :: _ => none
  | .noTag :: _ => none
  | .field gf slot oneof :: ts =>
    match parseStructTag gf.tag, initsOf ts with
    | .ok (p, tt), some fs => some (⟨gf, slot, oneof, p, tt⟩ :: fs)
    | _, _ => none

/-- The key fields are sorted by. -/
def FieldInit.key (f : FieldInit) : Int := f.p.id.toInt

/-- The fields of a struct type in the order of their numbers. -/
def fieldsOf (env : GoEnv) (i : Nat) : Option (List FieldInit) := (initsOf (todo (decl env i))).map (sortOn FieldInit.key)

/-- A type is well formed, not looking at the types it refers to. -/
def LocalOK (env : GoEnv) : GoType → Prop
  | .ptr t => t.isPointer = false
  | .struct i => ∃ fs, fieldsOf env i = some fs ∧ tablesOk fs = .ok ()
  | _ => True

/-- The fields of a struct type have types that go with their tags. -/
def FinalOK (env : GoEnv) (i : Nat) : Prop := ∃ fs, fieldsOf env i = some fs ∧ ∀ f ∈ fs, ∃ d, f.final = .ok d

/-- What is visited in the second pass: types, and the fields of struct types. -/
inductive Visit
  | type (t : GoType)
  | fields (i : Nat)
  deriving DecidableEq

/-- Key and element of a field's type. -/
def fieldVisits (t : GoType) : List Visit :=
  .type t :: match t with
    | .map k v => [.type k, .type v]
    | .slice u => [.type u]
    | .ptr u => [.type u]
    | _ => []

/-- What is visited next. -/
def visits (env : GoEnv) : Visit → List Visit
  | .type (.struct i) => [.fields i]
  | .type (.map _ v) => [.type v]
  | .type (.slice t) => [.type t]
  | .type (.ptr t) => [.type t]
  | .type _ => []
  | .fields i => ((fieldsOf env i).getD []).flatMap (fun f => fieldVisits f.gf.type)

/-- What is visited in the second pass. -/
inductive Visited (env : GoEnv) : Visit → Visit → Prop
  | refl (x : Visit) : Visited env x x
  | step (x y z : Visit) : y ∈ visits env x → Visited env y z → Visited env x z

/-- A struct type should be accepted: everything it refers to is well formed, and the fields of all message types
found through it have types that go with their tags. -/
def Accepts (env : GoEnv) (i : Nat) : Prop :=
  (∀ t, Reaches env (.struct i) t → LocalOK env t) ∧ ∀ j, Visited env (.fields i) (.fields j) → FinalOK env j

/-- No type refers to itself, directly or indirectly. -/
def Acyclic (env : GoEnv) : Prop := ∃ rank : GoType → Nat, ∀ t u, u ∈ kids env t → rank u < rank t

/-- The type object at address `a` describes the type `t`, as seen by the codec, completely: the objects for elements, keys, values and
fields are there, they describe the right types, and the fields have been finalized. -/
structure Describes (env : GoEnv) (σ : CState) (a : Nat) (t : GoType) (D : Nat → GoType → Prop) : Prop where
  rt : (σ.heap a).rt = t
  elem : ∀ u, t.elem = some u → ∃ b, (σ.heap a).v = some b ∧ D b u
  fields : ∀ i, t = .struct i → ∃ so fs, (σ.heap a).s = some so ∧ fieldsOf env i = some fs ∧ so.fields.map (·.init) = fs ∧
    ∀ f ∈ so.fields, (∃ d, f.init.final = .ok d ∧ f.desc = some d) ∧ D f.t f.init.gf.type ∧
      ∀ k v, f.init.gf.type = .map k v → ∃ b, (σ.heap f.t).k = some b ∧ D b k

/-- The object graph at `a` describes `t`. -/
def Faithful (env : GoEnv) (σ : CState) (a : Nat) (t : GoType) : Prop :=
  ∃ D : Nat → GoType → Prop, D a t ∧ ∀ b u, D b u → Describes env σ b u D

end Verif.Spec
