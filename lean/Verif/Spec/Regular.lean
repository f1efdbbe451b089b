import Verif.Spec.Types
/-!
# Specification: Go struct types with ordinary fields, and their values

`Regular` speaks of the Go types of the fields and says very little about the tags; `GoTyped` is the typing of Go
values by Go types.  Neither refers to a schema.
-/
namespace Verif.Spec
open Verif.Model (GoType Val Key GoField StructDecl GoEnv)

/-- The Go types of single scalars. -/
def isBasic : GoType → Bool
  | .bool | .int32 | .int64 | .uint32 | .uint64 | .float32 | .float64 | .string | .bytes => true
  | _ => false

/-- The Go types of map keys. -/
def isKeyType : GoType → Bool
  | .bool | .int32 | .int64 | .uint32 | .uint64 | .string => true
  | _ => false

/-- `M` or `*M`. -/
def isMsgType : GoType → Bool
  | .struct _ | .ptr (.struct _) => true
  | _ => false

/-- The Go types generated code and hand-written messages use for fields: `T`, `*T`, `M`, `*M`, `[]T`, `[]M`, `[]*M`,
`map[K]T`, `map[K]M`, `map[K]*M`. -/
def regularType : GoType → Bool
  | .slice t => isBasic t || isMsgType t
  | .map k v => isKeyType k && (isBasic v || isMsgType v)
  | .ptr (.struct _) => true
  | .ptr t => isBasic t
  | .struct _ => true
  | t => isBasic t

/-- The tag names at least one positive number, not the number 0, and - if `rep` - says that the field is repeated.
(Nothing is said about encodings, about `packed`, or about how many numbers there are.) -/
def TidyTag (rep : Bool) (tag : List Char) : Prop :=
  ∃ ws, tag = joinComma ws ∧ (∀ w ∈ ws, IsWord w) ∧ (∃ w ∈ ws, ∃ n, 1 ≤ n ∧ IsDecimal w n) ∧
    (∀ w ∈ ws, ¬ IsDecimal w 0) ∧ (rep = true → "rep".toList ∈ ws)

/-- Is the type a slice other than `[]byte`? -/
def isList : GoType → Bool
  | .slice _ => true
  | _ => false

/-- The zero value of a Go type. -/
def goZero (env : GoEnv) : GoType → Val
  | .bool => .bool false
  | .int32 | .uint32 | .float32 => .w32 0#32
  | .int64 | .uint64 | .float64 => .w64 0#64
  | .string => .str []
  | .bytes => .bytes none
  | .ptr _ => .ptr none
  | .slice _ => .slice []
  | .map _ _ => .map none
  | .struct id => (env.structs[id]?.getD default).zero
  | .iface => .iface none
  | .other _ => .opaque 0

/-- A struct type with ordinary fields: tagged fields have ordinary types, lists say `rep`; a oneof wrapper holds `T`,
`*M` or `M`; the storage of unknown fields has no tag; what has a oneof tag is an interface; and the zero value is that of
Go. -/
structure RegularStruct (env : GoEnv) (d : StructDecl) : Prop where
  types : ∀ gf ∈ d.fields, gf.tag ≠ [] → regularType gf.type = true ∧ TidyTag (isList gf.type) gf.tag
  members : ∀ w ∈ d.wrappers, ∀ gf, w.fields = [gf] →
    (isBasic gf.type = true ∨ (∃ id, gf.type = .ptr (.struct id)) ∨ ∃ id, gf.type = .struct id) ∧ TidyTag false gf.tag
  ids : (d.wrappers.map (·.id)).Nodup
  storage : ∀ gf ∈ d.fields, gf.name = "unknownFields".toList ∨ gf.name = "XXX_unrecognized".toList → gf.tag = []
  oneofs : ∀ gf ∈ d.fields, gf.tag = [] → gf.oneofTag ≠ [] → gf.type = .iface
  zero : d.zero = .struct (d.fields.map (fun gf => goZero env gf.type))

/-- All struct types have ordinary fields. -/
def Regular (env : GoEnv) : Prop := ∀ d ∈ env.structs, RegularStruct env d

mutual
/-- `v` is a Go value of type `t`. -/
inductive GoTyped (env : GoEnv) : GoType → Val → Prop
  | basic (t : GoType) (v : Val) : t.holds v = true → GoTyped env t v
  | ptrNil (t : GoType) : GoTyped env (.ptr t) (.ptr none)
  | ptr (t : GoType) (v : Val) : GoTyped env t v → GoTyped env (.ptr t) (.ptr (some v))
  | slice (t : GoType) (xs : List Val) : (∀ x ∈ xs, GoTyped env t x) → GoTyped env (.slice t) (.slice xs)
  | mapNil (k t : GoType) : GoTyped env (.map k t) (.map none)
  | map (k t : GoType) (m : List (Key × Val)) : (m.map (·.1)).Nodup → (∀ e ∈ m, k.holds e.1.toVal = true) →
      (∀ e ∈ m, GoTyped env t e.2) → GoTyped env (.map k t) (.map (some m))
  | struct (id : Nat) (xs : List Val) : xs.length = (env.structs[id]?.getD (default : StructDecl)).fields.length →
      (∀ (i : Nat) (gf : GoField) (x : Val), (env.structs[id]?.getD default).fields[i]? = some gf → xs[i]? = some x →
        SlotTyped env (env.structs[id]?.getD default) gf.type x) →
      GoTyped env (.struct id) (.struct xs)
  | other (n : Nat) (v : Val) : GoTyped env (.other n) v
/-- `x` is the content of a struct field of type `t`: an interface holds nil, a nil pointer, or a pointer to a struct;
if that is one of the oneof wrappers then its field has the right type. -/
inductive SlotTyped (env : GoEnv) : StructDecl → GoType → Val → Prop
  | value (d : StructDecl) (t : GoType) (x : Val) : t ≠ .iface → GoTyped env t x → SlotTyped env d t x
  | unset (d : StructDecl) : SlotTyped env d .iface (.iface none)
  | nilPtr (d : StructDecl) (w : Nat) : SlotTyped env d .iface (.iface (some (w, none)))
  | set (d : StructDecl) (w : Nat) (x : Val) : (∀ wr ∈ d.wrappers, wr.id = w → ∀ gf : GoField, wr.fields = [gf] → GoTyped env gf.type x) →
      SlotTyped env d .iface (.iface (some (w, some x)))
end

end Verif.Spec
