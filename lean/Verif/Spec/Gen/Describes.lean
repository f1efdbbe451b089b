import Verif.Spec.Gen.Field
import Verif.Spec.Gen.Switches
import Verif.Spec.Gen.Scope
import Verif.Spec.Gen.Names
import Verif.Spec.Gen.Declared
import Verif.Model.Gen.Code
/-!
# Specification: the schema that a set of files describes

By the rules of the protobuf language.  Message types are numbered by a list `decls` of all messages of all files.
-/
namespace Verif.Spec.Gen
open Verif.Model.Gen

/-- What the name of a type refers to. -/
inductive Content
  | scalar (s : Scalar)
  | enum
  | message (id : Nat)
  deriving DecidableEq

/-- Enum values are numbers. -/
def Content.asScalar : Content → Option Scalar
  | .scalar s => some s
  | .enum => some .int32
  | .message _ => none

/-- The name of a type, used in file `f` in message `c`, refers to this. -/
inductive Denotes (W : World) (pkg : Nat → List Str) (decls : List (Nat × Chain)) (f : Nat) (c : Chain) (typ : Str) : Content → Prop
  | scalar (s : Scalar) : typ = keyword s → Denotes W pkg decls f c typ (.scalar s)
  | enum (name : List Str) (r : Ref) (i : Nat) : (∀ s, typ ≠ keyword s) → typ = joinDots name → Means W pkg f (pkg f ++ scopeOf c) name r i →
      r.isEnum = true → Denotes W pkg decls f c typ .enum
  | message (name : List Str) (r : Ref) (i id : Nat) (c' : Chain) : (∀ s, typ ≠ keyword s) → typ = joinDots name →
      Means W pkg f (pkg f ++ scopeOf c) name r i → r.isEnum = false → decls[id]? = some (r.file, c') → scopeOf c' = r.path →
      Denotes W pkg decls f c typ (.message id)

/-- What a field whose type refers to `x` holds.  A field of type bytes never tells unset from empty, nor does one for which the user asks for a
value instead of a pointer. -/
inductive ShapeIs (p : FileDecl) (m : MsgDecl) (f : FieldDecl) (x : Content) : Shape → Prop
  | map (k s : Scalar) : f.key = some (keyword k) → x.asScalar = some s → ShapeIs p m f x (.map k s)
  | mapMsg (k : Scalar) (id : Nat) (b : Bool) : f.key = some (keyword k) → x = .message id → (b = true ↔ ¬ ByValue m f) →
      ShapeIs p m f x (.mapMsg k id b)
  | list (s : Scalar) (b : Bool) : f.key = none → f.repeated = true → x.asScalar = some s → Packs p f b → ShapeIs p m f x (.list s (s.packable && b))
  | msgList (id : Nat) (b : Bool) : f.key = none → f.repeated = true → x = .message id → (b = true ↔ ¬ ByValue m f) → ShapeIs p m f x (.msgList id b)
  | msg (id : Nat) (b : Bool) : f.key = none → f.repeated = false → x = .message id → (b = true ↔ ¬ ByValue m f) → ShapeIs p m f x (.msg id b)
  | single (s : Scalar) : f.key = none → f.repeated = false → x.asScalar = some s →
      (f.oneof ≠ none ∨ s = .bytes ∨ ByValue m f ∨ Tracks p f false) → ShapeIs p m f x (.single s)
  | optional (s : Scalar) : f.key = none → f.repeated = false → x.asScalar = some s → f.oneof = none → s ≠ .bytes → ¬ ByValue m f →
      Tracks p f true → ShapeIs p m f x (.optional s)

/-- The files describe the schema `S`: its messages are those declared in the files, and each has exactly the declared fields. -/
structure Describes (W : World) (pkg : Nat → List Str) (decls : List (Nat × Chain)) (S : Schema) : Prop where
  declared : ∀ (i f : Nat) (c : Chain), decls[i]? = some (f, c) → Around (W.file f).messages c
  all : ∀ (f : Nat) (c : Chain), Around (W.file f).messages c → ∃ i : Nat, decls[i]? = some (f, c)
  fields : ∀ (i f : Nat) (c : Chain), decls[i]? = some (f, c) → ∀ fd ∈ c.msg.fields, ∃ g ∈ (S i).fields, (g.num : Int) = fd.number ∧
    (g.member = none ↔ fd.oneof = none) ∧ ∃ x, Denotes W pkg decls f c fd.typ x ∧ ShapeIs (W.file f) c.msg fd x g.shape
  only : ∀ (i f : Nat) (c : Chain), decls[i]? = some (f, c) → ∀ g ∈ (S i).fields, ∃ fd ∈ c.msg.fields, (g.num : Int) = fd.number
  oneofs : ∀ (i f : Nat) (c : Chain), decls[i]? = some (f, c) → ∀ fd ∈ c.msg.fields, ∀ fd' ∈ c.msg.fields, ∀ g ∈ (S i).fields, ∀ g' ∈ (S i).fields,
    (g.num : Int) = fd.number → (g'.num : Int) = fd'.number → ∀ k, fd.oneof = some k → (g'.slot = g.slot ↔ fd'.oneof = some k)
  unknown : ∀ (i f : Nat) (c : Chain), decls[i]? = some (f, c) → ((S i).unknown.isSome = true ↔ Keeps (W.file f) c.msg)
  nothing : ∀ i, decls[i]? = none → S i = default

/-! ## The files for which generated code is shown to be right -/

/-- A type name that is resolved as the language demands (see C55). -/
structure Refers (W : World) (pkg : Nat → List Str) (f : Nat) (c : Chain) (typ : Str) (name : List Str) (r : Ref) (i : Nat) : Prop where
  spelled : typ = joinDots name
  nonempty : name ≠ []
  idents : ∀ s ∈ name, Ident s
  scalar : ∀ s, typ ≠ keyword s
  means : Means W pkg f (pkg f ++ scopeOf c) name r i
  self : ∀ x ∈ c, name.head? = some x.2.name → ¬ ∃ k, Declares x.2.messages x.2.enums name k
  doubled : ∀ x, Visible W f x → pkg x ≠ [] → ¬ pkg x ++ pkg x <+: name
  scope : (pkg r.file = pkg f ∧ (pkg f).length ≤ i) ∨ (i = 0 ∧ pkg r.file ≠ [])

/-- A field declaration that follows the rules of the language, without `[packed = false]` in proto3 files and without the feature
`LEGACY_REQUIRED`. -/
structure HandledField (W : World) (pkg : Nat → List Str) (f : Nat) (c : Chain) (fd : FieldDecl) : Prop where
  name : ProtoIdent fd.name
  number : 1 ≤ fd.number ∧ fd.number < 2 ^ 31
  key : ∀ x, fd.key = some x → fd.repeated = false ∧ fd.oneof = none ∧ ∃ s : Scalar, s.isKey = true ∧ x = keyword s
  oneof : ∀ k, fd.oneof = some k → fd.repeated = false ∧ fd.optional = false ∧ k < c.msg.oneofs.length
  packing : fd.repeated = true → ∃ b, Packs (W.file f) fd b ∧ ¬ ((W.file f).edition = .proto3 ∧ b = false)
  presence : fd.key = none → fd.repeated = false → fd.oneof = none → (∃ b, Tracks (W.file f) fd b) ∧
    ((W.file f).edition = .ed2023 → fd.optional = false ∧ ¬ Feature (W.file f) fd "features.field_presence" (some "LEGACY_REQUIRED"))
  type : (∃ s, fd.typ = keyword s) ∨ ∃ name r i, Refers W pkg f c fd.typ name r i

/-- Files that the generator accepts, in which type names are resolved as they should (see C55), with enums at the top or in a message at the
top, and with such field declarations. -/
structure Handled (W : World) (pkg : Nat → List Str) : Prop where
  packages : Packages W pkg
  tidy : ∀ f, f < W.files.length → Tidy W pkg f
  good : ∀ f, f < W.files.length → GoodFile (W.file f)
  enums : ∀ r, Exists W r → r.isEnum = true → r.path.length ≤ 2
  fields : ∀ (f : Nat) (c : Chain), Around (W.file f).messages c → ∀ fd ∈ c.msg.fields, HandledField W pkg f c fd
  oneofs : ∀ (f : Nat) (c : Chain), Around (W.file f).messages c → ∀ o ∈ c.msg.oneofs, ProtoIdent o

end Verif.Spec.Gen
