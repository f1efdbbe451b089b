import Verif.Spec.Gen.GoFile
import Verif.Spec.Gen.Closed
import Verif.Spec.Gen.Names
import Verif.Spec.Gen.Source
import Verif.Model.Gen.Code
/-!
# Specification: what the Go compiler makes of source files

The struct types of a program, as the runtime sees them, from the declarations in its files.  Only the declarations of `Spec/Gen/GoText.lean` are covered.  With the model are shared: the
struct types (`GoEnv`), `reflect`'s reading of tags (`tagGet`, see C34) and the zero values (`goZero`).
-/
namespace Verif.Spec.Gen
open Verif.Model Verif.Model.Gen

/-- A source file of the package with this import path. -/
structure GoSource where
  path : Str
  file : GoFile

/-- The name of the type that a declaration declares. -/
def GoDecl.declares : GoDecl → Option Str
  | .intType n => some n
  | .struct n _ => some n
  | .iface n _ => some n
  | _ => none

/-- The type whose method `Reset` a declaration declares. -/
def GoDecl.resets : GoDecl → Option Str
  | .reset n => some n
  | _ => none

/-- The types that are declared in a program: import path and name. -/
def typeNames (P : List GoSource) : List (Str × Str) := P.flatMap fun s => (s.file.decls.filterMap GoDecl.declares).map fun n => (s.path, n)

/-- The messages: the types with a method `Reset`.  In this order they are numbered. -/
def messageTypes (P : List GoSource) : List (Str × Str) := P.flatMap fun s => (s.file.decls.filterMap GoDecl.resets).map fun n => (s.path, n)

/-- A declaration in the package with this import path. -/
def InPackage (P : List GoSource) (path : Str) (d : GoDecl) : Prop := ∃ s ∈ P, s.path = path ∧ d ∈ s.file.decls

/-- A type of a package.  For the runtime, which looks at kinds, a type declared as `int32` is like `int32`. -/
inductive NamedType (P : List GoSource) (path n : Str) : GoType → Prop
  | int32 : InPackage P path (.intType n) → NamedType P path n .int32
  | struct (i : Nat) (fs : List (Str × TypeSyn × Str)) : InPackage P path (.struct n fs) → (messageTypes P)[i]? = some (path, n) → NamedType P path n (.struct i)
  | iface (m : Str) : InPackage P path (.iface n m) → NamedType P path n .iface

/-- The predeclared types that messages are made of. -/
def predeclared : List (Str × GoType) := [("bool".toList, .bool), ("int32".toList, .int32), ("int64".toList, .int64), ("uint32".toList, .uint32), ("uint64".toList, .uint64),
  ("float32".toList, .float32), ("float64".toList, .float64), ("string".toList, .string)]

/-- The name that an import binds: the one given, or the one in the package clause of the package. -/
def boundName (declared : Str → Str) (i : Str × Str) : Str := if i.1 = [] then declared i.2 else i.1

/-- The type that an expression in a file denotes.  A name is looked up in the package of the file, and then among the predeclared ones; qualified names are looked up in the
package of the only import with that name, and must be exported. -/
inductive HasType (P : List GoSource) (declared : Str → Str) (s : GoSource) : TypeSyn → GoType → Prop
  | own (n : Str) (g : GoType) : NamedType P s.path n g → HasType P declared s (.name n) g
  | predeclared (n : Str) (g : GoType) : (s.path, n) ∉ typeNames P → (n, g) ∈ predeclared → HasType P declared s (.name n) g
  | imported (q n : Str) (i : Str × Str) (g : GoType) : i ∈ s.file.imports → boundName declared i = q → (∀ j ∈ s.file.imports, boundName declared j = q → j = i) →
      ExportedIdent n → NamedType P i.2 n g → HasType P declared s (.qual q n) g
  | bytes : (s.path, "byte".toList) ∉ typeNames P → HasType P declared s (.slice (.name "byte".toList)) .bytes
  | slice (t : TypeSyn) (g : GoType) : HasType P declared s t g → HasType P declared s (.slice t) (.slice g)
  | ptr (t : TypeSyn) (g : GoType) : HasType P declared s t g → HasType P declared s (.ptr t) (.ptr g)
  | map (k v : TypeSyn) (g h : GoType) : HasType P declared s k g → HasType P declared s v h → HasType P declared s (.map k v) (.map g h)

/-- A field, with its tags. -/
structure HasField (P : List GoSource) (declared : Str → Str) (s : GoSource) (f : Str × TypeSyn × Str) (g : GoField) : Prop where
  name : g.name = f.1
  type : HasType P declared s f.2.1 g.type
  tag : g.tag = tagGet f.2.2 "protobuf"
  keyTag : g.keyTag = tagGet f.2.2 "protobuf_key"
  valTag : g.valTag = tagGet f.2.2 "protobuf_val"
  oneofTag : g.oneofTag = tagGet f.2.2 "protobuf_oneof"

/-- The fields of the struct type with this name, as written and as they are. -/
def HasFields (P : List GoSource) (declared : Str → Str) (path n : Str) (fs : List (Str × TypeSyn × Str)) (gs : List GoField) : Prop :=
  ∃ s ∈ P, s.path = path ∧ .struct n fs ∈ s.file.decls ∧ All2 (HasField P declared s) fs gs

/-- Pointers to the struct `w` can be stored in the field: its type is an interface type, whose method they have. -/
def Storable (P : List GoSource) (path w : Str) (f : Str × TypeSyn × Str) : Prop :=
  ∃ n m, f.2.1 = .name n ∧ InPackage P path (.iface n m) ∧ InPackage P path (.marker w m)

/-- The wrapper at place `j`: the struct `w`, which can be stored in some of the fields `fs`. -/
structure HasWrapper (P : List GoSource) (declared : Str → Str) (path : Str) (fs : List (Str × TypeSyn × Str)) (j : Nat) (w : Str) (x : Wrapper) : Prop where
  id : x.id = j
  fields : ∃ fs', HasFields P declared path w fs' x.fields
  sorted : x.implements.Pairwise (· < ·)
  implements : ∀ i, i ∈ x.implements ↔ ∃ f, fs[i]? = some f ∧ Storable P path w f

/-- What `XXX_OneofWrappers` of a type returns; nothing if there is no such method. -/
def ReturnsWrappers (P : List GoSource) (path n : Str) (ws : List Str) : Prop :=
  InPackage P path (.wrappers n ws) ∨ ws = [] ∧ ∀ ws', ¬ InPackage P path (.wrappers n ws')

/-- The struct type with this name. -/
def HasStruct (P : List GoSource) (declared : Str → Str) (path n : Str) (d : StructDecl) : Prop :=
  ∃ fs ws, HasFields P declared path n fs d.fields ∧ ReturnsWrappers P path n ws ∧ d.wrappers.length = ws.length ∧
    ∀ (j : Nat) (w : Str) (x : Wrapper), ws[j]? = some w → d.wrappers[j]? = some x → HasWrapper P declared path fs j w x

/-- The program compiles, and these are its messages.  `declared` says which names packages have.  Go does not accept two types of the same name in a package; other
conditions on names (of constants, variables, methods and fields) are not needed here. -/
structure Compiled (P : List GoSource) (declared : Str → Str) (env : GoEnv) : Prop where
  packages : ∀ s ∈ P, s.file.pkg = declared s.path
  distinct : (typeNames P).Nodup
  count : env.structs.length = (messageTypes P).length
  structs : ∀ (i : Nat) (t : Str × Str) (d : StructDecl), (messageTypes P)[i]? = some t → env.structs[i]? = some d → HasStruct P declared t.1 t.2 d
  zero : ∀ (i : Nat) (d : StructDecl), env.structs[i]? = some d → d.zero = .struct (d.fields.map fun f => goZero env.structs f.type)

/-! ## Generated programs -/

/-- What C58 and C76 ask of Go packages, comments and arguments: Go packages are named like the last element of their import paths, these differ, comments and arguments can
stand in a Go file. -/
structure Presentable (W : World) (notes : Nat → Notes) (args : List Str) : Prop where
  packages : ∀ p, p < W.files.length → GoWord (W.file p).goPackage
  bases : ∀ p, p < W.files.length → ∀ i ∈ W.imports p, GoWord (pathBase (W.file i.1).goImport) ∧ (W.file i.1).goPackage = pathBase (W.file i.1).goImport
  paths : ∀ p, p < W.files.length → ∀ i ∈ W.imports p, (W.file i.1).goImport ≠ [] ∧ ∀ c ∈ (W.file i.1).goImport, c ≠ '"' ∧ c ≠ '\\' ∧ c ≠ '\n' ∧ Legal c
  distinct : ∀ p, p < W.files.length →
    ∀ a ∈ "strconv".toList :: "github.com/cloudwego/prutal".toList :: (W.imports p).map (fun i => (W.file i.1).goImport),
    ∀ b ∈ "strconv".toList :: "github.com/cloudwego/prutal".toList :: (W.imports p).map (fun i => (W.file i.1).goImport), pathBase a = pathBase b → a = b
  comments : ∀ p, p < W.files.length → ∀ q, GoNote (notes p q)
  percent : ∀ p, p < W.files.length → ∀ q i, ∀ c ∈ (notes p (q ++ [0, i])).inline, c ≠ '%'
  arguments : ∀ a ∈ args, ∀ c ∈ a, c ≠ '\n' ∧ c ≠ '{' ∧ Legal c

/-- And of the declarations: names are identifiers, and types are found.  Both follow if the generator accepts the files (`C94_accepts`). -/
structure Printable (W : World) (notes : Nat → Notes) (args : List Str) : Prop extends Presentable W notes args where
  named : ∀ f, NamedFile (W.file f)
  found : AllFound W

/-- Go reads the generated texts as this program. -/
structure Read (W : World) (o : GenOptions) (notes : Nat → Notes) (args : List Str) (P : List GoSource) : Prop where
  count : P.length = W.files.length
  path : ∀ (p : Nat) (s : GoSource), P[p]? = some s → s.path = (W.file p).goImport
  plain : ∀ s ∈ P, s.file.Plain
  text : ∀ (p : Nat) (s : GoSource), P[p]? = some s → ReadsAs (generatedText W o p (notes p) args) s.file

end Verif.Spec.Gen
