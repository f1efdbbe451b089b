import Verif.Model.Gen.Resolve
import Verif.Spec.Gen.Declared
/-!
# Specification: what a type name refers to

The scoping rules of the protobuf language.  Names are lists of identifiers here.  Only the structures `World`, `Ref` and the
declarations are shared with the model.
-/
namespace Verif.Spec.Gen
open Verif.Model.Gen

/-- An identifier. -/
def Ident (s : Str) : Prop := s ≠ [] ∧ '.' ∉ s

/-- `Declares ms es path isEnum`: the declarations `ms` and `es` contain one that is reached by the names `path`. -/
inductive Declares : List MsgDecl → List EnumDecl → List Str → Bool → Prop
  | enum {ms es e} : e ∈ es → Declares ms es [e.name] true
  | msg {ms es m} : m ∈ ms → Declares ms es [m.name] false
  | nested {ms es m path k} : m ∈ ms → Declares m.messages m.enums path k → Declares ms es (m.name :: path) k

/-- The declaration exists. -/
def Exists (W : World) (r : Ref) : Prop := Declares (W.file r.file).messages (W.file r.file).enums r.path r.isEnum

/-- Files reached by public imports. -/
inductive Public (W : World) : Nat → Nat → Prop
  | refl (f : Nat) : Public W f f
  | step {f x y : Nat} : (x, true) ∈ W.imports f → Public W x y → Public W f y

/-- The declarations of a file can be used in its own file, where it is imported, and where a file is imported that imports it publicly. -/
def Visible (W : World) (f x : Nat) : Prop := Public W f x ∨ ∃ i ∈ W.imports f, Public W i.1 x

/-- The names of a world: the package of each file as a list of identifiers. -/
structure Packages (W : World) (pkg : Nat → List Str) : Prop where
  spelled : ∀ f, (W.file f).package = joinDots (pkg f)
  idents : ∀ f, ∀ s ∈ pkg f, Ident s

/-- The name of a declaration with its package. -/
def FullName (pkg : Nat → List Str) (r : Ref) : List Str := pkg r.file ++ r.path

/-- Something with this full name can be seen from the file: a declaration (only a message or a package counts if more names are to
follow). -/
def Taken (W : World) (pkg : Nat → List Str) (f : Nat) (last : Bool) (full : List Str) : Prop :=
  (∃ r, Visible W f r.file ∧ Exists W r ∧ FullName pkg r = full ∧ (last = true ∨ r.isEnum = false)) ∨
  (last = false ∧ full ≠ [] ∧ ∃ x, Visible W f x ∧ full <+: pkg x)

/-- `Means W pkg f scope name r`: in file `f`, inside the package and messages `scope`, the name refers to `r`: the scopes are searched from
the innermost to the outermost for the first identifier of the name; the first scope that has it decides. -/
def Means (W : World) (pkg : Nat → List Str) (f : Nat) (scope name : List Str) (r : Ref) (i : Nat) : Prop :=
  i ≤ scope.length ∧ Visible W f r.file ∧ Exists W r ∧ FullName pkg r = scope.take i ++ name ∧
  ∀ j, i < j → j ≤ scope.length → ¬ Taken W pkg f (name.length = 1) (scope.take j ++ name.take 1)

/-- `Around ms chain`: the messages `chain` (from the inside out, each with the names around it) enclose a place in a file with the
messages `ms`. -/
inductive Around (ms : List MsgDecl) : List (List Str × MsgDecl) → Prop
  | top {m} : m ∈ ms → Around ms [([], m)]
  | inner {m outer x rest} : Around ms ((outer, x) :: rest) → m ∈ x.messages → Around ms ((outer ++ [x.name], m) :: (outer, x) :: rest)

/-- The names of the messages around. -/
def scopeOf : List (List Str × MsgDecl) → List Str
  | [] => []
  | (outer, m) :: _ => outer ++ [m.name]

/-- Full names are used once. -/
def UniqueNames (W : World) (pkg : Nat → List Str) (f : Nat) : Prop :=
  ∀ r r', Visible W f r.file → Visible W f r'.file → Exists W r → Exists W r' → FullName pkg r = FullName pkg r' → r = r'

/-- No two messages in one place have the same name. -/
def NoTwins (ms : List MsgDecl) : Prop := ∀ m m', m ∈ ms → m' ∈ ms → m.name = m'.name → m = m'

/-- The same everywhere. -/
def NoTwinsIn (ms : List MsgDecl) : Prop := NoTwins ms ∧ ∀ m, Within ms m → NoTwins m.messages

/-- The worlds for which resolution is shown to be right: the files are sorted (importers before what they import), everything is
named by identifiers and declared once, files that are imported publicly belong to the same package as the file that imports them (in the
proto files and in Go), and nothing is named like the first part of its package. -/
structure Tidy (W : World) (pkg : Nat → List Str) (f : Nat) : Prop where
  sorted : ∀ g, ∀ i ∈ W.imports g, g < i.1 ∧ i.1 < W.files.length
  idents : ∀ r, Exists W r → ∀ s ∈ r.path, Ident s
  unique : UniqueNames W pkg f
  twins : NoTwinsIn (W.file f).messages
  publics : ∀ g x, (x, true) ∈ W.imports g → pkg x = pkg g ∧ (W.file x).goImport = (W.file g).goImport
  heads : ∀ r, Visible W f r.file → Exists W r → pkg r.file ≠ [] → r.path.head? ≠ (pkg r.file).head?

end Verif.Spec.Gen
