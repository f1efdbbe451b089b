import Verif.Model.Gen.Pipeline
import Verif.Spec.Gen.Source
import Verif.Spec.Gen.Search
import Verif.Spec.Gen.Describes
/-!
# Specification: the files that the texts describe, and which texts are accepted

Only texts (parse trees) and declarations are shared with the model.
-/
namespace Verif.Spec.Gen
open Verif.Model.Gen

/-- The message is the one written, with everything in it. -/
inductive MessageIs : Str × List Str × List MsgElem → MsgDecl → Prop
  | mk {name : Str} {directives : List Str} {elems : List MsgElem} {enums : List EnumDecl} {messages : List MsgDecl} {fields : List FieldDecl}
      {options : List Opt} {reserved : List Range} :
      All2 EnumIs (enumsOf elems) enums → messages.length = (messagesOf elems).length →
      (∀ (k : Nat) (x : Str × List Str × List MsgElem) (m : MsgDecl), (messagesOf elems)[k]? = some x → messages[k]? = some m → MessageIs x m) →
      All2 FieldIs (fieldsOf 0 elems) fields → OptionsAre (optionsOf elems) options → All2 RangeIs (rangesOf elems) reserved →
      MessageIs (name, directives, elems) (.mk name enums messages fields ((oneofsOf 0 elems).map Prod.fst) directives options reserved)

/-- The file is the one written. -/
structure FileIs (t : Text) (p : FileDecl) : Prop where
  edition : EditionIs t.tree p.edition
  package : p.package = ((topPackages t.tree.elems).head?).getD []
  directives : p.directives = t.directives
  options : OptionsAre (topOptions t.tree.elems) p.options
  enums : All2 EnumIs (topEnums t.tree.elems) p.enums
  messages : All2 MessageIs (topMessages t.tree.elems) p.messages

/-- The text of a file. -/
def Holds (D : Texts) (f : Str) (t : Text) : Prop := D.embedded f = some (some t) ∨ D.embedded f = none ∧ D.read f = some t

/-- The import paths that have to be looked up for a file, by the texts. -/
inductive AskedText (D : Texts) (cwd : List Str) (includes : List Str) (root : Str) : Str → Prop
  | root : AskedText D cwd includes root root
  | import (q f q' : Str) (b : Bool) (t : Text) : AskedText D cwd includes root q → MeansFile D.files cwd includes q f → Holds D f t →
      (some q', b) ∈ topImports t.tree.elems → AskedText D cwd includes root q'

/-- The files needed for a file, by the texts. -/
def NeededText (D : Texts) (cwd : List Str) (includes : List Str) (root f : Str) : Prop :=
  ∃ q, AskedText D cwd includes root q ∧ MeansFile D.files cwd includes q f

/-- A file has an import statement for another file. -/
def ImportsText (D : Texts) (cwd : List Str) (includes : List Str) (f g : Str) : Prop :=
  ∃ t q b, Holds D f t ∧ (some q, b) ∈ topImports t.tree.elems ∧ MeansFile D.files cwd includes q g

/-- A file imports another one, directly or not. -/
inductive ReachesText (D : Texts) (cwd : List Str) (includes : List Str) : Str → Str → Prop
  | one (f g : Str) : ImportsText D cwd includes f g → ReachesText D cwd includes f g
  | more (f g h : Str) : ImportsText D cwd includes f g → ReachesText D cwd includes g h → ReachesText D cwd includes f h

/-- The last setting of an option in the text of a file. -/
def SetsLast (t : Text) (name : Str) : Option Str → Prop
  | some v => ∃ a b, topOptions t.tree.elems = a ++ ⟨name, some v⟩ :: b ∧ ∀ o ∈ b, o.name ≠ name
  | none => ∀ o ∈ topOptions t.tree.elems, o.name ≠ name

/-- The imports of the file at a place of the list `order` are those written: each is the place of the file that the path means. -/
def ImportsAre (D : Texts) (cwd : List Str) (includes : List Str) (order : List Str) (t : Text) (is : List (Nat × Bool)) : Prop :=
  All2 (fun x y => ∃ q g, x.1 = some q ∧ MeansFile D.files cwd includes q g ∧ order[y.1]? = some g ∧ y.2 = x.2) (topImports t.tree.elems) is

/-- The Go package of a file is that of the options for one of the paths that mean the file, and its option `go_package`. -/
def PackageIs (D : Texts) (cwd : List Str) (includes : List Str) (m : Str → Option Str) (root f : Str) (t : Text) (imp pkg : Str) : Prop :=
  ∃ q v, AskedText D cwd includes root q ∧ MeansFile D.files cwd includes q f ∧ SetsLast t "go_package".toList v ∧
    protoGoPackage (userPackage D.files m q) v = some (imp, pkg)

/-- The world is the one that the texts describe: its files are those needed for the file `root`, which is the first, each once, and each is as it is written. -/
structure WorldIs (D : Texts) (cwd : List Str) (includes : List Str) (m : Str → Option Str) (root : Str) (order : List Str) (W : World) (services : Nat → List ServiceRec) :
    Prop where
  once : order.Nodup
  needed : ∀ f, f ∈ order ↔ NeededText D cwd includes root f
  first : ∃ r, MeansFile D.files cwd includes root r ∧ order.head? = some r
  length : W.files.length = order.length
  files : ∀ (k : Nat) (f : Str), order[k]? = some f → ∃ t, Holds D f t ∧ FileIs t (W.file k) ∧ ImportsAre D cwd includes order t (W.imports k) ∧
    All2 ServiceIs (topServices t.tree.elems) (services k) ∧ PackageIs D cwd includes m root f t (W.file k).goImport (W.file k).goPackage
  beyond : ∀ k, order.length ≤ k → W.imports k = [] ∧ services k = []

/-- Importers come before what they import. -/
def SortedWorld (W : World) : Prop := ∀ g, ∀ i ∈ W.imports g, g < i.1 ∧ i.1 < W.files.length

/-- What is asked of the files besides that they are accepted: `Handled` without what follows from that. -/
structure Supported (W : World) (pkg : Nat → List Str) : Prop where
  packages : Packages W pkg
  idents : ∀ r, Exists W r → ∀ s ∈ r.path, Ident s
  unique : ∀ f, f < W.files.length → UniqueNames W pkg f
  twins : ∀ f, f < W.files.length → NoTwinsIn (W.file f).messages
  publics : ∀ g x, (x, true) ∈ W.imports g → pkg x = pkg g ∧ (W.file x).goImport = (W.file g).goImport
  heads : ∀ f, f < W.files.length → ∀ r, Visible W f r.file → Exists W r → pkg r.file ≠ [] → r.path.head? ≠ (pkg r.file).head?
  enums : ∀ r, Exists W r → r.isEnum = true → r.path.length ≤ 2
  fields : ∀ (f : Nat) (c : Chain), Around (W.file f).messages c → ∀ fd ∈ c.msg.fields, HandledField W pkg f c fd
  oneofs : ∀ (f : Nat) (c : Chain), Around (W.file f).messages c → ∀ o ∈ c.msg.oneofs, ProtoIdent o

/-- The types of all methods are resolved as the language demands (see C65). -/
def SupportedServices (W : World) (pkg : Nat → List Str) (services : Nat → List ServiceRec) : Prop :=
  ∀ f, ∀ s ∈ services f, ∀ m ∈ s.methods, (∃ name r i, Refers W pkg f [] m.request name r i) ∧ ∃ name r i, Refers W pkg f [] m.ret name r i

end Verif.Spec.Gen
