import Verif.Model.Gen.Search
import Verif.Model.Gen.Service
import Verif.Model.Gen.Code
/-!
# Model of `LoadProto` as a whole

prutalgen/pkg/prutalgen/prutalgen.go:93-105: from the parse trees of files to what `LoadProto` returns, by the parts in `Model/Gen/Search.lean` (which files),
`Model/Gen/Listener.lean` (what is in a file), `Model/Gen/Resolve.lean` and `Model/Gen/Service.lean` (types), and `Model/Gen/Verify.lean`.

Simplification: the listeners are called for a whole file before the files that it imports are loaded; it is not observable whether the program ends with an error in
the file or in one that it imports.  As before, the file system does not change, and the parse tree of a file is a function of its name.
-/
namespace Verif.Model.Gen

/-- What is in a file: the directives in its head comment (prutalgen/pkg/prutalgen/prutalgen.go:253-254) and the parse tree. -/
structure Text where
  directives : List Str := []
  tree : ProtoNode

/-- The files that the generator sees (see `Files`), with their texts. -/
structure Texts where
  cwd : Str
  stat : Str → Bool
  read : Str → Option Text
  embedded : Str → Option (Option Text)

/-- What loading needs to know of a file: `none` when a listener ends the program (prutalgen/pkg/prutalgen/prutalgen.go:251-262). -/
def textSource (t : Text) : Option Source :=
  match walk t.tree with
  | .ok s => some ⟨s.imports.map Prod.fst, optGet s.options "go_package".toList⟩
  | .error _ => none

/-- The files, as far as loading is concerned. -/
def Texts.files (D : Texts) : Files where
  cwd := D.cwd
  stat := D.stat
  read := fun f => (D.read f).bind textSource
  embedded := fun f => (D.embedded f).map fun t => t.bind textSource

/-- The text of a loaded file: an embedded file has its own name. -/
def Texts.text (D : Texts) (f : Str) : Option Text :=
  match D.embedded f with
  | some t => t
  | none => D.read f

/-- An enum by its pointer. -/
def enumAt (s : LState) (j : Nat) : EnumDecl :=
  match s.enumStore[j]? with
  | some e => e.decl
  | none => { name := [], fields := [] }

/-- A message by its pointer, with what is in it (prutalgen/pkg/prutalgen/message.go:28-49).  The first number bounds the depth. -/
def messageAt (s : LState) : Nat → Nat → MsgDecl
  | 0, _ => .mk [] [] [] [] [] [] [] []
  | n + 1, i =>
    match s.msgStore[i]? with
    | some r => .mk r.name (r.enums.map (enumAt s)) (r.messages.map (messageAt s n)) r.fields (r.oneofs.map OneofRec.name) r.directives r.options r.reserved
    | none => .mk [] [] [] [] [] [] [] []

/-- prutalgen/pkg/prutalgen/proto.go:37-57 (`Proto`): a loaded file, given the state of the loader at its end. -/
def fileDecl (p : LoadedProto) (t : Text) (s : LState) : FileDecl where
  edition := s.edition
  package := s.package
  goImport := p.goImport
  goPackage := p.goPackage
  directives := t.directives
  options := s.options
  enums := s.enums.map (enumAt s)
  messages := s.messages.map (messageAt s s.msgStore.length)

/-- The state of the loader at the end of a file, with its text. -/
def stateOf (D : Texts) (f : Str) : Option (Text × LState) :=
  match D.text f with
  | none => none
  | some t =>
    match walk t.tree with
    | .ok s => some (t, s)
    | .error _ => none

/-- What `LoadProto` returns: the files in order, what is in them, and their services. -/
structure LoadedSet where
  protos : List LoadedProto
  world : World
  services : Nat → List ServiceRec

/-- The loaded file at a place of the list. -/
def declAt (D : Texts) (p : LoadedProto) : FileDecl :=
  match stateOf D p.file with
  | some (t, s) => fileDecl p t s
  | none => { edition := .proto3 }

/-- prutalgen/pkg/prutalgen/proto.go:193-211 (`ExitImportStatement`): `p.Imports`, with pointers as places of the list. -/
def importsAt (D : Texts) (includes : List Str) (ps : List LoadedProto) (k : Nat) : List (Nat × Bool) :=
  match ps[k]? with
  | none => []
  | some p =>
    match stateOf D p.file with
    | none => []
    | some (_, s) => s.imports.filterMap fun x => (fileOf D.files includes x.1).map fun g => (ps.findIdx (·.file = g), x.2)

/-- The services of the file at a place of the list. -/
def servicesAt (D : Texts) (ps : List LoadedProto) (k : Nat) : List ServiceRec :=
  match ps[k]? with
  | none => []
  | some p =>
    match stateOf D p.file with
    | none => []
    | some (_, s) => s.services

/-- The files returned by `loadProto`, after sorting. -/
def loadedSet (D : Texts) (includes : List Str) (ps : List LoadedProto) : LoadedSet where
  protos := ps
  world := { files := ps.map (declAt D), imports := importsAt D includes ps }
  services := servicesAt D ps

/-- prutalgen/pkg/prutalgen/proto.go:137-147 (`Proto.resolve`), message.go:118-147, field.go:112-117 and service.go:40-46: are all types found? -/
def fileResolves (x : LoadedSet) (k : Nat) : Bool :=
  ((msgsChains [] (x.world.file k).messages).all fun c => c.msg.fields.all fun fd => (typeResolve x.world k c true fd.typ).isSome) &&
    (x.services k).all fun s => (serviceResolve x.world k s).isSome

/-- prutalgen/pkg/prutalgen/proto.go:149-167 (`Proto.verify`). -/
def fileErrors (x : LoadedSet) (k : Nat) : List VErr := fileVerify (x.world.file k) ++ (x.services k).flatMap serviceVerify

/-- prutalgen/pkg/prutalgen/prutalgen.go:97-103: the loop over the files, from the last to the first. -/
def checkFiles (x : LoadedSet) : List Nat → Bool
  | [] => true
  | k :: ks => fileResolves x k && (fileErrors x k).isEmpty && checkFiles x ks

/-- prutalgen/pkg/prutalgen/prutalgen.go:93-105 (`LoadProto`); `none` is a call of `Fatalf`. -/
def loadWhole (D : Texts) (includes : List Str) (m : Str → Option Str) (fuel : Nat) (st : LoaderState) (file : Str) : Option LoadedSet :=
  match loadRoot D.files includes m fuel st file with
  | .ok (ps, _) =>
    let x := loadedSet D includes ps
    if checkFiles x (List.range ps.length).reverse then some x else none
  | _ => none

end Verif.Model.Gen
