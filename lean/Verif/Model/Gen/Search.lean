import Verif.Model.Gen.Loader
import Verif.Model.Gen.Paths
/-!
# Model of how files are found, and of the command `prutalgen`

prutalgen/pkg/prutalgen/prutalgen.go:52-262, embed.go:56-60 and prutalgen/main.go:28-66.  In contrast to `Model/Gen/Loader.lean`, import
paths are texts that are looked up, in the files compiled into the generator and in the include directories, and files have Go packages.

Simplifications: Unix paths (`filepath.FromSlash` changes nothing); the working directory exists (`filepath.Abs` does not fail) and the file
system does not change while the program runs; what is in a file is given as its import statements, in order, its option `go_package`, and
whether it can be parsed; a call of `Fatalf` ends the program.  Resolving and verifying (prutalgen.go:97-103) are in `Model/Gen/Resolve.lean`
and `Model/Gen/Verify.lean`.
-/
namespace Verif.Model.Gen

/-- What is in a proto file, as far as loading is concerned. -/
structure Source where
  imports : List Str
  goPackage : Option Str
  deriving DecidableEq

/-- The files that the generator sees. -/
structure Files where
  /-- The working directory, an absolute path. -/
  cwd : Str
  /-- Does `os.Stat` succeed for an absolute path? -/
  stat : Str → Bool
  /-- What is in the file with an absolute path; `none` when it cannot be read or parsed. -/
  read : Str → Option Source
  /-- prutalgen/pkg/prutalgen/embed.go:56-60 (`embeddedProtos`, with `RegisterEmbeddedProto`): the file that was registered last under a name; `some none`
  when it cannot be parsed. -/
  embedded : Str → Option (Option Source)

/-- Go's `filepath.Abs`. -/
def absPath (cwd s : Str) : Str := if isRooted s then pathClean s else pathJoin cwd s

/-- prutalgen/pkg/prutalgen/prutalgen.go:79-88: the loop of `searchProtoFile`. -/
def searchIn (fs : Files) (file : Str) : List Str → Option Str
  | [] => none
  | incl :: l =>
    let fn := absPath fs.cwd (pathJoin incl file)
    if fs.stat fn then some fn else searchIn fs file l

/-- prutalgen/pkg/prutalgen/prutalgen.go:78-91 (`searchProtoFile`); the empty element is added in `NewLoader` (prutalgen.go:52-61). -/
def searchProtoFile (fs : Files) (includes : List Str) (file : Str) : Option Str := searchIn fs file (includes ++ [[]])

/-- A loaded file: `ProtoFile`, and `GoImport` and `GoPackage`. -/
structure LoadedProto where
  file : Str
  goImport : Str
  goPackage : Str
  deriving DecidableEq

/-- What loading ends with. -/
inductive LoadRes (α : Type) where
  | ok (a : α)
  | cyclic
  | notFound
  | unreadable
  | noPackage
  | panic
  | fuel
  deriving DecidableEq

/-- The walk over the import statements of a file (prutalgen/pkg/prutalgen/proto.go:193-211); `load` is `loadProto`. -/
def walkImports (load : List LoadedProto → Str → LoadRes (List LoadedProto)) : List LoadedProto → List Str → LoadRes (List LoadedProto)
  | protos, [] => .ok protos
  | protos, i :: is =>
    match load protos i with
    | .ok protos' => walkImports load protos' is
    | e => e

/-- prutalgen/pkg/prutalgen/prutalgen.go:236-264 (`parseInput`) for a file for which the options give the Go package `m`.  The package from the file
is known when it is parsed; that it is set after the walk over the imports is not observable, but the check of the package comes after them. -/
def parseInput (load : List LoadedProto → Str → LoadRes (List LoadedProto)) (protos : List LoadedProto) (file : Str) (m : Option Str) :
    Option Source → LoadRes (List LoadedProto)
  | none => .unreadable
  | some src =>
    match protoGoPackage m src.goPackage with
    | some (imp, pkg) => walkImports load (protos ++ [⟨file, imp, pkg⟩]) src.imports
    | none =>
      match walkImports load (protos ++ [⟨file, [], []⟩]) src.imports with
      | .ok _ => .noPackage
      | e => e

/-- prutalgen/pkg/prutalgen/prutalgen.go:178-234 (`loadProto`, `loadEmbeddedProto`): `stack` are the files in `x.protostack`, `protos` is `x.protos`, `m` is
`x.proto2gopkg`.  The first number bounds the depth of the recursion. -/
def loadFile (fs : Files) (includes : List Str) (m : Str → Option Str) : Nat → List Str → List LoadedProto → Str → LoadRes (List LoadedProto)
  | 0, _, _, _ => .fuel
  | n + 1, stack, protos, file =>
    match fs.embedded file with
    | some src =>
      if file ∈ protos.map (·.file) then .ok protos
      else parseInput (loadFile fs includes m n (stack ++ [file])) protos file none src
    | none =>
      match searchProtoFile fs includes file with
      | none => .notFound
      | some fn =>
        if fn ∈ stack then .cyclic
        else if fn ∈ protos.map (·.file) then .ok protos
        else parseInput (loadFile fs includes m n (stack ++ [fn])) protos fn (m file) (fs.read fn)

/-- What is in the file that was loaded under a name: an embedded file has its own name. -/
def sourceOf (fs : Files) (f : Str) : Option Source :=
  match fs.embedded f with
  | some src => src
  | none => fs.read f

/-- Which file an import path stands for in the list of imports of a file: `imp.Proto` (prutalgen/pkg/prutalgen/proto.go:209), as returned by `loadProto`. -/
def fileOf (fs : Files) (includes : List Str) (q : Str) : Option Str :=
  match fs.embedded q with
  | some _ => some q
  | none => searchProtoFile fs includes q

/-- The files imported by a loaded file (`p.Imports`). -/
def importedFiles (fs : Files) (includes : List Str) (f : Str) : List Str :=
  match sourceOf fs f with
  | some src => src.imports.filterMap (fileOf fs includes)
  | none => []

/-- The state of the loader that `reset` deals with (prutalgen/pkg/prutalgen/prutalgen.go:107-113); `streams`, `msgstack` and `enum` are left out, they are used
only inside one call. -/
structure LoaderState where
  protos : List LoadedProto
  stack : List Str

/-- prutalgen/pkg/prutalgen/prutalgen.go:107-113 (`reset`). -/
def LoaderState.reset (_ : LoaderState) : LoaderState := ⟨[], []⟩

/-- prutalgen/pkg/prutalgen/prutalgen.go:93-105 (`LoadProto`) without resolving and verifying: what is returned, and the state of the loader. -/
def loadRoot (fs : Files) (includes : List Str) (m : Str → Option Str) (fuel : Nat) (st : LoaderState) (file : Str) :
    LoadRes (List LoadedProto × LoaderState) :=
  match loadFile fs includes m fuel st.reset.stack st.reset.protos file with
  | .ok protos =>
    let order := sortProtoFiles (importedFiles fs includes) (protos.map (·.file))
    let sorted := order.filterMap fun f => protos.find? (·.file = f)
    .ok (sorted, ⟨sorted, st.reset.stack⟩)
  | .cyclic => .cyclic
  | .notFound => .notFound
  | .unreadable => .unreadable
  | .noPackage => .noPackage
  | .panic => .panic
  | .fuel => .fuel

/-- A file that is written, and what for: the code for the first of the loaded files. -/
structure Written where
  path : Str
  protos : List LoadedProto
  deriving DecidableEq

/-- prutalgen/main.go:60-65: the loop over the arguments.  It panics when no file is returned (`[0]`).  The files written so far stay when there is
an error. -/
def mainLoop (fs : Files) (includes : List Str) (m : Str → Option Str) (gt : GenPathType) (out : Str) (fuel : Nat) :
    LoaderState → List Written → List Str → List Written × LoadRes Unit
  | _, done, [] => (done, .ok ())
  | st, done, a :: as =>
    match loadRoot fs includes m fuel st (pathClean a) with
    | .ok ([], _) => (done, .panic)
    | .ok (p :: ps, st') => mainLoop fs includes m gt out fuel st' (done ++ [⟨sourcePath p.file p.goImport gt out, p :: ps⟩]) as
    | .cyclic => (done, .cyclic)
    | .notFound => (done, .notFound)
    | .unreadable => (done, .unreadable)
    | .noPackage => (done, .noPackage)
    | .panic => (done, .panic)
    | .fuel => (done, .fuel)

/-- prutalgen/main.go:28-66 (`main`): the values of `-I`, `-go_opt` and `-go_out`, and the arguments. -/
def genMain (fs : Files) (protoPath opts : List Str) (out : Str) (args : List Str) (fuel : Nat) : List Written × LoadRes Unit :=
  mainLoop fs (if protoPath = [] then [['.']] else protoPath) (proto2pkg opts) (genPathType opts) (if out = [] then ['.'] else out) fuel ⟨[], []⟩ [] args

end Verif.Model.Gen
