import Verif.Model.Gen.Imports
import Verif.Model.Gen.Options
/-!
# Model of the paths of generated files, and of the options for Go packages

prutalgen/pkg/prutalgen/code.go:61-78, prutalgen.go:72-76, 202 and 256-262, proto.go:72-82, prutalgen/pkg/utils/args/go_opts.go and prutalgen/main.go.  The functions of Go's `path`, which
agrees with `path/filepath` on Unix.
-/
namespace Verif.Model.Gen

/-- The elements of a path: what is between slashes. -/
def splitSlash : Str → List Str
  | [] => [[]]
  | c :: s =>
    if c = '/' then [] :: splitSlash s
    else
      match splitSlash s with
      | [] => [[c]]
      | w :: l => (c :: w) :: l

/-- Elements with slashes between them. -/
def joinSlash : List Str → Str
  | [] => []
  | [a] => a
  | a :: b :: l => a ++ '/' :: joinSlash (b :: l)

/-- One element in Go's `path.Clean`; `out` are the elements kept so far, the last one first. -/
def cleanStep (rooted : Bool) (out : List Str) (w : Str) : List Str :=
  if w = [] ∨ w = ['.'] then out
  else if w = ['.', '.'] then
    match out with
    | [] => if rooted then [] else [['.', '.']]
    | x :: rest => if x = ['.', '.'] then ['.', '.'] :: out else rest
  else w :: out

/-- Does the path start with a slash? -/
def isRooted (s : Str) : Bool := s.head? = some '/'

/-- The text of a path that was cleaned. -/
def renderPath (rooted : Bool) (out : List Str) : Str :=
  if rooted then '/' :: joinSlash out.reverse else if out = [] then ['.'] else joinSlash out.reverse

/-- Go's `path.Clean`. -/
def pathClean (s : Str) : Str := renderPath (isRooted s) ((splitSlash s).foldl (cleanStep (isRooted s)) [])

/-- Go's `path.Join` for two elements. -/
def pathJoin (a b : Str) : Str :=
  if a = [] ∧ b = [] then [] else if a = [] then pathClean b else if b = [] then pathClean a else pathClean (a ++ '/' :: b)

/-- Go's `strings.TrimSuffix`. -/
def trimSuffix (s suffix : Str) : Str := if suffix.isSuffixOf s then s.take (s.length - suffix.length) else s

/-- prutalgen/pkg/prutalgen/consts.go (`GenPathType`). -/
inductive GenPathType
  | byImport
  | sourceRelative
  deriving DecidableEq

/-- prutalgen/pkg/prutalgen/code.go:61-78 (`SourcePath`) for the suffix `.pb.go` (code.go:81). -/
def sourcePath (protoFile goImport : Str) (gt : GenPathType) (out : Str) : Str :=
  match gt with
  | .byImport => pathJoin out (pathJoin goImport (trimSuffix (pathBase protoFile) ".proto".toList ++ ".pb.go".toList))
  | .sourceRelative => trimSuffix protoFile ".proto".toList ++ ".pb.go".toList

/-! ## Options -/

/-- prutalgen/pkg/utils/args/go_opts.go:32-42 (`GenPathType`): the values given with `-go_opt`. -/
def genPathType (opts : List Str) : GenPathType :=
  opts.foldl (fun ret s => if s = "paths=import".toList then .byImport else if s = "paths=source_relative".toList then .sourceRelative else ret) .byImport

/-- prutalgen/pkg/utils/args/go_opts.go:48-57: one option in the loop of `Proto2pkg`, for the value of one file in the map. -/
def assignOpt (file : Str) (ret : Option Str) : Str → Option Str
  | [] => ret
  | c :: s => if c = 'M' ∧ '=' ∈ s ∧ pathClean (cut '=' s).1 = file then some (cut '=' s).2 else ret

/-- prutalgen/pkg/utils/args/go_opts.go:46-59 (`Proto2pkg`): the value in the map for a file; the last assignment counts. -/
def proto2pkg (opts : List Str) (file : Str) : Option Str := opts.foldl (assignOpt file) none

/-- prutalgen/pkg/prutalgen/proto.go:72-82 (`setGoPackage`): `GoImport` and `GoPackage` afterwards. -/
def setGoPackage (st : Str × Str) (s : Str) : Str × Str :=
  let imp := trimSpace (cut ';' s).1
  let pkg := trimSpace (cut ';' s).2
  (imp, if pkg ≠ [] then pkg else if imp ≠ [] then pathBase imp else st.2)

/-- prutalgen/pkg/prutalgen/prutalgen.go:202 and 256-262: `GoImport` and `GoPackage` of a file, given what the options say for the file (`m`) and its option `go_package`;
`none` is the fatal error. -/
def protoGoPackage (m option : Option Str) : Option (Str × Str) :=
  let st := setGoPackage ([], []) (m.getD [])
  let st := match option with
    | some s => setGoPackage st s
    | none => st
  if st.2 = [] then none else some st

end Verif.Model.Gen
