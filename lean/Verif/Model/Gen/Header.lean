import Verif.Model.Gen.Imports
/-!
# Model of the text at the start of generated files

prutalgen/pkg/prutalgen/code.go:49-59 and 84-86, codewriter.go:27, 60-75 and 146-172.
-/
namespace Verif.Model.Gen

/-- prutalgen/pkg/prutalgen/code.go:49 (`shellsafeRE`): the characters of the class. -/
def shellSafe (c : Char) : Bool := isLower c || isUpper c || isDigit c || c = '-' || c = '_' || c = '.' || c = '=' || c = '/'

/-- prutalgen/pkg/prutalgen/code.go:53-57: one argument.  (`strings.ReplaceAll` of one character.) -/
def quoteArg (a : Str) : Str :=
  if a ≠ [] ∧ a.all shellSafe then a else '\'' :: a.flatMap (fun c => if c = '\'' then ['\\', '\''] else [c]) ++ ['\'']

/-- `strings.Join(args, " ")`. -/
def joinSpaces : List Str → Str
  | [] => []
  | [a] => a
  | a :: b :: l => a ++ ' ' :: joinSpaces (b :: l)

/-- prutalgen/pkg/prutalgen/code.go:51-59 (`argsQuote`). -/
def argsQuote (args : List Str) : Str := joinSpaces (args.map quoteArg)

/-- prutalgen/pkg/prutalgen/code.go:84-85: the header of a generated file. -/
def fileHeader (args : List Str) : Str := "// Code generated by prutalgen. DO NOT EDIT.\n// ".toList ++ argsQuote args

/-- prutalgen/pkg/prutalgen/codewriter.go:27 (`importPlaceHolder`). -/
def importPlaceHolder : Str := "{PRUTALGEN_GO_IMPORTS}".toList

/-- prutalgen/pkg/prutalgen/codewriter.go:146-163 (`F`); `s` is the formatted text, which is empty only for `F("")`. -/
def writeLine (buf s : Str) : Str :=
  match s with
  | [] => buf ++ ['\n']
  | _ => if (buf ++ s).getLast? = some '\n' then buf ++ s else buf ++ s ++ ['\n']

/-- prutalgen/pkg/prutalgen/codewriter.go:60-75 (`Reset`): what is written first. -/
def writerStart (header pkg : Str) : Str :=
  let buf := if header ≠ [] then writeLine (writeLine [] header) [] else []
  let buf := writeLine (writeLine buf ("package ".toList ++ pkg)) []
  writeLine (writeLine buf importPlaceHolder) []

/-- Go's `bytes.Replace` for the first occurrence. -/
def replaceFirst (old new : Str) : Str → Str
  | [] => if old.isPrefixOf [] then new else []
  | c :: s => if old.isPrefixOf (c :: s) then new ++ (c :: s).drop old.length else c :: replaceFirst old new s

/-- prutalgen/pkg/prutalgen/codewriter.go:165-172 (`Bytes`). -/
def writerBytes (imports buf : Str) : Str := replaceFirst importPlaceHolder imports buf

/-- prutalgen/pkg/prutalgen/code.go:84-88: the text of a generated file (before formatting); `args` is the command line, `pkg` the name of the Go package, `imports` the
import declaration and `lines` what is written by `ProtoGen`. -/
def fileText (args : List Str) (pkg imports : Str) (lines : List Str) : Str :=
  writerBytes imports (lines.foldl writeLine (writerStart (fileHeader args) pkg))

end Verif.Model.Gen
