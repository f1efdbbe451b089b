import Verif.Model.Gen.Getter
/-!
# Model of the imports of generated files

prutalgen/pkg/prutalgen/codewriter.go:34-143, the calls of `UsePkg` in code.go (173, 219, 356-361), and the names of other packages in the generated text
(type.go:62, field.go:219).
-/
namespace Verif.Model.Gen

/-- Go's `path.Base`: the loop that strips trailing slashes, then what follows the last slash. -/
def pathBase (s : Str) : Str :=
  if s = [] then ['.']
  else
    let t := (s.reverse.dropWhile fun c => c = '/')
    if t = [] then ['/'] else (t.takeWhile fun c => c ≠ '/').reverse

/-- The order of Go strings.  Simplification: of code points instead of bytes (UTF-8 keeps the order). -/
def goLess : Str → Str → Bool
  | _, [] => false
  | [], _ :: _ => true
  | a :: s, b :: t => a.toNat < b.toNat || (a.toNat = b.toNat && goLess s t)

/-- prutalgen/pkg/prutalgen/codewriter.go:34-39 (`defaultGroupingFunc`). -/
def defaultGrouping (pkg : Str) : Int := if "github.com/cloudwego/".toList.isPrefixOf pkg then 10 else 0

/-- prutalgen/pkg/prutalgen/codewriter.go:78-87 (`UsePkg`); the map is represented by its entries, in some order. -/
def usePkg (pkgs : List (Str × Str)) (u : Str × Str) : List (Str × Str) :=
  if u.1 = [] then pkgs else (u.1, if pathBase u.1 = u.2 then [] else u.2) :: pkgs.filter fun e => e.1 ≠ u.1

/-- Go's `%q` for a string.  Simplification: characters that Go would escape are not modelled. -/
def quoted (s : Str) : Str := '"' :: s ++ ['"']

/-- prutalgen/pkg/prutalgen/codewriter.go:120-126: is the first import before the second? -/
def importLess (grouping : Str → Int) (a b : Str × Str) : Bool :=
  if grouping a.1 ≠ grouping b.1 then grouping a.1 < grouping b.1 else goLess a.1 b.1

/-- prutalgen/pkg/prutalgen/codewriter.go:131-136: the lines of the imports; `prev` is the weight of the line before. -/
def importLines (grouping : Str → Int) : Option Int → List (Str × Str) → Str
  | _, [] => []
  | prev, (p, a) :: rest =>
    (match prev with
      | some w => if grouping p ≠ w then ['\n'] else []
      | none => []) ++ a ++ ' ' :: quoted p ++ '\n' :: importLines grouping (some (grouping p)) rest

/-- One step of `sortImports`. -/
def insertImport (less : Str × Str → Str × Str → Bool) (x : Str × Str) : List (Str × Str) → List (Str × Str)
  | [] => [x]
  | y :: l => if less y x then y :: insertImport less x l else x :: y :: l

/-- Go's `sort.Slice`.  Simplification: another way of sorting (any other gives the same, as no two imports are equal). -/
def sortImports (less : Str × Str → Str × Str → Bool) : List (Str × Str) → List (Str × Str)
  | [] => []
  | x :: l => insertImport less x (sortImports less l)

/-- prutalgen/pkg/prutalgen/codewriter.go:98-139 (`genImports`); `pkgs` lists the entries of the map in the order in which Go happens to iterate. -/
def genImports (grouping : Str → Int) (pkgs : List (Str × Str)) : Str :=
  match pkgs with
  | [] => []
  | [(p, a)] => "import ".toList ++ a ++ ' ' :: quoted p
  | _ => "import (\n".toList ++ importLines grouping none (sortImports (importLess grouping) pkgs) ++ [')']

/-- What the user asked for: getters (`-gen_getter`), methods for Kitex. -/
structure GenOptions where
  getter : Bool
  marshaler : Bool

/-- prutalgen/pkg/prutalgen/code.go:351-362 (`FieldGen`): its calls of `UsePkg`.  (A key is never an external type: keys are not resolved.) -/
def fieldUses (W : World) (p : Nat) (c : Chain) (f : FieldDecl) : List (Str × Str) :=
  match fieldType W p c f with
  | .decl _ (some x) => [((W.file x).goImport, [])]
  | _ => []

/-- prutalgen/pkg/prutalgen/code.go:182-291 (`MessageGen`, without the messages inside): the calls of `UsePkg` for the fields outside of oneofs (211), for the
methods of Kitex (219), and for the fields of oneofs (282, 373). -/
def messageUses (W : World) (o : GenOptions) (p : Nat) (c : Chain) : List (Str × Str) :=
  (c.msg.fields.filter fun f => f.oneof = none).flatMap (fieldUses W p c) ++
  (if o.marshaler then [("github.com/cloudwego/prutal".toList, [])] else []) ++
  (List.range c.msg.oneofs.length).flatMap fun k => (c.msg.fields.filter fun f => f.oneof = some k).flatMap (fieldUses W p c)

/-- prutalgen/pkg/prutalgen/code.go:133-180 (`EnumGen`): the call of `UsePkg`. -/
def enumUses (p : FileDecl) (e : EnumDecl) : List (Str × Str) := if enumMapping p e then [("strconv".toList, [])] else []

/-- The enums of a file that are generated (code.go:113-125). -/
def fileEnums (p : FileDecl) : List EnumDecl := p.enums ++ p.messages.flatMap MsgDecl.enums

/-- prutalgen/pkg/prutalgen/code.go:112-131 (`ProtoGen`): all calls of `UsePkg` for a file. -/
def fileUses (W : World) (o : GenOptions) (p : Nat) : List (Str × Str) :=
  (fileEnums (W.file p)).flatMap (enumUses (W.file p)) ++ (msgsChains [] (W.file p).messages).flatMap (messageUses W o p)

/-- The map `pkgs` after generating a file. -/
def filePkgs (W : World) (o : GenOptions) (p : Nat) : List (Str × Str) := (fileUses W o p).foldl usePkg []

/-! ## The names in the generated text that refer to other packages -/

/-- A qualified name `qual.…` in the generated text: the package that is meant, and the names of variables that are declared around it. -/
structure Mention where
  qual : Str
  pkg : Str
  locals : List Str

/-- prutalgen/pkg/prutalgen/type.go:59-62: a type of another package is written with the last element of the import path. -/
def exprMentions (own : Str) (locals : List Str) : GoExpr → List Mention
  | .basic _ => []
  | .iface _ => []
  | .named pkg _ => if pkg = own then [] else [⟨pathBase pkg, pkg, locals⟩]
  | .ptr t => exprMentions own locals t
  | .slice t => exprMentions own locals t
  | .map k v => exprMentions own locals k ++ exprMentions own locals v

/-- prutalgen/pkg/prutalgen/field.go:204-240 (`GoZero`): the same, for zero values. -/
def zeroMentions (own : Str) (locals : List Str) : ZeroExpr → List Mention
  | .const pkg _ => if pkg = own then [] else [⟨pathBase pkg, pkg, locals⟩]
  | .lit t => exprMentions own locals t
  | _ => []

/-- The mentions in a message: the types of struct fields and wrappers, the getters (whose receiver is `x`), the methods for Kitex (code.go:220-221). -/
def messageMentions (W : World) (o : GenOptions) (p : Nat) (c : Chain) : List Mention :=
  (genStruct W p c).fields.flatMap (fun g => exprMentions (W.file p).goImport [] g.type) ++
  (genStruct W p c).wrappers.flatMap (fun w => exprMentions (W.file p).goImport [] w.field.type) ++
  (if o.marshaler then [⟨"prutal".toList, "github.com/cloudwego/prutal".toList, ["x".toList, "in".toList]⟩] else []) ++
  (if o.getter then (genGetters W p c [] (namedFields c.msg)).flatMap fun g =>
    exprMentions (W.file p).goImport [] g.type ++ zeroMentions (W.file p).goImport ["x".toList] g.zero else [])

/-- The mentions in an enum (code.go:177). -/
def enumMentions (p : FileDecl) (e : EnumDecl) : List Mention :=
  if enumMapping p e then [⟨"strconv".toList, "strconv".toList, ["x".toList, "s".toList, "ok".toList]⟩] else []

/-- All mentions in a generated file. -/
def fileMentions (W : World) (o : GenOptions) (p : Nat) : List Mention :=
  (fileEnums (W.file p)).flatMap (enumMentions (W.file p)) ++ (msgsChains [] (W.file p).messages).flatMap (messageMentions W o p)

end Verif.Model.Gen
