import Verif.Model.Gen.Header
import Verif.Model.Gen.Comments
/-!
# Model of the text of generated files

prutalgen/pkg/prutalgen/code.go:80-382 and field.go:132-240, line by line.  A line is an argument of `writeLine` (Header.lean), which models `CodeWriter.F`
after formatting.
-/
namespace Verif.Model.Gen

/-- The comments of a declaration: enum.go:30-31 and 134-135, message.go:29-30, field.go:32-33 (`HeadComment`, `InlineComment`). -/
structure Note where
  head : Str := []
  inline : Str := []
  deriving DecidableEq

/-- The comments of the declarations of a file.  Simplification: they are not fields of the declarations but given by the place of the declaration: the numbers of
the enum (0), message (1) or field (2) in the file or in what is around it, from the outside in. -/
abbrev Notes := List Nat → Note

/-- Go's `fmt.Sprintf` for formats in which every verb has one letter and its argument; `args` are the texts of the arguments. -/
def fill : Str → List Str → Str
  | [], _ => []
  | '%' :: _ :: s, a :: args => a ++ fill s args
  | c :: s, args => c :: fill s args

/-- A line. -/
def lineOf (format : String) (args : List Str) : Str := fill format.toList args

/-- `if c != "" { w.F("%s", c) }` -/
def headLine (c : Str) : List Str := if c ≠ [] then [c] else []

/-! ## Expressions -/

/-- The text of a type (type.go:46-63, field.go:132-155).  A type of another package is written with the last element of the import path. -/
def exprText (own : Str) : GoExpr → Str
  | .basic s => s
  | .iface n => n
  | .named pkg n => if pkg = own then n else pathBase pkg ++ '.' :: n
  | .ptr t => '*' :: exprText own t
  | .slice t => '[' :: ']' :: exprText own t
  | .map k v => "map[".toList ++ exprText own k ++ ']' :: exprText own v

/-- The text of a zero value (field.go:204-240). -/
def zeroText (own : Str) : ZeroExpr → Str
  | .nil => "nil".toList
  | .zero => "0".toList
  | .false => "false".toList
  | .empty => "\"\"".toList
  | .const pkg n => if pkg = own then n else pathBase pkg ++ '.' :: n
  | .lit t => exprText own t ++ "{}".toList

/-! ## Enums -/

/-- prutalgen/pkg/prutalgen/code.go:141-149: the constants; `i` is the number of the first. -/
def constLines (p : FileDecl) (parent : List Str) (e : EnumDecl) (notes : Nat → Note) : Nat → List EnumField → List Str
  | _, [] => []
  | i, f :: fs =>
    (if (notes i).head ≠ [] then (if i ≠ 0 then [[]] else []) ++ [(notes i).head] else []) ++
    lineOf "%s %s = %d %s" [enumConst p parent e f, goTypeName (parent ++ [e.name]), itoa f.value, (notes i).inline] :: constLines p parent e notes (i + 1) fs

/-- prutalgen/pkg/prutalgen/code.go:157-163: the table of names; `seen` are the numbers written. -/
def nameLines : List Int → List EnumField → List Str
  | _, [] => []
  | seen, f :: fs => if seen.contains f.value then nameLines seen fs else lineOf "%d: %q," [itoa f.value, quoted f.name] :: nameLines (f.value :: seen) fs

/-- prutalgen/pkg/prutalgen/code.go:153-179: the tables and the method `String`. -/
def mappingLines (n : Str) (fields : List EnumField) : List Str :=
  [lineOf "\n// Enum value maps for %s." [n], lineOf "var %s_name = map[int32]string {" [n]] ++
  nameLines [] fields ++
  [lineOf "}" [], [], lineOf "var %s_value = map[string]int32 {" [n]] ++
  fields.map (fun f => lineOf "%q: %d," [quoted f.name, itoa f.value]) ++
  [lineOf "}" [], lineOf "func (x %s) String() string {" [n], lineOf "s, ok := %s_name[int32(x)]" [n], lineOf "if ok { return s }" [],
   lineOf "return strconv.Itoa(int(x))" [], lineOf "}" []]

/-- prutalgen/pkg/prutalgen/code.go:133-180 (`EnumGen`); `q` is the place of the enum. -/
def enumLines (p : FileDecl) (notes : Notes) (q : List Nat) (parent : List Str) (e : EnumDecl) : List Str :=
  headLine (notes q).head ++ [enumTypeLine (goTypeName (parent ++ [e.name])) (notes q).inline, []] ++
  (if e.fields ≠ [] then lineOf "const (" [] :: constLines p parent e (fun k => notes (q ++ [2, k])) 0 e.fields ++ [lineOf ")" []] else []) ++
  (if enumMapping p e then mappingLines (goTypeName (parent ++ [e.name])) e.fields else [])

/-! ## Messages -/

/-- A field of a message with its Go name, its number among the fields, and its comments. -/
abbrev NotedField := (FieldDecl × Str) × Nat × Note

/-- The fields of the message at place `q`. -/
def notedFields (notes : Notes) (q : List Nat) (m : MsgDecl) : List NotedField := (namedFields m).mapIdx fun k x => (x, k, notes (q ++ [2, k]))

/-- prutalgen/pkg/prutalgen/code.go:351-362 (`FieldGen`). -/
def fieldLines (W : World) (p : Nat) (c : Chain) (x : NotedField) : List Str :=
  headLine x.2.2.head ++
  [lineOf "%s %s `%s` %s" [x.1.2, exprText (W.file p).goImport (fieldGoType W p c.msg x.1.1 (fieldType W p c x.1.1)),
    fieldStructTag (W.file p) x.1.1 (fieldType W p c x.1.1), x.2.2.inline]]

/-- prutalgen/pkg/prutalgen/code.go:196-203: the field for a oneof. -/
def oneofLines (c : Chain) (k : Nat) : List Str :=
  [lineOf "// Types that are assignable to %s:" [oneofFieldName c.msg k], lineOf "//" []] ++
  ((namedFields c.msg).filter fun x => x.1.oneof = some k).map (fun x => lineOf "//\t*%s_%s" [goTypeName c.path, x.2]) ++
  [lineOf "%s %s `protobuf_oneof:\"%s\"`" [oneofFieldName c.msg k, oneofFieldType c k, c.msg.oneofs.getD k []]]

/-- prutalgen/pkg/prutalgen/code.go:189-211: the loop over the fields; `seen` are the oneofs with `generatedOneOfField`. -/
def slotLines (W : World) (p : Nat) (c : Chain) : List Nat → List NotedField → List Str
  | _, [] => []
  | seen, x :: rest =>
    match x.1.1.oneof with
    | some k => if seen.contains k then slotLines W p c seen rest else oneofLines c k ++ slotLines W p c (k :: seen) rest
    | none => (if x.2.1 ≠ 0 ∧ x.2.2.head ≠ [] then [[]] else []) ++ fieldLines W p c x ++ slotLines W p c seen rest

/-- prutalgen/pkg/prutalgen/code.go:188-215: the struct; `note` are the comments of the message. -/
def structLines (W : World) (p : Nat) (c : Chain) (fields : List NotedField) (note : Note) : List Str :=
  headLine note.head ++ lineOf "type %s struct {" [goTypeName c.path] :: slotLines W p c [] fields ++
  (if genUnknownFields (W.file p) c.msg then [lineOf "unknownFields []byte `json:\"-\"`" []] else []) ++
  [lineOf "} %s" [note.inline]]

/-- prutalgen/pkg/prutalgen/code.go:217-224: the methods. -/
def methodLines (o : GenOptions) (c : Chain) : List Str :=
  lineOf "\nfunc (x *%s) Reset() { *x = %s{} }" [goTypeName c.path, goTypeName c.path] ::
  if o.marshaler then
    [lineOf "\nfunc (x *%s) Marshal(in []byte) ([]byte, error) { return prutal.MarshalAppend(in, x) }" [goTypeName c.path],
     lineOf "\nfunc (x *%s) Unmarshal(in []byte) error { return prutal.Unmarshal(in, x) }" [goTypeName c.path]]
  else []

/-- prutalgen/pkg/prutalgen/code.go:255-264: the getter of a field outside of oneofs.  (`typename[0] == '*'`, by the syntax instead of the text.) -/
def fieldGetterLines (W : World) (p : Nat) (c : Chain) (f : FieldDecl) (n : Str) : List Str :=
  let t := fieldType W p c f
  let z := lineOf "return %s" [zeroText (W.file p).goImport (fieldGoZero W p c.msg f t)]
  match t.isMessage, fieldGoType W p c.msg f t with
  | false, .ptr e =>
    [lineOf "func (x *%s) Get%s() %s {" [goTypeName c.path, n, exprText (W.file p).goImport e],
     lineOf "if x != nil && x.%s != nil { return *x.%s }" [n, n], z, lineOf "}" []]
  | _, e =>
    [lineOf "func (x *%s) Get%s() %s {" [goTypeName c.path, n, exprText (W.file p).goImport e], lineOf "if x != nil { return x.%s }" [n], z, lineOf "}" []]

/-- prutalgen/pkg/prutalgen/code.go:239-242: the getter of a oneof. -/
def oneofGetterLines (c : Chain) (k : Nat) : List Str :=
  [lineOf "func (x *%s) Get%s() %s {" [goTypeName c.path, oneofFieldName c.msg k, oneofFieldType c k], lineOf "if x != nil { return x.%s }" [oneofFieldName c.msg k],
   lineOf "return nil" [], lineOf "}" []]

/-- prutalgen/pkg/prutalgen/code.go:246-251: the getter of a field in a oneof. -/
def memberGetterLines (W : World) (p : Nat) (c : Chain) (k : Nat) (f : FieldDecl) (n : Str) : List Str :=
  [lineOf "func (x *%s) Get%s() %s {" [goTypeName c.path, n, exprText (W.file p).goImport (fieldGoType W p c.msg f (fieldType W p c f))],
   lineOf "if p, ok := x.Get%s().(*%s); ok {" [oneofFieldName c.msg k, oneofStructName (goTypeName c.path) (nestedNames c.path c.msg) n],
   lineOf "return p.%s" [n], lineOf "}" [],
   lineOf "return %s" [zeroText (W.file p).goImport (fieldGoZero W p c.msg f (fieldType W p c f))], lineOf "}" []]

/-- prutalgen/pkg/prutalgen/code.go:234-265: the loop over the fields; `seen` are the oneofs with `generatedOneOfField`. -/
def getterLines (W : World) (p : Nat) (c : Chain) : List Nat → List (FieldDecl × Str) → List Str
  | _, [] => []
  | seen, (f, n) :: rest =>
    [] :: match f.oneof with
      | some k => (if seen.contains k then [] else oneofGetterLines c k) ++ memberGetterLines W p c k f n ++ getterLines W p c (k :: seen) rest
      | none => fieldGetterLines W p c f n ++ getterLines W p c seen rest

/-- prutalgen/pkg/prutalgen/code.go:268-278: the method `XXX_OneofWrappers`. -/
def wrapperLines (c : Chain) : List Str :=
  if c.msg.oneofs ≠ [] then
    [lineOf "// XXX_OneofWrappers is for the internal use of the prutal package." [], lineOf "func (*%s) XXX_OneofWrappers() []interface{} {" [goTypeName c.path],
     lineOf "return []interface{}{" []] ++
    (List.range c.msg.oneofs.length).flatMap (fun k => ((namedFields c.msg).filter fun x => x.1.oneof = some k).map fun x =>
      lineOf "(*%s)(nil)," [oneofStructName (goTypeName c.path) (nestedNames c.path c.msg) x.2]) ++
    [lineOf "}}" []]
  else []

/-- prutalgen/pkg/prutalgen/code.go:364-382 (`OneofGen`). -/
def oneofGenLines (W : World) (p : Nat) (c : Chain) (fields : List NotedField) (k : Nat) : List Str :=
  [lineOf "type %s interface {" [oneofFieldType c k], lineOf "%s()" [oneofFieldType c k], lineOf "}" []] ++
  (fields.filter fun x => x.1.1.oneof = some k).flatMap fun x =>
    [[], lineOf "type %s struct {" [oneofStructName (goTypeName c.path) (nestedNames c.path c.msg) x.1.2]] ++ fieldLines W p c x ++
    [lineOf "}" [], [], lineOf "func (*%s) %s() {}" [oneofStructName (goTypeName c.path) (nestedNames c.path c.msg) x.1.2, oneofFieldType c k]]

/-- prutalgen/pkg/prutalgen/code.go:182-284 (`MessageGen`), without the messages inside; `q` is the place of the message. -/
def messageLines (W : World) (o : GenOptions) (p : Nat) (notes : Notes) (q : List Nat) (c : Chain) : List Str :=
  structLines W p c (notedFields notes q c.msg) (notes q) ++ methodLines o c ++
  (if o.getter then getterLines W p c [] (namedFields c.msg) else []) ++ wrapperLines c ++
  (List.range c.msg.oneofs.length).flatMap fun k => [] :: oneofGenLines W p c (notedFields notes q c.msg) k

mutual
/-- prutalgen/pkg/prutalgen/code.go:182-291 (`MessageGen`). -/
def msgLines (W : World) (o : GenOptions) (p : Nat) (notes : Notes) : List Nat → Chain → MsgDecl → List Str
  | q, c, .mk n es ms fs os ds opts rs =>
    messageLines W o p notes q ((c.path, .mk n es ms fs os ds opts rs) :: c) ++ msgsLines W o p notes q 0 ((c.path, .mk n es ms fs os ds opts rs) :: c) ms
/-- prutalgen/pkg/prutalgen/code.go:287-290 and 127-130: the loops over messages. -/
def msgsLines (W : World) (o : GenOptions) (p : Nat) (notes : Notes) : List Nat → Nat → Chain → List MsgDecl → List Str
  | _, _, _, [] => []
  | q, i, c, m :: ms => [] :: msgLines W o p notes (q ++ [1, i]) c m ++ msgsLines W o p notes q (i + 1) c ms
end

/-- prutalgen/pkg/prutalgen/code.go:112-131 (`ProtoGen`). -/
def protoLines (W : World) (o : GenOptions) (p : Nat) (notes : Notes) : List Str :=
  ((W.file p).enums.mapIdx fun i e => [] :: enumLines (W.file p) notes [0, i] [] e).flatten ++
  ((W.file p).messages.mapIdx fun j m => (m.enums.mapIdx fun i e => [] :: enumLines (W.file p) notes [1, j, 0, i] [m.name] e).flatten).flatten ++
  msgsLines W o p notes [] 0 [] (W.file p).messages

/-- prutalgen/pkg/prutalgen/code.go:84-88: the text of the file generated for file `p` (before formatting), for the command line `args`. -/
def generatedText (W : World) (o : GenOptions) (p : Nat) (notes : Notes) (args : List Str) : Str :=
  fileText args (W.file p).goPackage (genImports defaultGrouping (filePkgs W o p)) (protoLines W o p notes)

end Verif.Model.Gen
