import Verif.Spec.Gen.GoText
import Verif.Spec.Gen.Names
import Verif.Spec.Gen.Declared
import Verif.Model.Gen.Imports
import Verif.Model.Gen.Text
/-!
# Specification: the declarations of a generated file

The content of generated code (struct types, getters, tables of enums) as Go declarations.
-/
namespace Verif.Spec.Gen
open Verif.Model.Gen

/-- A type expression in a file of package `own`.  Types of other packages are qualified by the last element of the import path. -/
def exprSyn (own : Str) : GoExpr → TypeSyn
  | .basic s => if s = "[]byte".toList then .slice (.name "byte".toList) else .name s
  | .iface n => .name n
  | .named pkg n => if pkg = own then .name n else .qual (pathBase pkg) n
  | .ptr t => .ptr (exprSyn own t)
  | .slice t => .slice (exprSyn own t)
  | .map k v => .map (exprSyn own k) (exprSyn own v)

/-- A zero value. -/
def zeroSyn (own : Str) : ZeroExpr → ZeroSyn
  | .nil => .nil
  | .zero => .zero
  | .false => .false
  | .empty => .empty
  | .const pkg n => if pkg = own then .const n else .qual (pathBase pkg) n
  | .lit t => .lit (exprSyn own t)

/-- The first statement of a getter. -/
def guardSyn : GetBody → GuardSyn
  | .deref n => .deref n
  | .field n => .field n
  | .member g w n => .member g w n

/-- The declarations for an enum: the type, its constants, and the tables with the method `String`. -/
def enumDecls (g : GoEnum) : List GoDecl :=
  GoDecl.intType g.name :: (if g.consts = [] then [] else [.consts (g.consts.map fun c => (c.1, g.name, c.2))]) ++
  match g.tables with
  | some t => [.nameVar (g.name ++ "_name".toList) t.1, .valueVar (g.name ++ "_value".toList) t.2, .stringer g.name (g.name ++ "_name".toList)]
  | none => []

/-- A field of a struct. -/
def fieldSyn (own : Str) (f : GenField) : Str × TypeSyn × Str := (f.name, exprSyn own f.type, f.tag)

/-- A getter of the type `t`. -/
def getterDecl (own t : Str) (g : GenGetter) : GoDecl := .getter t g.name (exprSyn own g.type) (guardSyn g.body) (zeroSyn own g.zero)

/-- The declarations for a oneof with the interface type `n`: the type, and its wrappers with their methods. -/
def oneofDecls (own n : Str) (ws : List GenWrapper) : List GoDecl :=
  GoDecl.iface n n :: ws.flatMap fun w => [.struct w.name [fieldSyn own w.field], .marker w.name w.method]

/-- The wrappers of one oneof of a message. -/
def wrappersOf (W : World) (p : Nat) (c : Chain) (k : Nat) : List GenWrapper :=
  ((namedFields c.msg).filter fun x => x.1.oneof = some k).map fun x =>
    { name := oneofStructName (goTypeName c.path) (nestedNames c.path c.msg) x.2, field := fieldGen W p c x.1 x.2, method := oneofFieldType c k }

/-- Together they are the wrappers of the message. -/
example (W : World) (p : Nat) (c : Chain) : (genStruct W p c).wrappers = (List.range c.msg.oneofs.length).flatMap (wrappersOf W p c) := rfl

/-- The declarations for a message: the struct, the methods, the getters `gs`, and the oneofs with their interface types and wrappers. -/
def messageDecls (o : GenOptions) (s : GenStruct) (gs : List GenGetter) (os : List (Str × List GenWrapper)) : List GoDecl :=
  [GoDecl.struct s.name (s.fields.map (fieldSyn s.pkg)), .reset s.name] ++
  (if o.marshaler then [.marshal s.name, .unmarshal s.name] else []) ++
  (if o.getter then gs.map (getterDecl s.pkg s.name) else []) ++
  (if os = [] then [] else [.wrappers s.name (s.wrappers.map GenWrapper.name)]) ++
  os.flatMap fun x => oneofDecls s.pkg x.1 x.2

/-- The declarations of the file generated for file `p`. -/
def fileDecls (W : World) (o : GenOptions) (p : Nat) : List GoDecl :=
  (W.file p).enums.flatMap (fun e => enumDecls (enumGen (W.file p) [] e)) ++
  (W.file p).messages.flatMap (fun m => m.enums.flatMap fun e => enumDecls (enumGen (W.file p) [m.name] e)) ++
  (msgsChains [] (W.file p).messages).flatMap fun c =>
    messageDecls o (genStruct W p c) (genGetters W p c [] (namedFields c.msg)) ((List.range c.msg.oneofs.length).map fun k => (oneofFieldType c k, wrappersOf W p c k))

/-! ## What the parser of proto files guarantees -/

/-- The names in an enum are identifiers. -/
structure NamedEnum (e : EnumDecl) : Prop where
  name : ProtoIdent e.name
  values : ∀ v ∈ e.fields, ProtoIdent v.name

/-- The names in a message are identifiers, keys of maps are scalar types, and fields are in oneofs of the message. -/
structure NamedMsg (m : MsgDecl) : Prop where
  name : ProtoIdent m.name
  fields : ∀ f ∈ m.fields, ProtoIdent f.name
  oneofs : ∀ o ∈ m.oneofs, ProtoIdent o
  enums : ∀ e ∈ m.enums, NamedEnum e
  keys : ∀ f ∈ m.fields, ∀ k, f.key = some k → (["int32", "int64", "uint32", "uint64", "sint32", "sint64", "fixed32", "fixed64", "sfixed32", "sfixed64", "bool",
    "string"].map String.toList).contains k = true
  exist : ∀ f ∈ m.fields, ∀ k, f.oneof = some k → k < m.oneofs.length

/-- The same for a file. -/
structure NamedFile (d : FileDecl) : Prop where
  enums : ∀ e ∈ d.enums, NamedEnum e
  messages : ∀ m, Within d.messages m → NamedMsg m

/-- Comments that are comments in Go as well. -/
structure GoNote (n : Note) : Prop where
  head : n.head = [] ∨ GoComments n.head
  inline : n.inline = [] ∨ GoComment n.inline

/-- The texts of the comments of a proto file (prutalgen/internal/parser/Protobuf.g4: `LINE_COMMENT` and `COMMENT`), of characters that Go accepts. -/
structure CommentsOf (toks : List Tok) : Prop where
  line : ∀ t ∈ toks, t.kind = .line → ∃ body, t.text = '/' :: '/' :: body ∧ ∀ c ∈ body, c ≠ '\n' ∧ c ≠ '\r' ∧ Legal c
  block : ∀ t ∈ toks, t.kind = .block → ∃ body, t.text = '/' :: '*' :: (body ++ ['*', '/']) ∧ Unclosed body ∧ ∀ c ∈ body, Legal c

end Verif.Spec.Gen
