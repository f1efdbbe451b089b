import Verif.Model.Gen.Field
import Verif.Model.Desc
/-!
# Model of the code generated for messages

prutalgen/pkg/prutalgen/field.go:119-201 and 264-269, message.go:84-97, code.go:112-131, 182-228, 268-291 and 351-382.  The generated Go declarations are represented by
their syntax instead of their text.  Comments, methods other than `XXX_OneofWrappers`, and imports are left out.  Then, what the Go compiler makes
of the declarations: the struct types as the runtime sees them.
-/
namespace Verif.Model.Gen

/-- A Go type expression.  A named type comes with the import path of its package.  Simplification: in the text, types of other packages are written with the
last element of the import path (type.go:62), types of the same package without. -/
inductive GoExpr where
  | basic (name : Str)
  | named (pkg name : Str)
  | iface (name : Str)
  | ptr (t : GoExpr)
  | slice (t : GoExpr)
  | map (k v : GoExpr)
  deriving DecidableEq

/-- prutalgen/pkg/prutalgen/field.go:119-130 (`genNoPointer`). -/
def genNoPointer (m : MsgDecl) (f : FieldDecl) : Bool :=
  if dirHas f.directives "no_pointer".toList then true
  else if dirHas m.directives "no_pointer".toList then true
  else
    match optGet f.options "(gogoproto.nullable)".toList with
    | some v => isFalse v
    | none => false

/-- prutalgen/pkg/prutalgen/type.go:46-63 (`Type.GoName`), in a field of file `p`. -/
def typeGoName (W : World) (p : Nat) : Resolved → GoExpr
  | .scalar g => .basic g
  | .decl r q => .named (resolvedImport W p q) (goTypeName r.path)

/-- The Go type of a key (which is never resolved): `scalar2GoTypes[t.Name]`. -/
def keyGoName (k : Str) : GoExpr := .basic ((scalarTypes.lookup k).getD [])

/-- prutalgen/pkg/prutalgen/field.go:132-138 (`goTypeName`). -/
def elemTypeName (W : World) (p : Nat) (t : Resolved) (noptr : Bool) : GoExpr :=
  if !noptr && t.isMessage then .ptr (typeGoName W p t) else typeGoName W p t

/-- prutalgen/pkg/prutalgen/field.go:161-201 (`IsPointer`). -/
def isPointer (W : World) (p : Nat) (m : MsgDecl) (f : FieldDecl) (t : Resolved) : Bool :=
  if genNoPointer m f then false
  else if f.key.isSome || f.repeated || t = .scalar "[]byte".toList then false
  else if t.isMessage then true
  else if f.optional then true
  else if f.oneof.isSome then false
  else
    match (W.file p).edition with
    | .proto2 => true
    | .ed2023 =>
      match optGet f.options "features.field_presence".toList with
      | some s => s == "EXPLICIT".toList
      | none =>
        match optGet (W.file p).options "features.field_presence".toList with
        | some s => s == "EXPLICIT".toList
        | none => true
    | .proto3 => false

/-- prutalgen/pkg/prutalgen/field.go:141-155 (`GoTypeName`). -/
def fieldGoType (W : World) (p : Nat) (m : MsgDecl) (f : FieldDecl) (t : Resolved) : GoExpr :=
  match f.key with
  | some k => .map (keyGoName k) (elemTypeName W p t (genNoPointer m f))
  | none =>
    if f.repeated then .slice (elemTypeName W p t (genNoPointer m f))
    else if isPointer W p m f t then .ptr (typeGoName W p t)
    else typeGoName W p t

/-- A field of a generated struct. -/
structure GenField where
  name : Str
  type : GoExpr
  tag : Str
  deriving DecidableEq

/-- A wrapper struct of a oneof: its name, its field, and the name of its method. -/
structure GenWrapper where
  name : Str
  field : GenField
  method : Str
  deriving DecidableEq

/-- The struct generated for a message, and the wrappers that its method `XXX_OneofWrappers` returns. -/
structure GenStruct where
  pkg : Str
  name : Str
  fields : List GenField
  wrappers : List GenWrapper
  deriving DecidableEq

/-- prutalgen/pkg/prutalgen/message.go:84-97 (`genUnknownFields`); `p` is the file. -/
def genUnknownFields (p : FileDecl) (m : MsgDecl) : Bool :=
  match dirIsSet m.directives "unknown_fields".toList with
  | some v => v
  | none =>
    match dirIsSet p.directives "unknown_fields".toList with
    | some v => v
    | none =>
      match optGet m.options "(gogoproto.goproto_unrecognized)".toList with
      | some v => isTrue v
      | none =>
        match optGet p.options "(gogoproto.goproto_unrecognized_all)".toList with
        | some v => isTrue v
        | none => false

/-- A message with those around it, from the inside out, each with the names around it. -/
abbrev Chain := List (List Str × MsgDecl)

/-- The message itself. -/
def Chain.msg : Chain → MsgDecl
  | (_, m) :: _ => m
  | [] => .mk [] [] [] [] [] [] [] []

/-- The path of its name. -/
def Chain.path : Chain → List Str
  | (outer, m) :: _ => outer ++ [m.name]
  | [] => []

/-- The resolved type of a field (field.go:114).  A type that is not found ends the program; `.scalar []` stands for that. -/
def fieldType (W : World) (p : Nat) (c : Chain) (f : FieldDecl) : Resolved := (typeResolve W p c true f.typ).getD (.scalar [])

/-- prutalgen/pkg/prutalgen/code.go:351-362 (`FieldGen`); `n` is the Go name of the field. -/
def fieldGen (W : World) (p : Nat) (c : Chain) (f : FieldDecl) (n : Str) : GenField where
  name := n
  type := fieldGoType W p c.msg f (fieldType W p c f)
  tag := fieldStructTag (W.file p) f (fieldType W p c f)

/-- prutalgen/pkg/prutalgen/oneof.go:34-39 (`Oneof.FieldName`). -/
def oneofFieldName (m : MsgDecl) (k : Nat) : Str :=
  match (resolveFieldConflicts m).oneofs.lookup k with
  | some n => n
  | none => goCamelCase (m.oneofs.getD k [])

/-- prutalgen/pkg/prutalgen/oneof.go:41-43 (`Oneof.FieldType`). -/
def oneofFieldType (c : Chain) (k : Nat) : Str := "is".toList ++ goTypeName c.path ++ '_' :: oneofFieldName c.msg k

/-- prutalgen/pkg/prutalgen/code.go:203: the field that holds a oneof. -/
def oneofSlot (c : Chain) (k : Nat) : GenField where
  name := oneofFieldName c.msg k
  type := .iface (oneofFieldType c k)
  tag := "protobuf_oneof:\"".toList ++ c.msg.oneofs.getD k [] ++ ['"']

/-- prutalgen/pkg/prutalgen/code.go:186-211: the loop over the fields; `seen` are the oneofs with `generatedOneOfField`. -/
def genSlots (W : World) (p : Nat) (c : Chain) : List Nat → List (FieldDecl × Str) → List GenField
  | _, [] => []
  | seen, (f, n) :: rest =>
    match f.oneof with
    | some k => if seen.contains k then genSlots W p c seen rest else oneofSlot c k :: genSlots W p c (k :: seen) rest
    | none => fieldGen W p c f n :: genSlots W p c seen rest

/-- prutalgen/pkg/prutalgen/code.go:213: the field for unknown fields. -/
def unknownSlot : GenField where
  name := "unknownFields".toList
  type := .basic "[]byte".toList
  tag := "json:\"-\"".toList

/-- The fields of a message with their Go names. -/
def namedFields (m : MsgDecl) : List (FieldDecl × Str) := m.fields.zip (resolveFieldConflicts m).fields

/-- prutalgen/pkg/prutalgen/code.go:268-283 (the list of wrappers) and 364-382 (`OneofGen`). -/
def genWrappers (W : World) (p : Nat) (c : Chain) : List GenWrapper :=
  (List.range c.msg.oneofs.length).flatMap fun k =>
    ((namedFields c.msg).filter fun x => x.1.oneof = some k).map fun x =>
      { name := oneofStructName (goTypeName c.path) (nestedNames c.path c.msg) x.2
        field := fieldGen W p c x.1 x.2
        method := oneofFieldType c k }

/-- prutalgen/pkg/prutalgen/code.go:182-291 (`MessageGen`), without the messages inside. -/
def genStruct (W : World) (p : Nat) (c : Chain) : GenStruct where
  pkg := (W.file p).goImport
  name := goTypeName c.path
  fields := genSlots W p c [] (namedFields c.msg) ++ (if genUnknownFields (W.file p) c.msg then [unknownSlot] else [])
  wrappers := genWrappers W p c

mutual
/-- prutalgen/pkg/prutalgen/code.go:182-291 (`MessageGen`): the messages it is called for, beginning with `m`; `c` are the messages around it. -/
def msgChains : Chain → MsgDecl → List Chain
  | c, .mk n es ms fs os ds opts rs =>
    ((c.path, .mk n es ms fs os ds opts rs) :: c) :: msgsChains ((c.path, .mk n es ms fs os ds opts rs) :: c) ms
def msgsChains : Chain → List MsgDecl → List Chain
  | _, [] => []
  | c, m :: ms => msgChains c m ++ msgsChains c ms
end

/-- All messages of all files, in the order in which they are generated: the number of the file and the chain. -/
def allMessages (W : World) : List (Nat × Chain) :=
  (List.range W.files.length).flatMap fun p => (msgsChains [] (W.file p).messages).map fun c => (p, c)

/-- prutalgen/pkg/prutalgen/code.go:127-130: the struct types generated for all files.  Simplification: all files are taken together; a run of
the program generates some of them. -/
def genStructs (W : World) : List GenStruct := (allMessages W).map fun x => genStruct W x.1 x.2

/-- prutalgen/pkg/prutalgen/code.go:113-125: the enum types generated: import path of the package and name. -/
def genEnums (W : World) : List (Str × Str) :=
  (List.range W.files.length).flatMap fun p =>
    (W.file p).enums.map (fun e => ((W.file p).goImport, goTypeName [e.name])) ++
    (W.file p).messages.flatMap fun m => m.enums.map fun e => ((W.file p).goImport, goTypeName [m.name, e.name])

/-! ## What the Go compiler makes of it -/

/-- The predeclared Go types. -/
def basicGoType (s : Str) : GoType :=
  ([("float64", GoType.float64), ("float32", .float32), ("int32", .int32), ("int64", .int64), ("uint32", .uint32), ("uint64", .uint64), ("bool", .bool),
    ("string", .string), ("[]byte", .bytes)].find? fun p => p.1.toList = s).elim (.other 0) Prod.snd

/-- The Go type of a type expression, given the declared enums and structs.  An enum type is an `int32` for the runtime, which looks at kinds. -/
def elabType (enums structs : List (Str × Str)) : GoExpr → GoType
  | .basic s => basicGoType s
  | .named pkg n => if enums.contains (pkg, n) then .int32 else match structs.idxOf? (pkg, n) with
    | some i => .struct i
    | none => .other 0
  | .iface _ => .iface
  | .ptr t => .ptr (elabType enums structs t)
  | .slice t => .slice (elabType enums structs t)
  | .map k v => .map (elabType enums structs k) (elabType enums structs v)

/-- A struct field as `reflect` presents it. -/
def elabField (enums structs : List (Str × Str)) (f : GenField) : GoField where
  name := f.name
  type := elabType enums structs f.type
  tag := tagGet f.tag "protobuf"
  keyTag := tagGet f.tag "protobuf_key"
  valTag := tagGet f.tag "protobuf_val"
  oneofTag := tagGet f.tag "protobuf_oneof"

/-- The positions of the interface types that have the method (and no other). -/
def implementing (fields : List GenField) (method : Str) : List Nat :=
  (List.range fields.length).filter fun i => (fields[i]?.map GenField.type) = some (.iface method)

/-- The wrappers of a struct; a wrapper is identified by its position. -/
def elabWrappers (enums structs : List (Str × Str)) (g : GenStruct) : List Wrapper :=
  g.wrappers.mapIdx fun i w => { id := i, implements := implementing g.fields w.method, fields := [elabField enums structs w.field] }

/-- The zero value of a Go type. -/
def goZero (structs : List StructDecl) : GoType → Val
  | .bool => .bool false
  | .int32 | .uint32 | .float32 => .w32 0#32
  | .int64 | .uint64 | .float64 => .w64 0#64
  | .string => .str []
  | .bytes => .bytes none
  | .ptr _ => .ptr none
  | .slice _ => .slice []
  | .map _ _ => .map none
  | .struct i => (structs[i]?.map StructDecl.zero).getD (.struct [])
  | .iface => .iface none
  | .other _ => .struct []

/-- The struct types are the declared ones, with any size, and zero values are made of the zero values of the fields.  Go does not accept two types of
the same name in a package. -/
structure Compiles (gs : List GenStruct) (enums : List (Str × Str)) (env : GoEnv) : Prop where
  distinct : ((gs.map fun g => (g.pkg, g.name)) ++ enums).Nodup
  count : env.structs.length = gs.length
  fields : ∀ (i : Nat) (g : GenStruct) (d : StructDecl), gs[i]? = some g → env.structs[i]? = some d →
    d.fields = g.fields.map (elabField enums (gs.map fun g => (g.pkg, g.name)))
  wrappers : ∀ (i : Nat) (g : GenStruct) (d : StructDecl), gs[i]? = some g → env.structs[i]? = some d → d.wrappers = elabWrappers enums (gs.map fun g => (g.pkg, g.name)) g
  zero : ∀ (i : Nat) (d : StructDecl), env.structs[i]? = some d → d.zero = .struct (d.fields.map fun f => goZero env.structs f.type)

end Verif.Model.Gen
