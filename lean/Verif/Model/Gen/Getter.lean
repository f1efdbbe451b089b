import Verif.Model.Gen.Code
/-!
# Model of the generated getters

prutalgen/pkg/prutalgen/code.go:230-265 (`GetXXX`) and field.go:204-240 (`GoZero`), and what the generated methods do when they are called.  The text of a method
is represented by its parts.
-/
namespace Verif.Model.Gen

/-- The expression for a zero value (field.go:204-240): `nil`, `0`, `false`, `""`, the name of a constant, or `T{}`. -/
inductive ZeroExpr where
  | nil
  | zero
  | false
  | empty
  | const (pkg name : Str)
  | lit (t : GoExpr)
  deriving DecidableEq

/-- What a getter returns if it can: `if x != nil && x.F != nil { return *x.F }` (code.go:257), `if x != nil { return x.F }` (236 and 260), or
`if p, ok := x.GetO().(*W); ok { return p.F }` (243-245). -/
inductive GetBody where
  | deref (field : Str)
  | field (field : Str)
  | member (getter wrapper field : Str)
  deriving DecidableEq

/-- A getter: its name, the type it returns, and its two statements. -/
structure GenGetter where
  name : Str
  type : GoExpr
  body : GetBody
  zero : ZeroExpr
  deriving DecidableEq

/-- The enum with this path (`Type.Enum`, type.go:103-105, which is a pointer in the code). -/
def findEnum : List MsgDecl → List EnumDecl → List Str → Option EnumDecl
  | _, _, [] => none
  | _, es, [n] => es.find? fun e => e.name = n
  | ms, _, n :: rest =>
    match ms.find? fun m => m.name = n with
    | some m => findEnum m.messages m.enums rest
    | none => none

/-- prutalgen/pkg/prutalgen/field.go:204-240 (`GoZero`) for a field of file `p`; `t` is the resolved type. -/
def fieldGoZero (W : World) (p : Nat) (m : MsgDecl) (f : FieldDecl) (t : Resolved) : ZeroExpr :=
  if f.key.isSome || f.repeated then .nil
  else
    match t with
    | .decl r q =>
      if r.isEnum then
        match findEnum (W.file r.file).messages (W.file r.file).enums r.path with
        | none => .zero
        | some e =>
          match e.fields.find? fun v => v.value = 0 with
          | some v => .const (resolvedImport W p q) (enumConst (W.file r.file) r.path.dropLast e v)
          | none => .zero
      else if genNoPointer m f then .lit (typeGoName W p t)
      else .nil
    | .scalar g =>
      if ["float32", "float64", "int32", "int64", "uint32", "uint64"].any (fun s => s.toList = g) then .zero
      else if g = "bool".toList then .false
      else if g = "string".toList then .empty
      else .nil

/-- prutalgen/pkg/prutalgen/code.go:252-263: the getter of a field outside of oneofs. -/
def fieldGetter (W : World) (p : Nat) (c : Chain) (f : FieldDecl) (n : Str) : GenGetter :=
  let t := fieldType W p c f
  let z := fieldGoZero W p c.msg f t
  match t.isMessage, fieldGoType W p c.msg f t with
  | false, .ptr e => ⟨"Get".toList ++ n, e, .deref n, z⟩
  | _, e => ⟨"Get".toList ++ n, e, .field n, z⟩

/-- prutalgen/pkg/prutalgen/code.go:234-241: the getter of a oneof. -/
def oneofGetter (c : Chain) (k : Nat) : GenGetter :=
  ⟨"Get".toList ++ oneofFieldName c.msg k, .iface (oneofFieldType c k), .field (oneofFieldName c.msg k), .nil⟩

/-- prutalgen/pkg/prutalgen/code.go:243-248: the getter of a field in a oneof. -/
def memberGetter (W : World) (p : Nat) (c : Chain) (k : Nat) (f : FieldDecl) (n : Str) : GenGetter :=
  ⟨"Get".toList ++ n, fieldGoType W p c.msg f (fieldType W p c f),
    .member ("Get".toList ++ oneofFieldName c.msg k) (oneofStructName (goTypeName c.path) (nestedNames c.path c.msg) n) n,
    fieldGoZero W p c.msg f (fieldType W p c f)⟩

/-- prutalgen/pkg/prutalgen/code.go:230-264: the loop over the fields; `seen` are the oneofs with `generatedOneOfField`. -/
def genGetters (W : World) (p : Nat) (c : Chain) : List Nat → List (FieldDecl × Str) → List GenGetter
  | _, [] => []
  | seen, (f, n) :: rest =>
    match f.oneof with
    | some k => (if seen.contains k then [] else [oneofGetter c k]) ++ memberGetter W p c k f n :: genGetters W p c (k :: seen) rest
    | none => fieldGetter W p c f n :: genGetters W p c seen rest

/-- A constant of an enum type. -/
structure GoConst where
  pkg : Str
  name : Str
  type : Str
  value : Int
  deriving DecidableEq

/-- The constants that `EnumGen` writes for an enum. -/
def enumConsts (p : FileDecl) (parent : List Str) (e : EnumDecl) : List GoConst :=
  (enumGen p parent e).consts.map fun c => ⟨p.goImport, c.1, (enumGen p parent e).name, c.2⟩

/-- prutalgen/pkg/prutalgen/code.go:113-125 and 139-150: the constants generated for all files. -/
def genConsts (W : World) : List GoConst :=
  (List.range W.files.length).flatMap fun p =>
    (W.file p).enums.flatMap (enumConsts (W.file p) []) ++
    (W.file p).messages.flatMap fun m => m.enums.flatMap (enumConsts (W.file p) [m.name])

/-! ## What the Go compiler makes of it -/

/-- The program around a method: the names of enum types and of struct types, the zero values of the structs, and the constants. -/
structure Program where
  enums : List (Str × Str)
  structs : List (Str × Str)
  decls : List StructDecl
  consts : List GoConst

/-- The value of a zero expression where a value of type `t` is wanted.  `none`: Go does not accept it there. -/
def Program.zeroValue (P : Program) (t : GoExpr) : ZeroExpr → Option Val
  | .nil =>
    match elabType P.enums P.structs t with
    | .ptr _ | .slice _ | .map _ _ | .bytes | .iface => some (goZero P.decls (elabType P.enums P.structs t))
    | _ => none
  | .zero =>
    match elabType P.enums P.structs t with
    | .int32 | .uint32 | .float32 | .int64 | .uint64 | .float64 => some (goZero P.decls (elabType P.enums P.structs t))
    | _ => none
  | .false => if elabType P.enums P.structs t = .bool then some (.bool false) else none
  | .empty => if elabType P.enums P.structs t = .string then some (.str []) else none
  | .const pkg n =>
    match P.consts.find? fun c => c.pkg = pkg && c.name = n with
    | some c => if t = .named pkg c.type && P.enums.contains (pkg, c.type) then some (.w32 (BitVec.ofInt 32 c.value)) else none
    | none => none
  | .lit t' =>
    match elabType P.enums P.structs t with
    | .struct i => if t' = t then some (goZero P.decls (.struct i)) else none
    | _ => none

/-- The field `n` of a struct value, with its type. -/
def selectField (fields : List GenField) (n : Str) (fs : List Val) : Option (GoExpr × Val) :=
  match fields.findIdx? fun g => g.name = n with
  | some i =>
    match fields[i]?, fs[i]? with
    | some g, some v => some (g.type, v)
    | _, _ => none
  | none => none

/-- A call of a getter without members of oneofs; `x` is the struct that the receiver points to, `none` for a nil pointer.  `none`: Go does not accept the
method. -/
def Program.callPlain (P : Program) (s : GenStruct) (g : GenGetter) (x : Option Val) : Option Val :=
  match g.body, x with
  | _, none => P.zeroValue g.type g.zero
  | .field n, some (.struct fs) =>
    match selectField s.fields n fs with
    | some (t, v) => if t = g.type then some v else none
    | none => none
  | .deref n, some (.struct fs) =>
    match selectField s.fields n fs with
    | some (t, .ptr none) => if t = .ptr g.type then P.zeroValue g.type g.zero else none
    | some (t, .ptr (some v)) => if t = .ptr g.type then some v else none
    | _ => none
  | _, _ => none

/-- A call of a getter.  `none` also stands for a panic (a wrapper that is a nil pointer). -/
def Program.call (P : Program) (s : GenStruct) (gs : List GenGetter) (name : Str) (x : Option Val) : Option Val :=
  match gs.find? fun g => g.name = name with
  | none => none
  | some g =>
    match g.body with
    | .member o w n =>
      match (gs.find? fun g => g.name = o).bind fun go => P.callPlain s go x, s.wrappers.findIdx? fun y => y.name = w with
      | some (.iface none), some _ => P.zeroValue g.type g.zero
      | some (.iface (some (i, v))), some j =>
        if i = j then
          match s.wrappers[j]? with
          | some y => if y.field.name = n && y.field.type = g.type then v else none
          | none => none
        else P.zeroValue g.type g.zero
      | _, _ => none
    | _ => P.callPlain s g x

/-- The program made of the code generated for all files. -/
def genProgram (W : World) (env : GoEnv) : Program where
  enums := genEnums W
  structs := (genStructs W).map fun g => (g.pkg, g.name)
  decls := env.structs
  consts := genConsts W

/-- A call of the method `name` of the struct generated for message `c` of file `p`. -/
def callGetter (W : World) (env : GoEnv) (p : Nat) (c : Chain) (name : Str) (x : Option Val) : Option Val :=
  (genProgram W env).call (genStruct W p c) (genGetters W p c [] (namedFields c.msg)) name x

end Verif.Model.Gen
