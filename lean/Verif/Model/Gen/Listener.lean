import Verif.Model.Gen.Ast
/-!
# Model of the listeners that build the declarations from the parse tree

The parse tree (prutalgen/internal/Protobuf.g4) is a tree of nodes; antlr's `ParseTreeWalker.Walk` visits it and calls the `Enter…` and `Exit…` methods of `protoLoader`
(prutalgen/pkg/prutalgen/{proto,message,enum,field,oneof,option,reserved,service}.go), which keep a stack of messages and the current enum, and append what they find to it.
Pointers to messages and enums are indices into two tables.  Simplifications: comments are represented by the directives in them (see `Model/Gen/Comments.lean` for how they are
found); the loading of an imported file is left out (`Model/Gen/Loader.lean`); a call to `Fatalf` ends the program.
-/
namespace Verif.Model.Gen

/-! ## The parse tree -/

/-- prutalgen/internal/Protobuf.g4:34-36, 58-60, 178-180: `name = constant`.  `value` is the result of `unmarshalConst` (utils.go:43-48); `none` is a malformed string literal. -/
structure OptionNode where
  name : Str
  value : Option Str

/-- prutalgen/internal/Protobuf.g4:44-48 (`fieldLabel`). -/
inductive Label where
  | optional
  | required
  | repeated
  deriving DecidableEq

/-- prutalgen/internal/Protobuf.g4:50-52, 72-80 (`field`, `oneofField`, `mapField`). -/
structure FieldNode where
  label : Option Label := none
  key : Option Str := none
  typ : Str
  name : Str
  number : Str
  options : List OptionNode := []
  directives : List Str := []

/-- prutalgen/internal/Protobuf.g4:135-137 (`oneRange`). -/
structure RangeNode where
  lo : Str
  hi : RangeEnd

/-- prutalgen/internal/Protobuf.g4:170-172 (`enumField`). -/
structure EnumValueNode where
  name : Str
  minus : Bool
  number : Str
  options : List OptionNode := []
  directives : List Str := []

/-- prutalgen/internal/Protobuf.g4:163-168 (`enumElement`). -/
inductive EnumElem where
  | option (o : OptionNode)
  | value (v : EnumValueNode)
  | reserved (rr : List RangeNode)
  | reservedNames (ss : List Str)
  | empty

/-- prutalgen/internal/Protobuf.g4:155-161 (`enumDef`). -/
structure EnumNode where
  name : Str
  directives : List Str := []
  elems : List EnumElem

/-- prutalgen/internal/Protobuf.g4:68-70 (`oneof`). -/
inductive OneofElem where
  | option (o : OptionNode)
  | field (f : FieldNode)
  | empty

/-- prutalgen/internal/Protobuf.g4:192-203 (`messageElement`). -/
inductive MsgElem where
  | field (f : FieldNode)
  | enum (e : EnumNode)
  | message (name : Str) (directives : List Str) (elems : List MsgElem)
  | extend (typ : Str) (fields : List FieldNode)
  | option (o : OptionNode)
  | oneof (name : Str) (elems : List OneofElem)
  | mapField (f : FieldNode)
  | reserved (rr : List RangeNode)
  | reservedNames (ss : List Str)
  | extensions (rr : List RangeNode) (options : List OptionNode)
  | empty

/-- prutalgen/internal/Protobuf.g4:228-233 (`rpc`), with the positions in the file of the keywords `stream` and of the two types. -/
structure RpcNode where
  name : Str
  directives : List Str := []
  requestStream : Option Nat := none
  requestPos : Nat
  request : Str
  returnStream : Option Nat := none
  returnPos : Nat
  ret : Str
  /-- `none` is an empty statement -/
  options : List (Option OptionNode) := []

/-- prutalgen/internal/Protobuf.g4:222-226 (`serviceElement`). -/
inductive ServiceElem where
  | option (o : OptionNode)
  | rpc (r : RpcNode)
  | empty

/-- prutalgen/internal/Protobuf.g4:10-12, 146-151 (the statements of a file). -/
inductive TopElem where
  | importStmt (isPublic : Bool) (path : Option Str)
  | package (name : Str)
  | option (o : OptionNode)
  | message (name : Str) (directives : List Str) (elems : List MsgElem)
  | enum (e : EnumNode)
  | extend (typ : Str) (fields : List FieldNode)
  | service (name : Str) (directives : List Str) (elems : List ServiceElem)
  | empty

/-- prutalgen/internal/Protobuf.g4:10-18 (`proto`).  The edition is the string its literal denotes, `none` inside for a malformed literal. -/
structure ProtoNode where
  edition : Option (Option Str) := none
  elems : List TopElem

/-! ## The walk -/

/-- `getRuleIndex(c.GetParent())`. -/
inductive Parent where
  | proto
  | topLevelDef
  | messageElement
  | oneof
  | enumElement
  | serviceElement
  | rpc
  | extendDef
  deriving DecidableEq

/-- The calls of listener methods that do something. -/
inductive Event where
  | exitEdition (v : Option Str)
  | exitImport (isPublic : Bool) (path : Option Str)
  | exitPackage (name : Str)
  | exitOption (parent : Parent) (o : OptionNode)
  | enterMessage (parent : Parent) (name : Str) (directives : List Str)
  | exitMessage
  | enterEnum (parent : Parent) (name : Str) (directives : List Str)
  | exitEnum
  | exitEnumField (v : EnumValueNode)
  | exitField (parent : Parent) (f : FieldNode)
  | enterOneof (name : Str)
  | exitOneofField (f : FieldNode)
  | exitMapField (f : FieldNode)
  | exitReserved (parent : Parent) (rr : Option (List RangeNode))
  | enterService (name : Str) (directives : List Str)
  | enterRpc (name : Str) (directives : List Str)
  | exitRpc (r : RpcNode)

/-- The walk below an enum element. -/
def evEnumElem : EnumElem → List Event
  | .option o => [.exitOption .enumElement o]
  | .value v => [.exitEnumField v]
  | .reserved rr => [.exitReserved .enumElement (some rr)]
  | .reservedNames _ => [.exitReserved .enumElement none]
  | .empty => []

/-- The walk of an enum. -/
def evEnum (parent : Parent) (e : EnumNode) : List Event :=
  .enterEnum parent e.name e.directives :: (e.elems.flatMap evEnumElem ++ [.exitEnum])

/-- The walk below a oneof. -/
def evOneofElem : OneofElem → List Event
  | .option o => [.exitOption .oneof o]
  | .field f => [.exitOneofField f]
  | .empty => []

mutual
/-- The walk below a message element. -/
def evElem : MsgElem → List Event
  | .field f => [.exitField .messageElement f]
  | .enum e => evEnum .messageElement e
  | .message n d es => .enterMessage .messageElement n d :: (evElems es ++ [.exitMessage])
  | .extend _ fs => fs.map (.exitField .extendDef)
  | .option o => [.exitOption .messageElement o]
  | .oneof n es => .enterOneof n :: es.flatMap evOneofElem
  | .mapField f => [.exitMapField f]
  | .reserved rr => [.exitReserved .messageElement (some rr)]
  | .reservedNames _ => [.exitReserved .messageElement none]
  | .extensions _ _ => []
  | .empty => []
/-- The same for all elements. -/
def evElems : List MsgElem → List Event
  | [] => []
  | e :: es => evElem e ++ evElems es
end

/-- The walk below a method: an option, or an empty statement. -/
def evRpcOption : Option OptionNode → List Event
  | some o => [.exitOption .rpc o]
  | none => []

/-- The walk below a service element. -/
def evServiceElem : ServiceElem → List Event
  | .option o => [.exitOption .serviceElement o]
  | .rpc r => .enterRpc r.name r.directives :: (r.options.flatMap evRpcOption ++ [.exitRpc r])
  | .empty => []

/-- The walk below a file. -/
def evTop : TopElem → List Event
  | .importStmt p path => [.exitImport p path]
  | .package n => [.exitPackage n]
  | .option o => [.exitOption .proto o]
  | .message n d es => .enterMessage .topLevelDef n d :: (evElems es ++ [.exitMessage])
  | .enum e => evEnum .topLevelDef e
  | .extend _ fs => fs.map (.exitField .extendDef)
  | .service n d es => .enterService n d :: es.flatMap evServiceElem
  | .empty => []

/-- prutalgen/internal/Protobuf.g4:10-18: the optional statement about the edition. -/
def evEdition : Option (Option Str) → List Event
  | some v => [.exitEdition v]
  | none => []

/-- prutalgen/internal/Protobuf.g4:10-12: the walk of a file. -/
def evProto (p : ProtoNode) : List Event := evEdition p.edition ++ p.elems.flatMap evTop

/-! ## The state -/

/-- prutalgen/pkg/prutalgen/oneof.go:24-32 (`Oneof`); `fields` are indices into the fields of the message. -/
structure OneofRec where
  name : Str
  options : List Opt := []
  fields : List Nat := []

/-- prutalgen/pkg/prutalgen/message.go:28-49 (`Message`). -/
structure MsgRec where
  name : Str
  directives : List Str := []
  parent : Option Nat := none
  enums : List Nat := []
  messages : List Nat := []
  fields : List FieldDecl := []
  oneofs : List OneofRec := []
  options : List Opt := []
  reserved : List Range := []

/-- prutalgen/pkg/prutalgen/enum.go:29-43 (`Enum`). -/
structure EnumRec where
  decl : EnumDecl
  parent : Option Nat := none

/-- prutalgen/pkg/prutalgen/service.go:50-67 (`Method`). -/
structure MethodRec where
  name : Str
  directives : List Str := []
  request : Str := []
  ret : Str := []
  requestStream : Bool := false
  returnStream : Bool := false
  options : List Opt := []

/-- prutalgen/pkg/prutalgen/service.go:26-38 (`Service`). -/
structure ServiceRec where
  name : Str
  directives : List Str := []
  methods : List MethodRec := []
  options : List Opt := []

/-- The file being read (prutalgen/pkg/prutalgen/proto.go:38-57), all messages and enums made so far, and `msgstack` (innermost first) and `enum` of
`protoLoader` (prutalgen.go:31-46). -/
structure LState where
  edition : Edition := .proto2
  package : Str := []
  imports : List (Str × Bool) := []
  options : List Opt := []
  enums : List Nat := []
  messages : List Nat := []
  services : List ServiceRec := []
  msgStore : List MsgRec := []
  enumStore : List EnumRec := []
  msgstack : List Nat := []
  enum : Option Nat := none

/-- How the walk ends early: a message to the user, or an invalid access (index out of range, nil pointer, `panic`). -/
inductive LErr where
  | fatal
  | panic
  deriving DecidableEq

abbrev LRes := Except LErr

/-- Changes the element at an index. -/
def updateAt {α : Type} (i : Nat) (g : α → LRes α) (xs : List α) : LRes (List α) :=
  match xs[i]? with
  | some x => do return xs.set i (← g x)
  | none => .error .panic

/-- `last(xs)` (prutalgen/pkg/prutalgen/utils.go:39-41), changed. -/
def updateLast {α : Type} (g : α → LRes α) (xs : List α) : LRes (List α) := updateAt (xs.length - 1) g xs

/-- `x.currentMsg()` (prutalgen/pkg/prutalgen/prutalgen.go:147-149), changed. -/
def updateMsg (s : LState) (g : MsgRec → LRes MsgRec) : LRes LState :=
  match s.msgstack with
  | i :: _ => do return { s with msgStore := ← updateAt i g s.msgStore }
  | [] => .error .panic

/-- `x.enum`, changed. -/
def updateEnum (s : LState) (g : EnumDecl → EnumDecl) : LRes LState :=
  match s.enum with
  | some i => do return { s with enumStore := ← updateAt i (fun e => .ok { e with decl := g e.decl }) s.enumStore }
  | none => .error .panic

/-! ## The listeners -/

/-- prutalgen/pkg/prutalgen/option.go:107-129 (`verifyOption`). -/
def verifyOption (name v : Str) : Bool :=
  if name = "features.repeated_field_encoding".toList then v = "EXPANDED".toList || v = "PACKED".toList
  else if name = "features.field_presence".toList then v = "EXPLICIT".toList || v = "IMPLICIT".toList
  else if name = "packed".toList || name = "allow_alias".toList then v = "true".toList || v = "false".toList
  else true

/-- prutalgen/pkg/prutalgen/field.go:310-318 and enum.go:199-207: the options in brackets. -/
def bracketOptions : List OptionNode → LRes (List Opt)
  | [] => .ok []
  | o :: os =>
    match o.value with
    | none => .error .fatal
    | some v => do return (o.name, v) :: (← bracketOptions os)

/-- prutalgen/pkg/prutalgen/field.go:290-320 (`newField`). -/
def newField (f : FieldNode) : LRes FieldDecl :=
  match unmarshalI32 f.number with
  | none => .error .fatal
  | some n => do
    let oo ← bracketOptions f.options
    return { name := f.name, key := f.key, typ := f.typ, number := n, directives := f.directives, options := oo }

/-- prutalgen/pkg/prutalgen/reserved.go:55-74. -/
def reservedRanges : List RangeNode → LRes (List Range)
  | [] => .ok []
  | r :: rr =>
    match oneRange r.lo r.hi with
    | none => .error .fatal
    | some v => do return v :: (← reservedRanges rr)

/-- prutalgen/pkg/prutalgen/proto.go:171-184 (`ExitEdition`). -/
def exitEdition (s : LState) : Option Str → LRes LState
  | none => .error .fatal
  | some v =>
    if v = "proto2".toList then .ok { s with edition := .proto2 }
    else if v = "proto3".toList then .ok { s with edition := .proto3 }
    else if v = "2023".toList then .ok { s with edition := .ed2023 }
    else .error .fatal

/-- prutalgen/pkg/prutalgen/option.go:77-104: the switch at the end of `ExitOptionStatement`. -/
def addOption (s : LState) (parent : Parent) (o : Opt) : LRes LState :=
  match parent with
  | .proto => .ok { s with options := s.options ++ [o] }
  | .messageElement => updateMsg s fun m => .ok { m with options := m.options ++ [o] }
  | .oneof => updateMsg s fun m => do
      return { m with oneofs := ← updateLast (fun x => .ok { x with options := x.options ++ [o] }) m.oneofs }
  | .enumElement => updateEnum s fun e => { e with options := e.options ++ [o] }
  | .serviceElement => do
      return { s with services := ← updateLast (fun x => .ok { x with options := x.options ++ [o] }) s.services }
  | .rpc => do
      return { s with services := ← updateLast (fun x => do
        return { x with methods := ← updateLast (fun r => .ok { r with options := r.options ++ [o] }) x.methods }) s.services }
  | _ => .ok s

/-- prutalgen/pkg/prutalgen/option.go:62-105 (`ExitOptionStatement`). -/
def exitOption (s : LState) (parent : Parent) (o : OptionNode) : LRes LState :=
  match o.value with
  | none => .error .fatal
  | some v => if verifyOption o.name v = false then .error .fatal else addOption s parent (o.name, v)

/-- prutalgen/pkg/prutalgen/message.go:226-248 (`EnterMessageDef`). -/
def enterMessage (s : LState) (parent : Parent) (name : Str) (directives : List Str) : LRes LState :=
  let i := s.msgStore.length
  match parent with
  | .topLevelDef => .ok { s with messages := s.messages ++ [i], msgStore := s.msgStore ++ [{ name := name, directives := directives }], msgstack := i :: s.msgstack }
  | .messageElement =>
    match s.msgstack with
    | j :: _ => do
      let s ← updateMsg s fun m => .ok { m with messages := m.messages ++ [i] }
      return { s with msgStore := s.msgStore ++ [{ name := name, directives := directives, parent := some j }], msgstack := i :: s.msgstack }
    | [] => .error .panic
  | _ => .error .panic

/-- prutalgen/pkg/prutalgen/message.go:250-252 (`ExitMessageDef`). -/
def exitMessage (s : LState) : LRes LState :=
  match s.msgstack with
  | _ :: st => .ok { s with msgstack := st }
  | [] => .error .panic

/-- prutalgen/pkg/prutalgen/enum.go:154-174 (`EnterEnumDef`). -/
def enterEnum (s : LState) (parent : Parent) (name : Str) (directives : List Str) : LRes LState :=
  let i := s.enumStore.length
  let e : EnumDecl := { name := name, fields := [], directives := directives }
  match parent with
  | .topLevelDef => .ok { s with enums := s.enums ++ [i], enumStore := s.enumStore ++ [{ decl := e }], enum := some i }
  | .messageElement =>
    match s.msgstack with
    | j :: _ => do
      let s ← updateMsg s fun m => .ok { m with enums := m.enums ++ [i] }
      return { s with enumStore := s.enumStore ++ [{ decl := e, parent := some j }], enum := some i }
    | [] => .error .panic
  | _ => .error .panic

/-- prutalgen/pkg/prutalgen/enum.go:180-210 (`ExitEnumField`). -/
def exitEnumField (s : LState) (v : EnumValueNode) : LRes LState :=
  match enumValue v.minus v.number with
  | none => .error .fatal
  | some n => do
    let oo ← bracketOptions v.options
    updateEnum s fun e => { e with fields := e.fields ++ [{ name := v.name, value := n, directives := v.directives, options := oo }] }

/-- prutalgen/pkg/prutalgen/field.go:329-343: the label. -/
def setLabel (ed : Edition) (d : FieldDecl) : Option Label → LRes FieldDecl
  | none => .ok d
  | some .repeated => .ok { d with repeated := true }
  | some .required => if ed ≠ .proto2 then .error .fatal else .ok { d with required := true }
  | some .optional => .ok { d with optional := true }

/-- prutalgen/pkg/prutalgen/field.go:322-347 (`ExitField`). -/
def exitField (s : LState) (parent : Parent) (f : FieldNode) : LRes LState :=
  if parent = .extendDef then .ok s
  else do
    let d ← newField f
    let d ← setLabel s.edition d f.label
    updateMsg s fun m => .ok { m with fields := m.fields ++ [d] }

/-- prutalgen/pkg/prutalgen/oneof.go:45-50 (`EnterOneof`). -/
def enterOneof (s : LState) (name : Str) : LRes LState :=
  updateMsg s fun m => .ok { m with oneofs := m.oneofs ++ [{ name := name }] }

/-- prutalgen/pkg/prutalgen/field.go:349-359 (`ExitOneofField`). -/
def exitOneofField (s : LState) (f : FieldNode) : LRes LState := do
  let d ← newField f
  updateMsg s fun m => do
    let oneofs ← updateLast (fun x => .ok { x with fields := x.fields ++ [m.fields.length] }) m.oneofs
    return { m with oneofs := oneofs, fields := m.fields ++ [{ d with oneof := some (m.oneofs.length - 1) }] }

/-- prutalgen/pkg/prutalgen/field.go:361-367 (`ExitMapField`). -/
def exitMapField (s : LState) (f : FieldNode) : LRes LState := do
  let d ← newField f
  updateMsg s fun m => .ok { m with fields := m.fields ++ [d] }

/-- prutalgen/pkg/prutalgen/reserved.go:50-86 (`ExitReserved`). -/
def exitReservedStmt (s : LState) (parent : Parent) : Option (List RangeNode) → LRes LState
  | none => .ok s
  | some rr => do
    let ranges ← reservedRanges rr
    match parent with
    | .messageElement => updateMsg s fun m => .ok { m with reserved := m.reserved ++ ranges }
    | .enumElement => updateEnum s fun e => { e with reserved := e.reserved ++ ranges }
    | _ => .ok s

/-- prutalgen/pkg/prutalgen/service.go:88-99 (`EnterRpc`). -/
def enterRpc (s : LState) (name : Str) (directives : List Str) : LRes LState := do
  return { s with services := ← updateLast (fun x => .ok { x with methods := x.methods ++ [{ name := name, directives := directives }] }) s.services }

/-- prutalgen/pkg/prutalgen/service.go:104-110: the flags, for the keyword `stream` at position `pos`. -/
def streamAt (requestPos returnPos : Nat) (m : MethodRec) (pos : Nat) : MethodRec :=
  if pos < requestPos then { m with requestStream := true }
  else if pos < returnPos then { m with returnStream := true }
  else m

/-- prutalgen/pkg/prutalgen/service.go:101-121 (`ExitRpc`). -/
def exitRpc (s : LState) (r : RpcNode) : LRes LState := do
  return { s with services := ← updateLast (fun x => do
    return { x with methods := ← updateLast (fun m =>
      let m := (r.requestStream.toList ++ r.returnStream.toList).foldl (streamAt r.requestPos r.returnPos) m
      .ok { m with request := r.request, ret := r.ret }) x.methods }) s.services }

/-- One call. -/
def step (s : LState) : Event → LRes LState
  | .exitEdition v => exitEdition s v
  | .exitImport p path =>  -- prutalgen/pkg/prutalgen/proto.go:194-211
    match path with
    | none => .error .fatal
    | some path => .ok { s with imports := s.imports ++ [(path, p)] }
  | .exitPackage n =>  -- prutalgen/pkg/prutalgen/proto.go:186-192
    if s.package ≠ [] then .error .fatal else .ok { s with package := n }
  | .exitOption parent o => exitOption s parent o
  | .enterMessage parent n d => enterMessage s parent n d
  | .exitMessage => exitMessage s
  | .enterEnum parent n d => enterEnum s parent n d
  | .exitEnum => .ok { s with enum := none }  -- prutalgen/pkg/prutalgen/enum.go:176-178
  | .exitEnumField v => exitEnumField s v
  | .exitField parent f => exitField s parent f
  | .enterOneof n => enterOneof s n
  | .exitOneofField f => exitOneofField s f
  | .exitMapField f => exitMapField s f
  | .exitReserved parent rr => exitReservedStmt s parent rr
  | .enterService n d => .ok { s with services := s.services ++ [{ name := n, directives := d }] }  -- service.go:75-86
  | .enterRpc n d => enterRpc s n d
  | .exitRpc r => exitRpc s r

/-- prutalgen/pkg/prutalgen/prutalgen.go:236-252: the walk of a file. -/
def walk (p : ProtoNode) : LRes LState := (evProto p).foldlM step {}

end Verif.Model.Gen
