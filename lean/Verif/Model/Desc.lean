import Verif.Model.Tag
/-!
# Model of internal/desc: field and struct descriptors

A descriptor refers to other types by `GoType` (struct types by number), so the cyclic `*Type`
graph of the code is a table of struct descriptors here.  The caches of the package are modelled
separately (`Model/TypeCache.lean`, `Model/DescMap.lean`).
-/
namespace Verif.Model

/-- A field of a Go struct type, as `reflect.StructField` shows it to internal/desc/desc.go:
332-348: name, type and the values of the tag keys `protobuf`, `protobuf_key`, `protobuf_val`,
`protobuf_oneof`. -/
structure GoField where
  name : List Char
  type : GoType
  tag : List Char := []
  keyTag : List Char := []
  valTag : List Char := []
  oneofTag : List Char := []
  deriving DecidableEq, Repr, Inhabited

/-- A oneof wrapper type found by internal/desc/utils.go:97-150 (`searchOneofWrappers`): its
identity, the struct fields (by index) whose interface type it implements, and its fields.
The reflective search itself is in `Model/Oneof.lean`. -/
structure Wrapper where
  id : Nat
  implements : List Nat
  fields : List GoField
  deriving DecidableEq, Repr, Inhabited

/-- A Go struct type: its fields, its oneof wrappers, its size and its zero value
(`reflect.New(rt)`, desc.go:320).  Size and zero value are inputs, as they come from the Go
runtime; `Legal` in `Spec/Types.lean` says they are what they should be. -/
structure StructDecl where
  fields : List GoField
  wrappers : List Wrapper := []
  size : Nat := 0
  zero : Val := .struct []
  deriving Inhabited

/-- internal/desc/desc.go:152-199 (`FieldDesc`).  Function pointers are represented by the coder
they belong to (`none` is nil); `slot` (index of the Go field) stands for `Offset`; `oneof` is the
wrapper's identity.  Not represented: `Name`, `Tag`, `Required` (never read by the codec). -/
structure FieldDesc where
  id : BitVec 32
  slot : Nat
  t : GoType
  tagType : TagType
  repeated : Bool
  packed : Bool
  isList : Bool
  isMap : Bool
  wireTag : BitVec 64
  wireTagSize : Nat
  oneof : Option Nat
  appendFunc : Option AppendFn
  sizeFunc : Option Coder
  appendList : Option Coder
  appendMap : Option (Coder × Coder)
  keyType : TagType
  valType : TagType
  keyAppend : Option AppendFn
  valAppend : Option AppendFn
  keySize : Option Coder
  valSize : Option Coder
  sizeMap : Option (Coder × Coder)
  decodePacked : Option Coder
  decodeMap : Option (Coder × Coder)
  deriving DecidableEq, Repr

/-- internal/desc/desc.go:84-100 (`StructDesc`); `unknown` is `HasUnknownFields` with the slot and
`UnknownFieldsPointer`; `mFields1` is an association list; `empty` is the value at `Empty`. -/
structure StructDesc where
  fields : List FieldDesc
  unknown : Option (Nat × Bool)
  mFields0 : List (Option FieldDesc)
  mFields1 : List (Int × FieldDesc)
  size : Nat
  empty : Val

instance : Inhabited StructDesc := ⟨⟨[], none, [], [], 0, .struct []⟩⟩

/-- internal/desc/desc.go:102-107 (`GetField`), for a non-negative argument (the decoder only asks
for numbers accepted by `ConsumeTag`; a negative one would index out of range). -/
def StructDesc.getField (s : StructDesc) (v : Nat) : Option FieldDesc :=
  if v < s.mFields0.length then s.mFields0.getD v none
  else (s.mFields1.find? (fun e => e.1 == (v : Int))).map (·.2)

/-! ## funcs.go, utils.go -/

/-- internal/desc/funcs.go:25-58 (`getCoderType`). -/
def getCoderType (t : TagType) (k : Kind) : Coder :=
  match t with
  | .varint => match k with
    | .int32 => .varintI32
    | .uint32 => .varintU32
    | .int64 => .varint64
    | .uint64 => .varint64
    | .bool => .bool
    | _ => .unknown
  | .zigzag32 => .zigzag32
  | .zigzag64 => .zigzag64
  | .fixed32 => .fixed32
  | .fixed64 => .fixed64
  | .bytes => match k with
    | .string => .string
    | .bytes => .bytes
    | .struct => .struct
    | _ => .unknown

/-- internal/wire/size.go:40-42 (`GetSizeFunc`). -/
def getSizeFn (c : Coder) : Option Coder := if c.isScalar then some c else none
/-- internal/wire/encoder_list.go:36-38 (`GetAppendListFunc`). -/
def getListFn (c : Coder) : Option Coder := if c.isScalar then some c else none
/-- internal/wire/decoder.go:29-31 (`GetPackedDecoderFunc`). -/
def getPackedDecoder (c : Coder) : Option Coder := if c.isPackable then some c else none

/-- internal/desc/utils.go:27-49 (`IsFieldKeyTypeMatchReflectKind`). -/
def keyTypeMatch (t : TagType) (k : Kind) : Bool :=
  match t with
  | .varint => k == .int32 || k == .uint32 || k == .int64 || k == .uint64 || k == .bool
  | .zigzag32 => k == .int32
  | .zigzag64 => k == .int64
  | .fixed32 => k == .int32 || k == .uint32 || k == .float32
  | .fixed64 => k == .int64 || k == .uint64 || k == .float64
  | .bytes => k == .string

/-- internal/desc/utils.go:52-74 (`IsFieldTypeMatchReflectKind`). -/
def fieldTypeMatch (t : TagType) (k : Kind) : Bool :=
  match t with
  | .varint => k == .int32 || k == .uint32 || k == .int64 || k == .uint64 || k == .bool
  | .zigzag32 => k == .int32
  | .zigzag64 => k == .int64
  | .fixed32 => k == .int32 || k == .uint32 || k == .float32
  | .fixed64 => k == .int64 || k == .uint64 || k == .float64
  | .bytes => k == .string || k == .map || k == .struct || k == .bytes

/-! ## desc.go -/

/-- internal/desc/desc.go:262-312 (`checkTypeMatch`); `kv` are the parsed key and value tags of a
map. -/
def checkTypeMatch (t : GoType) (tag : TagType) (repeated packed : Bool)
    (kv : Option (TagType × TagType)) : Bool :=
  let packedOk := !packed || (repeated && t.isSlice && (tag != .bytes))
  let nestedOk := match t with
    | .slice (.ptr el) => !(el.isSlice || el.kind == .map)
    | .slice el => !(el.isSlice || el.kind == .map)
    | _ => true
  let repeatedOk := !repeated || ((t.isSlice || t.kind == .map) && nestedOk)
  let kindOk := fieldTypeMatch tag t.realKind
  let mapOk := match t, kv with
    | .map k v, some (kt, vt) => repeated && keyTypeMatch kt k.realKind && fieldTypeMatch vt v.realKind
    | .map _ _, none => false
    | _, _ => true
  packedOk && repeatedOk && kindOk && mapOk

/-- internal/desc/funcs.go:108-113 (`dereferenceElemKind`): through pointers and slices; differs
from `RealKind` only in looking through `[]byte`, which has kind slice in `reflect`. -/
def GoType.derefElemKind : GoType → Kind
  | .ptr t => t.derefElemKind
  | .slice t => t.derefElemKind
  | .bytes => .other
  | t => t.kind

/-- internal/desc/desc.go:227-237: the key and value tags of a map field. -/
def kvTags (gf : GoField) : Res (Option (TagType × TagType)) :=
  match gf.type with
  | .map _ _ => do
    let kt ← parseKVTag gf.keyTag
    let vt ← parseKVTag gf.valTag
    return some (kt, vt)
  | _ => .ok none

/-- internal/desc/desc.go:222-260 (`finalizeField`), the assignments: the descriptor of a field
whose tags have been parsed and checked. -/
def mkField (t : GoType) (slot : Nat) (oneof : Option Nat) (p : TagInfo) (tt : TagType)
    (kv : Option (TagType × TagType)) : FieldDesc :=
  let isMap := t.kind == .map
  let c := getCoderType tt t.realKind
  let wt := wireTagOf p tt
  let d : FieldDesc := {
    id := p.id, slot := slot, t := t, tagType := tt, repeated := p.repeated, packed := p.packed,
    isList := p.repeated && !isMap, isMap := isMap, wireTag := wt,
    wireTagSize := sizeVarint wt, oneof := oneof,
    appendFunc := getAppendFn c p.packed, sizeFunc := getSizeFn c,
    appendList := if p.repeated && !isMap then getListFn c else none,
    appendMap := none, keyType := .varint, valType := .varint,
    keyAppend := none, valAppend := none, keySize := none, valSize := none, sizeMap := none,
    decodePacked := if p.packed && !isMap then
        getPackedDecoder (getCoderType tt ((t.elem.getD t).derefElemKind)) else none,
    decodeMap := none }
  match t, kv with
  | .map k v, some (kt, vt) =>
    let kc := getCoderType kt k.kind
    let vc := getCoderType vt v.kind
    { d with
      keyType := kt, valType := vt,
      appendMap := getMapEncoder kc vc,
      keyAppend := getAppendFn (getCoderType kt k.realKind) false,
      valAppend := getAppendFn (getCoderType vt v.realKind) false,
      keySize := getSizeFn (getCoderType kt k.realKind),
      valSize := getSizeFn (getCoderType vt v.realKind),
      sizeMap := getMapSize kc vc,
      decodeMap := getMapDecoder kc vc }
  | _, _ => d

/-- internal/desc/desc.go:210-220 (`parse`) and 222-260 (`finalizeField`): the descriptor of one
field from its tags and type. -/
def parseField (gf : GoField) (slot : Nat) (oneof : Option Nat) : Res FieldDesc := do
  let (p, tt) ← parseStructTag gf.tag
  let kv ← kvTags gf
  if gf.type.parseOk && checkTypeMatch gf.type tt p.repeated p.packed kv then
    .ok (mkField gf.type slot oneof p tt kv)
  else .error .badType

/-- Insertion by field number. -/
def insertField (f : FieldDesc) : List FieldDesc → List FieldDesc
  | [] => [f]
  | g :: gs => if f.id.toInt ≤ g.id.toInt then f :: g :: gs else g :: insertField f gs

/-- internal/desc/desc.go:374-377 (`sort.Slice` by ID; not stable, but equal IDs are rejected
right after, so any sorting algorithm does). -/
def sortFields : List FieldDesc → List FieldDesc
  | [] => []
  | f :: fs => insertField f (sortFields fs)

/-- internal/desc/desc.go:382-388: `maxn`, the last ID before the first one above 1000. -/
def maxDirect : Int → List FieldDesc → Int
  | acc, [] => acc
  | acc, f :: fs => if f.id.toInt > 1000 then acc else maxDirect f.id.toInt fs

/-- internal/desc/desc.go:391-402, the loop filling the two tables and checking for duplicates
(`prev` is the previous field). -/
def fillTables (m0 : List (Option FieldDesc)) (m1 : List (Int × FieldDesc)) :
    Option FieldDesc → List FieldDesc → Res (List (Option FieldDesc) × List (Int × FieldDesc))
  | _, [] => .ok (m0, m1)
  | prev, f :: fs =>
    let dup := match prev with
      | some g => f.id == g.id
      | none => false
    if f.id.toInt ≤ 1000 then
      if 0 ≤ f.id.toInt ∧ f.id.toInt < m0.length then
        if dup then .error .badType
        else fillTables (m0.set f.id.toInt.toNat (some f)) m1 (some f) fs
      else .error .panic
    else if dup then .error .badType
    else fillTables m0 ((f.id.toInt, f) :: m1) (some f) fs

/-- internal/desc/desc.go:329-348: the descriptors of the tagged fields. -/
def parseFields : Nat → List GoField → Res (List FieldDesc)
  | _, [] => .ok []
  | i, gf :: gfs => do
    if gf.tag = [] then parseFields (i + 1) gfs
    else
      let f ← parseField gf i none
      return f :: (← parseFields (i + 1) gfs)

/-- internal/desc/desc.go:334-338: the oneof slots. -/
def oneofSlots : Nat → List GoField → List Nat
  | _, [] => []
  | i, gf :: gfs =>
    if gf.tag = [] ∧ gf.oneofTag ≠ [] then i :: oneofSlots (i + 1) gfs
    else oneofSlots (i + 1) gfs

/-- internal/desc/desc.go:351-371: the descriptors of the oneof members.  A wrapper is attached to
the first slot it implements: after that `rt` is the struct type and no longer implements anything
(simplification: wrapper methods have pointer receivers). -/
def parseWrappers (slots : List Nat) : List Wrapper → Res (List FieldDesc)
  | [] => .ok []
  | w :: ws =>
    match slots.find? (fun i => w.implements.contains i) with
    | none => parseWrappers slots ws
    | some i =>
      match w.fields with
      | [gf] => do
        if gf.tag = [] then .error .panic
        else
          let f ← parseField gf i (some w.id)
          return f :: (← parseWrappers slots ws)
      | _ => .error .badType

/-- internal/desc/desc.go:404-425: the storage of unknown fields, for one candidate name. -/
def unknownSlot (name : List Char) : Nat → List GoField → Option (Nat × Bool)
  | _, [] => none
  | i, gf :: gfs =>
    if gf.name = name then
      match gf.type with
      | .bytes => some (i, false)
      | .ptr .bytes => some (i, true)
      | _ => none
    else unknownSlot name (i + 1) gfs

/-- internal/desc/desc.go:316-427 (`parseStruct`) with 120-141 (`FinalizeFields`), for one struct
type; the types of its fields are handled by `parseDescs`. -/
def parseStruct (s : StructDecl) : Res StructDesc := do
  let fs ← parseFields 0 s.fields
  let slots := oneofSlots 0 s.fields
  let ws ← if slots = [] then pure [] else parseWrappers slots s.wrappers
  let fields := sortFields (fs ++ ws)
  let maxn := maxDirect 0 fields
  let (m0, m1) ← if maxn + 1 < 0 then .error .panic
    else fillTables (List.replicate (maxn + 1).toNat none) [] none fields
  return {
    fields := fields
    unknown := (unknownSlot "unknownFields".toList 0 s.fields).orElse
      (fun _ => unknownSlot "XXX_unrecognized".toList 0 s.fields)
    mFields0 := m0, mFields1 := m1, size := s.size, empty := s.zero }

/-- A set of Go struct types closed under reference, numbered. -/
structure GoEnv where
  structs : List StructDecl
  deriving Inhabited

/-- The descriptors of all struct types of an environment. -/
abbrev Descs := Nat → StructDesc

/-- internal/desc/desc.go:45-80 (`GetOrParse`) together with the recursion of internal/desc/type.go:
112-168 (`parseType`) and 77-95 (`finalizeType`) over everything reachable from the root type, on
empty caches.  Simplification: the environment is exactly what is reachable from the root, so all
its struct types are parsed; which of several errors is reported is not modelled. -/
def parseDescs (env : GoEnv) : Res Descs := do
  let ds ← env.structs.mapM parseStruct
  return fun i => ds.getD i default

end Verif.Model
