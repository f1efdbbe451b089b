import Verif.Model.Desc
/-!
# Model of internal/prutal/encoder.go

The recursive functions take the recursive call as an argument (`rec`), and `appendStruct` closes
the knot by recursion on the depth budget.  Maps are iterated in the order of their entry list, so
a statement about all values covers all iteration orders.
-/
namespace Verif.Model

/-- A nested `AppendStruct(b, base, s, true, maxdepth-1)`; `none` is a nil base pointer. -/
abbrev EncRec := Bytes → Option Val → Nat → Res Bytes

/-- The struct number of a struct type. -/
def GoType.structId : GoType → Option Nat
  | .struct id => some id
  | _ => none

/-- internal/prutal/encoder.go:59-68 (same in sizer.go:40-49): the memory a field descriptor
points at; `none` means the field is skipped because the oneof holds nothing, a nil pointer or
another member. -/
def oneofTarget (f : FieldDesc) (p : Val) : Res (Option Val) :=
  match f.oneof with
  | none => .ok (some p)
  | some w => match p with
    | .iface none => .ok none
    | .iface (some (_, none)) => .ok none
    | .iface (some (w', some d)) => if w = w' then .ok (some d) else .ok none
    | _ => .error .ub

/-- internal/prutal/encoder.go:71-85 (same in sizer.go:52-65): `skipzero`. -/
def skipZero (ssize : Nat → Nat) (t : GoType) (v : Val) : Res Bool :=
  let n := t.size ssize
  if n = 8 ∨ n = 4 ∨ n = 1 then .ok v.memZero
  else if t.sliceLike then (fun n => n == 0) <$> v.len
  else .ok false

/-- internal/prutal/encoder.go:87-90 (same in sizer.go:67-70): one pointer is followed. -/
def derefField (t : GoType) (p : Val) : Res (GoType × Val) :=
  match t with
  | .ptr t' => match p with
    | .ptr (some v) => .ok (t', v)
    | .ptr none => .error .panic
    | _ => .error .ub
  | _ => .ok (t, p)

/-- internal/prutal/encoder.go:159-167: the struct number of a list or map element. -/
def elemStruct (vt : GoType) : Res Nat :=
  match vt with
  | .struct id => .ok id
  | .ptr (.struct id) => .ok id
  | _ => .error .panic

/-- internal/prutal/encoder.go:176-179, 238-241: the base pointer of a list or map element. -/
def elemBase (vt : GoType) (v : Val) : Res (Option Val) :=
  match vt with
  | .ptr _ => match v with
    | .ptr q => .ok q
    | _ => .error .ub
  | _ => .ok (some v)

/-- internal/prutal/encoder.go:157-186 (`AppendListField`). -/
def appendListField (rec : EncRec) (f : FieldDesc) (b : Bytes) (p : Val) : Res Bytes :=
  match f.t.elem with
  | none => .error .panic
  | some vt => do
    let sid ← elemStruct vt
    let xs ← p.asSlice
    xs.foldlM (fun b v => do
      let base ← elemBase vt v
      rec (appendVarintSmall b f.wireTag) base sid) b

/-- internal/prutal/encoder.go:254-271, 279-296, 305-321, the body of the loops over
`map[K]*struct`; `writeKey` writes the key after its tag. -/
def appendStructEntry (rec : EncRec) (f : FieldDesc) (vt : GoType) (sid : Nat)
    (writeKey : Bytes → Val → Res Bytes) (b : Bytes) (e : Key × Val) : Res Bytes := do
  let b := lenReserve (appendVarintSmall b f.wireTag)
  let sz0 := b.length
  let b ← writeKey (appendKeyTag b f.keyType.wire) e.1.toVal
  let base ← elemBase vt e.2
  let b ← rec (appendValTag b f.valType.wire) base sid
  return lenPack b (b.length - sz0)

/-- internal/prutal/encoder.go:217-246, the body of the generic loop. -/
def appendEntryGeneric (rec : EncRec) (f : FieldDesc) (vt : GoType)
    (b : Bytes) (e : Key × Val) : Res Bytes := do
  let b := lenReserve (appendVarintSmall b f.wireTag)
  let sz0 := b.length
  let b ← callAppend f.keyAppend (appendKeyTag b f.keyType.wire) e.1.toVal
  let b := appendValTag b f.valType.wire
  let b ← match f.valAppend with
    | some fn => callAppend (some fn) b e.2
    | none => do
      let sid ← elemStruct vt
      let base ← elemBase vt e.2
      rec b base sid
  return lenPack b (b.length - sz0)

/-- internal/prutal/encoder.go:191-249 (`AppendMapField`), with the three specialised loops
251-274, 276-299 and 301-324. -/
def appendMapField (rec : EncRec) (f : FieldDesc) (b : Bytes) (p : Val) : Res Bytes :=
  match f.t with
  | .map kt vt => do
    let m ← p.asMap
    if f.valAppend = none ∧ vt.isPointer = true ∧
        (kt.kind = .int64 ∨ kt.kind = .uint64 ∨ kt.kind = .int32 ∨ kt.kind = .uint32) then
      let sid ← elemStruct vt
      m.foldlM (appendStructEntry rec f vt sid (callAppend f.keyAppend)) b
    else if f.valAppend = none ∧ vt.isPointer = true ∧ kt.kind = .string then
      let sid ← elemStruct vt
      m.foldlM (appendStructEntry rec f vt sid (fun b k => (appendString b) <$> k.asStr)) b
    else
      m.foldlM (appendEntryGeneric rec f vt) b
  | _ => .error .panic

/-- internal/prutal/encoder.go:87-144: a field that is not skipped. -/
def appendPresent (rec : EncRec) (f : FieldDesc) (b : Bytes) (p : Val) : Res Bytes := do
  let (t, p) ← derefField f.t p
  if f.repeated = false ∧ f.appendFunc.isSome then
    callAppend f.appendFunc (appendVarintSmall b f.wireTag) p
  else if f.isList then
    if f.packed then callAppend f.appendFunc (appendVarintSmall b f.wireTag) p
    else match f.appendList with
      | some c => appendListCoder c b f.wireTag p
      | none => appendListField rec f b p
  else if f.isMap then
    match f.appendMap with
    | some (kc, vc) => appendMapFast kc vc b f.wireTag p
    | none => appendMapField rec f b p
  else match t.structId with
    | some sid => rec (appendVarintSmall b f.wireTag) (some p) sid
    | none => .error .panic

/-- internal/prutal/encoder.go:54-144: one iteration of the field loop on a struct with field
values `fs`. -/
def appendField (ssize : Nat → Nat) (rec : EncRec) (fs : List Val) (b : Bytes) (f : FieldDesc) :
    Res Bytes :=
  match fs[f.slot]? with
  | none => .error .ub
  | some p => do
    match ← oneofTarget f p with
    | none => return b
    | some p =>
      if ← skipZero ssize f.t p then return b
      else appendPresent rec f b p

/-- internal/prutal/encoder.go:326-339 (`appendUnknownFields`) and sizer.go:299-312: the bytes of
the unknown-field storage. -/
def unknownBytes (s : StructDesc) (fs : List Val) : Res Bytes :=
  match s.unknown with
  | none => .ok []
  | some (slot, isPtr) =>
    match isPtr, fs[slot]? with
    | false, some (.bytes x) => .ok (x.getD [])
    | true, some (.ptr none) => .ok []
    | true, some (.ptr (some (.bytes x))) => .ok (x.getD [])
    | _, _ => .error .ub

/-- internal/prutal/encoder.go:42-155 (`AppendStruct`). -/
def appendStruct (D : Descs) : Nat → Bytes → Option Val → Nat → Bool → Res Bytes
  | 0, _, _, _, _ => .error .maxDepth
  | depth + 1, b, base, sid, encodeLen =>
    match base.getD (D sid).empty with
    | .struct fs => do
      let b := if encodeLen then lenReserve b else b
      let sz0 := b.length
      let b ← (D sid).fields.foldlM (appendField (fun i => (D i).size)
        (fun b base sid => appendStruct D depth b base sid true) fs) b
      let u ← unknownBytes (D sid) fs
      let b := b ++ u
      return if encodeLen then lenPack b (b.length - sz0) else b
    | _ => .error .ub

end Verif.Model
