import Verif.Model.Heap
import Verif.Model.Api
/-!
# Encoder and sizer on a memory with sharing and cycles

The same functions as in `Model/Encoder.lean` and `Model/Sizer.lean`, but reading a `Heap`.  Memory that holds no messages (`HVal.data`) is handled by those definitions; the others
are repeated here with pointers, slices and maps being followed in the heap.
-/
namespace Verif.Model

mutual
/-- internal/prutal/encoder.go:72-81: is the memory of a value of size 1, 4 or 8 all zero bits? -/
def HVal.memZero : HVal → Bool
  | .data v => v.memZero
  | .ptr a => a.isNone
  | .struct fs => memZerosH fs
  | .map a => a.isNone
  | _ => false
/-- The same for all fields of a struct. -/
def memZerosH : List HVal → Bool
  | [] => true
  | v :: vs => v.memZero && memZerosH vs
end

/-- internal/prutal/encoder.go:59-68 (same in sizer.go:40-49). -/
def oneofTargetH (h : Heap) (f : FieldDesc) (p : HVal) : Res (Option HVal) :=
  match f.oneof with
  | none => .ok (some p)
  | some w => match p with
    | .iface none => .ok none
    | .iface (some (_, none)) => .ok none
    | .iface (some (w', some a)) => if w = w' then .ok (some (h.object a)) else .ok none
    | _ => .error .ub

/-- internal/prutal/encoder.go:71-85 (same in sizer.go:52-65): `skipzero`. -/
def skipZeroH (h : Heap) (ssize : Nat → Nat) (t : GoType) (v : HVal) : Res Bool :=
  let n := t.size ssize
  if n = 8 ∨ n = 4 ∨ n = 1 then .ok v.memZero
  else if t.sliceLike then
    match v with
    | .data v => (fun n => n == 0) <$> v.len
    | .slice a => .ok ((h.array a).length == 0)
    | _ => .error .ub
  else .ok false

/-- internal/prutal/encoder.go:87-90 (same in sizer.go:67-70): one pointer is followed. -/
def derefFieldH (h : Heap) (t : GoType) (p : HVal) : Res (GoType × HVal) :=
  match t with
  | .ptr t' => match p with
    | .ptr (some a) => .ok (t', h.object a)
    | .ptr none => .error .panic
    | _ => .error .ub
  | _ => .ok (t, p)

/-- internal/prutal/encoder.go:176-179, 238-241: the base pointer of a list or map element. -/
def elemBaseH (h : Heap) (vt : GoType) (v : HVal) : Res (Option HVal) :=
  match vt with
  | .ptr _ => match v with
    | .ptr none => .ok none
    | .ptr (some a) => .ok (some (h.object a))
    | _ => .error .ub
  | _ => .ok (some v)

/-- A slice header. -/
def HVal.asSlice (h : Heap) : HVal → Res (List HVal)
  | .slice a => .ok (h.array a)
  | _ => .error .ub

/-- The entries of a map. -/
def HVal.asMap (h : Heap) : HVal → Res (List (Key × HVal))
  | .map none => .ok []
  | .map (some a) => .ok (h.table a)
  | _ => .error .ub

/-! ## Encoder -/

/-- A nested `AppendStruct(b, base, s, true, maxdepth-1)`; `none` is a nil base pointer. -/
abbrev EncRecH := Bytes → Option HVal → Nat → Res Bytes

/-- internal/prutal/encoder.go:157-186 (`AppendListField`). -/
def appendListFieldH (h : Heap) (rec : EncRecH) (f : FieldDesc) (b : Bytes) (p : HVal) : Res Bytes :=
  match f.t.elem with
  | none => .error .panic
  | some vt => do
    let sid ← elemStruct vt
    let xs ← p.asSlice h
    xs.foldlM (fun b v => do
      let base ← elemBaseH h vt v
      rec (appendVarintSmall b f.wireTag) base sid) b

/-- internal/prutal/encoder.go:254-271, 279-296, 305-321, the body of the loops over `map[K]*struct`. -/
def appendStructEntryH (h : Heap) (rec : EncRecH) (f : FieldDesc) (vt : GoType) (sid : Nat)
    (writeKey : Bytes → Val → Res Bytes) (b : Bytes) (e : Key × HVal) : Res Bytes := do
  let b := lenReserve (appendVarintSmall b f.wireTag)
  let sz0 := b.length
  let b ← writeKey (appendKeyTag b f.keyType.wire) e.1.toVal
  let base ← elemBaseH h vt e.2
  let b ← rec (appendValTag b f.valType.wire) base sid
  return lenPack b (b.length - sz0)

/-- internal/prutal/encoder.go:217-246, the body of the generic loop, for maps of messages. -/
def appendEntryGenericH (h : Heap) (rec : EncRecH) (f : FieldDesc) (vt : GoType) (b : Bytes) (e : Key × HVal) : Res Bytes := do
  let b := lenReserve (appendVarintSmall b f.wireTag)
  let sz0 := b.length
  let b ← callAppend f.keyAppend (appendKeyTag b f.keyType.wire) e.1.toVal
  let b := appendValTag b f.valType.wire
  let b ← match f.valAppend with
    | some _ => .error .ub
    | none => do
      let sid ← elemStruct vt
      let base ← elemBaseH h vt e.2
      rec b base sid
  return lenPack b (b.length - sz0)

/-- internal/prutal/encoder.go:191-249 (`AppendMapField`), with the three specialised loops 251-274, 276-299 and 301-324. -/
def appendMapFieldH (h : Heap) (rec : EncRecH) (f : FieldDesc) (b : Bytes) (p : HVal) : Res Bytes :=
  match f.t with
  | .map kt vt => do
    let m ← p.asMap h
    if f.valAppend = none ∧ vt.isPointer = true ∧
        (kt.kind = .int64 ∨ kt.kind = .uint64 ∨ kt.kind = .int32 ∨ kt.kind = .uint32) then
      let sid ← elemStruct vt
      m.foldlM (appendStructEntryH h rec f vt sid (callAppend f.keyAppend)) b
    else if f.valAppend = none ∧ vt.isPointer = true ∧ kt.kind = .string then
      let sid ← elemStruct vt
      m.foldlM (appendStructEntryH h rec f vt sid (fun b k => (appendString b) <$> k.asStr)) b
    else
      m.foldlM (appendEntryGenericH h rec f vt) b
  | _ => .error .panic

/-- internal/prutal/encoder.go:87-144: a field that is not skipped. -/
def appendPresentH (h : Heap) (rec : EncRecH) (f : FieldDesc) (b : Bytes) (p : HVal) : Res Bytes :=
  match p with
  | .data v => appendPresent (fun _ _ _ => .error .ub) f b v
  | p => do
    let (t, p) ← derefFieldH h f.t p
    if f.repeated = false ∧ f.appendFunc.isSome then .error .ub
    else if f.isList then
      if f.packed then .error .ub
      else match f.appendList with
        | some _ => .error .ub
        | none => appendListFieldH h rec f b p
    else if f.isMap then
      match f.appendMap with
      | some _ => .error .ub
      | none => appendMapFieldH h rec f b p
    else match t.structId with
      | some sid => rec (appendVarintSmall b f.wireTag) (some p) sid
      | none => .error .panic

/-- internal/prutal/encoder.go:54-144: one iteration of the field loop. -/
def appendFieldH (h : Heap) (ssize : Nat → Nat) (rec : EncRecH) (fs : List HVal) (b : Bytes) (f : FieldDesc) : Res Bytes :=
  match fs[f.slot]? with
  | none => .error .ub
  | some p => do
    match ← oneofTargetH h f p with
    | none => return b
    | some p =>
      if ← skipZeroH h ssize f.t p then return b
      else appendPresentH h rec f b p

/-- internal/prutal/encoder.go:326-339 (`appendUnknownFields`) and sizer.go:299-312. -/
def unknownBytesH (s : StructDesc) (fs : List HVal) : Res Bytes :=
  match s.unknown with
  | none => .ok []
  | some (slot, isPtr) =>
    match isPtr, fs[slot]? with
    | false, some (.data (.bytes x)) => .ok (x.getD [])
    | true, some (.data (.ptr none)) => .ok []
    | true, some (.data (.ptr (some (.bytes x)))) => .ok (x.getD [])
    | _, _ => .error .ub

/-- internal/prutal/encoder.go:42-155 (`AppendStruct`).  A nil base is the empty message, which is a tree. -/
def appendStructH (h : Heap) (D : Descs) : Nat → Bytes → Option HVal → Nat → Bool → Res Bytes
  | 0, _, _, _, _ => .error .maxDepth
  | depth + 1, b, base, sid, encodeLen =>
    match base with
    | none => appendStruct D (depth + 1) b none sid encodeLen
    | some (.struct fs) => do
      let b := if encodeLen then lenReserve b else b
      let sz0 := b.length
      let b ← (D sid).fields.foldlM (appendFieldH h (fun i => (D i).size)
        (fun b base sid => appendStructH h D depth b base sid true) fs) b
      let u ← unknownBytesH (D sid) fs
      let b := b ++ u
      return if encodeLen then lenPack b (b.length - sz0) else b
    | some _ => .error .ub

/-! ## Sizer -/

/-- A nested `SizeStruct(base, s, maxdepth-1)`. -/
abbrev SizeRecH := Option HVal → Nat → Res Nat

/-- internal/prutal/sizer.go:115-170 (`sizeListField`), for lists of messages. -/
def sizeListFieldH (h : Heap) (rec : SizeRecH) (f : FieldDesc) (t : GoType) (p : HVal) : Res Nat := do
  let xs ← p.asSlice h
  if xs.isEmpty then return 0
  match t.elem with
  | none => .error .panic
  | some vt =>
    if f.packed then .error .ub
    else match f.sizeFunc with
    | some _ => .error .ub
    | none => do
      let sid ← elemStruct vt
      xs.foldlM (fun n v => do
        let base ← elemBaseH h vt v
        let sz ← rec base sid
        return n + (f.wireTagSize + sizeBytes sz)) 0

/-- internal/prutal/sizer.go:229-237, 246-254, 261-269: the body of the loops over `map[K]*struct`. -/
def sizeStructEntryH (h : Heap) (rec : SizeRecH) (f : FieldDesc) (vt : GoType) (sid : Nat)
    (keySize : Val → Res Nat) (n : Nat) (e : Key × HVal) : Res Nat := do
  let k ← keySize e.1.toVal
  let base ← elemBaseH h vt e.2
  let sz ← rec base sid
  return n + (f.wireTagSize + sizeBytes (1 + k + 1 + sizeBytes sz))

/-- internal/prutal/sizer.go:198-219: the body of the generic loop, for maps of messages. -/
def sizeEntryGenericH (h : Heap) (rec : SizeRecH) (f : FieldDesc) (vt : GoType) (n : Nat) (e : Key × HVal) : Res Nat := do
  let k ← callSize f.keySize e.1.toVal
  let x ← match f.valSize with
    | some _ => .error .ub
    | none => do
      let sid ← elemStruct vt
      let base ← elemBaseH h vt e.2
      let sz ← rec base sid
      pure (sizeBytes sz)
  return n + (f.wireTagSize + sizeBytes (1 + k + (1 + x)))

/-- internal/prutal/sizer.go:172-223 (`sizeMapField`), with the specialised loops 225-271. -/
def sizeMapFieldH (h : Heap) (rec : SizeRecH) (f : FieldDesc) (p : HVal) : Res Nat :=
  match f.sizeMap with
  | some _ => .error .ub
  | none => match f.t with
    | .map kt vt => do
      let m ← p.asMap h
      if f.valSize = none ∧ vt.isPointer = true ∧ (kt.kind = .int64 ∨ kt.kind = .uint64) then
        let sid ← elemStruct vt
        m.foldlM (sizeStructEntryH h rec f vt sid
          (fun k => (fun x => sizeKeyU64 f.keyType x) <$> k.asW64)) 0
      else if f.valSize = none ∧ vt.isPointer = true ∧
          (kt.kind = .int32 ∨ kt.kind = .uint32) then
        let sid ← elemStruct vt
        m.foldlM (sizeStructEntryH h rec f vt sid
          (fun k => (fun x => sizeKeyU32 f.keyType x (kt.kind == .int32)) <$> k.asW32)) 0
      else if f.valSize = none ∧ vt.isPointer = true ∧ kt.kind = .string then
        let sid ← elemStruct vt
        m.foldlM (sizeStructEntryH h rec f vt sid
          (fun k => (fun s => sizeBytes s.length) <$> k.asStr)) 0
      else
        m.foldlM (sizeEntryGenericH h rec f vt) 0
    | _ => .error .panic

/-- internal/prutal/sizer.go:67-106: a field that is not skipped. -/
def sizePresentH (h : Heap) (rec : SizeRecH) (f : FieldDesc) (n : Nat) (p : HVal) : Res Nat :=
  match p with
  | .data v => sizePresent (fun _ _ => .error .ub) f n v
  | p => do
    let (t, p) ← derefFieldH h f.t p
    if f.repeated = false ∧ f.sizeFunc.isSome then .error .ub
    else if f.isList then (fun k => n + k) <$> sizeListFieldH h rec f t p
    else if f.isMap then (fun k => n + k) <$> sizeMapFieldH h rec f p
    else match t.structId with
      | some sid => (fun sz => n + (f.wireTagSize + sizeBytes sz)) <$> rec (some p) sid
      | none => .error .panic

/-- internal/prutal/sizer.go:36-106: one iteration of the field loop. -/
def sizeFieldH (h : Heap) (ssize : Nat → Nat) (rec : SizeRecH) (fs : List HVal) (n : Nat) (f : FieldDesc) : Res Nat :=
  match fs[f.slot]? with
  | none => .error .ub
  | some p => do
    match ← oneofTargetH h f p with
    | none => return n
    | some p =>
      if ← skipZeroH h ssize f.t p then return n
      else sizePresentH h rec f n p

/-- internal/prutal/sizer.go:28-113 (`SizeStruct`). -/
def sizeStructH (h : Heap) (D : Descs) : Nat → Option HVal → Nat → Res Nat
  | 0, _, _ => .error .maxDepth
  | depth + 1, base, sid =>
    match base with
    | none => sizeStruct D (depth + 1) none sid
    | some (.struct fs) => do
      let n ← (D sid).fields.foldlM (sizeFieldH h (fun i => (D i).size) (sizeStructH h D depth) fs) 0
      let u ← unknownBytesH (D sid) fs
      return n + u.length
    | some _ => .error .ub

/-! ## Exported functions -/

/-- internal/prutal/prutal.go:29-47 (`MarshalAppend`) with a pointer to a struct at an address. -/
def marshalAppendH (env : GoEnv) (h : Heap) (b : Bytes) (sid a : Nat) : Res Bytes := do
  let D ← parseDescs env
  appendStructH h D defaultRecursionMaxDepth b (some (h.object a)) sid false

/-- internal/prutal/prutal.go:50-71 (`Size`) with a pointer to a struct at an address. -/
def sizeH (env : GoEnv) (h : Heap) (sid a : Nat) : Res Nat := do
  let D ← parseDescs env
  sizeStructH h D defaultRecursionMaxDepth (some (h.object a)) sid

end Verif.Model
