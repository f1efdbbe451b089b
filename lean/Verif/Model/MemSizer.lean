import Verif.Model.MemEncoder
/-!
# Model of internal/prutal/sizer.go on memory with sharing, as programs

The functions of `Model/Sizer.lean` again, as programs that read memory (see `Model/MemEncoder.lean`).  Of
strings and `[]byte` values only the header is read.
-/
namespace Verif.Model.Mem

/-- Four bytes at a pointer. -/
def MVal.asW32 : MVal → Res (BitVec 32)
  | .w32 v => .ok v
  | _ => .error .ub

/-- Eight bytes at a pointer. -/
def MVal.asW64 : MVal → Res (BitVec 64)
  | .w64 v => .ok v
  | _ => .error .ub

/-- `len(s)` of a string or `[]byte`. -/
def MVal.strLen : MVal → Res Nat
  | .str s => .ok (Out.length s)
  | .bytes s => .ok (Out.length s)
  | _ => .error .ub

/-- internal/wire/size.go:44-76, see `sizeCoder`. -/
def sizeCoderM (c : Coder) (v : MVal) : Res Nat :=
  match c with
  | .varintU32 => (fun x => sizeVarint (x.setWidth 64)) <$> v.asW32
  | .varintI32 => (fun x => sizeVarint (x.signExtend 64)) <$> v.asW32
  | .varint64 => (fun x => sizeVarint x) <$> v.asW64
  | .zigzag32 => (fun x => sizeVarint ((zigzag32 x).setWidth 64)) <$> v.asW32
  | .zigzag64 => (fun x => sizeVarint (zigzag64 x)) <$> v.asW64
  | .fixed32 => .ok 4
  | .fixed64 => .ok 8
  | .string => (fun n => sizeBytes n) <$> v.strLen
  | .bytes => (fun n => sizeBytes n) <$> v.strLen
  | .bool => .ok 1
  | .struct => .error .panic
  | .unknown => .error .panic

/-- Calling a `SizeFunc` that may be nil, see `callSize`. -/
def callSizeM (f : Option Coder) (v : MVal) : Res Nat :=
  match f with
  | some c => sizeCoderM c v
  | none => .error .panic

/-- A nested `SizeStruct(base, s, maxdepth-1)`. -/
abbrev SizeRecP := Option MVal → Nat → Prog Nat

/-- internal/wire/size_map.go:37-64, see `sizeMapFast`. -/
def sizeMapFastP (π : Order) (kc vc : Coder) (v : MVal) (tagSize : Nat) : Prog Nat := do
  let m ← entriesP π v
  m.foldlM (fun n e => do
    let k ← Prog.done (sizeCoderM kc e.1)
    let x ← Prog.done (sizeCoderM vc e.2)
    return n + (tagSize + sizeBytes (1 + k + 1 + x))) 0

/-- internal/prutal/sizer.go:115-170 (`sizeListField`), see `Verif.Model.sizeListField`. -/
def sizeListFieldP (rec : SizeRecP) (f : FieldDesc) (t : GoType) (p : MVal) : Prog Nat := do
  let xs ← elemsP p
  if xs.isEmpty then return 0
  else match t.elem with
  | none => failP .panic
  | some vt =>
    if f.packed then do
      let content ← xs.foldlM (fun n v => do
        let k ← Prog.done (callSizeM f.sizeFunc v)
        return n + k) 0
      return f.wireTagSize + sizeBytes content
    else match f.sizeFunc with
    | some c => xs.foldlM (fun n v => do
        let k ← Prog.done (sizeCoderM c v)
        return n + (f.wireTagSize + k)) 0
    | none => do
      let sid ← Prog.done (elemStruct vt)
      xs.foldlM (fun n v => do
        let base ← elemBaseP vt v
        let sz ← rec base sid
        return n + (f.wireTagSize + sizeBytes sz)) 0

/-- internal/prutal/sizer.go:229-237, 246-254, 261-269, see `sizeStructEntry`. -/
def sizeStructEntryP (rec : SizeRecP) (f : FieldDesc) (vt : GoType) (sid : Nat)
    (keySize : MVal → Res Nat) (n : Nat) (e : MVal × MVal) : Prog Nat := do
  let k ← Prog.done (keySize e.1)
  let base ← elemBaseP vt e.2
  let sz ← rec base sid
  return n + (f.wireTagSize + sizeBytes (1 + k + 1 + sizeBytes sz))

/-- internal/prutal/sizer.go:198-219, see `sizeEntryGeneric`. -/
def sizeEntryGenericP (rec : SizeRecP) (f : FieldDesc) (vt : GoType) (n : Nat) (e : MVal × MVal) :
    Prog Nat := do
  let k ← Prog.done (callSizeM f.keySize e.1)
  let x ← match f.valSize with
    | some c => Prog.done (sizeCoderM c e.2)
    | none => do
      let sid ← Prog.done (elemStruct vt)
      let base ← elemBaseP vt e.2
      let sz ← rec base sid
      pure (sizeBytes sz)
  return n + (f.wireTagSize + sizeBytes (1 + k + (1 + x)))

/-- internal/prutal/sizer.go:172-223 (`sizeMapField`), with the specialised loops 225-271. -/
def sizeMapFieldP (π : Order) (rec : SizeRecP) (f : FieldDesc) (p : MVal) : Prog Nat :=
  match f.sizeMap with
  | some (kc, vc) => sizeMapFastP π kc vc p f.wireTagSize
  | none => match f.t with
    | .map kt vt => do
      let m ← entriesP π p
      if f.valSize = none ∧ vt.isPointer = true ∧ (kt.kind = .int64 ∨ kt.kind = .uint64) then
        let sid ← Prog.done (elemStruct vt)
        m.foldlM (sizeStructEntryP rec f vt sid
          (fun k => (fun x => sizeKeyU64 f.keyType x) <$> k.asW64)) 0
      else if f.valSize = none ∧ vt.isPointer = true ∧
          (kt.kind = .int32 ∨ kt.kind = .uint32) then
        let sid ← Prog.done (elemStruct vt)
        m.foldlM (sizeStructEntryP rec f vt sid
          (fun k => (fun x => sizeKeyU32 f.keyType x (kt.kind == .int32)) <$> k.asW32)) 0
      else if f.valSize = none ∧ vt.isPointer = true ∧ kt.kind = .string then
        let sid ← Prog.done (elemStruct vt)
        m.foldlM (sizeStructEntryP rec f vt sid
          (fun k => (fun n => sizeBytes n) <$> k.strLen)) 0
      else
        m.foldlM (sizeEntryGenericP rec f vt) 0
    | _ => failP .panic

/-- internal/prutal/sizer.go:67-106, see `sizePresent`. -/
def sizePresentP (π : Order) (rec : SizeRecP) (f : FieldDesc) (n : Nat) (p : MVal) : Prog Nat := do
  let (t, p) ← derefFieldP f.t p
  if f.repeated = false ∧ f.sizeFunc.isSome then do
    let k ← Prog.done (callSizeM f.sizeFunc p)
    return n + (f.wireTagSize + k)
  else if f.isList then do
    let k ← sizeListFieldP rec f t p
    return n + k
  else if f.isMap then do
    let k ← sizeMapFieldP π rec f p
    return n + k
  else match t.structId with
    | some sid => do
      let sz ← rec (some p) sid
      return n + (f.wireTagSize + sizeBytes sz)
    | none => failP .panic

/-- internal/prutal/sizer.go:36-106, see `sizeField`. -/
def sizeFieldP (π : Order) (ssize : Nat → Nat) (rec : SizeRecP) (fs : List MVal) (n : Nat)
    (f : FieldDesc) : Prog Nat :=
  match fs[f.slot]? with
  | none => failP .ub
  | some p => do
    match ← oneofTargetP f p with
    | none => return n
    | some p =>
      if ← Prog.done (p.skipZero ssize f.t) then return n
      else sizePresentP π rec f n p

/-- internal/prutal/sizer.go:299-312: the length of the unknown fields. -/
def unknownLenP (s : StructDesc) (fs : List MVal) : Prog Nat :=
  match s.unknown with
  | none => .done (.ok 0)
  | some (slot, isPtr) =>
    match isPtr, fs[slot]? with
    | false, some (.bytes v) => .done (.ok (Out.length v))
    | true, some (.ptr none) => .done (.ok 0)
    | true, some (.ptr (some a)) => do
      match ← objectP a with
      | .bytes v => .done (.ok (Out.length v))
      | _ => failP .ub
    | _, _ => failP .ub

/-- internal/prutal/sizer.go:28-113 (`SizeStruct`). -/
def sizeStructP (D : Descs) (π : Order) : Nat → Option MVal → Nat → Prog Nat
  | 0, _, _ => failP .maxDepth
  | depth + 1, base, sid =>
    match base.getD (ofFlat (D sid).empty) with
    | .struct fs => do
      let n ← (D sid).fields.foldlM (sizeFieldP π (fun i => (D i).size) (sizeStructP D π depth) fs) 0
      let u ← unknownLenP (D sid) fs
      return n + u
    | _ => failP .ub

/-- internal/prutal/prutal.go:50-71 (`Size`), see `size`. -/
def sizeP (env : GoEnv) (π : Order) : MArg → Prog Nat
  | .nil => .done (.ok 0)
  | .nonPtr => failP .notPointer
  | .ptrOther true => .done (.ok 0)
  | .ptrOther false => failP .badType
  | .ptr _ none => .done (.ok 0)
  | .ptr sid (some a) => do
    let D ← Prog.done (parseDescs env)
    let v ← objectP a
    sizeStructP D π defaultRecursionMaxDepth (some v) sid

end Verif.Model.Mem
