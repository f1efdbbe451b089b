import Verif.Model.Encoder
/-!
# Model of internal/prutal/sizer.go
-/
namespace Verif.Model

/-- A nested `SizeStruct(base, s, maxdepth-1)`. -/
abbrev SizeRec := Option Val → Nat → Res Nat

/-- internal/prutal/sizer.go:115-170 (`sizeListField`); `t` is the field type after following a
pointer. -/
def sizeListField (rec : SizeRec) (f : FieldDesc) (t : GoType) (p : Val) : Res Nat := do
  let xs ← p.asSlice
  if xs = [] then return 0
  else match t.elem with
  | none => .error .panic
  | some vt =>
    if f.packed then
      let content ← xs.foldlM (fun n v => (fun k => n + k) <$> callSize f.sizeFunc v) 0
      return f.wireTagSize + sizeBytes content
    else match f.sizeFunc with
    | some c => xs.foldlM (fun n v => (fun k => n + (f.wireTagSize + k)) <$> sizeCoder c v) 0
    | none => do
      let sid ← elemStruct vt
      xs.foldlM (fun n v => do
        let base ← elemBase vt v
        let sz ← rec base sid
        return n + (f.wireTagSize + sizeBytes sz)) 0

/-- internal/prutal/sizer.go:273-282 (`sizeKeyU64`). -/
def sizeKeyU64 (t : TagType) (k : BitVec 64) : Nat :=
  match t with
  | .fixed64 => 8
  | .zigzag64 => sizeVarint ((k <<< 1) ^^^ (k.sshiftRight 63))
  | _ => sizeVarint k

/-- internal/prutal/sizer.go:284-297 (`sizeKeyU32`). -/
def sizeKeyU32 (t : TagType) (k : BitVec 32) (signed : Bool) : Nat :=
  match t with
  | .fixed32 => 4
  | .zigzag32 => sizeVarint (((k <<< 1) ^^^ (k.sshiftRight 31)).setWidth 64)
  | _ => if signed then sizeVarint (k.signExtend 64) else sizeVarint (k.setWidth 64)

/-- internal/prutal/sizer.go:229-237, 246-254, 261-269: the body of the loops over
`map[K]*struct`. -/
def sizeStructEntry (rec : SizeRec) (f : FieldDesc) (vt : GoType) (sid : Nat)
    (keySize : Val → Res Nat) (n : Nat) (e : Key × Val) : Res Nat := do
  let k ← keySize e.1.toVal
  let base ← elemBase vt e.2
  let sz ← rec base sid
  return n + (f.wireTagSize + sizeBytes (1 + k + 1 + sizeBytes sz))

/-- internal/prutal/sizer.go:198-219: the body of the generic loop. -/
def sizeEntryGeneric (rec : SizeRec) (f : FieldDesc) (vt : GoType) (n : Nat) (e : Key × Val) :
    Res Nat := do
  let k ← callSize f.keySize e.1.toVal
  let x ← match f.valSize with
    | some c => sizeCoder c e.2
    | none => do
      let sid ← elemStruct vt
      let base ← elemBase vt e.2
      let sz ← rec base sid
      pure (sizeBytes sz)
  return n + (f.wireTagSize + sizeBytes (1 + k + (1 + x)))

/-- internal/prutal/sizer.go:172-223 (`sizeMapField`), with the specialised loops 225-271. -/
def sizeMapField (rec : SizeRec) (f : FieldDesc) (p : Val) : Res Nat :=
  match f.sizeMap with
  | some (kc, vc) => sizeMapFast kc vc p f.wireTagSize
  | none => match f.t with
    | .map kt vt => do
      let m ← p.asMap
      if f.valSize = none ∧ vt.isPointer = true ∧ (kt.kind = .int64 ∨ kt.kind = .uint64) then
        let sid ← elemStruct vt
        m.foldlM (sizeStructEntry rec f vt sid
          (fun k => (fun x => sizeKeyU64 f.keyType x) <$> k.asW64)) 0
      else if f.valSize = none ∧ vt.isPointer = true ∧
          (kt.kind = .int32 ∨ kt.kind = .uint32) then
        let sid ← elemStruct vt
        m.foldlM (sizeStructEntry rec f vt sid
          (fun k => (fun x => sizeKeyU32 f.keyType x (kt.kind == .int32)) <$> k.asW32)) 0
      else if f.valSize = none ∧ vt.isPointer = true ∧ kt.kind = .string then
        let sid ← elemStruct vt
        m.foldlM (sizeStructEntry rec f vt sid
          (fun k => (fun s => sizeBytes s.length) <$> k.asStr)) 0
      else
        m.foldlM (sizeEntryGeneric rec f vt) 0
    | _ => .error .panic

/-- internal/prutal/sizer.go:67-106: a field that is not skipped. -/
def sizePresent (rec : SizeRec) (f : FieldDesc) (n : Nat) (p : Val) : Res Nat := do
  let (t, p) ← derefField f.t p
  if f.repeated = false ∧ f.sizeFunc.isSome then
    (fun k => n + (f.wireTagSize + k)) <$> callSize f.sizeFunc p
  else if f.isList then (fun k => n + k) <$> sizeListField rec f t p
  else if f.isMap then (fun k => n + k) <$> sizeMapField rec f p
  else match t.structId with
    | some sid => (fun sz => n + (f.wireTagSize + sizeBytes sz)) <$> rec (some p) sid
    | none => .error .panic

/-- internal/prutal/sizer.go:36-106: one iteration of the field loop. -/
def sizeField (ssize : Nat → Nat) (rec : SizeRec) (fs : List Val) (n : Nat) (f : FieldDesc) :
    Res Nat :=
  match fs[f.slot]? with
  | none => .error .ub
  | some p => do
    match ← oneofTarget f p with
    | none => return n
    | some p =>
      if ← skipZero ssize f.t p then return n
      else sizePresent rec f n p

/-- internal/prutal/sizer.go:28-113 (`SizeStruct`). -/
def sizeStruct (D : Descs) : Nat → Option Val → Nat → Res Nat
  | 0, _, _ => .error .maxDepth
  | depth + 1, base, sid =>
    match base.getD (D sid).empty with
    | .struct fs => do
      let n ← (D sid).fields.foldlM (sizeField (fun i => (D i).size) (sizeStruct D depth) fs) 0
      let u ← unknownBytes (D sid) fs
      return n + u.length
    | _ => .error .ub

end Verif.Model
