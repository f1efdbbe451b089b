import Verif.Model.Goroutines
/-!
# Model of internal/prutal/encoder.go and sizer.go on memory with sharing, as programs

The functions of `Model/Encoder.lean` and `Model/Sizer.lean` again, with the message and the output
buffer in memory, as programs whose steps are single accesses to memory (see `Model/Goroutines.lean`).

Simplifications: an access reads or writes one block at once; a struct is read when its encoding begins;
a helper of package wire (`Append…`, `LenPack`, one entry of a map, one list of scalars) reads what it
writes first, and writes its output at once.  The pools of encoders (internal/prutal/encoder.go:30-34)
hold nothing that a call could see.
-/
namespace Verif.Model.Mem

/-- The order in which a call iterates over the entries of the map at an address.  (Go does not specify
it.  Simplification: a call that meets the same map twice sees the same order.) -/
abbrev Order := Nat → List (MVal × MVal) → List (MVal × MVal)

/-- The output buffer: a `[]byte`, nil or not. -/
abbrev Out := Option View

/-- The length of the output buffer. -/
def Out.length : Out → Nat
  | none => 0
  | some v => v.len

/-- Changing the content of the output buffer from `b` to `f b`: in place if the capacity suffices,
else in a new block (Go's `append`; internal/wire/encoder.go:29-410 and the other files of package wire write
by appending, and by overwriting what they appended). -/
def editP (f : Bytes → Res Bytes) (dst : Out) : Prog Out :=
  match dst with
  | none =>
    match f [] with
    | .error e => failP e
    | .ok [] => .done (.ok none)
    | .ok out => .slack out.length (fun n => .alloc (.bytes (out ++ List.replicate n 0#8)) (fun a =>
        .done (.ok (some ⟨a, 0, out.length⟩))))
  | some v => .read v.addr (fun blk =>
    match blk with
    | .bytes blk =>
      if v.off + v.len ≤ blk.length then
        match f ((blk.drop v.off).take v.len) with
        | .error e => failP e
        | .ok out =>
          if v.off + out.length ≤ blk.length then
            .write v.addr (.bytes (blk.take v.off ++ out ++ blk.drop (v.off + out.length)))
              (.done (.ok (some ⟨v.addr, v.off, out.length⟩)))
          else .slack out.length (fun n => .alloc (.bytes (out ++ List.replicate n 0#8)) (fun a =>
            .done (.ok (some ⟨a, 0, out.length⟩))))
      else failP .ub
    | _ => failP .ub)

/-! ## Reading the message -/

/-- What a coder of package wire sees at a pointer, compare `Val.asW32` and the others of its kind: a
word, a byte, or a string header and its bytes. -/
def flatP : MVal → Prog Val
  | .w32 v => .done (.ok (.w32 v))
  | .w64 v => .done (.ok (.w64 v))
  | .bool b => .done (.ok (.bool b))
  | .str none => .done (.ok (.str []))
  | .str (some v) => .read v.addr (fun b => .done (Val.str <$> b.view v))
  | .bytes none => .done (.ok (.bytes none))
  | .bytes (some v) => .read v.addr (fun b => .done ((fun s => Val.bytes (some s)) <$> b.view v))
  | _ => .done (.ok .undef)

/-- The elements of a slice, see `Val.asSlice`. -/
def elemsP : MVal → Prog (List MVal)
  | .slice none 0 => .done (.ok [])
  | .slice (some a) len => .read a (fun b =>
    match b with
    | .array xs => if len ≤ xs.length then .done (.ok (xs.take len)) else failP .ub
    | _ => failP .ub)
  | _ => failP .ub

/-- The entries of a map in the order of the iteration, see `Val.asMap`. -/
def entriesP (π : Order) : MVal → Prog (List (MVal × MVal))
  | .map none => .done (.ok [])
  | .map (some a) => .read a (fun b =>
    match b with
    | .table es => .done (.ok (π a es))
    | _ => failP .ub)
  | _ => failP .ub

/-- The struct, or the other content, of a variable. -/
def objectP (a : Nat) : Prog MVal := .read a (fun b =>
  match b with
  | .object v => .done (.ok v)
  | _ => failP .ub)

/-- Reading the elements of a list, or the fields of something, one after the other. -/
def eachP {α : Type} (p : MVal → Prog α) : List MVal → Prog (List α)
  | [] => .done (.ok [])
  | v :: vs => do
    let x ← p v
    let xs ← eachP p vs
    return x :: xs

/-- A list of scalars. -/
def flatListP (v : MVal) : Prog Val := do
  let xs ← elemsP v
  let ts ← eachP flatP xs
  return .slice ts

/-- A map key. -/
def keyValP (k : MVal) : Prog Key := do
  let c ← keyP k
  Prog.done c

/-! ## internal/prutal/encoder.go -/

/-- Calling an `AppendFunc` that may be nil, see `callAppend`. -/
def callAppendP (f : Option AppendFn) (dst : Out) (v : MVal) : Prog Out :=
  match f with
  | some (.plain c) => do
    let x ← flatP v
    editP (fun b => appendCoder c b x) dst
  | some (.packed c) => do
    let x ← flatListP v
    editP (fun b => appendPackedCoder c b x) dst
  | none => failP .panic

/-- internal/wire/encoder_list.go:23-153, see `appendListCoder`. -/
def appendListCoderP (c : Coder) (tag : BitVec 64) (dst : Out) (v : MVal) : Prog Out := do
  let x ← flatListP v
  editP (fun b => appendListCoder c b tag x) dst

/-- internal/wire/encoder_map.go:277-1237, one iteration, see `appendMapEntry`. -/
def appendMapEntryP (kc vc : Coder) (tag : BitVec 64) (dst : Out) (e : MVal × MVal) : Prog Out := do
  let k ← keyValP e.1
  let x ← flatP e.2
  editP (fun b => appendMapEntry kc vc tag b (k, x)) dst

/-- internal/wire/encoder_map.go:277-1237 (`AppendMap_K_V`), see `appendMapFast`. -/
def appendMapFastP (π : Order) (kc vc : Coder) (tag : BitVec 64) (dst : Out) (v : MVal) : Prog Out := do
  let m ← entriesP π v
  m.foldlM (appendMapEntryP kc vc tag) dst

/-- A nested `AppendStruct(b, base, s, true, maxdepth-1)`; `none` is a nil base pointer. -/
abbrev EncRecP := Out → Option MVal → Nat → Prog Out

/-- internal/prutal/encoder.go:59-68 (same in sizer.go:40-49), see `oneofTarget`. -/
def oneofTargetP (f : FieldDesc) (p : MVal) : Prog (Option MVal) :=
  match f.oneof with
  | none => .done (.ok (some p))
  | some w => match p with
    | .iface none => .done (.ok none)
    | .iface (some (_, none)) => .done (.ok none)
    | .iface (some (w', some a)) => if w = w' then some <$> objectP a else .done (.ok none)
    | _ => failP .ub

mutual
/-- See `Val.memZero`, internal/prutal/encoder.go:72-81. -/
def MVal.memZero : MVal → Bool
  | .w32 v => v = 0#32
  | .w64 v => v = 0#64
  | .bool b => !b
  | .ptr p => p.isNone
  | .map m => m.isNone
  | .struct fs => memZeros fs
  | .opaque n => n = 0
  | _ => false
/-- `MVal.memZero` of all fields of a struct. -/
def memZeros : List MVal → Bool
  | [] => true
  | v :: vs => v.memZero && memZeros vs
end

/-- The `Len` word of a string, `[]byte` or slice header, internal/prutal/encoder.go:80-81. -/
def MVal.len : MVal → Res Nat
  | .str s => .ok (Out.length s)
  | .bytes s => .ok (Out.length s)
  | .slice _ n => .ok n
  | _ => .error .ub

/-- internal/prutal/encoder.go:71-85 (same in sizer.go:52-65): `skipzero`. -/
def MVal.skipZero (ssize : Nat → Nat) (t : GoType) (v : MVal) : Res Bool :=
  let n := t.size ssize
  if n = 8 ∨ n = 4 ∨ n = 1 then .ok v.memZero
  else if t.sliceLike then (fun n => n == 0) <$> v.len
  else .ok false

/-- internal/prutal/encoder.go:87-90 (same in sizer.go:67-70): one pointer is followed. -/
def derefFieldP (t : GoType) (p : MVal) : Prog (GoType × MVal) :=
  match t with
  | .ptr t' => match p with
    | .ptr (some a) => (fun v => (t', v)) <$> objectP a
    | .ptr none => failP .panic
    | _ => failP .ub
  | _ => .done (.ok (t, p))

/-- internal/prutal/encoder.go:176-179, 238-241: the base pointer of a list or map element. -/
def elemBaseP (vt : GoType) (v : MVal) : Prog (Option MVal) :=
  match vt with
  | .ptr _ => match v with
    | .ptr none => .done (.ok none)
    | .ptr (some a) => some <$> objectP a
    | _ => failP .ub
  | _ => .done (.ok (some v))

/-- internal/prutal/encoder.go:157-186 (`AppendListField`). -/
def appendListFieldP (rec : EncRecP) (f : FieldDesc) (dst : Out) (p : MVal) : Prog Out :=
  match f.t.elem with
  | none => failP .panic
  | some vt => do
    let sid ← Prog.done (elemStruct vt)
    let xs ← elemsP p
    xs.foldlM (fun dst v => do
      let base ← elemBaseP vt v
      let dst ← editP (fun b => .ok (appendVarintSmall b f.wireTag)) dst
      rec dst base sid) dst

/-- internal/prutal/encoder.go:254-271, 279-296, 305-321, the body of the loops over
`map[K]*struct`; `writeKey` writes the key after its tag. -/
def appendStructEntryP (rec : EncRecP) (f : FieldDesc) (vt : GoType) (sid : Nat)
    (writeKey : Bytes → Val → Res Bytes) (dst : Out) (e : MVal × MVal) : Prog Out := do
  let dst ← editP (fun b => .ok (lenReserve (appendVarintSmall b f.wireTag))) dst
  let sz0 := Out.length dst
  let k ← keyValP e.1
  let dst ← editP (fun b => writeKey (appendKeyTag b f.keyType.wire) k.toVal) dst
  let base ← elemBaseP vt e.2
  let dst ← editP (fun b => .ok (appendValTag b f.valType.wire)) dst
  let dst ← rec dst base sid
  editP (fun b => .ok (lenPack b (b.length - sz0))) dst

/-- internal/prutal/encoder.go:217-246, the body of the generic loop. -/
def appendEntryGenericP (rec : EncRecP) (f : FieldDesc) (vt : GoType) (dst : Out) (e : MVal × MVal) :
    Prog Out := do
  let dst ← editP (fun b => .ok (lenReserve (appendVarintSmall b f.wireTag))) dst
  let sz0 := Out.length dst
  let k ← keyValP e.1
  let dst ← editP (fun b => callAppend f.keyAppend (appendKeyTag b f.keyType.wire) k.toVal) dst
  let dst ← editP (fun b => .ok (appendValTag b f.valType.wire)) dst
  let dst ← match f.valAppend with
    | some fn => callAppendP (some fn) dst e.2
    | none => do
      let sid ← Prog.done (elemStruct vt)
      let base ← elemBaseP vt e.2
      rec dst base sid
  editP (fun b => .ok (lenPack b (b.length - sz0))) dst

/-- internal/prutal/encoder.go:191-249 (`AppendMapField`), with the three specialised loops
251-274, 276-299 and 301-324. -/
def appendMapFieldP (π : Order) (rec : EncRecP) (f : FieldDesc) (dst : Out) (p : MVal) : Prog Out :=
  match f.t with
  | .map kt vt => do
    let m ← entriesP π p
    if f.valAppend = none ∧ vt.isPointer = true ∧
        (kt.kind = .int64 ∨ kt.kind = .uint64 ∨ kt.kind = .int32 ∨ kt.kind = .uint32) then
      let sid ← Prog.done (elemStruct vt)
      m.foldlM (appendStructEntryP rec f vt sid (callAppend f.keyAppend)) dst
    else if f.valAppend = none ∧ vt.isPointer = true ∧ kt.kind = .string then
      let sid ← Prog.done (elemStruct vt)
      m.foldlM (appendStructEntryP rec f vt sid (fun b k => (appendString b) <$> k.asStr)) dst
    else
      m.foldlM (appendEntryGenericP rec f vt) dst
  | _ => failP .panic

/-- internal/prutal/encoder.go:87-144: a field that is not skipped. -/
def appendPresentP (π : Order) (rec : EncRecP) (f : FieldDesc) (dst : Out) (p : MVal) : Prog Out := do
  let (t, p) ← derefFieldP f.t p
  if f.repeated = false ∧ f.appendFunc.isSome then do
    let dst ← editP (fun b => .ok (appendVarintSmall b f.wireTag)) dst
    callAppendP f.appendFunc dst p
  else if f.isList then
    if f.packed then do
      let dst ← editP (fun b => .ok (appendVarintSmall b f.wireTag)) dst
      callAppendP f.appendFunc dst p
    else match f.appendList with
      | some c => appendListCoderP c f.wireTag dst p
      | none => appendListFieldP rec f dst p
  else if f.isMap then
    match f.appendMap with
    | some (kc, vc) => appendMapFastP π kc vc f.wireTag dst p
    | none => appendMapFieldP π rec f dst p
  else match t.structId with
    | some sid => do
      let dst ← editP (fun b => .ok (appendVarintSmall b f.wireTag)) dst
      rec dst (some p) sid
    | none => failP .panic

/-- internal/prutal/encoder.go:54-144: one iteration of the field loop on a struct with field
values `fs`. -/
def appendFieldP (π : Order) (ssize : Nat → Nat) (rec : EncRecP) (fs : List MVal) (dst : Out)
    (f : FieldDesc) : Prog Out :=
  match fs[f.slot]? with
  | none => failP .ub
  | some p => do
    match ← oneofTargetP f p with
    | none => return dst
    | some p =>
      if ← Prog.done (p.skipZero ssize f.t) then return dst
      else appendPresentP π rec f dst p

/-- internal/prutal/encoder.go:326-339 (`appendUnknownFields`) and sizer.go:299-312: the bytes of
the unknown-field storage. -/
def unknownBytesP (s : StructDesc) (fs : List MVal) : Prog Bytes :=
  match s.unknown with
  | none => .done (.ok [])
  | some (slot, isPtr) =>
    match isPtr, fs[slot]? with
    | false, some (.bytes none) => .done (.ok [])
    | false, some (.bytes (some v)) => parseP v .ok
    | true, some (.ptr none) => .done (.ok [])
    | true, some (.ptr (some a)) => do
      match ← objectP a with
      | .bytes none => .done (.ok [])
      | .bytes (some v) => parseP v .ok
      | _ => failP .ub
    | _, _ => failP .ub

/-- internal/prutal/encoder.go:42-155 (`AppendStruct`). -/
def appendStructP (D : Descs) (π : Order) : Nat → Out → Option MVal → Nat → Bool → Prog Out
  | 0, _, _, _, _ => failP .maxDepth
  | depth + 1, dst, base, sid, encodeLen =>
    match base.getD (ofFlat (D sid).empty) with
    | .struct fs => do
      let dst ← if encodeLen then editP (fun b => .ok (lenReserve b)) dst else pure dst
      let sz0 := Out.length dst
      let dst ← (D sid).fields.foldlM (appendFieldP π (fun i => (D i).size)
        (fun dst base sid => appendStructP D π depth dst base sid true) fs) dst
      let u ← unknownBytesP (D sid) fs
      let dst ← editP (fun b => .ok (b ++ u)) dst
      if encodeLen then editP (fun b => .ok (lenPack b (b.length - sz0))) dst else pure dst
    | _ => failP .ub

/-- internal/prutal/prutal.go:29-47 (`MarshalAppend`), compare `marshalAppend`. -/
def marshalAppendP (env : GoEnv) (π : Order) (dst : Out) : MArg → Prog Out
  | .nil => failP .notPointer
  | .nonPtr => failP .notPointer
  | .ptrOther _ => failP .badType
  | .ptr sid a => do
    let D ← Prog.done (parseDescs env)
    let base ← match a with
      | none => pure none
      | some a => some <$> objectP a
    appendStructP D π defaultRecursionMaxDepth dst base sid false

end Verif.Model.Mem
