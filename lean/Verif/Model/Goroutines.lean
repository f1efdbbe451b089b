import Verif.Model.MemDecoder
/-!
# Unmarshal in several goroutines

The decoder of `Model/MemDecoder.lean` again, as a program whose steps are single accesses to memory,
so that the steps of several calls can be interleaved.  (That a call by itself does what
`unmarshalM` says is proved in `Lemmas/Mem/Prog.lean`.)

Simplifications: an access reads or writes one block at once; a message is read when its decoding
begins and stored when it ends, as in `Model/MemDecoder.lean`.  What the calls share besides memory is
not represented here: the descriptors (`Model/TypeCache.lean` has the concurrent readers of the cache of
types), and the pools of decoders and temporary map variables (internal/prutal/decoder.go:32-38,
internal/desc/type.go:168-258; see `Model/DecodePool.lean`): `sync.Pool` is trusted to hand an object to one
goroutine at a time.
-/
namespace Verif.Model.Mem

/-- A program that accesses memory: it is finished, or it reads a block, writes a block, allocates a
block, or asks how much spare capacity `append` leaves, and goes on. -/
inductive Prog (α : Type)
  | done (r : Res α)
  | read (a : Nat) (k : Block → Prog α)
  | write (a : Nat) (b : Block) (k : Prog α)
  | alloc (b : Block) (k : Nat → Prog α)
  | slack (n : Nat) (k : Nat → Prog α)

/-- Going on with the result or the error. -/
def Prog.andThen {α β : Type} : Prog α → (Res α → Prog β) → Prog β
  | .done r, f => f r
  | .read a k, f => .read a (fun b => (k b).andThen f)
  | .write a b k, f => .write a b (k.andThen f)
  | .alloc b k, f => .alloc b (fun a => (k a).andThen f)
  | .slack n k, f => .slack n (fun m => (k m).andThen f)

/-- The rest after an error is not executed. -/
def Prog.next {α β : Type} (f : α → Prog β) : Res α → Prog β
  | .ok a => f a
  | .error e => .done (.error e)

instance : Monad Prog where
  pure a := .done (.ok a)
  bind p f := p.andThen (Prog.next f)

/-- One step of a program. -/
def Prog.step {α : Type} : Prog α → Store → Prog α × Store
  | .done r, h => (.done r, h)
  | .read a k, h => (k (h.mem a), h)
  | .write a b k, h => (k, h.set a b)
  | .alloc b k, h => (k h.next, { h.set h.next b with next := h.after h.next })
  | .slack n k, h => (k (h.slack n), h)

/-- All steps of a program, without interruption. -/
def Prog.run {α : Type} : Prog α → M α
  | .done r => fun h => (r, h)
  | .read a k => fun h => (k (h.mem a)).run h
  | .write a b k => fun h => k.run (h.set a b)
  | .alloc b k => fun h => (k h.next).run { h.set h.next b with next := h.after h.next }
  | .slack n k => fun h => (k (h.slack n)).run h

/-- A goroutine: what it still has to do, and where it gets new memory. -/
structure Proc where
  prog : Prog Unit
  next : Nat
  slack : Nat → Nat
  skip : Nat → Nat

/-- Goroutines that share memory. -/
structure Machine where
  mem : Nat → Block
  procs : Nat → Proc

/-- The memory as goroutine `i` sees it. -/
def Machine.store (m : Machine) (i : Nat) : Store :=
  ⟨m.mem, (m.procs i).next, (m.procs i).slack, (m.procs i).skip⟩

/-- One step of goroutine `i`. -/
def Machine.step (m : Machine) (i : Nat) : Machine :=
  let (p, h) := (m.procs i).prog.step (m.store i)
  ⟨h.mem, fun j => if j = i then ⟨p, h.next, h.slack, h.skip⟩ else m.procs j⟩

/-- The steps of a schedule: which goroutine makes the next step. -/
def Machine.exec (m : Machine) : List Nat → Machine
  | [] => m
  | i :: s => (m.step i).exec s

/-! ## The accesses of the decoder -/

/-- Returning an error, or a panic. -/
def failP {α : Type} (e : Fault) : Prog α := .done (.error e)

/-- A new block. -/
def newP (b : Block) : Prog Nat := .alloc b (fun a => .done (.ok a))

/-- Writing a block. -/
def putP (a : Nat) (b : Block) : Prog Unit := .write a b (.done (.ok ()))

/-- The bytes of a string or `[]byte`, see `Store.read`. -/
def Block.view (b : Block) (v : View) : Res Bytes :=
  match b with
  | .bytes b => if v.off + v.len ≤ b.length then .ok ((b.drop v.off).take v.len) else .error .ub
  | _ => .error .ub

/-- Applying a function of the bytes to the bytes of a view, see `parse`. -/
def parseP {α : Type} (v : View) (p : Bytes → Res α) : Prog α :=
  .read v.addr (fun b => .done (b.view v >>= p))

/-- The content of a map key, see `keyContent`. -/
def keyP : MVal → Prog (Res Key)
  | .w32 v => .done (.ok (.ok (.w32 v)))
  | .w64 v => .done (.ok (.ok (.w64 v)))
  | .bool b => .done (.ok (.ok (.bool b)))
  | .str none => .done (.ok (.ok (.str [])))
  | .str (some v) => .read v.addr (fun b => .done (.ok (Key.str <$> b.view v)))
  | _ => .done (.ok (.error .ub))

/-- Go's `m[k] = v` on the entries of a map, for a key with content `c`, see `tableInsert`. -/
def tableInsertP (c : Res Key) (k v : MVal) : List (MVal × MVal) → Prog (List (MVal × MVal))
  | [] => .done (.ok [(k, v)])
  | (k', v') :: es => do
    let c' ← keyP k'
    if c' = c then pure ((k, v) :: es)
    else do
      let es ← tableInsertP c k v es
      return (k', v') :: es

/-- internal/desc/type.go:261-309, see `mapAssign`. -/
def mapAssignP (a : Nat) (k v : MVal) : Prog Unit :=
  .read a (fun b =>
    match b with
    | .table es => do
      let c ← keyP k
      match c with
      | .ok _ => do
        let es ← tableInsertP c k v es
        putP a (.table es)
      | .error _ => failP .ub
    | _ => failP .ub)

/-- Go's `append(x, b...)` on byte slices, see `appendBytes`. -/
def appendBytesP (x : Option View) (raw : View) : Prog View :=
  .read raw.addr (fun b =>
    match b.view raw, x with
    | .ok r, none =>
      .slack r.length (fun n => .alloc (.bytes (r ++ List.replicate n 0#8)) (fun a =>
        .done (.ok ⟨a, 0, r.length⟩)))
    | .ok r, some v =>
      .read v.addr (fun b =>
        match b with
        | .bytes blk =>
          if v.off + v.len + r.length ≤ blk.length then
            .write v.addr (.bytes (blk.take (v.off + v.len) ++ r ++ blk.drop (v.off + v.len + r.length)))
              (.done (.ok ⟨v.addr, v.off, v.len + r.length⟩))
          else
            .slack (v.len + r.length) (fun n =>
              .alloc (.bytes ((blk.drop v.off).take v.len ++ r ++ List.replicate n 0#8)) (fun a =>
                .done (.ok ⟨a, 0, v.len + r.length⟩)))
        | _ => failP .ub)
    | .error e, _ => failP e)

/-- The header of a `[]byte` variable. -/
def loadBytesP (a : Nat) : Prog (Option View) :=
  .read a (fun b =>
    match b with
    | .object (.bytes x) => .done (.ok x)
    | _ => failP .ub)

/-- internal/prutal/decoder.go:162-167 with 561-571 (`ReallocSlice`), see `growM`. -/
def growP (D : Descs) (te : GoType) (a : Option Nat) (len : Nat) : Prog Nat :=
  match a with
  | none => newP (.array (List.replicate 8 (cell D te)))
  | some a => .read a (fun b =>
    match b with
    | .array xs =>
      if xs.length = 0 then newP (.array (List.replicate 8 (cell D te)))
      else if len = xs.length then
        newP (.array (xs ++ List.replicate xs.length (cell D te)))
      else .done (.ok a)
    | _ => failP .ub)

/-- What the memory of a new element holds, internal/prutal/decoder.go:168-169, see `spareM`. -/
def spareP (D : Descs) (te : GoType) (a len : Nat) : Prog MVal :=
  .read a (fun b =>
    match b with
    | .array xs =>
      match xs[len]?, te with
      | some x, .struct _ => .done (.ok x)
      | some _, _ => .done (.ok (cell D te))
      | none, _ => failP .ub
    | _ => failP .ub)

/-- Storing an element of an array. -/
def putElemP (a i : Nat) (v : MVal) : Prog Unit :=
  .read a (fun b =>
    match b with
    | .array xs => putP a (.array (xs.set i v))
    | _ => failP .ub)

/-! ## The decoder -/

/-- internal/prutal/decoder.go:53-64 (`mallocIfPointer`) and 136-138: a new variable of type `t`,
filled by `k`; returns its address and the number of bytes consumed. -/
def newTargetP (D : Descs) (t : GoType) (k : MVal → Prog (MVal × Nat)) : Prog (Nat × Nat) := do
  let o ← newP (.object (cell D t))
  let (v, n) ← k (cell D t)
  putP o (.object v)
  return (o, n)

/-- internal/prutal/decoder.go:66-74 (`resetUnknownFields`): the length is set to 0, the memory is
kept. -/
def resetUnknownP (s : StructDesc) (fs : List MVal) : Prog (List MVal) :=
  match s.unknown with
  | none => pure fs
  | some (slot, isPtr) =>
    match isPtr, fs[slot]? with
    | false, some (.bytes x) => pure (fs.set slot (.bytes (x.map (·.take 0))))
    | true, some (.ptr none) => pure fs
    | true, some (.ptr (some a)) => do
      let x ← loadBytesP a
      putP a (.object (.bytes (x.map (·.take 0))))
      return fs
    | _, _ => failP .ub

/-- internal/prutal/decoder.go:76-88 (`appendToUnknownFields`). -/
def appendUnknownP (s : StructDesc) (fs : List MVal) (raw : View) : Prog (List MVal) :=
  match s.unknown with
  | none => pure fs
  | some (slot, isPtr) =>
    match isPtr, fs[slot]? with
    | false, some (.bytes x) => do
      let w ← appendBytesP x raw
      return fs.set slot (.bytes (some w))
    | true, some (.ptr none) => do
      let o ← newP (.object (.bytes none))
      let w ← appendBytesP none raw
      putP o (.object (.bytes (some w)))
      return fs.set slot (.ptr (some o))
    | true, some (.ptr (some a)) => do
      let x ← loadBytesP a
      let w ← appendBytesP x raw
      putP a (.object (.bytes (some w)))
      return fs
    | _, _ => failP .ub

/-- A scalar case of the decoder, see `decodeVarintAt`. -/
def decodeScalarP (p : Bytes → Res (Val × Nat)) (b : View) (cur : MVal) : Prog (MVal × Nat) := do
  let (x, n) ← parseP b p
  return (overwrite cur x, n)

/-- `protowire.ConsumeBytes` on a view: the view of the payload and the number of bytes consumed. -/
def consumeBytesP (b : View) : Prog (View × Nat) := do
  let (fb, n) ← parseP b (fun b => liftP (consumeBytes b))
  return ((b.take n).drop (n - fb.length), n)

/-- internal/prutal/decoder.go:257-268, 388-398, 502-512: a string is copied to new memory. -/
def copyStringP (b : View) : Prog (Option View) := do
  let r ← parseP b (fun b => .ok b)
  if r.length = 0 then return none
  else
    let a ← newP (.bytes r)
    return some ⟨a, 0, r.length⟩

/-- internal/prutal/decoder.go:248-256, 494-501: a `[]byte` is copied to new memory; its capacity is
its length (`[]byte{}` if it is empty, a block without bytes here). -/
def copyBytesP (b : View) : Prog (Option View) := do
  let r ← parseP b (fun b => .ok b)
  let a ← newP (.bytes r)
  return some ⟨a, 0, r.length⟩

/-- A nested `DecodeStruct(b, base, s, maxdepth)`. -/
abbrev DecRecP := Int → View → MVal → Nat → Prog MVal

/-- internal/prutal/decoder.go:323-407: the switch of `DecodeMapKey` on the wire type. -/
def decodeMapKeyAtP (f : FieldDesc) (kt : GoType) (typ : WType) (b : View) : Prog (MVal × Nat) :=
  match typ with
  | 0 => decodeScalarP (fun b => decodeVarintAt f.keyType kt.kind b .undef) b .undef
  | 5 => decodeScalarP (fun b => decodeFixed32At f.keyType kt.kind b .undef) b .undef
  | 1 => decodeScalarP (fun b => decodeFixed64At f.keyType kt.kind b .undef) b .undef
  | 2 =>
    if kt.kind ≠ .string then failP .wireType
    else do
      let (fb, n) ← consumeBytesP b
      let s ← copyStringP fb
      return (.str s, n)
  | _ => failP .wireType

/-- internal/prutal/decoder.go:313-410 (`DecodeMapKey`). -/
def decodeMapKeyP (f : FieldDesc) (kt : GoType) (b : View) : Prog (MVal × Nat) := do
  let typ ← parseP b (kvTag 1)
  let (v, n) ← decodeMapKeyAtP f kt typ (b.drop 1)
  return (v, n + 1)

/-- internal/prutal/decoder.go:491-521: the LEN case of `DecodeMapValue`. -/
def decodeMapValueLenP (rec : DecRecP) (t : GoType) (fb : View) (cur : MVal) (depth : Int) :
    Prog MVal :=
  match t with
  | .bytes => MVal.bytes <$> copyBytesP fb
  | .string => MVal.str <$> copyStringP fb
  | .struct id => rec (depth - 1) fb cur id
  | _ => failP .wireType

/-- internal/prutal/decoder.go:431-525: the switch of `DecodeMapValue` on a target of type `t`. -/
def decodeMapValueAtP (rec : DecRecP) (f : FieldDesc) (t : GoType) (typ : WType) (b : View)
    (cur : MVal) (depth : Int) : Prog (MVal × Nat) :=
  match typ with
  | 0 => decodeScalarP (fun b => decodeVarintAt f.valType t.kind b .undef) b cur
  | 5 => decodeScalarP (fun b => decodeFixed32At f.valType t.kind b .undef) b cur
  | 1 => decodeScalarP (fun b => decodeFixed64At f.valType t.kind b .undef) b cur
  | 2 => do
    let (fb, n) ← consumeBytesP b
    let v ← decodeMapValueLenP rec t fb cur depth
    return (v, n)
  | _ => failP .wireType

/-- internal/prutal/decoder.go:424-428: a pointer value gets a new target.  The temporary variable
is described at `tmpVal`; its content is copied into the map at the end. -/
def decodeMapValueRefP (D : Descs) (rec : DecRecP) (f : FieldDesc) (vt : GoType) (typ : WType)
    (b : View) (depth : Int) : Prog (MVal × Nat) :=
  match vt with
  | .ptr t => do
    let (o, n) ← newTargetP D t (fun cur => decodeMapValueAtP rec f t typ b cur depth)
    return (.ptr (some o), n)
  | t => decodeMapValueAtP rec f t typ b (ofFlat (tmpVal D t)) depth

/-- internal/prutal/decoder.go:414-530 (`DecodeMapValue`). -/
def decodeMapValueP (D : Descs) (rec : DecRecP) (f : FieldDesc) (vt : GoType) (b : View)
    (depth : Int) : Prog (MVal × Nat) := do
  let typ ← parseP b (kvTag 2)
  let (v, n) ← decodeMapValueRefP D rec f vt typ (b.drop 1) depth
  return (v, n + 1)

/-- internal/prutal/decoder.go:538-541 and internal/wire/decoder_map.go:26-32 (`ensureMapNotNil`):
the map, a new one if there is none. -/
def ensureMapP : MVal → Prog Nat
  | .map (some a) => pure a
  | .map none => newP (.table [])
  | _ => failP .ub

/-- internal/prutal/decoder.go:532-559 (`DecodeMapPair`). -/
def decodeMapPairP (D : Descs) (rec : DecRecP) (f : FieldDesc) (kt vt : GoType) (b : View)
    (cur : MVal) (depth : Int) : Prog MVal := do
  let a ← ensureMapP cur
  let (k, n) ← decodeMapKeyP f kt b
  let (v, _) ← decodeMapValueP D rec f vt (b.drop n) depth
  mapAssignP a k v
  return .map (some a)

/-- internal/wire/decoder_map.go:183-918 (`DecodeMap_K_V`), on a map of type `map kt vt`. -/
def decodeMapFastP (kc vc : Coder) (kt vt : GoType) (b : View) (cur : MVal) : Prog MVal := do
  let (k, x) ← parseP b (decodeMapParts kc vc)
  let a ← ensureMapP cur
  if kt.holds k && vt.holds x then
    mapAssignP a (ofFlat k) (ofFlat x)
    return .map (some a)
  else failP .ub

/-- internal/prutal/decoder.go:243-293: the LEN case, on a target of type `t`. -/
def decodeLenAtP (D : Descs) (rec : DecRecP) (f : FieldDesc) (t : GoType) (fb : View) (cur : MVal)
    (depth : Int) : Prog MVal :=
  match t with
  | .bytes => MVal.bytes <$> copyBytesP fb
  | .string => MVal.str <$> copyStringP fb
  | .map kt vt =>
    match f.decodeMap with
    | some (kc, vc) => decodeMapFastP kc vc kt vt fb cur
    | none => match f.t with
      | .map _ _ => decodeMapPairP D rec f kt vt fb cur (depth - 1)
      | _ => failP .panic
  | .struct id => rec (depth - 1) fb cur id
  | _ => failP .wireType

/-- internal/prutal/decoder.go:178-298: the switch on the wire type, on a target of type `t`. -/
def decodeValueAtP (D : Descs) (rec : DecRecP) (f : FieldDesc) (t : GoType) (typ : WType)
    (b : View) (cur : MVal) (depth : Int) : Prog (MVal × Nat) :=
  match typ with
  | 0 => decodeScalarP (fun b => decodeVarintAt f.tagType t.kind b .undef) b cur
  | 5 => decodeScalarP (fun b => decodeFixed32At f.tagType t.kind b .undef) b cur
  | 1 => decodeScalarP (fun b => decodeFixed64At f.tagType t.kind b .undef) b cur
  | 2 => do
    let (fb, n) ← consumeBytesP b
    let v ← decodeLenAtP D rec f t fb cur depth
    return (v, n)
  | _ => failP .wireType

/-- internal/prutal/decoder.go:170-176: a new list element of type `te`, in memory holding `cur`. -/
def decodeElemP (D : Descs) (rec : DecRecP) (f : FieldDesc) (te : GoType) (typ : WType)
    (b : View) (cur : MVal) (depth : Int) : Prog (MVal × Nat) :=
  match te with
  | .ptr te' => do
    let (o, n) ← newTargetP D te' (fun cur => decodeValueAtP D rec f te' typ b cur depth)
    return (.ptr (some o), n)
  | _ => decodeValueAtP D rec f te typ b cur depth

/-- internal/wire/decoder_packed.go:37-294: a packed block becomes a new slice.  Simplification: its
capacity is its length. -/
def decodePackedP (c : Coder) (te : GoType) (b : View) : Prog MVal := do
  let x ← parseP b (decodePackedCoder c te)
  match x with
  | .slice xs => do
    let a ← newP (.array (xs.map ofFlat))
    return .slice (some a) xs.length
  | _ => failP .ub

/-- internal/prutal/decoder.go:144-177: repeated fields (packed block, or one more element), else a
single value. -/
def decodeRepP (D : Descs) (rec : DecRecP) (f : FieldDesc) (t : GoType) (typ : WType) (b : View)
    (cur : MVal) (depth : Int) : Prog (MVal × Nat) :=
  match f.repeated, t with
  | true, .slice te =>
    if typ = tBytes ∧ f.packed = true then
      match f.decodePacked with
      | none => failP .panic
      | some c => do
        let (fb, n) ← consumeBytesP b
        let v ← decodePackedP c te fb
        return (v, n)
    else match cur with
      | .slice a len => do
        let a ← growP D te a len
        let x ← spareP D te a len
        let (v, n) ← decodeElemP D rec f te typ b x depth
        putElemP a len v
        return (.slice (some a) (len + 1), n)
      | _ => failP .ub
  | _, _ => decodeValueAtP D rec f t typ b cur depth

/-- internal/prutal/decoder.go:139-142: a pointer field gets a new target. -/
def decodePtrP (D : Descs) (rec : DecRecP) (f : FieldDesc) (typ : WType) (b : View) (cur : MVal)
    (depth : Int) : Prog (MVal × Nat) :=
  match f.t with
  | .ptr t => do
    let (o, n) ← newTargetP D t (fun cur => decodeRepP D rec f t typ b cur depth)
    return (.ptr (some o), n)
  | t => decodeRepP D rec f t typ b cur depth

/-- internal/prutal/decoder.go:130-298: decoding a record of a declared field into its slot. -/
def decodeFieldP (D : Descs) (rec : DecRecP) (f : FieldDesc) (typ : WType) (b : View) (cur : MVal)
    (depth : Int) : Prog (MVal × Nat) :=
  match f.oneof with
  | some w => match cur with
    | .iface _ => do
      let (o, n) ← newTargetP D f.t (fun cur => decodePtrP D rec f typ b cur depth)
      return (.iface (some (w, some o)), n)
    | _ => failP .ub
  | none => decodePtrP D rec f typ b cur depth

/-- internal/prutal/decoder.go:105-300: one iteration of the loop. -/
def decodeRecordP (D : Descs) (rec : DecRecP) (s : StructDesc) (depth : Int) (b : View)
    (fs : List MVal) (last : Option FieldDesc) : Prog (List MVal × Nat × Option FieldDesc) := do
  let (num, typ, n) ← parseP b (fun b => liftP (consumeTag b))
  match lookupField s last num with
  | none =>
    let m ← parseP (b.drop n) (fun b => liftP (consumeFieldValue num typ b))
    let fs ← appendUnknownP s fs (b.take (n + m))
    return (fs, n + m, none)
  | some f =>
    match fs[f.slot]? with
    | none => failP .ub
    | some cur =>
      let (v, m) ← decodeFieldP D rec f typ (b.drop n) cur depth
      return (fs.set f.slot v, n + m, some f)

/-- internal/prutal/decoder.go:105-302: the loop over the records. -/
def decodeLoopP (D : Descs) (rec : DecRecP) (s : StructDesc) (depth : Int) :
    Nat → View → List MVal → Option FieldDesc → Prog (List MVal)
  | 0, b, fs, _ => if b.len = 0 then pure fs else failP .panic
  | fuel + 1, b, fs, last =>
    if b.len = 0 then pure fs
    else do
      let (fs, n, last) ← decodeRecordP D rec s depth b fs last
      decodeLoopP D rec s depth fuel (b.drop n) fs last

/-- internal/prutal/decoder.go:90-308 (`DecodeStruct`). -/
def decodeStructP (D : Descs) : Nat → Int → View → MVal → Nat → Prog MVal
  | 0, _, _, _, _ => failP .panic
  | fuel + 1, depth, b, v, sid =>
    if depth = 0 then failP .maxDepth
    else match v with
      | .struct fs => do
        let fs ← resetUnknownP (D sid) fs
        let fs ← decodeLoopP D (decodeStructP D fuel) (D sid) depth b.len b fs none
        return .struct fs
      | _ => failP .ub

/-- The variable afterwards, see `decodeInto`. -/
def storeP (a : Nat) : Res MVal → Prog Unit
  | .ok v => .write a (.object v) (.done (.ok ()))
  | .error e => .write a (.object .undef) (.done (.error e))

/-- Decoding into the variable at address `a`. -/
def decodeIntoP (D : Descs) (b : View) (sid a : Nat) : Prog Unit :=
  .read a (fun blk =>
    match blk with
    | .object v => (decodeStructP D (b.len + 1) defaultRecursionMaxDepth b v sid).andThen (storeP a)
    | _ => failP .ub)

/-- internal/prutal/prutal.go:73-87 (`Unmarshal`), compare `unmarshalM`. -/
def unmarshalP (env : GoEnv) (b : View) : MArg → Prog Unit
  | .nil => failP .notPointer
  | .nonPtr => failP .notPointer
  | .ptrOther _ => failP .badType
  | .ptr sid a => do
    let D ← Prog.done (parseDescs env)
    match a with
    | none => failP .panic
    | some a => decodeIntoP D b sid a

end Verif.Model.Mem
