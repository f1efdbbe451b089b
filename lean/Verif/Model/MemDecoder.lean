import Verif.Model.Memory
/-!
# Model of internal/prutal/decoder.go on memory with sharing

The functions of `Model/Decoder.lean` again, with the input and the target in memory.  A struct is
passed as the list of its fields and returned; where it is stored (a variable of its own, the array
behind a slice, a map) is written when its decoding ends.  What the memory of the target itself holds
after an error is not represented (it is `undef`); all other blocks are.
-/
namespace Verif.Model.Mem

/-- The content of new memory for a value of type `t`, internal/prutal/decoder.go:45-51. -/
def cell (D : Descs) (t : GoType) : MVal := ofFlat (alloc D t)

/-- internal/prutal/decoder.go:53-64 (`mallocIfPointer`) and 136-138: a new variable of type `t`,
filled by `k`; returns its address and the number of bytes consumed. -/
def newTarget (D : Descs) (t : GoType) (k : MVal → M (MVal × Nat)) : M (Nat × Nat) := do
  let o ← new (.object (cell D t))
  let (v, n) ← k (cell D t)
  put o (.object v)
  return (o, n)

/-- The header of a `[]byte` variable. -/
def loadBytes (a : Nat) : M (Option View) := fun h =>
  match h.mem a with
  | .object (.bytes x) => (.ok x, h)
  | _ => (.error .ub, h)

/-- internal/prutal/decoder.go:66-74 (`resetUnknownFields`): the length is set to 0, the memory is
kept. -/
def resetUnknownM (s : StructDesc) (fs : List MVal) : M (List MVal) :=
  match s.unknown with
  | none => pure fs
  | some (slot, isPtr) =>
    match isPtr, fs[slot]? with
    | false, some (.bytes x) => pure (fs.set slot (.bytes (x.map (·.take 0))))
    | true, some (.ptr none) => pure fs
    | true, some (.ptr (some a)) => do
      let x ← loadBytes a
      put a (.object (.bytes (x.map (·.take 0))))
      return fs
    | _, _ => fail .ub

/-- internal/prutal/decoder.go:76-88 (`appendToUnknownFields`). -/
def appendUnknownM (s : StructDesc) (fs : List MVal) (raw : View) : M (List MVal) :=
  match s.unknown with
  | none => pure fs
  | some (slot, isPtr) =>
    match isPtr, fs[slot]? with
    | false, some (.bytes x) => do
      let w ← appendBytes x raw
      return fs.set slot (.bytes (some w))
    | true, some (.ptr none) => do
      let o ← new (.object (.bytes none))
      let w ← appendBytes none raw
      put o (.object (.bytes (some w)))
      return fs.set slot (.ptr (some o))
    | true, some (.ptr (some a)) => do
      let x ← loadBytes a
      let w ← appendBytes x raw
      put a (.object (.bytes (some w)))
      return fs
    | _, _ => fail .ub

/-- What a variable holds after a scalar case of the decoder: nothing is written if the kind is not
listed (`undef`). -/
def overwrite (cur : MVal) : Val → MVal
  | .undef => cur
  | x => ofFlat x

/-- A scalar case of the decoder, see `decodeVarintAt`. -/
def decodeScalarM (p : Bytes → Res (Val × Nat)) (b : View) (cur : MVal) : M (MVal × Nat) := do
  let (x, n) ← parse b p
  return (overwrite cur x, n)

/-- `protowire.ConsumeBytes` on a view: the view of the payload and the number of bytes consumed. -/
def consumeBytesM (b : View) : M (View × Nat) := do
  let (fb, n) ← parse b (fun b => liftP (consumeBytes b))
  return ((b.take n).drop (n - fb.length), n)

/-- internal/prutal/decoder.go:257-268, 388-398, 502-512: a string is copied to new memory. -/
def copyString (b : View) : M (Option View) := do
  let r ← parse b (fun b => .ok b)
  if r.length = 0 then return none
  else
    let a ← new (.bytes r)
    return some ⟨a, 0, r.length⟩

/-- internal/prutal/decoder.go:248-256, 494-501: a `[]byte` is copied to new memory; its capacity is
its length (`[]byte{}` if it is empty, a block without bytes here). -/
def copyBytes (b : View) : M (Option View) := do
  let r ← parse b (fun b => .ok b)
  let a ← new (.bytes r)
  return some ⟨a, 0, r.length⟩

/-- A nested `DecodeStruct(b, base, s, maxdepth)`. -/
abbrev DecRecM := Int → View → MVal → Nat → M MVal

/-- internal/prutal/decoder.go:323-407: the switch of `DecodeMapKey` on the wire type. -/
def decodeMapKeyAtM (f : FieldDesc) (kt : GoType) (typ : WType) (b : View) : M (MVal × Nat) :=
  match typ with
  | 0 => decodeScalarM (fun b => decodeVarintAt f.keyType kt.kind b .undef) b .undef
  | 5 => decodeScalarM (fun b => decodeFixed32At f.keyType kt.kind b .undef) b .undef
  | 1 => decodeScalarM (fun b => decodeFixed64At f.keyType kt.kind b .undef) b .undef
  | 2 =>
    if kt.kind ≠ .string then fail .wireType
    else do
      let (fb, n) ← consumeBytesM b
      let s ← copyString fb
      return (.str s, n)
  | _ => fail .wireType

/-- The tag of the key or value of a map entry (an absent one is an error). -/
def kvTag (num : Nat) (b : Bytes) : Res WType :=
  match consumeKVTag b with
  | none => .error .mapKV
  | some (n, typ) => if n ≠ num then .error .mapKV else .ok typ

/-- internal/prutal/decoder.go:313-410 (`DecodeMapKey`). -/
def decodeMapKeyM (f : FieldDesc) (kt : GoType) (b : View) : M (MVal × Nat) := do
  let typ ← parse b (kvTag 1)
  let (v, n) ← decodeMapKeyAtM f kt typ (b.drop 1)
  return (v, n + 1)

/-- internal/prutal/decoder.go:491-521: the LEN case of `DecodeMapValue`. -/
def decodeMapValueLenM (rec : DecRecM) (t : GoType) (fb : View) (cur : MVal) (depth : Int) :
    M MVal :=
  match t with
  | .bytes => MVal.bytes <$> copyBytes fb
  | .string => MVal.str <$> copyString fb
  | .struct id => rec (depth - 1) fb cur id
  | _ => fail .wireType

/-- internal/prutal/decoder.go:431-525: the switch of `DecodeMapValue` on a target of type `t`. -/
def decodeMapValueAtM (rec : DecRecM) (f : FieldDesc) (t : GoType) (typ : WType) (b : View)
    (cur : MVal) (depth : Int) : M (MVal × Nat) :=
  match typ with
  | 0 => decodeScalarM (fun b => decodeVarintAt f.valType t.kind b .undef) b cur
  | 5 => decodeScalarM (fun b => decodeFixed32At f.valType t.kind b .undef) b cur
  | 1 => decodeScalarM (fun b => decodeFixed64At f.valType t.kind b .undef) b cur
  | 2 => do
    let (fb, n) ← consumeBytesM b
    let v ← decodeMapValueLenM rec t fb cur depth
    return (v, n)
  | _ => fail .wireType

/-- internal/prutal/decoder.go:424-428: a pointer value gets a new target.  The temporary variable
is described at `tmpVal`; its content is copied into the map at the end. -/
def decodeMapValueRefM (D : Descs) (rec : DecRecM) (f : FieldDesc) (vt : GoType) (typ : WType)
    (b : View) (depth : Int) : M (MVal × Nat) :=
  match vt with
  | .ptr t => do
    let (o, n) ← newTarget D t (fun cur => decodeMapValueAtM rec f t typ b cur depth)
    return (.ptr (some o), n)
  | t => decodeMapValueAtM rec f t typ b (ofFlat (tmpVal D t)) depth

/-- internal/prutal/decoder.go:414-530 (`DecodeMapValue`). -/
def decodeMapValueM (D : Descs) (rec : DecRecM) (f : FieldDesc) (vt : GoType) (b : View)
    (depth : Int) : M (MVal × Nat) := do
  let typ ← parse b (kvTag 2)
  let (v, n) ← decodeMapValueRefM D rec f vt typ (b.drop 1) depth
  return (v, n + 1)

/-- internal/prutal/decoder.go:538-541 and internal/wire/decoder_map.go:26-32 (`ensureMapNotNil`):
the map, a new one if there is none. -/
def ensureMap : MVal → M Nat
  | .map (some a) => pure a
  | .map none => new (.table [])
  | _ => fail .ub

/-- internal/prutal/decoder.go:532-559 (`DecodeMapPair`). -/
def decodeMapPairM (D : Descs) (rec : DecRecM) (f : FieldDesc) (kt vt : GoType) (b : View)
    (cur : MVal) (depth : Int) : M MVal := do
  let a ← ensureMap cur
  let (k, n) ← decodeMapKeyM f kt b
  let (v, _) ← decodeMapValueM D rec f vt (b.drop n) depth
  mapAssign a k v
  return .map (some a)

/-- The key and the value of an entry, for the decoders of internal/wire/decoder_map.go. -/
def decodeMapParts (kc vc : Coder) (b : Bytes) : Res (Val × Val) := do
  let (k, n) ← decodeMapPart kc b 1
  let (x, _) ← decodeMapPart vc (b.drop n) 2
  return (k, x)

/-- internal/wire/decoder_map.go:183-918 (`DecodeMap_K_V`), on a map of type `map kt vt`. -/
def decodeMapFastM (kc vc : Coder) (kt vt : GoType) (b : View) (cur : MVal) : M MVal := do
  let (k, x) ← parse b (decodeMapParts kc vc)
  let a ← ensureMap cur
  if kt.holds k && vt.holds x then
    mapAssign a (ofFlat k) (ofFlat x)
    return .map (some a)
  else fail .ub

/-- internal/prutal/decoder.go:243-293: the LEN case, on a target of type `t`. -/
def decodeLenAtM (D : Descs) (rec : DecRecM) (f : FieldDesc) (t : GoType) (fb : View) (cur : MVal)
    (depth : Int) : M MVal :=
  match t with
  | .bytes => MVal.bytes <$> copyBytes fb
  | .string => MVal.str <$> copyString fb
  | .map kt vt =>
    match f.decodeMap with
    | some (kc, vc) => decodeMapFastM kc vc kt vt fb cur
    | none => match f.t with
      | .map _ _ => decodeMapPairM D rec f kt vt fb cur (depth - 1)
      | _ => fail .panic
  | .struct id => rec (depth - 1) fb cur id
  | _ => fail .wireType

/-- internal/prutal/decoder.go:178-298: the switch on the wire type, on a target of type `t`. -/
def decodeValueAtM (D : Descs) (rec : DecRecM) (f : FieldDesc) (t : GoType) (typ : WType)
    (b : View) (cur : MVal) (depth : Int) : M (MVal × Nat) :=
  match typ with
  | 0 => decodeScalarM (fun b => decodeVarintAt f.tagType t.kind b .undef) b cur
  | 5 => decodeScalarM (fun b => decodeFixed32At f.tagType t.kind b .undef) b cur
  | 1 => decodeScalarM (fun b => decodeFixed64At f.tagType t.kind b .undef) b cur
  | 2 => do
    let (fb, n) ← consumeBytesM b
    let v ← decodeLenAtM D rec f t fb cur depth
    return (v, n)
  | _ => fail .wireType

/-- internal/prutal/decoder.go:170-176: a new list element of type `te`, in memory holding `cur`. -/
def decodeElemM (D : Descs) (rec : DecRecM) (f : FieldDesc) (te : GoType) (typ : WType)
    (b : View) (cur : MVal) (depth : Int) : M (MVal × Nat) :=
  match te with
  | .ptr te' => do
    let (o, n) ← newTarget D te' (fun cur => decodeValueAtM D rec f te' typ b cur depth)
    return (.ptr (some o), n)
  | _ => decodeValueAtM D rec f te typ b cur depth

/-- internal/prutal/decoder.go:162-167 with 561-571 (`ReallocSlice`): an array with room for one
more element. -/
def growM (D : Descs) (te : GoType) (a : Option Nat) (len : Nat) : M Nat :=
  match a with
  | none => new (.array (List.replicate 8 (cell D te)))
  | some a => fun h =>
    match h.mem a with
    | .array xs =>
      if xs.length = 0 then new (.array (List.replicate 8 (cell D te))) h
      else if len = xs.length then
        new (.array (xs ++ List.replicate xs.length (cell D te))) h
      else (.ok a, h)
    | _ => (.error .ub, h)

/-- What the memory of a new element holds before it is decoded, internal/prutal/decoder.go:168-169.
An inline struct is decoded into what is there.  Simplification: for the other types the memory is
not read (pointers, strings, `[]byte` and scalars are overwritten), so it is the content of new
memory. -/
def spareM (D : Descs) (te : GoType) (a len : Nat) : M MVal := fun h =>
  match h.mem a with
  | .array xs =>
    match xs[len]?, te with
    | some x, .struct _ => (.ok x, h)
    | some _, _ => (.ok (cell D te), h)
    | none, _ => (.error .ub, h)
  | _ => (.error .ub, h)

/-- Storing an element of an array. -/
def putElem (a i : Nat) (v : MVal) : M Unit := fun h =>
  match h.mem a with
  | .array xs => (.ok (), h.set a (.array (xs.set i v)))
  | _ => (.error .ub, h)

/-- internal/wire/decoder_packed.go:37-294: a packed block becomes a new slice.  Simplification: its
capacity is its length. -/
def decodePackedM (c : Coder) (te : GoType) (b : View) : M MVal := do
  let x ← parse b (decodePackedCoder c te)
  match x with
  | .slice xs => do
    let a ← new (.array (xs.map ofFlat))
    return .slice (some a) xs.length
  | _ => fail .ub

/-- internal/prutal/decoder.go:144-177: repeated fields (packed block, or one more element), else a
single value. -/
def decodeRepM (D : Descs) (rec : DecRecM) (f : FieldDesc) (t : GoType) (typ : WType) (b : View)
    (cur : MVal) (depth : Int) : M (MVal × Nat) :=
  match f.repeated, t with
  | true, .slice te =>
    if typ = tBytes ∧ f.packed = true then
      match f.decodePacked with
      | none => fail .panic
      | some c => do
        let (fb, n) ← consumeBytesM b
        let v ← decodePackedM c te fb
        return (v, n)
    else match cur with
      | .slice a len => do
        let a ← growM D te a len
        let x ← spareM D te a len
        let (v, n) ← decodeElemM D rec f te typ b x depth
        putElem a len v
        return (.slice (some a) (len + 1), n)
      | _ => fail .ub
  | _, _ => decodeValueAtM D rec f t typ b cur depth

/-- internal/prutal/decoder.go:139-142: a pointer field gets a new target. -/
def decodePtrM (D : Descs) (rec : DecRecM) (f : FieldDesc) (typ : WType) (b : View) (cur : MVal)
    (depth : Int) : M (MVal × Nat) :=
  match f.t with
  | .ptr t => do
    let (o, n) ← newTarget D t (fun cur => decodeRepM D rec f t typ b cur depth)
    return (.ptr (some o), n)
  | t => decodeRepM D rec f t typ b cur depth

/-- internal/prutal/decoder.go:130-298: decoding a record of a declared field into its slot. -/
def decodeFieldM (D : Descs) (rec : DecRecM) (f : FieldDesc) (typ : WType) (b : View) (cur : MVal)
    (depth : Int) : M (MVal × Nat) :=
  match f.oneof with
  | some w => match cur with
    | .iface _ => do
      let (o, n) ← newTarget D f.t (fun cur => decodePtrM D rec f typ b cur depth)
      return (.iface (some (w, some o)), n)
    | _ => fail .ub
  | none => decodePtrM D rec f typ b cur depth

/-- internal/prutal/decoder.go:105-300: one iteration of the loop. -/
def decodeRecordM (D : Descs) (rec : DecRecM) (s : StructDesc) (depth : Int) (b : View)
    (fs : List MVal) (last : Option FieldDesc) : M (List MVal × Nat × Option FieldDesc) := do
  let (num, typ, n) ← parse b (fun b => liftP (consumeTag b))
  match lookupField s last num with
  | none =>
    let m ← parse (b.drop n) (fun b => liftP (consumeFieldValue num typ b))
    let fs ← appendUnknownM s fs (b.take (n + m))
    return (fs, n + m, none)
  | some f =>
    match fs[f.slot]? with
    | none => fail .ub
    | some cur =>
      let (v, m) ← decodeFieldM D rec f typ (b.drop n) cur depth
      return (fs.set f.slot v, n + m, some f)

/-- internal/prutal/decoder.go:105-302: the loop over the records. -/
def decodeLoopM (D : Descs) (rec : DecRecM) (s : StructDesc) (depth : Int) :
    Nat → View → List MVal → Option FieldDesc → M (List MVal)
  | 0, b, fs, _ => if b.len = 0 then pure fs else fail .panic
  | fuel + 1, b, fs, last =>
    if b.len = 0 then pure fs
    else do
      let (fs, n, last) ← decodeRecordM D rec s depth b fs last
      decodeLoopM D rec s depth fuel (b.drop n) fs last

/-- internal/prutal/decoder.go:90-308 (`DecodeStruct`). -/
def decodeStructM (D : Descs) : Nat → Int → View → MVal → Nat → M MVal
  | 0, _, _, _, _ => fail .panic
  | fuel + 1, depth, b, v, sid =>
    if depth = 0 then fail .maxDepth
    else match v with
      | .struct fs => do
        let fs ← resetUnknownM (D sid) fs
        let fs ← decodeLoopM D (decodeStructM D fuel) (D sid) depth b.len b fs none
        return .struct fs
      | _ => fail .ub

/-- The `interface{}` argument, see `Arg`; a struct is at an address. -/
inductive MArg
  | nil
  | nonPtr
  | ptrOther (isNil : Bool)
  | ptr (sid : Nat) (a : Option Nat)

/-- Decoding into the variable at address `a`. -/
def decodeInto (D : Descs) (b : View) (sid a : Nat) : M Unit := fun h =>
  match h.mem a with
  | .object v =>
    match decodeStructM D (b.len + 1) defaultRecursionMaxDepth b v sid h with
    | (.ok v', h') => (.ok (), h'.set a (.object v'))
    | (.error e, h') => (.error e, h'.set a (.object .undef))
  | _ => (.error .ub, h)

/-- internal/prutal/prutal.go:73-87 (`Unmarshal`), compare `unmarshal`. -/
def unmarshalM (env : GoEnv) (b : View) : MArg → M Unit
  | .nil => fail .notPointer
  | .nonPtr => fail .notPointer
  | .ptrOther _ => fail .badType
  | .ptr sid a => do
    let D ← lift (parseDescs env)
    match a with
    | none => fail .panic
    | some a => decodeInto D b sid a

end Verif.Model.Mem
