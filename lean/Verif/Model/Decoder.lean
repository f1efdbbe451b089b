import Verif.Model.Encoder
/-!
# Model of internal/prutal/decoder.go

The target value is passed in and the updated value returned; what the target holds after an error
is the subject of `Model/DecodeLeft.lean`.  Recursion and the field loop are bounded by fuel that the entry point
sets to the input length (every step consumes at least one byte), so the fuel never runs out.
Not represented: slice capacity (`Model/SliceGrow.lean`), sharing of memory between the input and
the result (`Model/MemDecoder.lean`), the pools of temporary map variables (`Model/DecodePool.lean`).
-/
namespace Verif.Model

/-- The zero value of a type, given the descriptors (for the zero values of structs). -/
def zeroVal (D : Descs) : GoType → Val
  | .bool => .bool false
  | .int32 => .w32 0#32 | .uint32 => .w32 0#32 | .float32 => .w32 0#32
  | .int64 => .w64 0#64 | .uint64 => .w64 0#64 | .float64 => .w64 0#64
  | .string => .str [] | .bytes => .bytes none
  | .ptr _ => .ptr none | .slice _ => .slice [] | .map _ _ => .map none
  | .struct id => (D id).empty
  | .iface => .iface none
  | .other _ => .opaque 0

/-- internal/prutal/decoder.go:45-51 (`Malloc`): fresh memory for a value of type `t`; types
without pointers come from the arena and are not initialised. -/
def alloc (D : Descs) (t : GoType) : Val := if t.zeroedAlloc then zeroVal D t else .undef

/-- internal/prutal/decoder.go:66-74 (`resetUnknownFields`). -/
def resetUnknown (s : StructDesc) (fs : List Val) : Res (List Val) :=
  match s.unknown with
  | none => .ok fs
  | some (slot, isPtr) =>
    match isPtr, fs[slot]? with
    | false, some (.bytes x) => .ok (fs.set slot (.bytes (x.map (fun _ => []))))
    | true, some (.ptr none) => .ok fs
    | true, some (.ptr (some (.bytes x))) =>
      .ok (fs.set slot (.ptr (some (.bytes (x.map (fun _ => []))))))
    | _, _ => .error .ub

/-- internal/prutal/decoder.go:76-88 (`appendToUnknownFields`). -/
def appendUnknown (s : StructDesc) (fs : List Val) (raw : Bytes) : Res (List Val) :=
  match s.unknown with
  | none => .ok fs
  | some (slot, isPtr) =>
    match isPtr, fs[slot]? with
    | false, some (.bytes x) => .ok (fs.set slot (.bytes (some (x.getD [] ++ raw))))
    | true, some (.ptr none) => .ok (fs.set slot (.ptr (some (.bytes (some raw)))))
    | true, some (.ptr (some (.bytes x))) =>
      .ok (fs.set slot (.ptr (some (.bytes (some (x.getD [] ++ raw))))))
    | _, _ => .error .ub

/-- Lifting of protowire errors (`protowire.ParseError`). -/
def liftP {α : Type} : Except PErr α → Res α
  | .ok a => .ok a
  | .error e => .error (.parse e)

/-- internal/prutal/decoder.go:179-200, 328-349, 436-457: the VARINT case, storing by kind (a kind
not listed leaves the target as it is). -/
def decodeVarintAt (tag : TagType) (k : Kind) (b : Bytes) (cur : Val) : Res (Val × Nat) :=
  match tag with
  | .varint | .zigzag32 | .zigzag64 => do
    let (u, n) ← liftP (consumeVarint b)
    let u := match tag with
      | .zigzag32 | .zigzag64 => decodeZigZag u
      | _ => u
    let v := match k with
      | .int32 => .w32 (u.setWidth 32)
      | .uint32 => .w32 (u.setWidth 32)
      | .int64 => .w64 u
      | .uint64 => .w64 u
      | .bool => .bool (u &&& 1#64 != 0#64)
      | _ => cur
    return (v, n)
  | _ => .error .wireType

/-- internal/prutal/decoder.go:202-216, 351-365, 459-473: the I32 case. -/
def decodeFixed32At (tag : TagType) (k : Kind) (b : Bytes) (cur : Val) : Res (Val × Nat) :=
  match tag with
  | .fixed32 => do
    let (u, n) ← liftP (consumeFixed32 b)
    let v := match k with
      | .int32 => .w32 u
      | .uint32 => .w32 u
      | .float32 => .w32 u
      | _ => cur
    return (v, n)
  | _ => .error .wireType

/-- internal/prutal/decoder.go:218-232, 367-381, 475-489: the I64 case. -/
def decodeFixed64At (tag : TagType) (k : Kind) (b : Bytes) (cur : Val) : Res (Val × Nat) :=
  match tag with
  | .fixed64 => do
    let (u, n) ← liftP (consumeFixed64 b)
    let v := match k with
      | .int64 => .w64 u
      | .uint64 => .w64 u
      | .float64 => .w64 u
      | _ => cur
    return (v, n)
  | _ => .error .wireType

/-- A nested `DecodeStruct(b, base, s, maxdepth)`. -/
abbrev DecRec := Int → Bytes → Val → Nat → Res Val

/-- internal/prutal/decoder.go:323-407: the switch of `DecodeMapKey` on the wire type. -/
def decodeMapKeyAt (f : FieldDesc) (kt : GoType) (typ : WType) (b : Bytes) : Res (Val × Nat) :=
  match typ with
  | 0 => decodeVarintAt f.keyType kt.kind b .undef
  | 5 => decodeFixed32At f.keyType kt.kind b .undef
  | 1 => decodeFixed64At f.keyType kt.kind b .undef
  | 2 =>
    if kt.kind ≠ .string then .error .wireType
    else (fun r => (Val.str r.1, r.2)) <$> liftP (consumeBytes b)
  | _ => .error .wireType

/-- internal/prutal/decoder.go:313-410 (`DecodeMapKey`); returns the key and the bytes consumed. -/
def decodeMapKey (f : FieldDesc) (kt : GoType) (b : Bytes) : Res (Val × Nat) :=
  match consumeKVTag b with
  | none => .error .mapKV
  | some (num, typ) =>
    if num ≠ 1 then .error .mapKV
    else do
      let (v, n) ← decodeMapKeyAt f kt typ (b.drop 1)
      return (v, n + 1)

/-- internal/prutal/decoder.go:491-521: the LEN case of `DecodeMapValue`. -/
def decodeMapValueLen (rec : DecRec) (t : GoType) (fb : Bytes) (cur : Val) (depth : Int) :
    Res Val :=
  match t with
  | .bytes => .ok (.bytes (some fb))
  | .string => .ok (.str fb)
  | .struct id => rec (depth - 1) fb cur id
  | _ => .error .wireType

/-- internal/prutal/decoder.go:431-525: the switch of `DecodeMapValue` on a target of type `t`. -/
def decodeMapValueAt (rec : DecRec) (f : FieldDesc) (t : GoType) (typ : WType) (b : Bytes)
    (cur : Val) (depth : Int) : Res (Val × Nat) :=
  match typ with
  | 0 => decodeVarintAt f.valType t.kind b cur
  | 5 => decodeFixed32At f.valType t.kind b cur
  | 1 => decodeFixed64At f.valType t.kind b cur
  | 2 => do
    let (fb, n) ← liftP (consumeBytes b)
    let v ← decodeMapValueLen rec t fb cur depth
    return (v, n)
  | _ => .error .wireType

/-- The temporary value variable before decoding an entry: zero for a struct
(`TmpMapVars.Reset`, internal/desc/type.go:195-199), anything otherwise. -/
def tmpVal (D : Descs) (t : GoType) : Val :=
  match t with
  | .struct id => (D id).empty
  | _ => .undef

/-- internal/prutal/decoder.go:424-428: a pointer value gets a new target. -/
def decodeMapValueRef (D : Descs) (rec : DecRec) (f : FieldDesc) (vt : GoType) (typ : WType)
    (b : Bytes) (depth : Int) : Res (Val × Nat) :=
  match vt with
  | .ptr t => do
    let (v, n) ← decodeMapValueAt rec f t typ b (alloc D t) depth
    return (.ptr (some v), n)
  | t => decodeMapValueAt rec f t typ b (tmpVal D t) depth

/-- internal/prutal/decoder.go:414-530 (`DecodeMapValue`). -/
def decodeMapValue (D : Descs) (rec : DecRec) (f : FieldDesc) (vt : GoType) (b : Bytes)
    (depth : Int) : Res (Val × Nat) :=
  match consumeKVTag b with
  | none => .error .mapKV
  | some (num, typ) =>
    if num ≠ 2 then .error .mapKV
    else do
      let (v, n) ← decodeMapValueRef D rec f vt typ (b.drop 1) depth
      return (v, n + 1)

/-- internal/prutal/decoder.go:532-559 (`DecodeMapPair`); bytes after the value are ignored. -/
def decodeMapPair (D : Descs) (rec : DecRec) (f : FieldDesc) (kt vt : GoType) (b : Bytes)
    (cur : Val) (depth : Int) : Res Val := do
  let m ← cur.asMap
  let (k, n) ← decodeMapKey f kt b
  let (v, _) ← decodeMapValue D rec f vt (b.drop n) depth
  return .map (some (mapInsert m (← k.toKey) v))

/-- internal/prutal/decoder.go:243-293: the LEN case, on a target of type `t`. -/
def decodeLenAt (D : Descs) (rec : DecRec) (f : FieldDesc) (t : GoType) (fb : Bytes) (cur : Val)
    (depth : Int) : Res Val :=
  match t with
  | .bytes => .ok (.bytes (some fb))
  | .string => .ok (.str fb)
  | .map kt vt =>
    match f.decodeMap with
    | some (kc, vc) => decodeMapFast kc vc kt vt fb cur
    | none => match f.t with
      | .map _ _ => decodeMapPair D rec f kt vt fb cur (depth - 1)
      | _ => .error .panic
  | .struct id => rec (depth - 1) fb cur id
  | _ => .error .wireType

/-- internal/prutal/decoder.go:178-298: the switch on the wire type, on a target of type `t`. -/
def decodeValueAt (D : Descs) (rec : DecRec) (f : FieldDesc) (t : GoType) (typ : WType)
    (b : Bytes) (cur : Val) (depth : Int) : Res (Val × Nat) :=
  match typ with
  | 0 => decodeVarintAt f.tagType t.kind b cur
  | 5 => decodeFixed32At f.tagType t.kind b cur
  | 1 => decodeFixed64At f.tagType t.kind b cur
  | 2 => do
    let (fb, n) ← liftP (consumeBytes b)
    let v ← decodeLenAt D rec f t fb cur depth
    return (v, n)
  | _ => .error .wireType

/-- internal/prutal/decoder.go:170-176: a new list element of type `te`. -/
def decodeElem (D : Descs) (rec : DecRec) (f : FieldDesc) (te : GoType) (typ : WType)
    (b : Bytes) (depth : Int) : Res (Val × Nat) :=
  match te with
  | .ptr te' => do
    let (v, n) ← decodeValueAt D rec f te' typ b (alloc D te') depth
    return (.ptr (some v), n)
  | _ => decodeValueAt D rec f te typ b (alloc D te) depth

/-- internal/prutal/decoder.go:144-177: repeated fields (packed block, or one more element), else a
single value. -/
def decodeRep (D : Descs) (rec : DecRec) (f : FieldDesc) (t : GoType) (typ : WType) (b : Bytes)
    (cur : Val) (depth : Int) : Res (Val × Nat) :=
  match f.repeated, t with
  | true, .slice te =>
    if typ = tBytes ∧ f.packed = true then
      match f.decodePacked with
      | none => .error .panic
      | some c => do
        let (fb, n) ← liftP (consumeBytes b)
        let v ← decodePackedCoder c te fb
        return (v, n)
    else do
      let xs ← cur.asSlice
      let (v, n) ← decodeElem D rec f te typ b depth
      return (.slice (xs ++ [v]), n)
  | _, _ => decodeValueAt D rec f t typ b cur depth

/-- internal/prutal/decoder.go:139-142: a pointer field gets a new target. -/
def decodePtr (D : Descs) (rec : DecRec) (f : FieldDesc) (typ : WType) (b : Bytes) (cur : Val)
    (depth : Int) : Res (Val × Nat) :=
  match f.t with
  | .ptr t => do
    let (v, n) ← decodeRep D rec f t typ b (alloc D t) depth
    return (.ptr (some v), n)
  | t => decodeRep D rec f t typ b cur depth

/-- internal/prutal/decoder.go:130-298: decoding a record of a declared field into its slot. -/
def decodeField (D : Descs) (rec : DecRec) (f : FieldDesc) (typ : WType) (b : Bytes) (cur : Val)
    (depth : Int) : Res (Val × Nat) :=
  match f.oneof with
  | some w => match cur with
    | .iface _ => do
      let (v, n) ← decodePtr D rec f typ b (alloc D f.t) depth
      return (.iface (some (w, some v)), n)
    | _ => .error .ub
  | none => decodePtr D rec f typ b cur depth

/-- internal/prutal/decoder.go:114-120: the field of a record, with the one-entry cache. -/
def lookupField (s : StructDesc) (last : Option FieldDesc) (num : Int) : Option FieldDesc :=
  match last with
  | some g => if g.id.toInt = num then some g else s.getField num.toNat
  | none => s.getField num.toNat

/-- internal/prutal/decoder.go:105-300: one iteration of the loop; returns the fields, the number
of bytes consumed and the field to cache. -/
def decodeRecord (D : Descs) (rec : DecRec) (s : StructDesc) (depth : Int) (b : Bytes)
    (fs : List Val) (last : Option FieldDesc) : Res (List Val × Nat × Option FieldDesc) := do
  let (num, typ, n) ← liftP (consumeTag b)
  match lookupField s last num with
  | none =>
    let m ← liftP (consumeFieldValue num typ (b.drop n))
    let fs ← appendUnknown s fs (b.take (n + m))
    return (fs, n + m, none)
  | some f =>
    match fs[f.slot]? with
    | none => .error .ub
    | some cur =>
      let (v, m) ← decodeField D rec f typ (b.drop n) cur depth
      return (fs.set f.slot v, n + m, some f)

/-- internal/prutal/decoder.go:105-302: the loop over the records. -/
def decodeLoop (D : Descs) (rec : DecRec) (s : StructDesc) (depth : Int) :
    Nat → Bytes → List Val → Option FieldDesc → Res (List Val)
  | _, [], fs, _ => .ok fs
  | 0, _ :: _, _, _ => .error .panic
  | fuel + 1, b@(_ :: _), fs, last => do
    let (fs, n, last) ← decodeRecord D rec s depth b fs last
    decodeLoop D rec s depth fuel (b.drop n) fs last

/-- internal/prutal/decoder.go:90-308 (`DecodeStruct`). -/
def decodeStruct (D : Descs) : Nat → Int → Bytes → Val → Nat → Res Val
  | 0, _, _, _, _ => .error .panic
  | fuel + 1, depth, b, v, sid =>
    if depth = 0 then .error .maxDepth
    else match v with
      | .struct fs => do
        let fs ← resetUnknown (D sid) fs
        let fs ← decodeLoop D (decodeStruct D fuel) (D sid) depth b.length b fs none
        return .struct fs
      | _ => .error .ub

end Verif.Model
