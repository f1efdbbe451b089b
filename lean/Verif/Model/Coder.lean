import Verif.Model.Value
/-!
# Model of the coder tables of internal/wire, applied to Go values
-/
namespace Verif.Model

/-- internal/wire/wire.go:69-88 (`CoderType`). -/
inductive Coder
  | varintU32 | varintI32 | varint64 | zigzag32 | zigzag64 | fixed32 | fixed64
  | bytes | string | bool | struct | unknown
  deriving DecidableEq, Repr

/-! ## single values -/

/-- internal/wire/encoder.go:29-40: the coders with an `AppendFunc` (the same ones have a
`SizeFunc`, size.go:27-38, and a list writer, encoder_list.go:23-34). -/
def Coder.isScalar : Coder → Bool
  | .struct => false
  | .unknown => false
  | _ => true

/-- internal/wire/encoder_packed.go:21-30: the coders with a packed writer. -/
def Coder.isPackable : Coder → Bool
  | .bytes | .string | .struct | .unknown => false
  | _ => true

/-- A non-nil `AppendFunc`, internal/wire/encoder.go:25,44-49. -/
inductive AppendFn
  | plain (c : Coder)
  | packed (c : Coder)
  deriving DecidableEq, Repr

/-- internal/wire/encoder.go:44-49 (`GetAppendFunc`); `none` is nil. -/
def getAppendFn (c : Coder) (packed : Bool) : Option AppendFn :=
  if packed then (if c.isPackable then some (.packed c) else none)
  else (if c.isScalar then some (.plain c) else none)

/-- The entries of internal/wire/encoder.go:29-40, applied to the value pointed to. -/
def appendCoder (c : Coder) (b : Bytes) (v : Val) : Res Bytes :=
  match c with
  | .varintU32 => (appendU32 b) <$> v.asW32
  | .varintI32 => (appendI32 b) <$> v.asW32
  | .varint64 => (appendU64 b) <$> v.asW64
  | .zigzag32 => (appendZigZag32 b) <$> v.asW32
  | .zigzag64 => (appendZigZag64 b) <$> v.asW64
  | .fixed32 => (appendFixed32 b) <$> v.asW32
  | .fixed64 => (appendFixed64 b) <$> v.asW64
  | .string => (appendString b) <$> v.asStr
  | .bytes => (appendString b) <$> v.asStr
  | .bool => (appendBool b) <$> v.asBool
  | .struct => .error .panic
  | .unknown => .error .panic

/-- The entries of internal/wire/encoder_packed.go:21-30, applied to the slice pointed to. -/
def appendPackedCoder (c : Coder) (b : Bytes) (v : Val) : Res Bytes := do
  let xs ← v.asSlice
  match c with
  | .varintU32 => (appendPackedU32 b) <$> xs.mapM Val.asW32
  | .varintI32 => (appendPackedI32 b) <$> xs.mapM Val.asW32
  | .varint64 => (appendPackedU64 b) <$> xs.mapM Val.asW64
  | .zigzag32 => (appendPackedZigZag32 b) <$> xs.mapM Val.asW32
  | .zigzag64 => (appendPackedZigZag64 b) <$> xs.mapM Val.asW64
  | .fixed32 => (appendPackedFixed32 b) <$> xs.mapM Val.asW32
  | .fixed64 => (appendPackedFixed64 b) <$> xs.mapM Val.asW64
  | .bool => (appendPackedBool b) <$> xs.mapM Val.asBool
  | _ => .error .panic

/-- Calling an `AppendFunc` that may be nil. -/
def callAppend (f : Option AppendFn) (b : Bytes) (v : Val) : Res Bytes :=
  match f with
  | some (.plain c) => appendCoder c b v
  | some (.packed c) => appendPackedCoder c b v
  | none => .error .panic

/-- The entries of internal/wire/encoder_list.go:23-34, applied to the slice pointed to. -/
def appendListCoder (c : Coder) (b : Bytes) (tag : BitVec 64) (v : Val) : Res Bytes := do
  let xs ← v.asSlice
  match c with
  | .varintU32 => (appendU32List b tag) <$> xs.mapM Val.asW32
  | .varintI32 => (appendI32List b tag) <$> xs.mapM Val.asW32
  | .varint64 => (appendU64List b tag) <$> xs.mapM Val.asW64
  | .zigzag32 => (appendZigZag32List b tag) <$> xs.mapM Val.asW32
  | .zigzag64 => (appendZigZag64List b tag) <$> xs.mapM Val.asW64
  | .fixed32 => (appendFixed32List b tag) <$> xs.mapM Val.asW32
  | .fixed64 => (appendFixed64List b tag) <$> xs.mapM Val.asW64
  | .string => (appendStringList b tag) <$> xs.mapM Val.asStr
  | .bytes => (appendStringList b tag) <$> xs.mapM Val.asStr
  | .bool => (appendBoolList b tag) <$> xs.mapM Val.asBool
  | .struct => .error .panic
  | .unknown => .error .panic

/-- internal/wire/size.go:44-76, the `UnsafeSize*` functions of the table at 27-38. -/
def sizeCoder (c : Coder) (v : Val) : Res Nat :=
  match c with
  | .varintU32 => (fun x => sizeVarint (x.setWidth 64)) <$> v.asW32
  | .varintI32 => (fun x => sizeVarint (x.signExtend 64)) <$> v.asW32
  | .varint64 => (fun x => sizeVarint x) <$> v.asW64
  | .zigzag32 => (fun x => sizeVarint ((zigzag32 x).setWidth 64)) <$> v.asW32
  | .zigzag64 => (fun x => sizeVarint (zigzag64 x)) <$> v.asW64
  | .fixed32 => .ok 4
  | .fixed64 => .ok 8
  | .string => (fun s => sizeBytes s.length) <$> v.asStr
  | .bytes => (fun s => sizeBytes s.length) <$> v.asStr
  | .bool => .ok 1
  | .struct => .error .panic
  | .unknown => .error .panic

/-- Calling a `SizeFunc` that may be nil. -/
def callSize (f : Option Coder) (v : Val) : Res Nat :=
  match f with
  | some c => sizeCoder c v
  | none => .error .panic

/-! ## maps: encoder_map.go, size_map.go, decoder_map.go -/

/-- internal/wire/encoder_map.go:38-121: the key coders with specialised map writers. -/
def Coder.isFastMapKey : Coder → Bool
  | .varintU32 | .varint64 | .zigzag32 | .zigzag64 | .fixed32 | .fixed64 | .bool | .string => true
  | _ => false
/-- internal/wire/encoder_map.go:38-121: the value coders with specialised map writers. -/
def Coder.isFastMapVal : Coder → Bool
  | .varintU32 | .varint64 | .zigzag32 | .zigzag64 | .fixed32 | .fixed64 | .bool | .bytes
  | .string => true
  | _ => false

/-- internal/wire/encoder_map.go:29-31 (`GetMapEncoderFunc`). -/
def getMapEncoder (k v : Coder) : Option (Coder × Coder) :=
  if k.isFastMapKey && v.isFastMapVal then some (k, v) else none

/-- internal/wire/encoder_map.go:123-195 (`appendMapKey_*`). -/
def appendMapKey (c : Coder) (b : Bytes) (v : Val) : Res Bytes :=
  match c with
  | .varintU32 => (fun k => varintLoop 10 (b ++ [1#8 <<< 3 ||| 0#8]) k) <$> v.asW32
  | .varint64 => (fun k => varintLoop 10 (b ++ [1#8 <<< 3 ||| 0#8]) k) <$> v.asW64
  | .zigzag32 => (fun k => varintLoop 10 (b ++ [1#8 <<< 3 ||| 0#8]) (zigzag32 k)) <$> v.asW32
  | .zigzag64 => (fun k => varintLoop 10 (b ++ [1#8 <<< 3 ||| 0#8]) (zigzag64 k)) <$> v.asW64
  | .fixed32 => (fun (k : BitVec 32) => b ++ [1#8 <<< 3 ||| 5#8] ++
      [toByte (k >>> 0), toByte (k >>> 8), toByte (k >>> 16), toByte (k >>> 24)]) <$> v.asW32
  | .fixed64 => (fun (k : BitVec 64) => b ++ [1#8 <<< 3 ||| 1#8] ++
      [toByte (k >>> 0), toByte (k >>> 8), toByte (k >>> 16), toByte (k >>> 24),
       toByte (k >>> 32), toByte (k >>> 40), toByte (k >>> 48), toByte (k >>> 56)]) <$> v.asW64
  | .bool => (fun k => b ++ [1#8 <<< 3 ||| 0#8] ++ [if k then 1#8 else 0#8]) <$> v.asBool
  | .string => (fun k => appendVarint (b ++ [1#8 <<< 3 ||| 2#8]) (BitVec.ofNat 64 k.length) ++ k)
      <$> v.asStr
  | _ => .error .panic

/-- internal/wire/encoder_map.go:197-275 (`appendMapValue_*`). -/
def appendMapValue (c : Coder) (b : Bytes) (v : Val) : Res Bytes :=
  match c with
  | .varintU32 => (fun x => varintLoop 10 (b ++ [2#8 <<< 3 ||| 0#8]) x) <$> v.asW32
  | .varint64 => (fun x => varintLoop 10 (b ++ [2#8 <<< 3 ||| 0#8]) x) <$> v.asW64
  | .zigzag32 => (fun x => varintLoop 10 (b ++ [2#8 <<< 3 ||| 0#8]) (zigzag32 x)) <$> v.asW32
  | .zigzag64 => (fun x => varintLoop 10 (b ++ [2#8 <<< 3 ||| 0#8]) (zigzag64 x)) <$> v.asW64
  | .fixed32 => (fun (x : BitVec 32) => b ++ [2#8 <<< 3 ||| 5#8] ++
      [toByte (x >>> 0), toByte (x >>> 8), toByte (x >>> 16), toByte (x >>> 24)]) <$> v.asW32
  | .fixed64 => (fun (x : BitVec 64) => b ++ [2#8 <<< 3 ||| 1#8] ++
      [toByte (x >>> 0), toByte (x >>> 8), toByte (x >>> 16), toByte (x >>> 24),
       toByte (x >>> 32), toByte (x >>> 40), toByte (x >>> 48), toByte (x >>> 56)]) <$> v.asW64
  | .bool => (fun x => b ++ [2#8 <<< 3 ||| 0#8] ++ [if x then 1#8 else 0#8]) <$> v.asBool
  | .bytes => (fun x => appendVarint (b ++ [2#8 <<< 3 ||| 2#8]) (BitVec.ofNat 64 x.length) ++ x)
      <$> v.asStr
  | .string => (fun x => appendVarint (b ++ [2#8 <<< 3 ||| 2#8]) (BitVec.ofNat 64 x.length) ++ x)
      <$> v.asStr
  | _ => .error .panic

/-- One iteration of the loop shared by internal/wire/encoder_map.go:277-1237
(`AppendMap_K_V`). -/
def appendMapEntry (kc vc : Coder) (tag : BitVec 64) (b : Bytes) (e : Key × Val) : Res Bytes := do
  let b := appendVarintSmall b tag
  let b := lenReserve b
  let sz0 := b.length
  let b ← appendMapKey kc b e.1.toVal
  let b ← appendMapValue vc b e.2
  return lenPack b (b.length - sz0)

/-- internal/wire/encoder_map.go:277-1237 (`AppendMap_K_V`), the iteration order being the order
of the entries. -/
def appendMapFast (kc vc : Coder) (b : Bytes) (tag : BitVec 64) (v : Val) : Res Bytes := do
  (← v.asMap).foldlM (appendMapEntry kc vc tag) b

/-- internal/wire/size_map.go:66-178: the key coders in the size table. -/
def Coder.isSizeMapKey : Coder → Bool
  | .varintU32 | .varintI32 | .varint64 | .zigzag32 | .zigzag64 | .fixed32 | .fixed64 | .bool
  | .string => true
  | _ => false

/-- internal/wire/size_map.go:31-33 (`GetMapSizeFunc`). -/
def getMapSize (k v : Coder) : Option (Coder × Coder) :=
  if k.isSizeMapKey && v.isScalar then some (k, v) else none

/-- internal/wire/size_map.go:37-64 (`makeSizeMap`; the `sz*` helpers compute what the
`UnsafeSize*` functions of size.go do). -/
def sizeMapFast (kc vc : Coder) (v : Val) (tagSize : Nat) : Res Nat := do
  (← v.asMap).foldlM (fun n e => do
    let k ← sizeCoder kc e.1.toVal
    let x ← sizeCoder vc e.2
    return n + (tagSize + sizeBytes (1 + k + 1 + x))) 0

/-- internal/wire/decoder_map.go:38-107: which pairs have a specialised decoder. -/
def getMapDecoder (k v : Coder) : Option (Coder × Coder) :=
  let val : Bool := match v with
    | .varintU32 | .varint64 | .zigzag32 | .zigzag64 | .fixed32 | .fixed64 | .bool => true
    | .varintI32 => k != .varintU32 && k != .bool
    | _ => false
  let key : Bool := match k with
    | .varintU32 | .varintI32 | .varint64 | .zigzag32 | .zigzag64 | .fixed32 | .fixed64
    | .bool => true
    | _ => false
  if key && val then some (k, v) else none

/-- internal/wire/decoder_map.go:110-133 (`decodeMap_Varint`). -/
def decodeMapVarint (b : Bytes) (num : Nat) : Res (BitVec 64 × Nat) :=
  match consumeKVTag b with
  | none => .error .mapKV
  | some (fn, typ) =>
    if fn ≠ num then .error .mapKV
    else if typ ≠ tVarint then .error .mapKV
    else match fastVarint (b.drop 1) with
      | .error e => .error (.parse e)
      | .ok (v, n) => .ok (v, n + 1)

/-- internal/wire/decoder_map.go:135-150 (`decodeMap_Fixed32`). -/
def decodeMapFixed32 (b : Bytes) (num : Nat) : Res (BitVec 32 × Nat) :=
  match consumeKVTag b with
  | none => .error .mapKV
  | some (fn, typ) =>
    if fn ≠ num then .error .mapKV
    else if typ ≠ tFixed32 then .error .mapKV
    else match consumeFixed32 (b.drop 1) with
      | .error e => .error (.parse e)
      | .ok (v, n) => .ok (v, n + 1)

/-- internal/wire/decoder_map.go:152-167 (`decodeMap_Fixed64`). -/
def decodeMapFixed64 (b : Bytes) (num : Nat) : Res (BitVec 64 × Nat) :=
  match consumeKVTag b with
  | none => .error .mapKV
  | some (fn, typ) =>
    if fn ≠ num then .error .mapKV
    else if typ ≠ tFixed64 then .error .mapKV
    else match consumeFixed64 (b.drop 1) with
      | .error e => .error (.parse e)
      | .ok (v, n) => .ok (v, n + 1)

/-- internal/wire/decoder_map.go:169-181 (`decodeMap_Bool`): one byte, whatever its value. -/
def decodeMapBool (b : Bytes) (num : Nat) : Res (Bool × Nat) :=
  match b with
  | _ :: c :: _ =>
    match consumeKVTag b with
    | none => .error .mapKV
    | some (fn, typ) =>
      if fn ≠ num then .error .mapKV
      else if typ ≠ tVarint then .error .mapKV
      else .ok (c != 0#8, 2)
  | _ => .error .eof

/-- The key or value part of internal/wire/decoder_map.go:183-918 (`DecodeMap_K_V`), with the
conversion each function applies. -/
def decodeMapPart (c : Coder) (b : Bytes) (num : Nat) : Res (Val × Nat) :=
  match c with
  | .varintU32 => (fun r => (.w32 (r.1.setWidth 32), r.2)) <$> decodeMapVarint b num
  | .varintI32 => (fun r => (.w32 (r.1.setWidth 32), r.2)) <$> decodeMapVarint b num
  | .varint64 => (fun r => (.w64 r.1, r.2)) <$> decodeMapVarint b num
  | .zigzag32 => (fun r => (.w32 ((decodeZigZag r.1).setWidth 32), r.2)) <$> decodeMapVarint b num
  | .zigzag64 => (fun r => (.w64 (decodeZigZag r.1), r.2)) <$> decodeMapVarint b num
  | .fixed32 => (fun r => (.w32 r.1, r.2)) <$> decodeMapFixed32 b num
  | .fixed64 => (fun r => (.w64 r.1, r.2)) <$> decodeMapFixed64 b num
  | .bool => (fun r => (.bool r.1, r.2)) <$> decodeMapBool b num
  | _ => .error .panic

/-- internal/wire/decoder_map.go:183-918 (`DecodeMap_K_V`), on a map of type `map kt vt`. -/
def decodeMapFast (kc vc : Coder) (kt vt : GoType) (b : Bytes) (cur : Val) : Res Val := do
  let (k, n) ← decodeMapPart kc b 1
  let (x, _) ← decodeMapPart vc (b.drop n) 2
  let m ← cur.asMap
  if kt.holds k && vt.holds x then
    return .map (some (mapInsert m (← k.toKey) x))
  else .error .ub

/-- internal/wire/decoder_packed.go:26-35, applied to the payload; the result is stored as a new
slice with elements of type `et`. -/
def decodePackedCoder (c : Coder) (et : GoType) (b : Bytes) : Res Val :=
  let fin (r : Option (List Val)) : Res Val :=
    match r with
    | none => .error .eof
    | some xs => if xs.all et.holds then .ok (.slice xs) else .error .ub
  match c with
  | .varintU32 => fin ((decodePackedU32 b).map (·.map .w32))
  | .varintI32 => fin ((decodePackedU32 b).map (·.map .w32))
  | .varint64 => fin ((decodePackedU64 b).map (·.map .w64))
  | .zigzag32 => fin ((decodePackedZigZag32 b).map (·.map .w32))
  | .zigzag64 => fin ((decodePackedZigZag64 b).map (·.map .w64))
  | .fixed32 => fin ((decodePackedFixed32 b).map (·.map .w32))
  | .fixed64 => fin ((decodePackedFixed64 b).map (·.map .w64))
  | .bool => fin ((decodePackedBool b).map (·.map .bool))
  | _ => .error .panic

end Verif.Model
