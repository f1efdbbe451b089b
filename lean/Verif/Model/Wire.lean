import Verif.Model.Protowire
/-!
# Model of internal/wire: word-level writers and readers

Functions that take an `unsafe.Pointer` are modelled on the word (or list of words) read from it;
reading a Go value of the wrong shape is handled in `Model/Coder.lean`.
-/
namespace Verif.Model

/-- The loop `for v >= 0x80 { b = append(b, byte(v)|0x80); v >>= 7 }; append(b, byte(v))`.
`fuel` bounds the iterations: ten is enough for 64-bit words. -/
def varintLoop {w : Nat} : Nat → Bytes → BitVec w → Bytes
  | 0, b, v => b ++ [toByte v]
  | fuel + 1, b, v =>
    if 0x80 ≤ v.toNat then varintLoop fuel (b ++ [toByte v ||| 0x80#8]) (v >>> 7)
    else b ++ [toByte v]

/-- internal/wire/encoder.go:51-57 (`AppendVarint`). -/
def appendVarint (b : Bytes) (v : BitVec 64) : Bytes := varintLoop 10 b v

/-- internal/wire/encoder.go:59-79 (`AppendVarintSmall`). -/
def appendVarintSmall (b : Bytes) (v : BitVec 64) : Bytes :=
  if v < 1#64 <<< 7 then b ++ [toByte v]
  else if v < 1#64 <<< 14 then b ++ [contByte v 0, toByte (v >>> 7)]
  else if v < 1#64 <<< 21 then b ++ [contByte v 0, contByte v 7, toByte (v >>> 14)]
  else varintLoop 10 b v

/-- internal/wire/encoder.go:81-159 (`UnsafeAppendVarintU64`), after reading `v`. -/
def appendU64 (b : Bytes) (v : BitVec 64) : Bytes :=
  if v < 1#64 <<< 7 then b ++ [toByte v]
  else if v < 1#64 <<< 14 then b ++ [contByte v 0, toByte (v >>> 7)]
  else if v < 1#64 <<< 21 then b ++ [contByte v 0, contByte v 7, toByte (v >>> 14)]
  else if v < 1#64 <<< 28 then
    b ++ [contByte v 0, contByte v 7, contByte v 14, toByte (v >>> 21)]
  else if v < 1#64 <<< 35 then
    b ++ [contByte v 0, contByte v 7, contByte v 14, contByte v 21, toByte (v >>> 28)]
  else if v < 1#64 <<< 42 then
    b ++ [contByte v 0, contByte v 7, contByte v 14, contByte v 21, contByte v 28,
      toByte (v >>> 35)]
  else if v < 1#64 <<< 49 then
    b ++ [contByte v 0, contByte v 7, contByte v 14, contByte v 21, contByte v 28, contByte v 35,
      toByte (v >>> 42)]
  else if v < 1#64 <<< 56 then
    b ++ [contByte v 0, contByte v 7, contByte v 14, contByte v 21, contByte v 28, contByte v 35,
      contByte v 42, toByte (v >>> 49)]
  else if v < 1#64 <<< 63 then
    b ++ [contByte v 0, contByte v 7, contByte v 14, contByte v 21, contByte v 28, contByte v 35,
      contByte v 42, contByte v 49, toByte (v >>> 56)]
  else
    b ++ [contByte v 0, contByte v 7, contByte v 14, contByte v 21, contByte v 28, contByte v 35,
      contByte v 42, contByte v 49, contByte v 56, 1#8]

/-- One stanza `byte((v>>k)|0x80)` on a `uint32` (no mask: the conversion truncates). -/
def contByte32 (v : BitVec 32) (k : Nat) : Byte := toByte ((v >>> k) ||| 0x80#32)

/-- internal/wire/encoder.go:209-237 (`UnsafeAppendVarintU32`). -/
def appendU32 (b : Bytes) (v : BitVec 32) : Bytes :=
  if v < 1#32 <<< 7 then b ++ [toByte v]
  else if v < 1#32 <<< 14 then b ++ [contByte32 v 0, toByte (v >>> 7)]
  else if v < 1#32 <<< 21 then b ++ [contByte32 v 0, contByte32 v 7, toByte (v >>> 14)]
  else if v < 1#32 <<< 28 then
    b ++ [contByte32 v 0, contByte32 v 7, contByte32 v 14, toByte (v >>> 21)]
  else
    b ++ [contByte32 v 0, contByte32 v 7, contByte32 v 14, contByte32 v 21, toByte (v >>> 28)]

/-- internal/wire/encoder.go:163-207 (`UnsafeAppendVarintI32`): non-negative values as in
`appendU32` (166-192 has the same stanzas), negative ones sign-extended to ten bytes. -/
def appendI32 (b : Bytes) (x : BitVec 32) : Bytes :=
  if 0 ≤ x.toInt then
    let v := x
    if v < 1#32 <<< 7 then b ++ [toByte v]
    else if v < 1#32 <<< 14 then b ++ [contByte32 v 0, toByte (v >>> 7)]
    else if v < 1#32 <<< 21 then b ++ [contByte32 v 0, contByte32 v 7, toByte (v >>> 14)]
    else if v < 1#32 <<< 28 then
      b ++ [contByte32 v 0, contByte32 v 7, contByte32 v 14, toByte (v >>> 21)]
    else
      b ++ [contByte32 v 0, contByte32 v 7, contByte32 v 14, contByte32 v 21, toByte (v >>> 28)]
  else
    let v : BitVec 64 := x.signExtend 64
    b ++ [contByte v 0, contByte v 7, contByte v 14, contByte v 21, contByte v 28, contByte v 35,
      contByte v 42, contByte v 49, contByte v 56, 1#8]

/-- `uint64(x<<1) ^ uint64(x>>63)`, internal/wire/encoder.go:241. -/
def zigzag64 (x : BitVec 64) : BitVec 64 := (x <<< 1) ^^^ (x.sshiftRight 63)
/-- `uint32(x<<1) ^ uint32(x>>31)`, internal/wire/encoder.go:322. -/
def zigzag32 (x : BitVec 32) : BitVec 32 := (x <<< 1) ^^^ (x.sshiftRight 31)

/-- internal/wire/encoder.go:239-318 (`UnsafeAppendZigZag64`); the switch on `v` (242-317) is
stanza by stanza that of `UnsafeAppendVarintU64`. -/
def appendZigZag64 (b : Bytes) (x : BitVec 64) : Bytes := appendU64 b (zigzag64 x)

/-- One stanza `byte((v>>k)&0x7f|0x80)` on a `uint32`. -/
def contByteM32 (v : BitVec 32) (k : Nat) : Byte := toByte ((v >>> k) &&& 0x7f#32 ||| 0x80#32)

/-- internal/wire/encoder.go:320-349 (`UnsafeAppendZigZag32`). -/
def appendZigZag32 (b : Bytes) (x : BitVec 32) : Bytes :=
  let v := zigzag32 x
  if v < 1#32 <<< 7 then b ++ [toByte v]
  else if v < 1#32 <<< 14 then b ++ [contByteM32 v 0, toByte (v >>> 7)]
  else if v < 1#32 <<< 21 then b ++ [contByteM32 v 0, contByteM32 v 7, toByte (v >>> 14)]
  else if v < 1#32 <<< 28 then
    b ++ [contByteM32 v 0, contByteM32 v 7, contByteM32 v 14, toByte (v >>> 21)]
  else
    b ++ [contByteM32 v 0, contByteM32 v 7, contByteM32 v 14, contByteM32 v 21, toByte (v >>> 28)]

/-- The memory byte of a Go `bool`. Simplification: a `bool` is stored as 0 or 1. -/
def boolByte (x : Bool) : Byte := if x then 1#8 else 0#8

/-- internal/wire/encoder.go:351-353 (`UnsafeAppendBool`). -/
def appendBool (b : Bytes) (x : Bool) : Bytes := b ++ [boolByte x &&& 1#8]

/-- internal/wire/encoder.go:357-361 (`UnsafeAppendString`, = `UnsafeAppendBytes` 355). -/
def appendString (b s : Bytes) : Bytes := appendVarint b (BitVec.ofNat 64 s.length) ++ s

/-- internal/wire/encoder.go:363-370 (`UnsafeAppendFixed32`). -/
def appendFixed32 (b : Bytes) (v : BitVec 32) : Bytes :=
  b ++ [toByte (v >>> 0), toByte (v >>> 8), toByte (v >>> 16), toByte (v >>> 24)]

/-- internal/wire/encoder.go:372-383 (`UnsafeAppendFixed64`). -/
def appendFixed64 (b : Bytes) (v : BitVec 64) : Bytes :=
  b ++ [toByte (v >>> 0), toByte (v >>> 8), toByte (v >>> 16), toByte (v >>> 24),
    toByte (v >>> 32), toByte (v >>> 40), toByte (v >>> 48), toByte (v >>> 56)]

/-- internal/wire/encoder.go:387-389 (`LenReserve`). -/
def lenReserve (b : Bytes) : Bytes := b ++ [0#8]

/-- Go's `copy(b[dst:], b[src:])` (memmove semantics). -/
def copyWithin (b : Bytes) (dst src : Nat) : Bytes :=
  let n := min (b.length - dst) (b.length - src)
  b.take dst ++ (b.drop src).take n ++ b.drop (dst + n)

/-- Writing `x` over `b[pos:]` in place (what `append(b[pos:][:0], x...)` does when the capacity
suffices). -/
def overwrite (b : Bytes) (pos : Nat) (x : Bytes) : Bytes :=
  b.take pos ++ x ++ b.drop (pos + x.length)

/-- internal/wire/encoder.go:400-410 (`lenPackSlow`). -/
def lenPackSlow (b : Bytes) (sz : Nat) : Bytes :=
  let m := sizeVarint (BitVec.ofNat 64 sz)
  let b := b ++ List.replicate (m - 1) 0#8
  let pos := b.length - sz - m
  let b := copyWithin b (pos + m) (pos + 1)
  overwrite b pos (pwAppendVarint [] (BitVec.ofNat 64 sz))

/-- internal/wire/encoder.go:391-398 (`LenPack`). -/
def lenPack (b : Bytes) (sz : Nat) : Bytes :=
  if sz < 128 then b.set (b.length - 1 - sz) (toByte (BitVec.ofNat 64 sz))
  else lenPackSlow b sz

/-! ## wire.go -/

/-- internal/wire/wire.go:46-48 (`EncodeTag`), `num` an `int32` (sign-extended). -/
def encodeTag (num : BitVec 32) (t : WType) : BitVec 64 :=
  (num.signExtend 64 <<< 3) ||| BitVec.ofNat 64 t

/-- internal/wire/wire.go:36-41,51-53 (`ConsumeKVTag`, `DecodeTag`); `none` is Go's `(-1, -1)`. -/
def consumeKVTag : Bytes → Option (Nat × WType)
  | [] => none
  | c :: _ =>
    if c.toNat < 0x80 then some ((c.toNat >>> 3), c.toNat &&& 7) else none

/-- internal/wire/wire.go:56-58 (`AppendKeyTag`). -/
def appendKeyTag (b : Bytes) (t : WType) : Bytes := b ++ [(1#8 <<< 3) ||| BitVec.ofNat 8 t]
/-- internal/wire/wire.go:61-63 (`AppendValTag`). -/
def appendValTag (b : Bytes) (t : WType) : Bytes := b ++ [(2#8 <<< 3) ||| BitVec.ofNat 8 t]

/-! ## encoder_list.go -/

/-- internal/wire/encoder_list.go:40-51 -/
def appendI32List (b : Bytes) (tag : BitVec 64) (xs : List (BitVec 32)) : Bytes :=
  xs.foldl (fun b x => varintLoop 10 (appendVarintSmall b tag) (x.signExtend 64)) b
/-- internal/wire/encoder_list.go:53-63 -/
def appendU64List (b : Bytes) (tag : BitVec 64) (xs : List (BitVec 64)) : Bytes :=
  xs.foldl (fun b x => varintLoop 10 (appendVarintSmall b tag) x) b
/-- internal/wire/encoder_list.go:65-75 -/
def appendU32List (b : Bytes) (tag : BitVec 64) (xs : List (BitVec 32)) : Bytes :=
  xs.foldl (fun b x => varintLoop 10 (appendVarintSmall b tag) x) b
/-- internal/wire/encoder_list.go:77-88 -/
def appendZigZag64List (b : Bytes) (tag : BitVec 64) (xs : List (BitVec 64)) : Bytes :=
  xs.foldl (fun b x => varintLoop 10 (appendVarintSmall b tag) (zigzag64 x)) b
/-- internal/wire/encoder_list.go:90-101 -/
def appendZigZag32List (b : Bytes) (tag : BitVec 64) (xs : List (BitVec 32)) : Bytes :=
  xs.foldl (fun b x => varintLoop 10 (appendVarintSmall b tag) (zigzag32 x)) b
/-- internal/wire/encoder_list.go:103-116 -/
def appendFixed64List (b : Bytes) (tag : BitVec 64) (xs : List (BitVec 64)) : Bytes :=
  xs.foldl (fun b (v : BitVec 64) => appendVarintSmall b tag ++
    [toByte (v >>> 0), toByte (v >>> 8), toByte (v >>> 16), toByte (v >>> 24),
     toByte (v >>> 32), toByte (v >>> 40), toByte (v >>> 48), toByte (v >>> 56)]) b
/-- internal/wire/encoder_list.go:118-127 -/
def appendFixed32List (b : Bytes) (tag : BitVec 64) (xs : List (BitVec 32)) : Bytes :=
  xs.foldl (fun b (v : BitVec 32) => appendVarintSmall b tag ++
    [toByte (v >>> 0), toByte (v >>> 8), toByte (v >>> 16), toByte (v >>> 24)]) b
/-- internal/wire/encoder_list.go:129-135 -/
def appendBoolList (b : Bytes) (tag : BitVec 64) (xs : List Bool) : Bytes :=
  xs.foldl (fun b v => appendVarintSmall b tag ++ [boolByte v]) b
/-- internal/wire/encoder_list.go:137-144 (strings) and 146-153 (bytes) -/
def appendStringList (b : Bytes) (tag : BitVec 64) (xs : List Bytes) : Bytes :=
  xs.foldl (fun b v =>
    appendVarint (appendVarintSmall b tag) (BitVec.ofNat 64 v.length) ++ v) b

/-! ## encoder_packed.go -/

/-- The shared frame `b = LenReserve(b); sz0 := len(b); ...; b = LenPack(b, len(b)-sz0)` of
internal/wire/encoder_packed.go:32-103 around the loop `body`. -/
def packedFrame (b : Bytes) (body : Bytes → Bytes) : Bytes :=
  let b := lenReserve b
  let sz0 := b.length
  let b := body b
  lenPack b (b.length - sz0)

/-- internal/wire/encoder_packed.go:32-44 -/
def appendPackedU64 (b : Bytes) (xs : List (BitVec 64)) : Bytes :=
  packedFrame b (fun b => xs.foldl (fun b x => varintLoop 10 b x) b)
/-- internal/wire/encoder_packed.go:46-59 -/
def appendPackedI32 (b : Bytes) (xs : List (BitVec 32)) : Bytes :=
  packedFrame b (fun b => xs.foldl (fun b x => varintLoop 10 b (x.signExtend 64)) b)
/-- internal/wire/encoder_packed.go:61-73 -/
def appendPackedU32 (b : Bytes) (xs : List (BitVec 32)) : Bytes :=
  packedFrame b (fun b => xs.foldl (fun b x => varintLoop 10 b x) b)
/-- internal/wire/encoder_packed.go:75-88 -/
def appendPackedZigZag64 (b : Bytes) (xs : List (BitVec 64)) : Bytes :=
  packedFrame b (fun b => xs.foldl (fun b x => varintLoop 10 b (zigzag64 x)) b)
/-- internal/wire/encoder_packed.go:90-103 -/
def appendPackedZigZag32 (b : Bytes) (xs : List (BitVec 32)) : Bytes :=
  packedFrame b (fun b => xs.foldl (fun b x => varintLoop 10 b (zigzag32 x)) b)
/-- internal/wire/encoder_packed.go:105-119 -/
def appendPackedFixed64 (b : Bytes) (xs : List (BitVec 64)) : Bytes :=
  xs.foldl (fun b (v : BitVec 64) => b ++
    [toByte (v >>> 0), toByte (v >>> 8), toByte (v >>> 16), toByte (v >>> 24),
     toByte (v >>> 32), toByte (v >>> 40), toByte (v >>> 48), toByte (v >>> 56)])
    (appendVarint b (BitVec.ofNat 64 (8 * xs.length)))
/-- internal/wire/encoder_packed.go:121-131 -/
def appendPackedFixed32 (b : Bytes) (xs : List (BitVec 32)) : Bytes :=
  xs.foldl (fun b (v : BitVec 32) => b ++
    [toByte (v >>> 0), toByte (v >>> 8), toByte (v >>> 16), toByte (v >>> 24)])
    (appendVarint b (BitVec.ofNat 64 (4 * xs.length)))
/-- internal/wire/encoder_packed.go:133-137 -/
def appendPackedBool (b : Bytes) (xs : List Bool) : Bytes :=
  appendVarint b (BitVec.ofNat 64 xs.length) ++ xs.map boolByte

/-! ## decoder_packed.go -/

/-- The varint read of internal/wire/decoder_packed.go:45-57 (same text in 75-87, 105-117, 135-147
and in decoder_map.go:119-127): one- and two-byte fast paths, then `ConsumeVarint`. -/
def fastVarint (b : Bytes) : Except PErr (BitVec 64 × Nat) :=
  match b with
  | b0 :: rest =>
    if b0.toNat < 0x80 then .ok (b0.setWidth 64, 1)
    else match rest with
      | b1 :: _ =>
        if b1.toNat < 0x80 then
          .ok ((b0 &&& 0x7f#8).setWidth 64 + (b1.setWidth 64 <<< 7), 2)
        else consumeVarint b
      | [] => consumeVarint b
  | [] => consumeVarint b

/-- internal/wire/decoder_packed.go:44-63, the loop `for len(b) > 0 {...}`; `conv` is the
conversion applied to each element (identity, `uint32(v)`, zigzag).  `none` is
`io.ErrUnexpectedEOF`.  `fuel`: every iteration consumes a byte, the length of `b` is enough. -/
def decodePackedLoop {α : Type} (conv : BitVec 64 → α) : Nat → Bytes → List α → Option (List α)
  | _, [], acc => some acc
  | 0, _ :: _, _ => none
  | fuel + 1, b@(_ :: _), acc =>
    match fastVarint b with
    | .error _ => none
    | .ok (v, n) => decodePackedLoop conv fuel (b.drop n) (acc ++ [conv v])

/-- internal/wire/decoder_packed.go:37-65 -/
def decodePackedU64 (b : Bytes) : Option (List (BitVec 64)) := decodePackedLoop id b.length b []
/-- internal/wire/decoder_packed.go:67-95 (also registered for `CoderVarintI32`) -/
def decodePackedU32 (b : Bytes) : Option (List (BitVec 32)) :=
  decodePackedLoop (·.setWidth 32) b.length b []
/-- internal/wire/decoder_packed.go:97-125 -/
def decodePackedZigZag64 (b : Bytes) : Option (List (BitVec 64)) :=
  decodePackedLoop decodeZigZag b.length b []
/-- internal/wire/decoder_packed.go:127-155 -/
def decodePackedZigZag32 (b : Bytes) : Option (List (BitVec 32)) :=
  decodePackedLoop (fun v => (decodeZigZag v).setWidth 32) b.length b []

/-- internal/wire/decoder_packed.go:162-168, the loop; the last case would be an index panic, it is
excluded by the length check before the loop. -/
def packedFixed64Loop : Bytes → List (BitVec 64) → Option (List (BitVec 64))
  | [], acc => some acc
  | b0 :: b1 :: b2 :: b3 :: b4 :: b5 :: b6 :: b7 :: rest, acc =>
    packedFixed64Loop rest (acc ++ [b0.setWidth 64 <<< 0 ||| b1.setWidth 64 <<< 8 |||
      b2.setWidth 64 <<< 16 ||| b3.setWidth 64 <<< 24 ||| b4.setWidth 64 <<< 32 |||
      b5.setWidth 64 <<< 40 ||| b6.setWidth 64 <<< 48 ||| b7.setWidth 64 <<< 56])
  | _, _ => none
/-- internal/wire/decoder_packed.go:157-171 -/
def decodePackedFixed64 (b : Bytes) : Option (List (BitVec 64)) :=
  if b.length &&& 7 ≠ 0 then none else packedFixed64Loop b []

/-- internal/wire/decoder_packed.go:178-182, the loop. -/
def packedFixed32Loop : Bytes → List (BitVec 32) → Option (List (BitVec 32))
  | [], acc => some acc
  | b0 :: b1 :: b2 :: b3 :: rest, acc =>
    packedFixed32Loop rest (acc ++ [b0.setWidth 32 <<< 0 ||| b1.setWidth 32 <<< 8 |||
      b2.setWidth 32 <<< 16 ||| b3.setWidth 32 <<< 24])
  | _, _ => none
/-- internal/wire/decoder_packed.go:173-185 -/
def decodePackedFixed32 (b : Bytes) : Option (List (BitVec 32)) :=
  if b.length &&& 3 ≠ 0 then none else packedFixed32Loop b []

/-- internal/wire/decoder_packed.go:187-194 -/
def decodePackedBool (b : Bytes) : Option (List Bool) := some (b.map (fun c => 0 < c.toNat))

end Verif.Model
