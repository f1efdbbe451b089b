import Verif.Basic
/-!
# Model of internal/protowire/wire.go

Simplification used throughout: where Go returns a value together with an `int` length that is
negative on error, the model returns `Except PErr (value × length)`.
Lengths are `Nat` (Go `int`; buffers of 2^63 bytes do not exist).
-/
namespace Verif.Model

/-- internal/protowire/wire.go:47-55, the negative error codes
(`errCodeTruncated`=-1, `errCodeFieldNumber`=-2, `errCodeOverflow`=-3, `errCodeReserved`=-4,
`errCodeEndGroup`=-5, `errCodeRecursionDepth`=-6). -/
inductive PErr | truncated | fieldNumber | overflow | reserved | endGroup | recursionDepth
  deriving DecidableEq, Repr

/-- internal/protowire/wire.go:22-28 -/
def minValidNumber : Int := 1
/-- internal/protowire/wire.go:22-28 -/
def firstReservedNumber : Int := 19000
/-- internal/protowire/wire.go:22-28 -/
def lastReservedNumber : Int := 19999
/-- internal/protowire/wire.go:22-28 -/
def maxValidNumber : Int := 2 ^ 29 - 1
/-- internal/protowire/wire.go:22-28 -/
def defaultRecursionLimit : Int := 10000

/-- internal/protowire/wire.go:31-33 (`Number.IsValid`). -/
def numberIsValid (n : Int) : Bool :=
  (minValidNumber ≤ n && n < firstReservedNumber) || (lastReservedNumber < n && n ≤ maxValidNumber)

/-- internal/protowire/wire.go:38-45.  Go's `Type` is an `int8`; a decoded wire type is the low
three bits of the key, 0..7 (6 and 7 are reserved). -/
abbrev WType := Nat
def tVarint : WType := 0
def tFixed64 : WType := 1
def tBytes : WType := 2
def tSGroup : WType := 3
def tEGroup : WType := 4
def tFixed32 : WType := 5

/-- Go's conversion `byte(x)`. -/
def toByte {w : Nat} (x : BitVec w) : Byte := x.setWidth 8

/-- One stanza `byte((v>>k)&0x7f|0x80)` of the unrolled writers. -/
def contByte (v : BitVec 64) (k : Nat) : Byte := toByte ((v >>> k) &&& 0x7f#64 ||| 0x80#64)

/-- internal/protowire/wire.go:184-262 (`AppendVarint`). -/
def pwAppendVarint (b : Bytes) (v : BitVec 64) : Bytes :=
  if v < 1#64 <<< 7 then b ++ [toByte v]
  else if v < 1#64 <<< 14 then b ++ [contByte v 0, toByte (v >>> 7)]
  else if v < 1#64 <<< 21 then b ++ [contByte v 0, contByte v 7, toByte (v >>> 14)]
  else if v < 1#64 <<< 28 then
    b ++ [contByte v 0, contByte v 7, contByte v 14, toByte (v >>> 21)]
  else if v < 1#64 <<< 35 then
    b ++ [contByte v 0, contByte v 7, contByte v 14, contByte v 21, toByte (v >>> 28)]
  else if v < 1#64 <<< 42 then
    b ++ [contByte v 0, contByte v 7, contByte v 14, contByte v 21, contByte v 28,
      toByte (v >>> 35)]
  else if v < 1#64 <<< 49 then
    b ++ [contByte v 0, contByte v 7, contByte v 14, contByte v 21, contByte v 28, contByte v 35,
      toByte (v >>> 42)]
  else if v < 1#64 <<< 56 then
    b ++ [contByte v 0, contByte v 7, contByte v 14, contByte v 21, contByte v 28, contByte v 35,
      contByte v 42, toByte (v >>> 49)]
  else if v < 1#64 <<< 63 then
    b ++ [contByte v 0, contByte v 7, contByte v 14, contByte v 21, contByte v 28, contByte v 35,
      contByte v 42, contByte v 49, toByte (v >>> 56)]
  else
    b ++ [contByte v 0, contByte v 7, contByte v 14, contByte v 21, contByte v 28, contByte v 35,
      contByte v 42, contByte v 49, contByte v 56, 1#8]

/-- internal/protowire/wire.go:271-357, one stanza of the unrolled `ConsumeVarint`:
bounds check, `y = uint64(b[i]); v += y << sh; if y < 0x80 {return v, n}; v -= 0x80 << sh`,
followed by the rest `cont`.  (The first stanza, `v = uint64(b[0])`, is the case `v = 0`, `sh = 0`.) -/
def cvStanza (sh n : Nat) (cont : BitVec 64 → Bytes → Except PErr (BitVec 64 × Nat))
    (v : BitVec 64) : Bytes → Except PErr (BitVec 64 × Nat)
  | [] => .error .truncated
  | c :: rest =>
    let y : BitVec 64 := c.setWidth 64
    let v := v + (y <<< sh)
    if y < 0x80#64 then .ok (v, n) else cont (v - (0x80#64 <<< sh)) rest

/-- internal/protowire/wire.go:358-366, the last stanza: the tenth byte must be below 2. -/
def cvLast (v : BitVec 64) : Bytes → Except PErr (BitVec 64 × Nat)
  | [] => .error .truncated
  | c :: _ =>
    let y : BitVec 64 := c.setWidth 64
    let v := v + (y <<< 63)
    if y < 2#64 then .ok (v, 10) else .error .overflow

/-- internal/protowire/wire.go:266-366 (`ConsumeVarint`). -/
def consumeVarint (b : Bytes) : Except PErr (BitVec 64 × Nat) :=
  cvStanza 0 1 (cvStanza 7 2 (cvStanza 14 3 (cvStanza 21 4 (cvStanza 28 5 (cvStanza 35 6
    (cvStanza 42 7 (cvStanza 49 8 (cvStanza 56 9 cvLast)))))))) 0#64 b

/-- Go's `bits.Len64`: position of the highest set bit plus one, 0 for 0.
Simplification: defined arithmetically instead of by table lookup in `math/bits`. -/
def len64 (v : BitVec 64) : Nat := if v = 0#64 then 0 else Nat.log2 v.toNat + 1

/-- internal/protowire/wire.go:370-374 (`SizeVarint`): `int(9*uint32(bits.Len64(v))+64) / 64`. -/
def sizeVarint (v : BitVec 64) : Nat := (9 * len64 v + 64) / 64

/-- internal/protowire/wire.go:377-383 (`AppendFixed32`). -/
def pwAppendFixed32 (b : Bytes) (v : BitVec 32) : Bytes :=
  b ++ [toByte (v >>> 0), toByte (v >>> 8), toByte (v >>> 16), toByte (v >>> 24)]

/-- internal/protowire/wire.go:387-393 (`ConsumeFixed32`). -/
def consumeFixed32 (b : Bytes) : Except PErr (BitVec 32 × Nat) :=
  match b with
  | b0 :: b1 :: b2 :: b3 :: _ =>
    .ok (b0.setWidth 32 <<< 0 ||| b1.setWidth 32 <<< 8 ||| b2.setWidth 32 <<< 16 |||
      b3.setWidth 32 <<< 24, 4)
  | _ => .error .truncated

/-- internal/protowire/wire.go:401-411 (`AppendFixed64`). -/
def pwAppendFixed64 (b : Bytes) (v : BitVec 64) : Bytes :=
  b ++ [toByte (v >>> 0), toByte (v >>> 8), toByte (v >>> 16), toByte (v >>> 24),
    toByte (v >>> 32), toByte (v >>> 40), toByte (v >>> 48), toByte (v >>> 56)]

/-- internal/protowire/wire.go:415-421 (`ConsumeFixed64`). -/
def consumeFixed64 (b : Bytes) : Except PErr (BitVec 64 × Nat) :=
  match b with
  | b0 :: b1 :: b2 :: b3 :: b4 :: b5 :: b6 :: b7 :: _ =>
    .ok (b0.setWidth 64 <<< 0 ||| b1.setWidth 64 <<< 8 ||| b2.setWidth 64 <<< 16 |||
      b3.setWidth 64 <<< 24 ||| b4.setWidth 64 <<< 32 ||| b5.setWidth 64 <<< 40 |||
      b6.setWidth 64 <<< 48 ||| b7.setWidth 64 <<< 56, 8)
  | _ => .error .truncated

/-- internal/protowire/wire.go:429-431 (`AppendBytes`); also `AppendString` 453-455. -/
def pwAppendBytes (b v : Bytes) : Bytes := pwAppendVarint b (BitVec.ofNat 64 v.length) ++ v

/-- internal/protowire/wire.go:435-444 (`ConsumeBytes`); also `ConsumeString` 459-462.
Simplification: `m > uint64(len(b[n:]))` is compared on `Nat` (a Go length is below 2^63, the
conversion does not wrap). -/
def consumeBytes (b : Bytes) : Except PErr (Bytes × Nat) := do
  let (m, n) ← consumeVarint b
  if m.toNat > (b.drop n).length then .error .truncated
  else .ok ((b.drop n).take m.toNat, n + m.toNat)

/-- internal/protowire/wire.go:448-450 (`SizeBytes`). -/
def sizeBytes (n : Nat) : Nat := sizeVarint (BitVec.ofNat 64 n) + n

/-- internal/protowire/wire.go:509-511 (`EncodeTag`): `uint64(num)<<3 | uint64(typ&7)`;
`num` is an `int32`, sign-extended by the conversion. -/
def pwEncodeTag (num : BitVec 32) (typ : WType) : BitVec 64 :=
  (num.signExtend 64 <<< 3) ||| (BitVec.ofNat 64 typ &&& 7#64)

/-- internal/protowire/wire.go:500-506 (`DecodeTag`); the number is -1 on int32 overflow. -/
def pwDecodeTag (x : BitVec 64) : Int × WType :=
  if x >>> 3 > 0x7fffffff#64 then (-1, 0)
  else ((x >>> 3).toNat, (x &&& 7#64).toNat)

/-- internal/protowire/wire.go:161-163 (`AppendTag`). -/
def pwAppendTag (b : Bytes) (num : BitVec 32) (typ : WType) : Bytes :=
  pwAppendVarint b (pwEncodeTag num typ)

/-- internal/protowire/wire.go:167-177 (`ConsumeTag`). -/
def consumeTag (b : Bytes) : Except PErr (Int × WType × Nat) := do
  let (v, n) ← consumeVarint b
  let (num, typ) := pwDecodeTag v
  if num < minValidNumber then .error .fieldNumber else .ok (num, typ, n)

/-- internal/protowire/wire.go:179-181 (`SizeTag`). -/
def sizeTag (num : BitVec 32) : Nat := sizeVarint (pwEncodeTag num 0)

/-- internal/protowire/wire.go:115-158, the `switch` of `consumeFieldValueD`; the `for` loop of the
group case (133-152) is the parameter `groupLoop`, to tie the recursion below. -/
def fieldValueWith (groupLoop : Int → Bytes → Int → Except PErr Nat)
    (num : Int) (typ : WType) (b : Bytes) (depth : Int) : Except PErr Nat :=
  match typ with
  | 0 => (consumeVarint b).map (·.2)
  | 5 => (consumeFixed32 b).map (·.2)
  | 1 => (consumeFixed64 b).map (·.2)
  | 2 => (consumeBytes b).map (·.2)
  | 3 => if depth < 0 then .error .recursionDepth else groupLoop num b depth
  | 4 => .error .endGroup
  | _ => .error .reserved

/-- internal/protowire/wire.go:133-152, the `for` loop over the fields of a group; `n0` is the
length of the slice at loop entry.  `fuel` bounds the iterations and nested calls together (each
iteration consumes at least one byte and nested calls work on what is left;
`Lemmas/Skip.lean` proves that any fuel above the length of `b` gives the same answer). -/
def consumeGroupLoop : Nat → Int → Nat → Bytes → Int → Except PErr Nat
  | 0, _, _, _, _ => .error .truncated
  | fuel + 1, num, n0, b, depth => do
    let (num2, typ2, n) ← consumeTag b
    let b := b.drop n
    if typ2 = tEGroup then
      if num ≠ num2 then .error .endGroup else .ok (n0 - b.length)
    else
      let n ← fieldValueWith (fun num b depth => consumeGroupLoop fuel num b.length b depth)
        num2 typ2 b (depth - 1)
      consumeGroupLoop fuel num n0 (b.drop n) depth

/-- internal/protowire/wire.go:115-158 (`consumeFieldValueD`). -/
def consumeFieldValueD (num : Int) (typ : WType) (b : Bytes) (depth : Int) : Except PErr Nat :=
  fieldValueWith (fun num b depth => consumeGroupLoop (b.length + 1) num b.length b depth)
    num typ b depth

/-- internal/protowire/wire.go:111-113 (`ConsumeFieldValue`). -/
def consumeFieldValue (num : Int) (typ : WType) (b : Bytes) : Except PErr Nat :=
  consumeFieldValueD num typ b defaultRecursionLimit

/-- internal/protowire/wire.go:93-103 (`ConsumeField`). -/
def consumeField (b : Bytes) : Except PErr (Int × WType × Nat) := do
  let (num, typ, n) ← consumeTag b
  let m ← consumeFieldValue num typ (b.drop n)
  .ok (num, typ, n + m)

/-- internal/protowire/wire.go:466-468 (`AppendGroup`). -/
def pwAppendGroup (b : Bytes) (num : BitVec 32) (v : Bytes) : Bytes :=
  pwAppendVarint (b ++ v) (pwEncodeTag num tEGroup)

/-- internal/protowire/wire.go:484-486: `for len(b) > 0 && b[len(b)-1]&0x7f == 0 { b = b[:len(b)-1] }`. -/
def trimPadding (b : Bytes) : Bytes :=
  (b.reverse.dropWhile (fun c => c &&& 0x7f#8 == 0#8)).reverse

/-- internal/protowire/wire.go:474-490 (`ConsumeGroup`). `List.take` of a non-positive amount
stands for `b[:len(b)-SizeTag(num)]`, which would panic in Go if `len(b) < SizeTag(num)`;
`Props` shows that this does not happen. -/
def consumeGroup (num : BitVec 32) (b : Bytes) : Except PErr (Bytes × Nat) := do
  let n ← consumeFieldValue num.toInt tSGroup b
  let c := trimPadding (b.take n)
  .ok (c.take (c.length - sizeTag num), n)

/-- internal/protowire/wire.go:493-495 (`SizeGroup`). -/
def sizeGroup (num : BitVec 32) (n : Nat) : Nat := n + sizeTag num

/-- internal/protowire/wire.go:517-519 (`DecodeZigZag`): `int64(x>>1) ^ int64(x)<<63>>63`. -/
def decodeZigZag (x : BitVec 64) : BitVec 64 := (x >>> 1) ^^^ ((x <<< 63).sshiftRight 63)

/-- internal/protowire/wire.go:525-527 (`EncodeZigZag`): `uint64(x<<1) ^ uint64(x>>63)`. -/
def encodeZigZag (x : BitVec 64) : BitVec 64 := (x <<< 1) ^^^ (x.sshiftRight 63)

/-- internal/protowire/wire.go:533-535 (`DecodeBool`). -/
def decodeBool (x : BitVec 64) : Bool := x != 0#64

/-- internal/protowire/wire.go:541-546 (`EncodeBool`). -/
def encodeBool (x : Bool) : BitVec 64 := if x then 1#64 else 0#64

end Verif.Model
