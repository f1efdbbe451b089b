import Verif.Model.Coder
/-!
# Model of internal/desc/tag.go: struct tag parsing

Strings are lists of characters.  Simplification: the value is what `reflect.StructTag.Get`
returns (the quoting of a raw Go tag is the standard library's business); invalid UTF-8 is not
represented.
-/
namespace Verif.Model

/-- internal/desc/const.go:22-34 (`TagType`, without the zero value and `TypeUnknown`). -/
inductive TagType | varint | zigzag32 | zigzag64 | fixed32 | fixed64 | bytes
  deriving DecidableEq, Repr

/-- internal/desc/desc.go:143-150 (`wireTypes`). -/
def TagType.wire : TagType → WType
  | .varint | .zigzag32 | .zigzag64 => tVarint
  | .fixed32 => tFixed32
  | .fixed64 => tFixed64
  | .bytes => tBytes

/-- `unicode.IsSpace`, used by `strings.TrimSpace` (tag.go:33, 82). -/
def isSpace (c : Char) : Bool :=
  let n := c.toNat
  (9 ≤ n && n ≤ 13) || n == 32 || n == 0x85 || n == 0xa0 || n == 0x1680 ||
  (0x2000 ≤ n && n ≤ 0x200a) || n == 0x2028 || n == 0x2029 || n == 0x202f || n == 0x205f ||
  n == 0x3000

/-- `strings.TrimSpace`. -/
def trimSpace (s : List Char) : List Char :=
  ((s.dropWhile isSpace).reverse.dropWhile isSpace).reverse

/-- `strings.Split(s, ",")`. -/
def splitComma : List Char → List (List Char)
  | [] => [[]]
  | c :: cs =>
    if c = ',' then [] :: splitComma cs
    else match splitComma cs with
      | [] => [[c]]
      | w :: ws => (c :: w) :: ws

/-- A decimal digit, as in `strings.Trim(s, "1234567890") == ""` (tag.go:61). -/
def isDigit (c : Char) : Bool := '0'.toNat ≤ c.toNat && c.toNat ≤ '9'.toNat

/-- The value of a string of decimal digits. -/
def digitsVal (s : List Char) : Nat := s.foldl (fun n c => 10 * n + (c.toNat - '0'.toNat)) 0

/-- The words of a tag naming an encoding, tag.go:43-54, 85-97. -/
def tagTypeWord (s : List Char) : Option TagType :=
  if s = "varint".toList then some .varint
  else if s = "zigzag32".toList then some .zigzag32
  else if s = "zigzag64".toList then some .zigzag64
  else if s = "fixed32".toList then some .fixed32
  else if s = "fixed64".toList then some .fixed64
  else if s = "bytes".toList then some .bytes
  else none

/-- What `parseStructTag` collects (fields `ID`, `TagType`, `Required`, `Repeated`, `Packed` of
`FieldDesc`, internal/desc/desc.go:152-167); `typ = none` is `TagType == 0`. -/
structure TagInfo where
  id : BitVec 32 := 0#32
  typ : Option TagType := none
  required : Bool := false
  repeated : Bool := false
  packed : Bool := false
  deriving DecidableEq, Repr

/-- The body of the loop of internal/desc/tag.go:32-67. -/
def tagStep (p : TagInfo) (s : List Char) : Res TagInfo :=
  let s := trimSpace s
  if s = [] then .ok p
  else if s = "opt".toList then .ok p
  else if s = "req".toList then .ok { p with required := true }
  else if s = "rep".toList then .ok { p with repeated := true }
  else match tagTypeWord s with
  | some t => .ok { p with typ := some t }
  | none =>
    if s = "group".toList then .error .badType
    else if s = "packed".toList then .ok { p with packed := true }
    else if s.all isDigit then
      if digitsVal s < 2 ^ 32 then .ok { p with id := BitVec.ofNat 32 (digitsVal s) }
      else .error .badType
    else .ok p

/-- internal/desc/tag.go:30-70 (`parseStructTag` up to the check of `TagType`). -/
def parseStructTag (tag : List Char) : Res (TagInfo × TagType) := do
  let p ← (splitComma tag).foldlM tagStep {}
  match p.typ with
  | none => .error .badType
  | some t => return (p, t)

/-- internal/desc/tag.go:71-76: the wire tag of a field. -/
def wireTagOf (p : TagInfo) (t : TagType) : BitVec 64 :=
  if p.packed then encodeTag p.id tBytes else encodeTag p.id t.wire

/-- internal/desc/tag.go:79-104 (`parseKVTag`), the loop over the comma-separated words. -/
def parseKVWords : List (List Char) → Res TagType
  | [] => .error .badType
  | w :: ws =>
    match tagTypeWord (trimSpace w) with
    | some t => .ok t
    | none => if trimSpace w = "group".toList then .error .badType else parseKVWords ws

/-- internal/desc/tag.go:79-104 (`parseKVTag`). -/
def parseKVTag (tag : List Char) : Res TagType := parseKVWords (splitComma tag)

end Verif.Model
