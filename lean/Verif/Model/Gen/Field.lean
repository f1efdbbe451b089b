import Verif.Model.Gen.Resolve
import Verif.Model.Gen.Enum
/-!
# Model of fields and their struct tags

prutalgen/pkg/prutalgen/field.go:76-240, type.go:46-120 and code.go:293-349; and Go's `reflect.StructTag.Lookup`, by which the runtime reads the tags.
-/
namespace Verif.Model.Gen

/-- prutalgen/pkg/prutalgen/type.go:107-118 (`IsMessage`, `IsEnum`). -/
def Resolved.isMessage : Resolved → Bool
  | .decl r _ => !r.isEnum
  | .scalar _ => false
def Resolved.isEnum : Resolved → Bool
  | .decl r _ => r.isEnum
  | .scalar _ => false

/-- `Type.Name` after `resolve`, which removes dots in front (type.go:186). -/
def trimmedName (name : Str) : Str := name.dropWhile (· = '.')

/-- prutalgen/pkg/prutalgen/consts.go:74-90 (`scalar2encodingType`). -/
def scalarEncodings : List (Str × Str) :=
  [("double", "fixed64"), ("float", "fixed32"), ("int32", "varint"), ("int64", "varint"), ("uint32", "varint"), ("uint64", "varint"),
   ("sint32", "zigzag32"), ("sint64", "zigzag64"), ("fixed32", "fixed32"), ("fixed64", "fixed64"), ("sfixed32", "fixed32"), ("sfixed64", "fixed64"),
   ("bool", "varint"), ("string", "bytes"), ("bytes", "bytes")].map fun p => (p.1.toList, p.2.toList)

/-- prutalgen/pkg/prutalgen/consts.go:93-107 (`scalarPackedTypes`). -/
def scalarPacked : List Str :=
  ["double", "float", "int32", "int64", "uint32", "uint64", "sint32", "sint64", "fixed32", "fixed64", "sfixed32", "sfixed64", "bool"].map
    String.toList

/-- prutalgen/pkg/prutalgen/type.go:85-101 (`EncodingType`) for a type with the given name.  `[]` stands for the panic, which happens only for scalars without an
encoding; there are none. -/
def encodingType (name : Str) : Resolved → Str
  | .decl r _ => if r.isEnum then "varint".toList else "bytes".toList
  | .scalar _ => (scalarEncodings.lookup (trimmedName name)).getD []

/-- prutalgen/pkg/prutalgen/field.go:87-110 (`IsPackedEncoding`), in file `p`; `t` is the resolved type. -/
def isPacked (p : FileDecl) (f : FieldDecl) (t : Resolved) : Bool :=
  if f.key.isSome then false
  else if !(scalarPacked.contains (trimmedName f.typ) || t.isEnum) then false
  else
    match p.edition with
    | .proto2 => optIs f.options "packed".toList "true".toList
    | .ed2023 =>
      match optGet f.options "features.repeated_field_encoding".toList with
      | some s => s == "PACKED".toList
      | none =>
        match optGet p.options "features.repeated_field_encoding".toList with
        | some s => s == "PACKED".toList
        | none => true
    | .proto3 => true

/-- prutalgen/pkg/prutalgen/code.go:293-349 (`FieldStructTag`).  A key is always a scalar (`f.Key` is never resolved). -/
def fieldStructTag (p : FileDecl) (f : FieldDecl) (t : Resolved) : Str :=
  "protobuf:\"".toList ++
  (if f.key.isSome then "bytes".toList else encodingType f.typ t) ++
  ',' :: itoa f.number ++
  ',' :: (if f.repeated || f.key.isSome then "rep".toList ++ (if isPacked p f t then ",packed".toList else [])
    else if f.required then "req".toList else "opt".toList) ++
  ',' :: "name=".toList ++ f.name ++ '"' ::
  " json:\"".toList ++ f.name ++ ",omitempty".toList ++ '"' ::
  match f.key with
  | some k =>
    " protobuf_key:\"".toList ++ encodingType k (.scalar []) ++ ",1,opt,name=key".toList ++ '"' ::
    " protobuf_val:\"".toList ++ encodingType f.typ t ++ ",2,opt,name=value".toList ++ ['"']
  | none => []

/-- Go's reflect/type.go, `StructTag.Lookup`: the loop that scans the quoted value; what is inside the quotes and what follows.  `none` when the closing quote
is missing. -/
def scanQuoted : Str → Option (Str × Str)
  | [] => none
  | '"' :: rest => some ([], rest)
  | '\\' :: c :: rest => (scanQuoted rest).map fun r => ('\\' :: c :: r.1, r.2)
  | c :: rest => (scanQuoted rest).map fun r => (c :: r.1, r.2)

/-- Go's reflect/type.go, `StructTag.Lookup`: may `c` be part of a key? -/
def isTagKey (c : Char) : Bool := c.toNat > 32 && c != ':' && c != '"' && c.toNat != 0x7f

/-- Go's `strconv.Unquote` of a string in double quotes, given what is inside.  Simplification: escapes are not modelled (generated tags have none). -/
def unquote (s : Str) : Option Str := if s.any (fun c => c = '\\' || c = '\n' || c = '"') then none else some s

/-- Go's reflect/type.go, `StructTag.Lookup`, with a bound on the number of iterations. -/
def tagLookup : Nat → Str → Str → Option Str
  | 0, _, _ => none
  | n + 1, tag, key =>
    let name := (tag.dropWhile (· = ' ')).takeWhile isTagKey
    match (tag.dropWhile (· = ' ')).dropWhile isTagKey with
    | ':' :: '"' :: rest =>
      if name = [] then none
      else
        match scanQuoted rest with
        | none => none
        | some (v, rest) => if key = name then unquote v else tagLookup n rest key
    | _ => none

/-- Go's `StructTag.Get`: the empty string when there is no such key. -/
def tagGet (tag : Str) (key : String) : Str := (tagLookup (tag.length + 1) tag key.toList).getD []

end Verif.Model.Gen
