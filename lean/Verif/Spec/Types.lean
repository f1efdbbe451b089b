import Verif.Spec.Schema
import Verif.Model.Desc
/-!
# Specification: which Go struct types implement which schema

Struct tags are described word by word: the words of a tag may come in any order and be mixed with
words that say nothing about the encoding (`opt`, `proto3`, `name=…`, `json=…`, …).
-/
namespace Verif.Spec
open Verif.Model (GoType Val GoField StructDecl GoEnv)

/-- The word naming the encoding of a scalar. -/
def Scalar.word : Scalar → List Char
  | .int32 | .int64 | .uint32 | .uint64 | .bool => "varint".toList
  | .sint32 => "zigzag32".toList
  | .sint64 => "zigzag64".toList
  | .fixed32 | .sfixed32 | .float => "fixed32".toList
  | .fixed64 | .sfixed64 | .double => "fixed64".toList
  | .string | .bytes => "bytes".toList

/-- The word naming the encoding of a field. -/
def Shape.word : Shape → List Char
  | .single s | .optional s | .list s _ => s.word
  | _ => "bytes".toList

def Shape.isRepeated : Shape → Bool
  | .single _ | .optional _ | .msg _ _ => false
  | _ => true
def Shape.isPacked : Shape → Bool
  | .list _ p => p
  | _ => false

/-- Words with a meaning of their own. -/
def isEncodingWord (w : List Char) : Bool :=
  w ∈ ["varint".toList, "zigzag32".toList, "zigzag64".toList, "fixed32".toList, "fixed64".toList,
    "bytes".toList, "group".toList]

/-- The digit characters. -/
def digitChar (d : Nat) : Char := Char.ofNat (48 + d)

/-- `w` is a decimal numeral for `n`. -/
inductive IsDecimal : List Char → Nat → Prop
  | digit (d : Nat) : d < 10 → IsDecimal [digitChar d] d
  | snoc (w : List Char) (n d : Nat) : IsDecimal w n → d < 10 →
      IsDecimal (w ++ [digitChar d]) (10 * n + d)

/-- Words joined by commas. -/
def joinComma : List (List Char) → List Char
  | [] => []
  | [w] => w
  | w :: ws => w ++ ',' :: joinComma ws

/-- Unicode white space. -/
def isBlank (c : Char) : Bool :=
  c.toNat ∈ [0x09, 0x0a, 0x0b, 0x0c, 0x0d, 0x20, 0x85, 0xa0, 0x1680, 0x2000, 0x2001, 0x2002, 0x2003,
    0x2004, 0x2005, 0x2006, 0x2007, 0x2008, 0x2009, 0x200a, 0x2028, 0x2029, 0x202f, 0x205f, 0x3000]

/-- A word: no commas in it, no white space around it. -/
def IsWord (w : List Char) : Prop :=
  ',' ∉ w ∧ (∀ c ∈ w.head?, isBlank c = false) ∧ (∀ c ∈ w.getLast?, isBlank c = false)

/-- A word that says nothing about the encoding. -/
def Harmless (w : List Char) : Prop :=
  isEncodingWord w = false ∧ w ≠ "rep".toList ∧ w ≠ "packed".toList ∧
  (w = [] ∨ ∃ c ∈ w, c.isDigit = false)

/-- The `protobuf` tag `t` declares the encoding `enc`, number `num`, and whether the field is
repeated and packed. -/
def TagSays (t : List Char) (enc : List Char) (num : Nat) (rep packed : Bool) : Prop :=
  ∃ ws, t = joinComma ws ∧ (∀ w ∈ ws, IsWord w) ∧
    (∀ w ∈ ws, w = enc ∨ IsDecimal w num ∨ w = "rep".toList ∨ w = "packed".toList ∨ Harmless w) ∧
    enc ∈ ws ∧ (∃ w ∈ ws, IsDecimal w num) ∧
    ("rep".toList ∈ ws ↔ rep = true) ∧ ("packed".toList ∈ ws ↔ packed = true)

/-- A `protobuf_key` or `protobuf_val` tag declares the encoding `enc`. -/
def KVSays (t : List Char) (enc : List Char) : Prop :=
  ∃ ws, t = joinComma ws ∧ (∀ w ∈ ws, IsWord w) ∧ enc ∈ ws ∧
    (∀ w ∈ ws, w = enc ∨ isEncodingWord w = false)

/-- The Go struct field `gf` declares field `f`. -/
structure Declares (gf : GoField) (f : Field) : Prop where
  type : gf.type = f.shape.goType
  tag : TagSays gf.tag f.shape.word f.num f.shape.isRepeated f.shape.isPacked
  kv : ∀ k v, f.shape = .map k v → KVSays gf.keyTag k.word ∧ KVSays gf.valTag v.word
  kvMsg : ∀ k id p, f.shape = .mapMsg k id p →
    KVSays gf.keyTag k.word ∧ KVSays gf.valTag "bytes".toList

/-- Position `i` of a list holds the (first) field with this name. -/
def FieldNamed (fs : List GoField) (name : List Char) (i : Nat) (t : GoType) : Prop :=
  (∃ gf, fs[i]? = some gf ∧ gf.name = name ∧ gf.type = t) ∧
  ∀ j gf, j < i → fs[j]? = some gf → gf.name ≠ name

/-- Does the struct keep unknown fields, and where?  In a field `unknownFields` (or, failing that,
`XXX_unrecognized`) of type `[]byte` or `*[]byte`. -/
def KeepsUnknown (fs : List GoField) : Option (Nat × Bool) → Prop
  | some (i, p) =>
    FieldNamed fs "unknownFields".toList i (if p then .ptr .bytes else .bytes) ∨
    ((∀ gf ∈ fs, gf.name ≠ "unknownFields".toList) ∧
      FieldNamed fs "XXX_unrecognized".toList i (if p then .ptr .bytes else .bytes))
  | none => ∀ gf ∈ fs, gf.name ≠ "unknownFields".toList ∧ gf.name ≠ "XXX_unrecognized".toList

/-- The Go struct type `d` (with its oneof wrapper types) implements message type `m`. -/
structure Implements1 (d : StructDecl) (m : Message) : Prop where
  nslots : d.fields.length = m.nslots
  zero : d.zero = m.zero
  small : (d.size = 8 ∨ d.size = 4 ∨ d.size = 1) ↔ m.small = true
  /-- tagged fields and plain schema fields correspond -/
  tagged : ∀ i gf, d.fields[i]? = some gf → gf.tag ≠ [] →
    ∃ f ∈ m.fields, f.slot = i ∧ f.member = none
  plain : ∀ f ∈ m.fields, f.member = none → ∃ gf, d.fields[f.slot]? = some gf ∧ Declares gf f
  /-- wrapper types and oneof members correspond -/
  wrapper : ∀ w ∈ d.wrappers, ∃ f ∈ m.fields, f.member = some w.id
  member : ∀ f ∈ m.fields, ∀ w, f.member = some w → ∃ wr ∈ d.wrappers, wr.id = w ∧
    wr.implements = [f.slot] ∧ (∃ gf, wr.fields = [gf] ∧ Declares gf f) ∧
    (∃ gf, d.fields[f.slot]? = some gf ∧ gf.tag = [] ∧ gf.oneofTag ≠ [])
  distinct : (d.wrappers.map (·.id)).Nodup
  unknown : KeepsUnknown d.fields m.unknown

/-- The Go struct types of `env` implement schema `S`. -/
def Implements (env : GoEnv) (S : Schema) : Prop :=
  ∀ id, match env.structs[id]? with
    | some d => Implements1 d (S id)
    | none => S id = default

end Verif.Spec
