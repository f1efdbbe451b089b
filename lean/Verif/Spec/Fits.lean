import Verif.Spec.EncWord
import Verif.Spec.TagWords
import Verif.Spec.Declared
/-!
# Specification: which Go struct types are accepted

What the tags must say and which Go types go with them, for every Go type and every string; nothing here refers to a function of the model.
-/
namespace Verif.Spec
open Verif.Model (GoType TagType GoField StructDecl)

/-- The Go type under pointers and slices (`[]byte` is not a slice here). -/
inductive Core : GoType → GoType → Prop
  | bool : Core .bool .bool
  | int32 : Core .int32 .int32
  | int64 : Core .int64 .int64
  | uint32 : Core .uint32 .uint32
  | uint64 : Core .uint64 .uint64
  | float32 : Core .float32 .float32
  | float64 : Core .float64 .float64
  | string : Core .string .string
  | bytes : Core .bytes .bytes
  | map (k v : GoType) : Core (.map k v) (.map k v)
  | struct (id : Nat) : Core (.struct id) (.struct id)
  | iface : Core .iface .iface
  | other (n : Nat) : Core (.other n) (.other n)
  | ptr (t u : GoType) : Core t u → Core (.ptr t) u
  | slice (t u : GoType) : Core t u → Core (.slice t) u

/-- `u` occurs in the type expression `t` (struct types are not opened). -/
inductive Occurs : GoType → GoType → Prop
  | here (t : GoType) : Occurs t t
  | ptr (t u : GoType) : Occurs t u → Occurs (.ptr t) u
  | slice (t u : GoType) : Occurs t u → Occurs (.slice t) u
  | key (k v u : GoType) : Occurs k u → Occurs (.map k v) u
  | val (k v u : GoType) : Occurs v u → Occurs (.map k v) u

/-- The encodings of single Go values that may be keys of maps. -/
inductive KeyEnc : TagType → GoType → Prop
  | varint32 : KeyEnc .varint .int32
  | varintU32 : KeyEnc .varint .uint32
  | varint64 : KeyEnc .varint .int64
  | varintU64 : KeyEnc .varint .uint64
  | bool : KeyEnc .varint .bool
  | zigzag32 : KeyEnc .zigzag32 .int32
  | zigzag64 : KeyEnc .zigzag64 .int64
  | fixed32 : KeyEnc .fixed32 .int32
  | fixedU32 : KeyEnc .fixed32 .uint32
  | float : KeyEnc .fixed32 .float32
  | fixed64 : KeyEnc .fixed64 .int64
  | fixedU64 : KeyEnc .fixed64 .uint64
  | double : KeyEnc .fixed64 .float64
  | string : KeyEnc .bytes .string

/-- The encodings of Go values. -/
inductive Enc : TagType → GoType → Prop
  | key (T : TagType) (t : GoType) : KeyEnc T t → Enc T t
  | bytes : Enc .bytes .bytes
  | msg (id : Nat) : Enc .bytes (.struct id)
  | map (k v : GoType) : Enc .bytes (.map k v)

/-- A list or a map. -/
inductive Multi : GoType → Prop
  | slice (t : GoType) : Multi (.slice t)
  | map (k v : GoType) : Multi (.map k v)

/-- The words of the tag of a key or value: the first one that names an encoding or is `group` names `T`. -/
def EntryEnc (tag : List Char) (T : TagType) : Prop :=
  ∃ before w after, TagWords tag (before ++ w :: after) ∧ EncWord w T ∧ ∀ x ∈ before, x ≠ "group".toList ∧ ∀ T', ¬ EncWord x T'

/-- A field with a good declaration, with its number. -/
structure GoodField (gf : GoField) (n : Nat) (ws : List (List Char)) (T : TagType) : Prop where
  words : TagWords gf.tag ws
  clean : ∀ w ∈ ws, w ≠ "group".toList ∧ ∀ n, IsDecimal w n → n < 2 ^ 32
  enc : LastOf EncWord ws T
  number : LastOf IsDecimal ws n ∨ (∀ w ∈ ws, ∀ n, ¬ IsDecimal w n) ∧ n = 0
  /-- No pointer to a pointer. -/
  pointers : ∀ t, ¬ Occurs gf.type (.ptr (.ptr t))
  /-- Under pointers and slices the type goes with the encoding. -/
  fits : ∃ t, Core gf.type t ∧ Enc T t
  /-- `packed` is for repeated scalars other than strings. -/
  packed : "packed".toList ∈ ws → "rep".toList ∈ ws ∧ (∃ t, gf.type = .slice t) ∧ T ≠ .bytes
  /-- `rep` is for maps and for lists whose elements are neither lists nor maps nor pointers to such. -/
  rep : "rep".toList ∈ ws → Multi gf.type ∧ ∀ t, gf.type = .slice t → ¬ Multi t ∧ ∀ u, t = .ptr u → ¬ Multi u
  /-- Maps have `rep`, and keys and values go with their own tags. -/
  map : ∀ k v, gf.type = .map k v → "rep".toList ∈ ws ∧
    (∃ K k', EntryEnc gf.keyTag K ∧ Core k k' ∧ KeyEnc K k') ∧ ∃ V v', EntryEnc gf.valTag V ∧ Core v v' ∧ Enc V v'

/-- The declaration at a position - a tagged Go struct field (`inl`) or a oneof wrapper type (`inr`) - is good and has number `n`. -/
inductive NumberAt (s : StructDecl) : Nat ⊕ Nat → Nat → Prop
  | plain (i : Nat) (gf : GoField) (n : Nat) (ws : List (List Char)) (T : TagType) : s.fields[i]? = some gf → gf.tag ≠ [] →
      GoodField gf n ws T → NumberAt s (.inl i) n
  | member (j : Nat) (w : Model.Wrapper) (i : Nat) (gf : GoField) (n : Nat) (ws : List (List Char)) (T : TagType) :
      s.wrappers[j]? = some w → IsOneofSlot s i → i ∈ w.implements → w.fields = [gf] → GoodField gf n ws T → NumberAt s (.inr j) n

/-- A struct type that is accepted: every declaration is good, no number is 2^31 or more, no two numbers are the same. -/
structure GoodStruct (s : StructDecl) : Prop where
  fields : ∀ i gf, s.fields[i]? = some gf → gf.tag ≠ [] → ∃ n, NumberAt s (.inl i) n
  members : ∀ j w, s.wrappers[j]? = some w → (∃ i, IsOneofSlot s i ∧ i ∈ w.implements) → ∃ n, NumberAt s (.inr j) n
  numbers : ∀ q n, NumberAt s q n → n < 2 ^ 31
  distinct : ∀ q q' n, NumberAt s q n → NumberAt s q' n → q = q'

end Verif.Spec
