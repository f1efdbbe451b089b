import Verif.Lemmas.Coders
import Verif.Model.Sizer
/-! Helper lemmas: the descriptors of the fields of a schema. -/
namespace Verif.Lemmas
open Verif.Model Verif.Spec

def tagTypeOfShape : Shape → TagType
  | .single s | .optional s | .list s _ => tagTypeOf s
  | _ => .bytes
def repeatedShape : Shape → Bool
  | .single _ | .optional _ | .msg _ _ => false
  | _ => true
def packedShape : Shape → Bool
  | .list _ p => p
  | _ => false
def kvOfShape : Shape → Option (TagType × TagType)
  | .map k v => some (tagTypeOf k, tagTypeOf v)
  | .mapMsg k _ _ => some (tagTypeOf k, .bytes)
  | _ => none

/-- The descriptor of a field. -/
def descOf (f : Field) : FieldDesc :=
  mkField f.shape.goType f.slot f.member
    { id := BitVec.ofNat 32 f.num, repeated := repeatedShape f.shape, packed := packedShape f.shape }
    (tagTypeOfShape f.shape) (kvOfShape f.shape)

/-- The wire tag of field `n`. -/
abbrev wtag (n : Nat) (t : WireType) : BitVec 64 := encodeTag (BitVec.ofNat 32 n) t.code

/-- A descriptor without functions. -/
abbrev bare (n sl : Nat) (m : Option Nat) (t : GoType) (tt : TagType) (w : WireType) : FieldDesc :=
  { id := BitVec.ofNat 32 n, slot := sl, t := t, tagType := tt, repeated := false, packed := false,
    isList := false, isMap := false, wireTag := wtag n w, wireTagSize := sizeVarint (wtag n w),
    oneof := m, appendFunc := none, sizeFunc := none, appendList := none, appendMap := none,
    keyType := .varint, valType := .varint, keyAppend := none, valAppend := none, keySize := none,
    valSize := none, sizeMap := none, decodePacked := none, decodeMap := none }

theorem descOf_single (n sl : Nat) (m : Option Nat) (s : Scalar) :
    descOf ⟨n, sl, m, .single s⟩ = { bare n sl m s.goType (tagTypeOf s) s.wire with
      appendFunc := some (.plain (coderOf s)), sizeFunc := some (coderOf s) } := by
  cases s <;> rfl

theorem descOf_optional (n sl : Nat) (m : Option Nat) (s : Scalar) :
    descOf ⟨n, sl, m, .optional s⟩ = { bare n sl m (.ptr s.goType) (tagTypeOf s) s.wire with
      appendFunc := some (.plain (coderOf s)), sizeFunc := some (coderOf s) } := by
  cases s <;> rfl

theorem descOf_list (n sl : Nat) (m : Option Nat) (s : Scalar) :
    descOf ⟨n, sl, m, .list s false⟩ = { bare n sl m (.slice s.goType) (tagTypeOf s) s.wire with
      repeated := true, isList := true,
      appendFunc := some (.plain (coderOf s)), sizeFunc := some (coderOf s),
      appendList := some (coderOf s) } := by
  cases s <;> rfl

theorem descOf_packed (n sl : Nat) (m : Option Nat) (s : Scalar) (h : s.packable = true) :
    descOf ⟨n, sl, m, .list s true⟩ = { bare n sl m (.slice s.goType) (tagTypeOf s) .len with
      repeated := true, packed := true, isList := true,
      appendFunc := some (.packed (coderOf s)), sizeFunc := some (coderOf s),
      appendList := some (coderOf s), decodePacked := some (coderOf s) } := by
  cases s <;> first | rfl | cases h

theorem descOf_msg (n sl : Nat) (m : Option Nat) (id : Nat) (p : Bool) :
    descOf ⟨n, sl, m, .msg id p⟩ = bare n sl m (msgType id p) .bytes .len := by
  cases p <;> rfl

theorem descOf_msgList (n sl : Nat) (m : Option Nat) (id : Nat) (p : Bool) :
    descOf ⟨n, sl, m, .msgList id p⟩ = { bare n sl m (.slice (msgType id p)) .bytes .len with
      repeated := true, isList := true } := by
  cases p <;> rfl

theorem descOf_map (n sl : Nat) (m : Option Nat) (k v : Scalar) :
    descOf ⟨n, sl, m, .map k v⟩ = { bare n sl m (.map k.goType v.goType) .bytes .len with
      repeated := true, isMap := true, keyType := tagTypeOf k, valType := tagTypeOf v,
      keyAppend := some (.plain (coderOf k)), valAppend := some (.plain (coderOf v)),
      keySize := some (coderOf k), valSize := some (coderOf v),
      appendMap := getMapEncoder (coderOf k) (coderOf v),
      sizeMap := getMapSize (coderOf k) (coderOf v),
      decodeMap := getMapDecoder (coderOf k) (coderOf v) } := by
  cases k <;> cases v <;> rfl

theorem descOf_mapMsg (n sl : Nat) (m : Option Nat) (k : Scalar) (id : Nat) (p : Bool) :
    descOf ⟨n, sl, m, .mapMsg k id p⟩ =
      { bare n sl m (.map k.goType (msgType id p)) .bytes .len with
      repeated := true, isMap := true, keyType := tagTypeOf k, valType := .bytes,
      keyAppend := some (.plain (coderOf k)), keySize := some (coderOf k) } := by
  cases k <;> cases p <;> rfl

theorem ofNat32_toNat {n : Nat} (h : n < 2 ^ 31) : (BitVec.ofNat 32 n).toNat = n := by
  rw [BitVec.toNat_ofNat, Nat.mod_eq_of_lt (by omega)]

theorem varint_wtag {n : Nat} (h : n < 2 ^ 31) (t : WireType) :
    varint (wtag n t).toNat = tag n t := by
  have := appendTag_eq [] (BitVec.ofNat 32 n) t (by rw [ofNat32_toNat h]; exact h)
  rw [appendVarintSmall_eq, ofNat32_toNat h] at this
  exact this

theorem append_wtag {n : Nat} (h : n < 2 ^ 31) (t : WireType) (b : Bytes) :
    appendVarintSmall b (wtag n t) = b ++ tag n t := by
  rw [appendVarintSmall_eq, varint_wtag h]

theorem size_wtag {n : Nat} (h : n < 2 ^ 31) (t : WireType) :
    sizeVarint (wtag n t) = (tag n t).length := by
  rw [sizeVarint_eq, varint_wtag h]

/-- The descriptor table of a schema. -/
structure DescOK (D : Descs) (S : Schema) : Prop where
  fields : ∀ id, (D id).fields = (S id).fields.map descOf
  unknown : ∀ id, (D id).unknown = (S id).unknown
  found : ∀ id n f, (D id).getField n = some f → f ∈ (D id).fields
  getField : ∀ id n, n < 2 ^ 31 →
    (D id).getField n = ((S id).fields.find? (fun f => f.num == n)).map descOf
  empty : ∀ id, (D id).empty = (S id).zero
  small : ∀ id, ((D id).size = 8 ∨ (D id).size = 4 ∨ (D id).size = 1) ↔ (S id).small = true

end Verif.Lemmas
