import Verif.Model.Wire
/-!
# Go types and Go values, as far as the codec looks at them
-/
namespace Verif.Model

/-- Kinds of Go types as the codec classifies them: `reflect.Kind`, with `[]byte` as a kind of its
own.  internal/desc/type.go:28-38 (`KindBytes`, `reflectTypeKind`).
Simplification: all kinds the codec never accepts in a tagged field are one kind `other`. -/
inductive Kind
  | bool | int32 | int64 | uint32 | uint64 | float32 | float64 | string | bytes
  | pointer | slice | map | struct | iface | other
  deriving DecidableEq, Repr

/-- Go types (what `reflect.Type` shows of them), internal/desc/type.go:40-68 (`Type`).
`struct id` refers to a declaration of the environment; defined types (`type E int32`) are
identified with their underlying type, except that a defined byte slice is `slice (other 1)`
because internal/desc/type.go:33-38 compares with `[]byte` itself. -/
inductive GoType
  | bool | int32 | int64 | uint32 | uint64 | float32 | float64 | string | bytes
  | ptr (t : GoType) | slice (t : GoType) | map (k v : GoType)
  | struct (id : Nat) | iface | other (size : Nat)
  deriving DecidableEq, Repr, Inhabited

/-- internal/desc/type.go:33-38 (`reflectTypeKind`). -/
def GoType.kind : GoType → Kind
  | .bool => .bool | .int32 => .int32 | .int64 => .int64 | .uint32 => .uint32
  | .uint64 => .uint64 | .float32 => .float32 | .float64 => .float64 | .string => .string
  | .bytes => .bytes | .ptr _ => .pointer | .slice _ => .slice | .map _ _ => .map
  | .struct _ => .struct | .iface => .iface | .other _ => .other

/-- internal/desc/type.go:70-75 (`Type.RealKind`): through pointers and slices. -/
def GoType.realKind : GoType → Kind
  | .ptr t => t.realKind
  | .slice t => t.realKind
  | t => t.kind

/-- internal/desc/type.go:45 (`IsPointer`). -/
def GoType.isPointer : GoType → Bool
  | .ptr _ => true
  | _ => false

/-- internal/desc/type.go:49 (`IsSlice`; false for `[]byte`). -/
def GoType.isSlice : GoType → Bool
  | .slice _ => true
  | _ => false

/-- internal/desc/type.go:51 (`SliceLike`). -/
def GoType.sliceLike : GoType → Bool
  | .slice _ => true
  | .bytes => true
  | .string => true
  | _ => false

/-- `Type.V` of internal/desc/type.go:62: the element of a pointer, slice or map. -/
def GoType.elem : GoType → Option GoType
  | .ptr t => some t
  | .slice t => some t
  | .map _ v => some v
  | _ => none

/-- `Type.Size` of internal/desc/type.go:55 on a 64-bit platform; `structSize` gives the size of
struct types. -/
def GoType.size (structSize : Nat → Nat) : GoType → Nat
  | .bool => 1
  | .int32 => 4 | .uint32 => 4 | .float32 => 4
  | .int64 => 8 | .uint64 => 8 | .float64 => 8
  | .string => 16 | .bytes => 24
  | .ptr _ => 8 | .slice _ => 24 | .map _ _ => 8
  | .struct id => structSize id
  | .iface => 16
  | .other n => n

/-- internal/desc/type.go:126-132: types with `MallocAbiType != 0` are allocated zeroed, the others
come from the decoder's arena, which is not zeroed. -/
def GoType.zeroedAlloc (t : GoType) : Bool :=
  match t with
  | .ptr _ | .slice _ | .bytes | .string | .map _ _ | .struct _ => true
  | _ => false

/-- internal/desc/type.go:147-157: a pointer to a pointer is rejected, anywhere in the type. -/
def GoType.parseOk : GoType → Bool
  | .ptr t => !t.isPointer && t.parseOk
  | .slice t => t.parseOk
  | .map k v => k.parseOk && v.parseOk
  | _ => true

/-- Map keys.  Simplification: only keys of scalar type are represented (a map whose key type is
something else is `Val.opaque`). -/
inductive Key
  | w32 (v : BitVec 32) | w64 (v : BitVec 64) | bool (b : Bool) | str (s : Bytes)
  deriving DecidableEq, Repr

/-- Go values.  Words carry the bit pattern (`int32`/`uint32`/`float32` are all `w32`).  A value is
a finite tree: sharing is not represented, and cyclic values are treated in `Model/Heap.lean`.
`iface` is a oneof slot: dynamic type (an identifier of the wrapper type) and, if the pointer in it
is not nil, the content of the single field of the wrapper struct.
`opaque` stands for memory the codec does not interpret (`opaque 0` is zeroed memory), `undef` for
memory that has been allocated but not initialised. -/
inductive Val
  | w32 (v : BitVec 32)
  | w64 (v : BitVec 64)
  | bool (b : Bool)
  | str (s : Bytes)
  | bytes (s : Option Bytes)
  | ptr (p : Option Val)
  | slice (xs : List Val)
  | map (m : Option (List (Key × Val)))
  | struct (fs : List Val)
  | iface (x : Option (Nat × Option Val))
  | opaque (n : Nat)
  | undef
  deriving Repr, Inhabited

/-- Outcomes other than a result.  `maxDepth` … `notPointer` are Go errors; `panic` is a Go run-time
panic (nil dereference, index out of range, explicit `panic`); `ub` is a read or write of memory at
a type it does not have (`unsafe` type confusion). -/
inductive Fault
  | maxDepth | parse (e : PErr) | wireType | mapKV | eof | badType | notPointer
  | panic | ub
  deriving DecidableEq, Repr

/-- Result of a modelled Go function. -/
abbrev Res (α : Type) := Except Fault α

/-- The Go value of a key. -/
def Key.toVal : Key → Val
  | .w32 v => .w32 v | .w64 v => .w64 v | .bool b => .bool b | .str s => .str s

/-- The key held in a scalar Go value. -/
def Val.toKey : Val → Res Key
  | .w32 v => .ok (.w32 v) | .w64 v => .ok (.w64 v) | .bool b => .ok (.bool b)
  | .str s => .ok (.str s)
  | _ => .error .ub

/-- Go's `m[k] = v` on the entries of a map (the order of entries is not specified by Go; this one
keeps the place of an existing key and appends a new one). -/
def mapInsert : List (Key × Val) → Key → Val → List (Key × Val)
  | [], k, v => [(k, v)]
  | (k', v') :: m, k, v => if k' = k then (k, v) :: m else (k', v') :: mapInsert m k v

mutual
/-- Whether the memory of a value of size 1, 4 or 8 is all zero bits, internal/prutal/encoder.go:
72-81 (`*(*uint64)(p) == 0` and so on).  Simplification: padding is zero. -/
def Val.memZero : Val → Bool
  | .w32 v => v = 0#32
  | .w64 v => v = 0#64
  | .bool b => !b
  | .ptr p => p.isNone
  | .map m => m.isNone
  | .struct fs => memZeros fs
  | .opaque n => n = 0
  | _ => false
/-- `Val.memZero` of all fields of a struct. -/
def memZeros : List Val → Bool
  | [] => true
  | v :: vs => v.memZero && memZeros vs
end

/-- The `Len` word of a string, `[]byte` or slice header, internal/prutal/encoder.go:80-81. -/
def Val.len : Val → Res Nat
  | .str s => .ok s.length
  | .bytes s => .ok (s.getD []).length
  | .slice xs => .ok xs.length
  | _ => .error .ub

/-- Reads of a word, byte or string header at a pointer.  A `[]byte` can be read as a string
header (internal/wire/encoder.go:355, `UnsafeAppendBytes = UnsafeAppendString`). -/
def Val.asW32 : Val → Res (BitVec 32)
  | .w32 v => .ok v
  | _ => .error .ub
def Val.asW64 : Val → Res (BitVec 64)
  | .w64 v => .ok v
  | _ => .error .ub
def Val.asBool : Val → Res Bool
  | .bool b => .ok b
  | _ => .error .ub
def Val.asStr : Val → Res Bytes
  | .str s => .ok s
  | .bytes s => .ok (s.getD [])
  | _ => .error .ub
def Val.asSlice : Val → Res (List Val)
  | .slice xs => .ok xs
  | _ => .error .ub
def Val.asMap : Val → Res (List (Key × Val))
  | .map m => .ok (m.getD [])
  | _ => .error .ub

/-- Whether a scalar Go value fits a variable of the given type. -/
def GoType.holds : GoType → Val → Bool
  | .int32, .w32 _ | .uint32, .w32 _ | .float32, .w32 _ => true
  | .int64, .w64 _ | .uint64, .w64 _ | .float64, .w64 _ => true
  | .bool, .bool _ => true
  | .string, .str _ => true
  | .bytes, .bytes _ => true
  | _, _ => false

end Verif.Model
