import Verif.Model.Decoder
/-!
# Model of slice growth in internal/prutal/decoder.go

`Model/Decoder.lean` treats a slice as the list of its elements.  Here the memory behind it is
represented: all cells up to the capacity, and the length.
-/
namespace Verif.Model

/-- A slice header with the memory it points to (`hack.SliceHeader`): as many cells as its capacity,
of which the first `len` are elements. -/
structure Hdr where
  cells : List Val
  len : Nat
  deriving Inhabited

/-- The elements of the slice. -/
def Hdr.elems (h : Hdr) : List Val := h.cells.take h.len

/-- internal/prutal/decoder.go:561-571 (`ReallocSlice`); `fresh` is the content of new cells (see
`alloc`). -/
def Hdr.realloc (h : Hdr) (fresh : Val) (c : Nat) : Hdr :=
  if c ≤ h.cells.length then h
  else { cells := h.cells.take h.len ++ List.replicate (c - h.len) fresh, len := h.len }

/-- internal/prutal/decoder.go:36 (`defaultMinMakeSliceCap`). -/
def minSliceCap : Nat := 8

/-- internal/prutal/decoder.go:163-169: room for one more element, and the new length. -/
def Hdr.grow (h : Hdr) (fresh : Val) : Hdr :=
  let h := if h.cells.length = 0 then h.realloc fresh minSliceCap
    else if h.len = h.cells.length then h.realloc fresh (2 * h.cells.length)
    else h
  { h with len := h.len + 1 }

/-- internal/prutal/decoder.go:163-177 around the decoding of an element: `write` is what is done to the
new element's cell. -/
def Hdr.append (h : Hdr) (fresh : Val) (write : Val → Res (Val × Nat)) : Res (Hdr × Nat) :=
  let h := h.grow fresh
  match h.cells[h.len - 1]? with
  | none => .error .ub
  | some cell => do
    let (v, n) ← write cell
    return ({ h with cells := h.cells.set (h.len - 1) v }, n)

/-- internal/prutal/decoder.go:171-298: decoding an element of type `te` into a cell holding `cell`. -/
def decodeElemAt (D : Descs) (rec : DecRec) (f : FieldDesc) (te : GoType) (typ : WType) (b : Bytes) (depth : Int) (cell : Val) :
    Res (Val × Nat) :=
  match te with
  | .ptr te' => do
    let (v, n) ← decodeValueAt D rec f te' typ b (alloc D te') depth
    return (.ptr (some v), n)
  | _ => decodeValueAt D rec f te typ b cell depth

/-- internal/prutal/decoder.go:144-298: a record of a repeated field that is not packed data, on the
slice with its memory. -/
def decodeRepCap (D : Descs) (rec : DecRec) (f : FieldDesc) (te : GoType) (typ : WType) (b : Bytes) (h : Hdr) (depth : Int) :
    Res (Hdr × Nat) :=
  h.append (alloc D te) (decodeElemAt D rec f te typ b depth)

/-- A sequence of elements. -/
def Hdr.appendAll (fresh : Val) : Hdr → List (Val → Res (Val × Nat)) → Res Hdr
  | h, [] => .ok h
  | h, w :: ws => do
    let (h, _) ← h.append fresh w
    appendAll fresh h ws

end Verif.Model
