import Verif.Model.Value
/-!
# Go memory with sharing and cycles

`Val` represents memory by trees.  Here pointers, slices and maps are addresses, so that a message can be shared, or reached from itself.  `Model/HeapCodec.lean` has the
encoder and the sizer on such a memory; `Props/Heap.lean` shows that they do what they do on its unfoldings into trees, provided that these are deep enough.
-/
namespace Verif.Model

/-- Go values, internal/prutal/encoder.go:54-144 (what the codec reads).  `data` is memory that holds no messages: scalars, strings, lists and maps of scalars.  `slice a` is a
slice whose elements are the array at address `a`. -/
inductive HVal
  | data (v : Val)
  | ptr (a : Option Nat)
  | struct (fs : List HVal)
  | slice (a : Nat)
  | map (a : Option Nat)
  | iface (x : Option (Nat × Option Nat))

/-- What is at the addresses: the target of a pointer (or the field of the wrapper struct a oneof points to), the elements of a slice, the entries of a map. -/
structure Heap where
  object : Nat → HVal
  array : Nat → List HVal
  table : Nat → List (Key × HVal)

mutual
/-- Replaces addresses by trees. -/
def HVal.treeWith (obj : Nat → Option Val) (arr : Nat → List Val) (tab : Nat → Option (List (Key × Val))) : HVal → Val
  | .data v => v
  | .ptr none => .ptr none
  | .ptr (some a) => .ptr (obj a)
  | .struct fs => .struct (treesWith obj arr tab fs)
  | .slice a => .slice (arr a)
  | .map none => .map none
  | .map (some a) => .map (tab a)
  | .iface none => .iface none
  | .iface (some (w, none)) => .iface (some (w, none))
  | .iface (some (w, some a)) => .iface (some (w, obj a))
/-- The same for the fields of a struct. -/
def treesWith (obj : Nat → Option Val) (arr : Nat → List Val) (tab : Nat → Option (List (Key × Val))) : List HVal → List Val
  | [] => []
  | v :: vs => v.treeWith obj arr tab :: treesWith obj arr tab vs
end

/-- The unfolding of a value to a tree in which `n` addresses are followed on each path; what is behind them is left out (nil). -/
def HVal.tree (h : Heap) : Nat → HVal → Val
  | 0, v => v.treeWith (fun _ => none) (fun _ => []) (fun _ => none)
  | n + 1, v => v.treeWith (fun a => some ((h.object a).tree h n)) (fun a => (h.array a).map fun x => x.tree h n)
      (fun a => some ((h.table a).map fun e => (e.1, e.2.tree h n)))

end Verif.Model
