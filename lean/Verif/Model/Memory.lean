import Verif.Model.Api
/-!
# Memory with sharing, for the decoder

`Model/Decoder.lean` treats a message as a tree: it cannot say which memory is written, or whether
the result shares memory with the input.  Here a message is a graph of memory blocks.  A Go value
holds addresses of blocks; a block is the memory behind a string or `[]byte`, a variable, the array
behind a slice, or a map.

Simplification: an address is the number of a block (`unsafe.Pointer` arithmetic inside a block is an
offset), and a new block never overlaps an old one (`mallocgc` is trusted; for the decoder's arena
this is proved in `Props/Arena.lean`).
-/
namespace Verif.Model.Mem

/-- The data pointer and the length of a string or `[]byte` (internal/hack/hack.go `StringHeader`,
`SliceHeader`): block, offset in the block, length.  The capacity is what is left of the block. -/
structure View where
  addr : Nat
  off : Nat
  len : Nat
  deriving DecidableEq, Repr

/-- Go values in memory, compare `Val`.  `slice a len`: the array block and the length, the capacity
is the size of the block; `iface`: the dynamic type and the pointer in it. -/
inductive MVal
  | w32 (v : BitVec 32)
  | w64 (v : BitVec 64)
  | bool (b : Bool)
  | str (s : Option View)
  | bytes (s : Option View)
  | ptr (a : Option Nat)
  | slice (a : Option Nat) (len : Nat)
  | map (a : Option Nat)
  | struct (fs : List MVal)
  | iface (x : Option (Nat × Option Nat))
  | opaque (n : Nat)
  | undef
  deriving Repr, Inhabited

/-- A block of memory.  Simplification: slices of one array start at its first element (slices that
start later own a block of their own). -/
inductive Block
  | bytes (b : Bytes)
  | object (v : MVal)
  | array (xs : List MVal)
  | table (es : List (MVal × MVal))
  deriving Inhabited

/-- Memory: the blocks, the number of the next new block, how much spare capacity Go's `append`
leaves when it allocates for a given number of bytes (not specified by Go), and how many numbers the
allocator skips after a block (they may be given to other goroutines). -/
structure Store where
  mem : Nat → Block
  next : Nat
  slack : Nat → Nat
  skip : Nat → Nat

/-- Overwriting a block. -/
def Store.set (h : Store) (a : Nat) (b : Block) : Store :=
  { h with mem := fun x => if x = a then b else h.mem x }

/-- The bytes of a string or `[]byte`. -/
def Store.read (h : Store) (v : View) : Res Bytes :=
  match h.mem v.addr with
  | .bytes b => if v.off + v.len ≤ b.length then .ok ((b.drop v.off).take v.len) else .error .ub
  | _ => .error .ub

/-- Go's `b[n:]`. -/
def View.drop (v : View) (n : Nat) : View := ⟨v.addr, v.off + min n v.len, v.len - n⟩

/-- Go's `b[:n]`. -/
def View.take (v : View) (n : Nat) : View := ⟨v.addr, v.off, min n v.len⟩

/-- A computation that reads and writes memory; the memory is there after an error as well. -/
def M (α : Type) : Type := Store → Res α × Store

/-- Sequencing: the rest is not executed after an error. -/
def M.bind {α β : Type} (c : M α) (f : α → M β) : M β := fun h =>
  match c h with
  | (.ok a, h') => f a h'
  | (.error e, h') => (.error e, h')

instance : Monad M where
  pure a := fun h => (.ok a, h)
  bind := M.bind

/-- A computation that does not touch memory. -/
def lift {α : Type} (r : Res α) : M α := fun h => (r, h)

/-- Returning an error, or a panic. -/
def fail {α : Type} (e : Fault) : M α := fun h => (.error e, h)

/-- The number of the new block after the one with number `x`. -/
def Store.after (h : Store) (x : Nat) : Nat := x + 1 + h.skip x

/-- A new block. -/
def new (b : Block) : M Nat := fun h =>
  (.ok h.next, { h.set h.next b with next := h.after h.next })

/-- Reading a block. -/
def load (a : Nat) : M Block := fun h => (.ok (h.mem a), h)

/-- Writing a block. -/
def put (a : Nat) (b : Block) : M Unit := fun h => (.ok (), h.set a b)

/-- Applying a function of the bytes to the bytes of a view (the modelled Go code indexes into the
view; it does not write to it). -/
def parse {α : Type} (v : View) (p : Bytes → Res α) : M α := fun h => (h.read v >>= p, h)

mutual
/-- A value without references (a scalar or a zero value), in memory. -/
def ofFlat : Val → MVal
  | .w32 v => .w32 v
  | .w64 v => .w64 v
  | .bool b => .bool b
  | .str _ => .str none
  | .bytes _ => .bytes none
  | .ptr _ => .ptr none
  | .slice _ => .slice none 0
  | .map _ => .map none
  | .struct fs => .struct (ofFlats fs)
  | .iface _ => .iface none
  | .opaque n => .opaque n
  | .undef => .undef
/-- `ofFlat` of the fields of a struct. -/
def ofFlats : List Val → List MVal
  | [] => []
  | v :: vs => ofFlat v :: ofFlats vs
end

/-- The content of a map key; two keys are equal for Go if their contents are. -/
def keyContent (h : Store) : MVal → Res Key
  | .w32 v => .ok (.w32 v)
  | .w64 v => .ok (.w64 v)
  | .bool b => .ok (.bool b)
  | .str none => .ok (.str [])
  | .str (some v) => Key.str <$> h.read v
  | _ => .error .ub

/-- Go's `m[k] = v` on the entries of a map (Go overwrites a string key by the equal new one). -/
def tableInsert (h : Store) (k v : MVal) : List (MVal × MVal) → List (MVal × MVal)
  | [] => [(k, v)]
  | (k', v') :: es =>
    if keyContent h k' = keyContent h k then (k, v) :: es else (k', v') :: tableInsert h k v es

/-- internal/desc/type.go:261-309 (`TmpMapVars.Update`: `defaultMapUpdateFunc` and its nine
specialisations, chosen by kinds in 202-242; all of them assign to the map through a pointer to it,
at a type with the same memory layout). -/
def mapAssign (a : Nat) (k v : MVal) : M Unit := fun h =>
  match h.mem a, keyContent h k with
  | .table es, .ok _ => (.ok (), h.set a (.table (tableInsert h k v es)))
  | _, _ => (.error .ub, h)

/-- Go's `append(x, b...)` on byte slices: in place if the capacity suffices, else into a new
block.  (`b` is not empty here.) -/
def appendBytes (x : Option View) (raw : View) : M View := fun h =>
  match h.read raw, x with
  | .ok r, none =>
    new (.bytes (r ++ List.replicate (h.slack r.length) 0#8)) h |>.map
      (fun a => a.map fun a => ⟨a, 0, r.length⟩) id
  | .ok r, some v =>
    match h.mem v.addr with
    | .bytes blk =>
      if v.off + v.len + r.length ≤ blk.length then
        (.ok ⟨v.addr, v.off, v.len + r.length⟩, h.set v.addr
          (.bytes (blk.take (v.off + v.len) ++ r ++ blk.drop (v.off + v.len + r.length))))
      else
        let n := v.len + r.length
        new (.bytes ((blk.drop v.off).take v.len ++ r ++ List.replicate (h.slack n) 0#8)) h |>.map
          (fun a => a.map fun a => ⟨a, 0, n⟩) id
    | _ => (.error .ub, h)
  | .error e, _ => (.error e, h)

end Verif.Model.Mem
