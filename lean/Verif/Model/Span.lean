/-!
# Model of internal/prutal/span.go and of `Decoder.Malloc`

The memory of a decoder: the arena (`span`) and the blocks obtained from the Go runtime.  What the
runtime returns is an input of the model (`gc`): the `k`-th block requested from `mallocgc` is at
address `gc k`.  Addresses are 64-bit words, `int`s are natural numbers (the arithmetic on them cannot
overflow for requests below `2 ^ 62` bytes).
-/
namespace Verif.Model.Arena

/-- internal/prutal/span.go:27 -/
def spanSize : Nat := 4096

/-- internal/prutal/span.go:29-33 (`span`), together with the blocks (address, size) obtained from
`mallocgc` so far, oldest first. -/
structure Arena where
  p : Nat
  b : BitVec 64
  n : Nat
  blocks : List (BitVec 64 × Nat)
  deriving DecidableEq, Repr

/-- internal/prutal/span.go:35-40 (`init`), on a new decoder. -/
def init (gc : Nat → BitVec 64) (blocks : List (BitVec 64 × Nat)) : Arena :=
  { p := 0, b := gc blocks.length, n := spanSize, blocks := blocks ++ [(gc blocks.length, spanSize)] }

/-- internal/prutal/span.go:44-52: make room for `n` bytes. -/
def ensure (gc : Nat → BitVec 64) (s : Arena) (n align : Nat) : Arena :=
  let mask := align - 1
  if s.p + n + mask > s.n then
    let sz := if n + mask > spanSize then n + mask else spanSize
    { p := 0, b := gc s.blocks.length, n := sz, blocks := s.blocks ++ [(gc s.blocks.length, sz)] }
  else s

/-- internal/prutal/span.go:53-57: carve out the next `n` bytes. -/
def carve (s : Arena) (n align : Nat) : BitVec 64 × Arena :=
  let mask := BitVec.ofNat 64 (align - 1)
  let ret := s.b + BitVec.ofNat 64 s.p
  let off := ((ret + mask) &&& ~~~mask) - ret
  (ret + off, { s with p := s.p + (n + off.toNat) })

/-- internal/prutal/span.go:42-58 (`span.Malloc`). -/
def spanMalloc (gc : Nat → BitVec 64) (s : Arena) (n align : Nat) : BitVec 64 × Arena :=
  carve (ensure gc s n align) n align

/-- A request: size, alignment, and whether the type has pointers (`abiType != 0`). -/
structure Req where
  n : Nat
  align : Nat
  scan : Bool
  deriving DecidableEq, Repr

/-- internal/prutal/decoder.go:45-51 (`Decoder.Malloc`). -/
def malloc (gc : Nat → BitVec 64) (s : Arena) (r : Req) : BitVec 64 × Arena :=
  if r.n > spanSize / 4 ∨ r.scan = true then
    (gc s.blocks.length, { s with blocks := s.blocks ++ [(gc s.blocks.length, r.n)] })
  else spanMalloc gc s r.n r.align

/-- A sequence of requests; the addresses returned, in order. -/
def run (gc : Nat → BitVec 64) : Arena → List Req → List (BitVec 64) × Arena
  | s, [] => ([], s)
  | s, r :: rs =>
    let (a, s) := malloc gc s r
    let (as, s) := run gc s rs
    (a :: as, s)

end Verif.Model.Arena
