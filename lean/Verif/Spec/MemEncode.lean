import Verif.Model.MemEncoder
import Verif.Spec.Concurrent
/-!
# Messages in memory that are read

What it means that memory shows a message (with sharing: a block may be referred to any number of
times), and what a buffer that is appended to looks like afterwards.
-/
namespace Verif.Spec
open Verif.Model Verif.Model.Mem

mutual
/-- `MemShows h π K v t`: the value `v` in memory `h` is the tree `t`, and all blocks it refers to are in
`K`.  The entries of maps are listed in the order `π`. -/
inductive MemShows (h : Store) (π : Order) (K : Blocks) : MVal → Val → Prop
  | w32 (v : BitVec 32) : MemShows h π K (.w32 v) (.w32 v)
  | w64 (v : BitVec 64) : MemShows h π K (.w64 v) (.w64 v)
  | bool (b : Bool) : MemShows h π K (.bool b) (.bool b)
  | opaque (n : Nat) : MemShows h π K (.opaque n) (.opaque n)
  | undef : MemShows h π K .undef .undef
  | strNil : MemShows h π K (.str none) (.str [])
  | str (v : View) (s : Bytes) : h.read v = .ok s → K v.addr → MemShows h π K (.str (some v)) (.str s)
  | bytesNil : MemShows h π K (.bytes none) (.bytes none)
  | bytes (v : View) (s : Bytes) :
      h.read v = .ok s → K v.addr → MemShows h π K (.bytes (some v)) (.bytes (some s))
  | ptrNil : MemShows h π K (.ptr none) (.ptr none)
  | ptr (a : Nat) (v : MVal) (t : Val) : h.mem a = .object v → K a → MemShows h π K v t →
      MemShows h π K (.ptr (some a)) (.ptr (some t))
  | sliceNil : MemShows h π K (.slice none 0) (.slice [])
  | slice (a len : Nat) (xs : List MVal) (ts : List Val) : h.mem a = .array xs → K a → len ≤ xs.length →
      MemShowsList h π K (xs.take len) ts → MemShows h π K (.slice (some a) len) (.slice ts)
  | mapNil : MemShows h π K (.map none) (.map none)
  | map (a : Nat) (es : List (MVal × MVal)) (ts : List (Key × Val)) : h.mem a = .table es → K a →
      MemShowsTable h π K (π a es) ts → MemShows h π K (.map (some a)) (.map (some ts))
  | struct (fs : List MVal) (ts : List Val) :
      MemShowsList h π K fs ts → MemShows h π K (.struct fs) (.struct ts)
  | ifaceNil : MemShows h π K (.iface none) (.iface none)
  | ifaceNilPtr (w : Nat) : MemShows h π K (.iface (some (w, none))) (.iface (some (w, none)))
  | iface (w a : Nat) (v : MVal) (t : Val) : h.mem a = .object v → K a → MemShows h π K v t →
      MemShows h π K (.iface (some (w, some a))) (.iface (some (w, some t)))
/-- `MemShows` of the elements of a list. -/
inductive MemShowsList (h : Store) (π : Order) (K : Blocks) : List MVal → List Val → Prop
  | nil : MemShowsList h π K [] []
  | cons (v : MVal) (t : Val) (vs : List MVal) (ts : List Val) : MemShows h π K v t →
      MemShowsList h π K vs ts → MemShowsList h π K (v :: vs) (t :: ts)
/-- `MemShows` of the entries of a map. -/
inductive MemShowsTable (h : Store) (π : Order) (K : Blocks) :
    List (MVal × MVal) → List (Key × Val) → Prop
  | nil : MemShowsTable h π K [] []
  | cons (k : MVal) (c : Key) (v : MVal) (t : Val) (es : List (MVal × MVal)) (ts : List (Key × Val)) :
      MemShows h π K k c.toVal → MemShows h π K v t → MemShowsTable h π K es ts →
      MemShowsTable h π K ((k, v) :: es) ((c, t) :: ts)
end

/-- The order in which the entries are stored. -/
def stored : Order := fun _ es => es

/-- The argument of a call, and the message it is. -/
inductive ArgShows (h : Store) (π : Order) (K : Blocks) : MArg → Arg → Prop
  | nil : ArgShows h π K .nil .nil
  | nonPtr : ArgShows h π K .nonPtr .nonPtr
  | other (isNil : Bool) : ArgShows h π K (.ptrOther isNil) (.ptrOther isNil)
  | ptrNil (id : Nat) : ArgShows h π K (.ptr id none) (.ptr id none)
  | ptr (id a : Nat) (v : MVal) (t : Val) : h.mem a = .object v → K a → MemShows h π K v t →
      ArgShows h π K (.ptr id (some a)) (.ptr id (some t))

/-- The blocks of `K` that are not the bytes of strings or `[]byte` values. -/
def Headers (h : Store) (K : Blocks) : Blocks := fun x => K x ∧ ∀ b, h.mem x ≠ .bytes b

/-- The bytes of a `[]byte` that may be nil. -/
def Holds (h : Store) (dst : Out) (b : Bytes) : Prop :=
  match dst with
  | none => b = []
  | some v => h.read v = .ok b

/-- The capacity of a `[]byte` (0 for nil). -/
def capacity (h : Store) : Out → Nat
  | none => 0
  | some v => match h.mem v.addr with
    | .bytes blk => blk.length - v.off
    | _ => 0

/-- The blocks that appending to `dst` may write: that of `dst` and new ones. -/
def OutBlocks (h : Store) (dst : Out) : Blocks := fun x => (∃ v, dst = some v ∧ x = v.addr) ∨ Coming h x

/-- The memory of the buffer `dst` up to its length is as before. -/
def KeptUpTo (h h' : Store) (dst : Out) : Prop :=
  ∀ v blk, dst = some v → h.mem v.addr = .bytes blk →
    ∃ blk', h'.mem v.addr = .bytes blk' ∧ blk'.length = blk.length ∧
      blk'.take (v.off + v.len) = blk.take (v.off + v.len)

/-- The slice `dst'` with `n` bytes is where Go's `append` leaves it when it is given `dst`: in the same
memory if the capacity suffices, else in new memory (nil if nothing is appended to nil). -/
def AppendedTo (h : Store) (dst dst' : Out) (n : Nat) : Prop :=
  match dst with
  | none => if n = 0 then dst' = none else ∃ v, dst' = some v ∧ Coming h v.addr
  | some v =>
    if n ≤ capacity h dst then ∃ v', dst' = some v' ∧ v'.addr = v.addr ∧ v'.off = v.off
    else ∃ v', dst' = some v' ∧ Coming h v'.addr

/-- A call of `MarshalAppend` with the buffer `dst`, which holds `b`, and the argument `a`, which is the
message `t` in the blocks `K`.  The buffer is no part of the message. -/
structure AppendCall (h : Store) (π : Order) (K : Blocks) (dst : Out) (b : Bytes) (a : MArg) (t : Arg) : Prop where
  arg : ArgShows h π K a t
  buffer : Holds h dst b
  old : ∀ v, dst = some v → ¬ Coming h v.addr
  apart : ∀ x, K x → ¬ OutBlocks h dst x

end Verif.Spec
