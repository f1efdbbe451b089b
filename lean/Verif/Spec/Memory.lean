import Verif.Model.MemDecoder
import Verif.Spec.Schema
/-!
# Messages in memory

What it means that memory holds a message (without sharing), and which memory belongs to a message
in the sense that storing into the message may write to it.
-/
namespace Verif.Spec
open Verif.Model Verif.Model.Mem

/-- A set of memory blocks. -/
abbrev Blocks := Nat → Prop

mutual
/-- `MemRep h v t K`: the value `v` in memory `h` is the tree `t`, all blocks it refers to are in `K`,
and no block is referred to twice. -/
inductive MemRep (h : Store) : MVal → Val → Blocks → Prop
  | w32 (v : BitVec 32) (K : Blocks) : MemRep h (.w32 v) (.w32 v) K
  | w64 (v : BitVec 64) (K : Blocks) : MemRep h (.w64 v) (.w64 v) K
  | bool (b : Bool) (K : Blocks) : MemRep h (.bool b) (.bool b) K
  | opaque (n : Nat) (K : Blocks) : MemRep h (.opaque n) (.opaque n) K
  | undef (K : Blocks) : MemRep h .undef .undef K
  | strNil (K : Blocks) : MemRep h (.str none) (.str []) K
  | str (v : View) (s : Bytes) (K : Blocks) :
      h.read v = .ok s → K v.addr → MemRep h (.str (some v)) (.str s) K
  | bytesNil (K : Blocks) : MemRep h (.bytes none) (.bytes none) K
  | bytes (v : View) (s : Bytes) (K : Blocks) :
      h.read v = .ok s → K v.addr → MemRep h (.bytes (some v)) (.bytes (some s)) K
  | ptrNil (K : Blocks) : MemRep h (.ptr none) (.ptr none) K
  | ptr (a : Nat) (v : MVal) (t : Val) (F K : Blocks) :
      h.mem a = .object v → MemRep h v t F → ¬ F a → K a → (∀ x, F x → K x) →
      MemRep h (.ptr (some a)) (.ptr (some t)) K
  | sliceNil (K : Blocks) : MemRep h (.slice none 0) (.slice []) K
  | slice (a len : Nat) (xs : List MVal) (ts : List Val) (F K : Blocks) :
      h.mem a = .array xs → len ≤ xs.length → MemRepList h (xs.take len) ts F → ¬ F a → K a →
      (∀ x, F x → K x) → MemRep h (.slice (some a) len) (.slice ts) K
  | mapNil (K : Blocks) : MemRep h (.map none) (.map none) K
  | map (a : Nat) (es : List (MVal × MVal)) (ts : List (Key × Val)) (F K : Blocks) :
      h.mem a = .table es → MemRepTable h es ts F → ¬ F a → K a → (∀ x, F x → K x) →
      MemRep h (.map (some a)) (.map (some ts)) K
  | struct (fs : List MVal) (ts : List Val) (K : Blocks) :
      MemRepList h fs ts K → MemRep h (.struct fs) (.struct ts) K
  | ifaceNil (K : Blocks) : MemRep h (.iface none) (.iface none) K
  | ifaceNilPtr (w : Nat) (K : Blocks) :
      MemRep h (.iface (some (w, none))) (.iface (some (w, none))) K
  | iface (w a : Nat) (v : MVal) (t : Val) (F K : Blocks) :
      h.mem a = .object v → MemRep h v t F → ¬ F a → K a → (∀ x, F x → K x) →
      MemRep h (.iface (some (w, some a))) (.iface (some (w, some t))) K
/-- `MemRep` of the elements of a list. -/
inductive MemRepList (h : Store) : List MVal → List Val → Blocks → Prop
  | nil (K : Blocks) : MemRepList h [] [] K
  | cons (v : MVal) (t : Val) (vs : List MVal) (ts : List Val) (F G K : Blocks) :
      MemRep h v t F → MemRepList h vs ts G → (∀ x, F x → ¬ G x) → (∀ x, F x → K x) →
      (∀ x, G x → K x) → MemRepList h (v :: vs) (t :: ts) K
/-- `MemRep` of the entries of a map. -/
inductive MemRepTable (h : Store) : List (MVal × MVal) → List (Key × Val) → Blocks → Prop
  | nil (K : Blocks) : MemRepTable h [] [] K
  | cons (k : MVal) (c : Key) (v : MVal) (t : Val) (es : List (MVal × MVal))
      (ts : List (Key × Val)) (E F G K : Blocks) :
      MemRep h k c.toVal E → MemRep h v t F → MemRepTable h es ts G → (∀ x, E x → ¬ F x) →
      (∀ x, E x → ¬ G x) → (∀ x, F x → ¬ G x) → (∀ x, E x → K x) → (∀ x, F x → K x) →
      (∀ x, G x → K x) → MemRepTable h ((k, v) :: es) ((c, t) :: ts) K
end

mutual
/-- A Go value that refers to no memory: a scalar or a zero value. -/
def flat : Val → Bool
  | .w32 _ | .w64 _ | .bool _ | .opaque _ | .undef => true
  | .str s => s.isEmpty
  | .bytes s => s.isNone
  | .ptr p => p.isNone
  | .slice xs => xs.isEmpty
  | .map m => m.isNone
  | .struct fs => flats fs
  | .iface x => x.isNone
/-- `flat` of the fields of a struct. -/
def flats : List Val → Bool
  | [] => true
  | v :: vs => flat v && flats vs
end

/-- The spare capacity (between length and capacity) of the lists of inline structs in `v`, a value
of type `t`, is zero.  Memory behind pointers does not matter. -/
inductive SpareZero (h : Store) (S : Schema) : GoType → MVal → Prop
  | list (te : GoType) (v : MVal) :
      (∀ a len xs id, v = .slice (some a) len → te = .struct id → h.mem a = .array xs →
        ∀ x ∈ xs.drop len, x = ofFlat (S id).zero) → SpareZero h S (.slice te) v
  | struct (id : Nat) (v : MVal) :
      (∀ fs, v = .struct fs → ∀ f ∈ (S id).fields, f.member = none → ∀ x, fs[f.slot]? = some x →
        SpareZero h S f.shape.goType x) → SpareZero h S (.struct id) v
  | other (t : GoType) (v : MVal) :
      (∀ te, t ≠ .slice te) → (∀ id, t ≠ .struct id) → SpareZero h S t v

/-- The value `v` holds the address of block `x`. -/
inductive MemRefers : MVal → Nat → Prop
  | str (v : View) : MemRefers (.str (some v)) v.addr
  | bytes (v : View) : MemRefers (.bytes (some v)) v.addr
  | ptr (a : Nat) : MemRefers (.ptr (some a)) a
  | slice (a len : Nat) : MemRefers (.slice (some a) len) a
  | map (a : Nat) : MemRefers (.map (some a)) a
  | iface (w a : Nat) : MemRefers (.iface (some (w, some a))) a
  | field (fs : List MVal) (v : MVal) (x : Nat) : v ∈ fs → MemRefers v x → MemRefers (.struct fs) x

/-- A block holds the address of block `x`. -/
inductive BlockRefers : Block → Nat → Prop
  | object (v : MVal) (x : Nat) : MemRefers v x → BlockRefers (.object v) x
  | array (ys : List MVal) (y : MVal) (x : Nat) : y ∈ ys → MemRefers y x → BlockRefers (.array ys) x
  | key (es : List (MVal × MVal)) (k v : MVal) (x : Nat) : (k, v) ∈ es → MemRefers k x →
      BlockRefers (.table es) x
  | val (es : List (MVal × MVal)) (k v : MVal) (x : Nat) : (k, v) ∈ es → MemRefers v x →
      BlockRefers (.table es) x

/-- Block `x` can be reached from value `v`, also through spare capacity. -/
inductive MemReaches (h : Store) (v : MVal) : Nat → Prop
  | here (x : Nat) : MemRefers v x → MemReaches h v x
  | step (a x : Nat) : MemReaches h v a → BlockRefers (h.mem a) x → MemReaches h v x

/-- The memory that belongs to a value `v` of type `t` itself is in `W`: the arrays of its lists, its
maps and its storage for unknown fields, also those of inline structs, but nothing behind pointers
(except the storage for unknown fields), and no strings or `[]byte`. -/
inductive OwnIn (W : Blocks) (S : Schema) : GoType → MVal → Prop
  | list (te : GoType) (v : MVal) :
      (∀ a len, v = .slice (some a) len → W a) → OwnIn W S (.slice te) v
  | map (k e : GoType) (v : MVal) : (∀ a, v = .map (some a) → W a) → OwnIn W S (.map k e) v
  | struct (id : Nat) (v : MVal) :
      (∀ fs, v = .struct fs → ∀ f ∈ (S id).fields, f.member = none → ∀ x, fs[f.slot]? = some x →
        OwnIn W S f.shape.goType x) →
      (∀ fs, v = .struct fs → ∀ slot u, (S id).unknown = some (slot, false) →
        fs[slot]? = some (.bytes (some u)) → W u.addr) →
      (∀ fs, v = .struct fs → ∀ slot a, (S id).unknown = some (slot, true) →
        fs[slot]? = some (.ptr (some a)) → W a) →
      OwnIn W S (.struct id) v
  | other (t : GoType) (v : MVal) : (∀ te, t ≠ .slice te) → (∀ k e, t ≠ .map k e) →
      (∀ id, t ≠ .struct id) → OwnIn W S t v

/-- `W` is closed: with the `*[]byte` variable of unknown fields it contains their bytes, and with an
array of inline structs all that the structs refer to. -/
def OwnClosed (W : Blocks) (h : Store) : Prop :=
  (∀ a u, W a → h.mem a = .object (.bytes (some u)) → W u.addr) ∧
  (∀ a ys, W a → h.mem a = .array ys → ∀ fs, .struct fs ∈ ys → ∀ x, MemRefers (.struct fs) x → W x)

/-- The numbers of the blocks that are allocated from now on. -/
inductive Coming (h : Store) : Nat → Prop
  | next : Coming h h.next
  | after (x : Nat) : Coming h x → Coming h (h.after x)

/-- The number of the next new block after `k` allocations. -/
def allotted (h : Store) : Nat → Nat
  | 0 => h.next
  | k + 1 => h.after (allotted h k)

/-- Memory that is not allocated yet holds nothing. -/
def Unused (h : Store) : Prop := ∀ x, h.next ≤ x → h.mem x = .bytes []

end Verif.Spec
