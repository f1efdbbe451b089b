import Verif.Model.Goroutines
import Verif.Spec.Memory
/-!
# Calls in several goroutines

What it means that programs keep to their memory and do not race, and when calls of `Unmarshal` in
several goroutines are independent of each other.
-/
namespace Verif.Spec
open Verif.Model Verif.Model.Mem

/-- Started on memory `h`, the program reads only blocks of `R` and writes only blocks of `W`; new
blocks are in `W`. -/
def KeepsTo {α : Type} (W R : Blocks) : Prog α → Store → Prop
  | .done _, _ => True
  | .read a k, h => R a ∧ KeepsTo W R (k (h.mem a)) h
  | .write a b k, h => W a ∧ KeepsTo W R k (h.set a b)
  | .alloc b k, h => W h.next ∧ KeepsTo W R (k h.next) { h.set h.next b with next := h.after h.next }
  | .slack n k, h => KeepsTo W R (k (h.slack n)) h

/-- The next step of goroutine `i` reads block `x`. -/
def Reads (m : Machine) (i x : Nat) : Prop := ∃ k, (m.procs i).prog = .read x k

/-- The next step of goroutine `i` writes block `x`. -/
def Writes (m : Machine) (i x : Nat) : Prop :=
  (∃ b k, (m.procs i).prog = .write x b k) ∨ (∃ b k, (m.procs i).prog = .alloc b k ∧ x = (m.procs i).next)

/-- Two goroutines are about to access the same block, at least one of them to write it. -/
def Race (m : Machine) : Prop := ∃ i j x, i ≠ j ∧ Writes m i x ∧ (Writes m j x ∨ Reads m j x)

/-- The goroutine has returned `r`. -/
def Returned (m : Machine) (i : Nat) (r : Res Unit) : Prop := (m.procs i).prog = .done r

/-- A call of `Unmarshal`: the type and the address of the message, the input, the memory that belongs
to the message itself (see `OwnIn`); and the message and the input as they are before. -/
structure Call where
  id : Nat
  addr : Nat
  view : View
  own : Blocks
  val : MVal
  tree : Val
  bytes : Bytes

/-- What the goroutine does. -/
def Call.prog (env : GoEnv) (c : Call) : Prog Unit := unmarshalP env c.view (.ptr c.id (some c.addr))

/-- The blocks that a call may write: the message, the memory that belongs to it, new memory. -/
def Call.writes (c : Call) (h : Store) : Blocks := fun x => x = c.addr ∨ c.own x ∨ Coming h x

/-- The blocks that a call may read: the message, the input, all that the message refers to, new
memory. -/
def Call.reads (c : Call) (h : Store) : Blocks :=
  fun x => x = c.addr ∨ x = c.view.addr ∨ MemReaches h c.val x ∨ Coming h x

/-- The call is as `C70_content_partial` assumes: the message is a tree in memory, the input is not
part of it, and spare capacity is zero. -/
structure Call.Fits (c : Call) (S : Schema) (h : Store) : Prop where
  message : h.mem c.addr = .object c.val
  content : ∃ F, MemRep h c.val c.tree F ∧ ∀ x, F x → x < h.next ∧ x ≠ c.addr ∧ x ≠ c.view.addr
  old : c.addr < h.next ∧ c.view.addr < h.next
  apart : c.view.addr ≠ c.addr
  input : h.read c.view = .ok c.bytes
  spare : SpareZero h S (.struct c.id) c.val
  own : OwnIn c.own S (.struct c.id) c.val
  closed : OwnClosed c.own h
  unused : ∀ x, Coming h x → h.mem x = .bytes []

/-- Every goroutine of the machine is about to call `Unmarshal` or does nothing, and no call writes
memory that another one reads or writes.  (Calls may share memory that none of them writes, for
example inputs and strings.) -/
structure Independent (env : GoEnv) (S : Schema) (m : Machine) (calls : Nat → Option Call) : Prop where
  idle : ∀ i, calls i = none → ∃ r, (m.procs i).prog = .done r
  call : ∀ i c, calls i = some c → (m.procs i).prog = c.prog env ∧ c.Fits S (m.store i)
  apart : ∀ i j c c', i ≠ j → calls i = some c → calls j = some c' → ∀ x, c.writes (m.store i) x →
    ¬ c'.writes (m.store j) x ∧ ¬ c'.reads (m.store j) x

end Verif.Spec
