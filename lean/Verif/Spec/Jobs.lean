import Verif.Spec.MemEncode
import Verif.Model.MemSizer
/-!
# Calls of Marshal, Size and Unmarshal in several goroutines
-/
namespace Verif.Spec
open Verif.Model Verif.Model.Mem

/-- A call of `MarshalAppend` (`Marshal` if the buffer is nil) whose result is assigned to a variable:
the order in which it iterates over maps, the buffer, the argument and the address of the variable; and
the blocks of the message, the bytes of the buffer and the message as they are before. -/
structure MarshalCall where
  order : Order
  dst : Out
  arg : MArg
  out : Nat
  blocks : Blocks
  bytes : Bytes
  tree : Arg

/-- A call of `Size` whose result is assigned to a variable. -/
structure SizeCall where
  order : Order
  arg : MArg
  out : Nat
  blocks : Blocks
  tree : Arg

/-- What a goroutine calls. -/
inductive Job
  | unmarshal (c : Call)
  | marshal (c : MarshalCall)
  | size (c : SizeCall)

/-- What the goroutine does. -/
def Job.prog (env : GoEnv) : Job → Prog Unit
  | .unmarshal c => c.prog env
  | .marshal c => do
    let d ← marshalAppendP env c.order c.dst c.arg
    putP c.out (.object (.bytes d))
  | .size c => do
    let n ← sizeP env c.order c.arg
    putP c.out (.object (.w64 (BitVec.ofNat 64 n)))

/-- The blocks that a call may write: the variable for the result, and for `MarshalAppend` the buffer
and new memory. -/
def Job.writes (h : Store) : Job → Blocks
  | .unmarshal c => c.writes h
  | .marshal c => fun x => x = c.out ∨ OutBlocks h c.dst x
  | .size c => fun x => x = c.out

/-- The blocks that a call may read: the message, and for `MarshalAppend` the buffer and new memory. -/
def Job.reads (h : Store) : Job → Blocks
  | .unmarshal c => c.reads h
  | .marshal c => fun x => c.blocks x ∨ OutBlocks h c.dst x
  | .size c => Headers h c.blocks

/-- The call is one of those that `C70_content_partial`, `C89_append` and `C90_size` are about; the
variable for the result is not the memory of the buffer. -/
def Job.Fits (S : Schema) (h : Store) : Job → Prop
  | .unmarshal c => c.Fits S h
  | .marshal c => AppendCall h c.order c.blocks c.dst c.bytes c.arg c.tree ∧ ¬ OutBlocks h c.dst c.out
  | .size c => ArgShows h c.order c.blocks c.arg c.tree

/-- Every goroutine of the machine is about to make its call or does nothing, and no call writes memory
that another one reads or writes.  (Any number of calls may read the same message.) -/
structure Compatible (env : GoEnv) (S : Schema) (m : Machine) (jobs : Nat → Option Job) : Prop where
  idle : ∀ i, jobs i = none → ∃ r, (m.procs i).prog = .done r
  job : ∀ i j, jobs i = some j → (m.procs i).prog = j.prog env ∧ j.Fits S (m.store i)
  apart : ∀ i i' j j', i ≠ i' → jobs i = some j → jobs i' = some j' → ∀ x, j.writes (m.store i) x →
    ¬ j'.writes (m.store i') x ∧ ¬ j'.reads (m.store i') x

end Verif.Spec
