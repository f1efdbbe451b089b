/-!
# Basic types shared by specification and model

Bytes are 8-bit words, buffers (`[]byte` in Go) are lists of bytes.  Go's `uint32`/`int32` and
`uint64`/`int64` are `BitVec 32` and `BitVec 64` (two's complement, wrap-around).
-/
namespace Verif

/-- Go's `byte`. -/
abbrev Byte := BitVec 8
/-- Go's `[]byte` seen as a value (contents only). -/
abbrev Bytes := List Byte

/-- Results can be compared, so that concrete runs can be checked with `decide`. -/
instance {ε α : Type} [DecidableEq ε] [DecidableEq α] : DecidableEq (Except ε α)
  | .ok a, .ok b => if h : a = b then .isTrue (by rw [h]) else .isFalse (fun e => by injection e; contradiction)
  | .error a, .error b => if h : a = b then .isTrue (by rw [h]) else .isFalse (fun e => by injection e; contradiction)
  | .ok _, .error _ => .isFalse (fun e => by cases e)
  | .error _, .ok _ => .isFalse (fun e => by cases e)

end Verif
