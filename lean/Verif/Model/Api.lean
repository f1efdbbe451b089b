import Verif.Model.Sizer
import Verif.Model.Decoder
/-!
# Model of internal/prutal/prutal.go and prutal.go: the exported functions
-/
namespace Verif.Model

/-- internal/prutal/errors.go:27 -/
def defaultRecursionMaxDepth : Nat := 1000

/-- The `interface{}` argument: nil, a non-pointer, a pointer to something that is not a struct, or
a (possibly nil) pointer to a struct of type `sid`. -/
inductive Arg
  | nil
  | nonPtr
  | ptrOther (isNil : Bool)
  | ptr (sid : Nat) (v : Option Val)

/-- internal/prutal/prutal.go:29-47 (`MarshalAppend`). -/
def marshalAppend (env : GoEnv) (b : Bytes) : Arg → Res Bytes
  | .nil => .error .notPointer
  | .nonPtr => .error .notPointer
  | .ptrOther _ => .error .badType
  | .ptr sid v => do
    let D ← parseDescs env
    appendStruct D defaultRecursionMaxDepth b v sid false

/-- prutal.go:31-33 (`Marshal`). -/
def marshal (env : GoEnv) (a : Arg) : Res Bytes := marshalAppend env [] a

/-- internal/prutal/prutal.go:50-71 (`Size`). -/
def size (env : GoEnv) : Arg → Res Nat
  | .nil => .ok 0
  | .nonPtr => .error .notPointer
  | .ptrOther true => .ok 0
  | .ptrOther false => .error .badType
  | .ptr _ none => .ok 0
  | .ptr sid (some v) => do
    let D ← parseDescs env
    sizeStruct D defaultRecursionMaxDepth (some v) sid

/-- internal/prutal/prutal.go:73-87 (`Unmarshal`): the new content of the struct pointed to.  With a
nil pointer the first access panics (if there is nothing to access, nothing happens: that case is
`panic` here too). -/
def unmarshal (env : GoEnv) (b : Bytes) : Arg → Res Val
  | .nil => .error .notPointer
  | .nonPtr => .error .notPointer
  | .ptrOther _ => .error .badType
  | .ptr sid v => do
    let D ← parseDescs env
    match v with
    | none => .error .panic
    | some v => decodeStruct D (b.length + 1) defaultRecursionMaxDepth b v sid

end Verif.Model
