import Verif.Model.Api
/-!
# Reference programs: the codec without two of its optimisations

`unmarshalFresh` looks every field up afresh.  `slowDescs` takes the specialised map functions out
of all descriptors, so that the generic code is used for every map.
-/
namespace Verif.Spec
open Verif.Model

/-! ## Unmarshal without the one-entry field cache -/

/-- The loop over the records, never passing the field of the last record on. -/
def decodeLoopFresh (D : Descs) (rec : DecRec) (s : StructDesc) (depth : Int) :
    Nat → Bytes → List Val → Res (List Val)
  | _, [], fs => .ok fs
  | 0, _ :: _, _ => .error .panic
  | fuel + 1, b@(_ :: _), fs => do
    let (fs, n, _) ← decodeRecord D rec s depth b fs none
    decodeLoopFresh D rec s depth fuel (b.drop n) fs

/-- Decoding a struct, looking every field up afresh. -/
def decodeStructFresh (D : Descs) : Nat → Int → Bytes → Val → Nat → Res Val
  | 0, _, _, _, _ => .error .panic
  | fuel + 1, depth, b, v, sid =>
    if depth = 0 then .error .maxDepth
    else match v with
      | .struct fs => do
        let fs ← resetUnknown (D sid) fs
        let fs ← decodeLoopFresh D (decodeStructFresh D fuel) (D sid) depth b.length b fs
        return .struct fs
      | _ => .error .ub

/-- `Unmarshal`, looking every field up afresh. -/
def unmarshalFresh (env : GoEnv) (b : Bytes) : Arg → Res Val
  | .nil => .error .notPointer
  | .nonPtr => .error .notPointer
  | .ptrOther _ => .error .badType
  | .ptr sid v => do
    let D ← parseDescs env
    match v with
    | none => .error .panic
    | some v => decodeStructFresh D (b.length + 1) defaultRecursionMaxDepth b v sid

/-! ## the codec without specialised map functions -/

/-- A field descriptor without specialised map functions. -/
def slowField (f : FieldDesc) : FieldDesc := { f with appendMap := none, sizeMap := none, decodeMap := none }

/-- A descriptor table without specialised map functions. -/
def slowDescs (D : Descs) : Descs := fun i => { D i with fields := (D i).fields.map slowField }

/-- `MarshalAppend` with the generic code for every map. -/
def marshalAppendSlow (env : GoEnv) (b : Bytes) : Arg → Res Bytes
  | .nil => .error .notPointer
  | .nonPtr => .error .notPointer
  | .ptrOther _ => .error .badType
  | .ptr sid v => do
    let D ← parseDescs env
    appendStruct (slowDescs D) defaultRecursionMaxDepth b v sid false

/-- `Size` with the generic code for every map. -/
def sizeSlow (env : GoEnv) : Arg → Res Nat
  | .nil => .ok 0
  | .nonPtr => .error .notPointer
  | .ptrOther true => .ok 0
  | .ptrOther false => .error .badType
  | .ptr _ none => .ok 0
  | .ptr sid (some v) => do
    let D ← parseDescs env
    sizeStruct (slowDescs D) defaultRecursionMaxDepth (some v) sid

end Verif.Spec
