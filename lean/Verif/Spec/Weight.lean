import Verif.Model.Value
/-!
# Specification: how much a value holds

The memory a Go value needs besides the struct or variable it is stored in, up to the sizes of Go
types: one unit for each byte of a string or `[]byte`, each element of a list, each entry of a map
and each variable behind a pointer or in a oneof.
-/
namespace Verif.Spec
open Verif.Model (Val Key)

/-- The bytes of a key that is a string. -/
def keyWeight : Key → Nat
  | .str s => s.length
  | _ => 0

mutual
/-- What a value holds. -/
def weight : Val → Nat
  | .str s => s.length
  | .bytes (some s) => s.length
  | .ptr (some v) => 1 + weight v
  | .slice xs => xs.length + weights xs
  | .map (some m) => m.length + weightEntries m
  | .struct fs => weights fs
  | .iface (some (_, some v)) => 1 + weight v
  | _ => 0
/-- What a list of values holds. -/
def weights : List Val → Nat
  | [] => 0
  | v :: vs => weight v + weights vs
/-- What the entries of a map hold. -/
def weightEntries : List (Key × Val) → Nat
  | [] => 0
  | (k, v) :: m => keyWeight k + weight v + weightEntries m
end

end Verif.Spec
