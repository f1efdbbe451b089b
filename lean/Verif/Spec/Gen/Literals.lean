/-!
# Specification: integer literals of the protobuf language
-/
namespace Verif.Spec.Gen

/-- `c` is the digit `v` (at most hexadecimal). -/
def IsDigit (c : Char) (v : Nat) : Prop :=
  (c.toNat = '0'.toNat + v ∧ v ≤ 9) ∨ (c.toNat + 10 = 'a'.toNat + v ∧ 10 ≤ v ∧ v ≤ 15) ∨
    (c.toNat + 10 = 'A'.toNat + v ∧ 10 ≤ v ∧ v ≤ 15)

/-- `s` is `v` written in base `b`. -/
inductive Digits (b : Nat) : List Char → Nat → Prop
  | nil : Digits b [] 0
  | snoc (s : List Char) (v : Nat) (c : Char) (d : Nat) : Digits b s v → IsDigit c d → d < b → Digits b (s ++ [c]) (v * b + d)

/-- An integer literal and its value: decimal (not starting with 0), octal (starting with 0), hexadecimal (starting with 0x). -/
inductive IntLit : List Char → Nat → Prop
  | decimal (c : Char) (s : List Char) (v : Nat) : c ≠ '0' → Digits 10 (c :: s) v → IntLit (c :: s) v
  | octal (s : List Char) (v : Nat) : Digits 8 s v → IntLit ('0' :: s) v
  | hex (x : Char) (s : List Char) (v : Nat) : x = 'x' ∨ x = 'X' → s ≠ [] → Digits 16 s v → IntLit ('0' :: x :: s) v

end Verif.Spec.Gen
