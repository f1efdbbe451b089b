/-!
# Specification: lines, lists and blanks in text
-/
namespace Verif.Spec.Gen

/-- `p` is one of the pieces of `s` between separators. -/
def Piece (sep : Char) (p s : List Char) : Prop :=
  ∃ a b, s = a ++ p ++ b ∧ sep ∉ p ∧ (a = [] ∨ ∃ a', a = a' ++ [sep]) ∧ (b = [] ∨ ∃ b', b = sep :: b')

/-- Unicode white space. -/
def Blank (c : Char) : Prop :=
  (9 ≤ c.toNat ∧ c.toNat ≤ 13) ∨ c.toNat = 32 ∨ c.toNat = 0x85 ∨ c.toNat = 0xA0 ∨ c.toNat = 0x1680 ∨
  (0x2000 ≤ c.toNat ∧ c.toNat ≤ 0x200a) ∨ c.toNat = 0x2028 ∨ c.toNat = 0x2029 ∨ c.toNat = 0x202f ∨ c.toNat = 0x205f ∨
  c.toNat = 0x3000

/-- `t` is `s` without the white space around it. -/
def Trimmed (s t : List Char) : Prop :=
  ∃ a b, s = a ++ t ++ b ∧ (∀ c ∈ a, Blank c) ∧ (∀ c ∈ b, Blank c) ∧
    (∀ c r, t = c :: r → ¬ Blank c) ∧ (∀ c r, t = r ++ [c] → ¬ Blank c)

/-- A comment carries a directive: one of its lines is `//prutalgen:` followed by a list, separated by commas, that has the
directive in it. -/
def Carries (comment d : List Char) : Prop :=
  d ≠ [] ∧ ∃ line rest item, Piece '\n' line comment ∧ Trimmed line ("//prutalgen:".toList ++ rest) ∧
    Piece ',' item rest ∧ Trimmed item d

end Verif.Spec.Gen
