/-!
# Specification of string literals of the protobuf language

Bytes are natural numbers.
-/
namespace Verif.Spec.Gen

/-- The UTF-8 encoding of a Unicode scalar value. -/
def utf8 (n : Nat) : List Nat :=
  if n < 0x80 then [n]
  else if n < 0x800 then [0xC0 + n / 0x40, 0x80 + n % 0x40]
  else if n < 0x10000 then [0xE0 + n / 0x1000, 0x80 + n / 0x40 % 0x40, 0x80 + n % 0x40]
  else [0xF0 + n / 0x40000, 0x80 + n / 0x1000 % 0x40, 0x80 + n / 0x40 % 0x40, 0x80 + n % 0x40]

/-- Unicode scalar values: no surrogates. -/
def IsScalar (n : Nat) : Prop := n < 0xD800 ∨ (0xE000 ≤ n ∧ n < 0x110000)

/-- A hexadecimal digit and its value; octal digits are those with a value below 8. -/
inductive DigitIs : Nat → Nat → Prop
  | dec (v : Nat) : v < 10 → DigitIs (48 + v) v
  | lower (v : Nat) : 10 ≤ v → v < 16 → DigitIs (87 + v) v
  | upper (v : Nat) : 10 ≤ v → v < 16 → DigitIs (55 + v) v

/-- A string of digits in a base up to 16, and its value. -/
inductive NumberIs (base : Nat) : List Nat → Nat → Prop
  | one (c v : Nat) : DigitIs c v → v < base → NumberIs base [c] v
  | more (ds : List Nat) (n c v : Nat) : NumberIs base ds n → DigitIs c v → v < base → NumberIs base (ds ++ [c]) (n * base + v)

/-- The escapes of one letter: `\a \b \f \n \r \t \v \? \\ \' \"`. -/
def letterEscapes : List (Nat × Nat) :=
  [(97, 7), (98, 8), (102, 12), (110, 10), (114, 13), (116, 9), (118, 11), (63, 63), (92, 92), (39, 39), (34, 34)]

/-- The first byte is not a digit in the base. -/
def NoDigit (base : Nat) (s : List Nat) : Prop := ∀ c r v, s = c :: r → DigitIs c v → base ≤ v

/-- `LitBody q text value`: `text` is what follows the opening quote `q` of a literal, up to and including the closing quote, and `value` are the
bytes it denotes. -/
inductive LitBody (q : Nat) : List Nat → List Nat → Prop
  /-- the closing quote -/
  | done : LitBody q [q] []
  /-- a character that stands for itself -/
  | char (c : Nat) (r v : List Nat) : IsScalar c → c ≠ 0 → c ≠ 10 → c ≠ 92 → c ≠ q → LitBody q r v → LitBody q (utf8 c ++ r) (utf8 c ++ v)
  | letter (e x : Nat) (r v : List Nat) : (e, x) ∈ letterEscapes → LitBody q r v → LitBody q (92 :: e :: r) (x :: v)
  /-- one to three octal digits -/
  | oct (ds : List Nat) (n : Nat) (r v : List Nat) : NumberIs 8 ds n → ds.length ≤ 3 → n < 256 → (ds.length = 3 ∨ NoDigit 8 r) →
      LitBody q r v → LitBody q (92 :: ds ++ r) (n :: v)
  /-- `x` and one or two hexadecimal digits (`X` too in the grammar, see `C48_bigX_violated`) -/
  | hex (ds : List Nat) (n : Nat) (r v : List Nat) : NumberIs 16 ds n → ds.length ≤ 2 → (ds.length = 2 ∨ NoDigit 16 r) →
      LitBody q r v → LitBody q (92 :: 120 :: ds ++ r) (n :: v)
  /-- `u` and four, or `U` and eight, hexadecimal digits: a character -/
  | uni (l : Nat) (ds : List Nat) (n : Nat) (r v : List Nat) : NumberIs 16 ds n → (l = 117 ∧ ds.length = 4 ∨ l = 85 ∧ ds.length = 8) → IsScalar n →
      LitBody q r v → LitBody q (92 :: l :: ds ++ r) (utf8 n ++ v)
  /-- the same for the two halves of a UTF-16 pair -/
  | pair (l : Nat) (ds es : List Nat) (hi lo : Nat) (r v : List Nat) : NumberIs 16 ds (0xD800 + hi) → (l = 117 ∧ ds.length = 4 ∨ l = 85 ∧ ds.length = 8) →
      hi < 0x400 → NumberIs 16 es (0xDC00 + lo) → es.length = 4 → lo < 0x400 →
      LitBody q r v → LitBody q (92 :: l :: ds ++ (92 :: 117 :: es ++ r)) (utf8 (0x10000 + 0x400 * hi + lo) ++ v)

/-- A literal between quotes of one kind. -/
inductive IsLit : List Nat → List Nat → Prop
  | mk (q : Nat) (text value : List Nat) : q = 34 ∨ q = 39 → LitBody q text value → IsLit (q :: text) value

/-- A string constant: literals one after the other (the white space between them is not in the text the generator sees), the bytes of which
are put together. -/
inductive IsStr : List Nat → List Nat → Prop
  | one (t v : List Nat) : IsLit t v → IsStr t v
  | more (t v t' v' : List Nat) : IsLit t v → IsStr t' v' → IsStr (t ++ t') (v ++ v')

/-- An escape that exists for every byte: a backslash and three octal digits. -/
def escapeByte (n : Nat) : List Nat := [92, 48 + n / 64, 48 + n / 8 % 8, 48 + n % 8]

end Verif.Spec.Gen
