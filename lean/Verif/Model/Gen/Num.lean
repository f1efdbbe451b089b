import Verif.Model.Gen.Options
/-!
# Model of prutalgen/internal/protobuf/text/decode_number.go and the readers of integer literals

Strings are lists of characters.
-/
namespace Verif.Model.Gen

/-- The value of a digit in Go's `strconv.ParseUint` (which takes letters in both cases). -/
def digitVal (c : Char) : Nat :=
  if 48 ≤ c.toNat ∧ c.toNat ≤ 57 then c.toNat - 48
  else if 97 ≤ c.toNat ∧ c.toNat ≤ 122 then c.toNat - 97 + 10
  else if 65 ≤ c.toNat ∧ c.toNat ≤ 90 then c.toNat - 65 + 10
  else 36

/-- Go's `strconv.ParseUint(s, base, _)` on a non-empty string, before the check of the range: the loop
`n = n*base + d`.  Simplification: the wrap-around checks of the loop are replaced by unbounded numbers and one check at the end. -/
def parseDigits (base : Nat) : Nat → Str → Option Nat
  | n, [] => some n
  | n, c :: s => if digitVal c < base then parseDigits base (n * base + digitVal c) s else none

/-- Go's `strconv.ParseInt(s, 10, 32)`, for a string without sign. -/
def parseInt10 (s : Str) : Option Int :=
  if s = [] then none
  else
    match parseDigits 10 0 s with
    | some n => if n < 2 ^ 31 then some n else none
    | none => none

/-- Go's `strconv.ParseInt(s, 0, 32)`, for a string without sign and without `0b`, `0o` or `_`. -/
def parseInt0 (s : Str) : Option Int :=
  let r :=
    match s with
    | [] => none
    | ['0'] => some 0
    | '0' :: c :: rest =>
      if (c = 'x' ∨ c = 'X') ∧ rest ≠ [] then parseDigits 16 0 rest else parseDigits 8 0 (c :: rest)
    | s => parseDigits 10 0 s
  match r with
  | some n => if n < 2 ^ 31 then some n else none
  | none => none

/-- prutalgen/internal/protobuf/text/decode.go:669-674 (`isDelim`). -/
def isDelim (c : Char) : Bool :=
  !(c = '-' || c = '+' || c = '.' || c = '_' || (97 ≤ c.toNat && c.toNat ≤ 122) || (65 ≤ c.toNat && c.toNat ≤ 90) ||
    (48 ≤ c.toNat && c.toNat ≤ 57))

/-- `'0' <= c && c <= '9'`, `'7'`, and hexadecimal digits. -/
def isDec (c : Char) : Bool := 48 ≤ c.toNat && c.toNat ≤ 57
def isOct (c : Char) : Bool := 48 ≤ c.toNat && c.toNat ≤ 55
def isHex (c : Char) : Bool := isDec c || (97 ≤ c.toNat && c.toNat ≤ 102) || (65 ≤ c.toNat && c.toNat ≤ 70)

/-- prutalgen/internal/protobuf/text/decode_number.go:76-204 (`parseNumber`) on input without a sign: what the number is and what
follows, for integers.  Simplification: the cases in which the number is a float, or no number, both give `none`;
the caller (`UnmarshalI32`) fails in both. -/
def parseNumber (s : Str) : Option (Str × Str) :=
  let finish (num rest : Str) : Option (Str × Str) :=
    match rest with
    | [] => some (num, [])
    | c :: _ => if isDelim c then some (num, rest) else none
  match s with
  | [] => none
  | '0' :: [] => some (['0'], [])
  | '0' :: c :: rest =>
    if c = 'x' ∨ c = 'X' then
      if rest.takeWhile isHex = [] then none else finish ('0' :: c :: rest.takeWhile isHex) (rest.dropWhile isHex)
    else if isOct c then finish ('0' :: c :: rest.takeWhile isOct) (rest.dropWhile isOct)
    else finish ['0'] (c :: rest)
  | c :: rest =>
    if isDec c then finish (c :: rest.takeWhile isDec) (rest.dropWhile isDec) else none

/-- prutalgen/internal/protobuf/text/decode_number.go:207-214 (`UnmarshalI32`) and decode_token.go:282-290 (`Token.Int32`). -/
def unmarshalI32 (s : Str) : Option Int :=
  match parseNumber s with
  | some (num, _) => parseInt0 num
  | none => none

/-- prutalgen/pkg/prutalgen/enum.go:188-195: the number of an enum value, from its literal and whether there is a `-`. -/
def enumValue (neg : Bool) (lit : Str) : Option Int :=
  match unmarshalI32 lit with
  | some n => some (if neg then -n else n)
  | none => none

/-- The end of a reserved range: none (`reserved 5`), `to max` or `to n`. -/
inductive RangeEnd where
  | single
  | max
  | lit (s : Str)

/-- prutalgen/pkg/prutalgen/reserved.go:57-74: a reserved range from its literals. -/
def oneRange (lo : Str) (hi : RangeEnd) : Option (Int × Int) :=
  match parseInt10 lo with
  | none => none
  | some i =>
    match hi with
    | .single => some (i, i)
    | .max => some (i, 2147483647)
    | .lit s =>
      match parseInt10 s with
      | some j => some (i, j)
      | none => none

end Verif.Model.Gen
