/-!
# Model of prutalgen/internal/protobuf/strs/strings.go

Strings are lists of characters.  Simplification: Go works on bytes; the functions copy bytes that are not ASCII as
they are, so treating them as (parts of) characters makes no difference.
-/
namespace Verif.Model.Gen

/-- prutalgen/internal/protobuf/strs/strings.go:177-179 (`isASCIILower`). -/
def isLower (c : Char) : Bool := 97 ≤ c.toNat && c.toNat ≤ 122

/-- prutalgen/internal/protobuf/strs/strings.go:180-182 (`isASCIIUpper`). -/
def isUpper (c : Char) : Bool := 65 ≤ c.toNat && c.toNat ≤ 90

/-- prutalgen/internal/protobuf/strs/strings.go:183-185 (`isASCIIDigit`). -/
def isDigit (c : Char) : Bool := 48 ≤ c.toNat && c.toNat ≤ 57

/-- `c -= 'a' - 'A'` (strings.go:46-48). -/
def toUpper (c : Char) : Char := if isLower c then Char.ofNat (c.toNat - 32) else c

/-- `i+1 < len(s) && isASCIILower(s[i+1])`. -/
def nextLower : List Char → Bool
  | c :: _ => isLower c
  | [] => false

/-- prutalgen/internal/protobuf/strs/strings.go:27-55, the loop of `GoCamelCase`: `prev` is `s[i-1]`; `word` is set while the
inner loop (52-54) is accepting lower case letters. -/
def camelLoop : Option Char → Bool → List Char → List Char
  | _, _, [] => []
  | prev, word, c :: s =>
    if word && isLower c then c :: camelLoop (some c) true s
    else if c = '.' && nextLower s then camelLoop (some c) false s
    else if c = '.' then '_' :: camelLoop (some c) false s
    else if c = '_' && (prev = none || prev = some '.') then 'X' :: camelLoop (some c) false s
    else if c = '_' && nextLower s then camelLoop (some c) false s
    else if isDigit c then c :: camelLoop (some c) false s
    else toUpper c :: camelLoop (some c) true s

/-- prutalgen/internal/protobuf/strs/strings.go:21-57 (`GoCamelCase`). -/
def goCamelCase (s : List Char) : List Char := camelLoop none false s

end Verif.Model.Gen
