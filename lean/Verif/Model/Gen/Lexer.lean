import Verif.Model.Gen.Comments
/-!
# Model of the lexer: from the characters of a proto file to its tokens

prutalgen/internal/parser/protobuf_lexer.go is generated from the lexical rules of prutalgen/internal/Protobuf.g4 and run by
prutalgen/internal/antlr/{lexer,lexer_atn_simulator}.go: at each place the rule that matches most characters wins, the first of them in the
grammar if there are several (`execATN`, lexer_atn_simulator.go:141-198); within `STR_LIT_SINGLE` and `COMMENT`, which are not greedy, the first end
counts (`getReachableConfigSet`, lexer_atn_simulator.go:274-307).  Where no rule matches, the characters read so far and the one that does not fit are
left out, with a message on the console (`safeMatch` and `Recover`, lexer.go:166-178, 416-426): the loader adds its own error listener to the
parser only (prutalgen/pkg/prutalgen/prutalgen.go:236-251).

The rules are written here as functions of the remaining characters, by the first character.  The type of a visible token is a function of its text
(see `Model/Gen/Grammar.lean`).  Simplifications: positions in lines are left out; the text is a list of characters (what is not UTF-8 is read as
U+FFFD by antlr).
-/
namespace Verif.Model.Gen

/-- prutalgen/internal/Protobuf.g4:612-614 (`WS`): the characters. -/
def isWsChar (c : Char) : Bool := c = ' ' || c = '\t' || c = '\r' || c = '\n' || c = '\x0c'

/-- prutalgen/internal/Protobuf.g4:594-596 (`LETTER`). -/
def isLetter (c : Char) : Bool := ('a' ≤ c && c ≤ 'z') || ('A' ≤ c && c ≤ 'Z') || c = '_'

/-- prutalgen/internal/Protobuf.g4:598-600 (`DECIMAL_DIGIT`). -/
def isDecChar (c : Char) : Bool := '0' ≤ c && c ≤ '9'

/-- prutalgen/internal/Protobuf.g4:602-604 (`OCTAL_DIGIT`). -/
def isOctChar (c : Char) : Bool := '0' ≤ c && c ≤ '7'

/-- prutalgen/internal/Protobuf.g4:606-608 (`HEX_DIGIT`). -/
def isHexChar (c : Char) : Bool := ('0' ≤ c && c ≤ '9') || ('a' ≤ c && c ≤ 'f') || ('A' ≤ c && c ≤ 'F')

/-- prutalgen/internal/Protobuf.g4:590-592 (`IDENTIFIER`): the characters after the first. -/
def isWordChar (c : Char) : Bool := isLetter c || isDecChar c

/-- prutalgen/internal/Protobuf.g4:469-527: the tokens of one character, except `DOT`. -/
def isSymbol (c : Char) : Bool :=
  c = ';' || c = '=' || c = '(' || c = ')' || c = '[' || c = ']' || c = '{' || c = '}' || c = '<' || c = '>' || c = ',' || c = ':' || c = '+' || c = '-'

/-- prutalgen/internal/Protobuf.g4:564-566: the digits of `EXPONENT`, with what stands before them. -/
def expDigits (before s : Str) : Str :=
  if s.takeWhile isDecChar = [] then [] else before ++ s.takeWhile isDecChar

/-- prutalgen/internal/Protobuf.g4:564-566 (`EXPONENT`), after the letter: empty if there is none. -/
def expAfter (e : Char) : Str → Str
  | [] => []
  | c :: s => if c = '+' ∨ c = '-' then expDigits [e, c] s else expDigits [e] (c :: s)

/-- prutalgen/internal/Protobuf.g4:564-566 (`EXPONENT`): the longest one at the beginning, empty if there is none. -/
def takeExp : Str → Str
  | [] => []
  | e :: s => if e = 'e' ∨ e = 'E' then expAfter e s else []

/-- prutalgen/internal/Protobuf.g4:582-588 (`OCTAL_LIT`, `HEX_LIT`) after the 0. -/
def zeroLit : Str → Str
  | [] => ['0']
  | x :: s =>
    if (x = 'x' ∨ x = 'X') ∧ s.takeWhile isHexChar ≠ [] then '0' :: x :: s.takeWhile isHexChar
    else '0' :: (x :: s).takeWhile isOctChar

/-- prutalgen/internal/Protobuf.g4:572-588 (`INT_LIT`) for a digit and what follows. -/
def intLit (c : Char) (s : Str) : Str :=
  if c = '0' then zeroLit s else c :: s.takeWhile isDecChar

/-- prutalgen/internal/Protobuf.g4:558-588: the longest of `FLOAT_LIT` and `INT_LIT`, given the decimal digits at the beginning and what follows
them; `int` is the longest `INT_LIT`. -/
def numberAfter (ds int : Str) : Str → Str
  | [] => int
  | c :: s =>
    if c = '.' then ds ++ '.' :: (s.takeWhile isDecChar ++ takeExp (s.dropWhile isDecChar))
    else if takeExp (c :: s) ≠ [] then ds ++ takeExp (c :: s)
    else int

/-- prutalgen/internal/Protobuf.g4:558-588: a number that begins with the digit `c`. -/
def numberLit (c : Char) (s : Str) : Str :=
  numberAfter (c :: s.takeWhile isDecChar) (intLit c s) (s.dropWhile isDecChar)

/-- prutalgen/internal/Protobuf.g4:509-511, 558-562: `DOT`, or a `FLOAT_LIT` that begins with a dot. -/
def dotLit (s : Str) : Str :=
  if s.takeWhile isDecChar = [] then ['.'] else '.' :: (s.takeWhile isDecChar ++ takeExp (s.dropWhile isDecChar))

/-- prutalgen/internal/Protobuf.g4:529-551: where in a string literal the lexer is.  `hex n` and `oct n`: that many digits are to come. -/
inductive StrState where
  | body | esc | hex (n : Nat) | oct (n : Nat)
  deriving DecidableEq

/-- prutalgen/internal/Protobuf.g4:549-551 (`CHAR_ESCAPE`). -/
def isCharEscape (c : Char) : Bool :=
  c = 'a' || c = 'b' || c = 'f' || c = 'n' || c = 'r' || c = 't' || c = 'v' || c = '\\' || c = '\'' || c = '"'

/-- prutalgen/internal/Protobuf.g4:529-551: the next character of a literal between the quotes `q`.  `none`: it does not fit; `some none`: it ends the
literal. -/
def strNext (q : Char) : StrState → Char → Option (Option StrState)
  | .body, c => if c = q then some none else if c = '\\' then some (some .esc) else if c = '\x00' ∨ c = '\n' then none else some (some .body)
  | .esc, c =>
    if isCharEscape c then some (some .body) else if c = 'x' ∨ c = 'X' then some (some (.hex 1)) else if isOctChar c then some (some (.oct 1)) else none
  | .hex n, c => if isHexChar c then (if n = 0 then some (some .body) else some (some (.hex (n - 1)))) else none
  | .oct n, c => if isOctChar c then (if n = 0 then some (some .body) else some (some (.oct (n - 1)))) else none

/-- prutalgen/internal/Protobuf.g4:529-551 (`STR_LIT_SINGLE`) after the opening quote: the rest of the literal and what follows it, or what is left when it
is given up (after the character that does not fit). -/
def strScan (q : Char) : StrState → Str → Except Str (Str × Str)
  | _, [] => .error []
  | st, c :: s =>
    match strNext q st c with
    | none => .error s
    | some none => .ok ([c], s)
    | some (some st') =>
      match strScan q st' s with
      | .error r => .error r
      | .ok (a, r) => .ok (c :: a, r)

/-- prutalgen/internal/Protobuf.g4:620-622 (`COMMENT`) after `/*`: the rest of the comment and what follows it. -/
def blockScan : Str → Option (Str × Str)
  | [] => none
  | c :: s =>
    if c = '*' ∧ s.head? = some '/' then some (['*', '/'], s.tail)
    else
      match blockScan s with
      | none => none
      | some (a, r) => some (c :: a, r)

/-- prutalgen/internal/Protobuf.g4:616-618 (`LINE_COMMENT`): not the end of the line. -/
def notEol (c : Char) : Bool := c != '\r' && c != '\n'

/-- A literal between the quotes `q`, or nothing, and what follows. -/
def lexStr (q : Char) (s : Str) : Option Tok × Str :=
  match strScan q .body s with
  | .ok (a, r) => (some ⟨.visible, q :: a⟩, r)
  | .error r => (none, r)

/-- Everything that begins with a slash. -/
def lexSlash : Str → Option Tok × Str
  | [] => (none, [])
  | c :: s =>
    if c = '/' then (some ⟨.line, '/' :: '/' :: s.takeWhile notEol⟩, s.dropWhile notEol)
    else if c = '*' then
      match blockScan s with
      | some (a, r) => (some ⟨.block, '/' :: '*' :: a⟩, r)
      | none => (none, [])
    else (none, s)

/-- A visible token, and what follows it in `s`. -/
def lexVisible (t s : Str) : Option Tok × Str := (some ⟨.visible, t⟩, s.drop t.length)

/-- prutalgen/internal/antlr/lexer.go:166-178 (`safeMatch`): the next token, or `none` if there is none and something is left out; and what follows. -/
def lexOne (c : Char) (s : Str) : Option Tok × Str :=
  if isWsChar c then (some ⟨.ws, (c :: s).takeWhile isWsChar⟩, (c :: s).dropWhile isWsChar)
  else if isLetter c then lexVisible ((c :: s).takeWhile isWordChar) (c :: s)
  else if isDecChar c then lexVisible (numberLit c s) (c :: s)
  else if c = '.' then lexVisible (dotLit s) (c :: s)
  else if c = '"' ∨ c = '\'' then lexStr c s
  else if c = '/' then lexSlash s
  else if isSymbol c then lexVisible [c] (c :: s)
  else (none, s)

/-- prutalgen/internal/antlr/lexer.go:181-235 (`NextToken`), until the end of the file.  The first argument bounds the number of calls; the length of the
text is enough. -/
def lexAll : Nat → Str → List Tok
  | 0, _ => []
  | _ + 1, [] => []
  | n + 1, c :: s => (lexOne c s).1.toList ++ lexAll n (lexOne c s).2

/-- The tokens of a text. -/
def lex (s : Str) : List Tok := lexAll s.length s

end Verif.Model.Gen
