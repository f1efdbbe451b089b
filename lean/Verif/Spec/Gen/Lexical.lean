import Verif.Spec.Gen.Names
import Verif.Spec.Gen.Literals
import Verif.Model.Gen.Comments
/-!
# Specification: the lexical elements of the protobuf language

Only the type of tokens (kind and text) is shared with the model.  Identifiers are `ProtoIdent`, integers `IntLit`.
-/
namespace Verif.Spec.Gen
open Verif.Model.Gen

/-- One or more decimal digits. -/
def Decimals (s : List Char) : Prop := s ≠ [] ∧ ∀ c ∈ s, Digit c

/-- `e5`, `E+10`, … -/
inductive Exponent : List Char → Prop
  | plain (e : Char) (ds : List Char) : e = 'e' ∨ e = 'E' → Decimals ds → Exponent (e :: ds)
  | signed (e s : Char) (ds : List Char) : e = 'e' ∨ e = 'E' → s = '+' ∨ s = '-' → Decimals ds → Exponent (e :: s :: ds)

/-- Numbers with a point or an exponent. -/
inductive FloatLit : List Char → Prop
  | point (ds fs ex : List Char) : Decimals ds → fs = [] ∨ Decimals fs → ex = [] ∨ Exponent ex → FloatLit (ds ++ '.' :: (fs ++ ex))
  | exp (ds ex : List Char) : Decimals ds → Exponent ex → FloatLit (ds ++ ex)
  | dot (fs ex : List Char) : Decimals fs → ex = [] ∨ Exponent ex → FloatLit ('.' :: (fs ++ ex))

/-- A hexadecimal digit. -/
def HexDigit (c : Char) : Prop := ∃ v, v < 16 ∧ IsDigit c v

/-- An octal digit. -/
def OctDigit (c : Char) : Prop := ∃ v, v < 8 ∧ IsDigit c v

/-- What follows the opening quote of a string literal. -/
inductive StrBody (q : Char) : List Char → Prop
  | done : StrBody q [q]
  | char (c : Char) (s : List Char) : c ≠ q → c ≠ '\\' → c ≠ '\n' → c ≠ '\x00' → StrBody q s → StrBody q (c :: s)
  | escape (c : Char) (s : List Char) : c ∈ ['a', 'b', 'f', 'n', 'r', 't', 'v', '\\', '\'', '"'] → StrBody q s → StrBody q ('\\' :: c :: s)
  | hex (x a b : Char) (s : List Char) : x = 'x' ∨ x = 'X' → HexDigit a → HexDigit b → StrBody q s → StrBody q ('\\' :: x :: a :: b :: s)
  | oct (a b c : Char) (s : List Char) : OctDigit a → OctDigit b → OctDigit c → StrBody q s → StrBody q ('\\' :: a :: b :: c :: s)

/-- White space. -/
def BlankChar (c : Char) : Prop := c ∈ [' ', '\t', '\r', '\n', '\x0c']

/-- The lexical elements: words, numbers, strings and symbols, which the parser sees, white space and comments, which it does not. -/
inductive Lexeme : Tok → Prop
  | word (s : List Char) : ProtoIdent s → Lexeme ⟨.visible, s⟩
  | int (s : List Char) (v : Nat) : IntLit s v → Lexeme ⟨.visible, s⟩
  | float (s : List Char) : FloatLit s → Lexeme ⟨.visible, s⟩
  | str (q : Char) (s : List Char) : q = '"' ∨ q = '\'' → StrBody q s → Lexeme ⟨.visible, q :: s⟩
  | symbol (c : Char) : c ∈ ";=()[]{}<>.,:+-".toList → Lexeme ⟨.visible, [c]⟩
  | space (s : List Char) : s ≠ [] → (∀ c ∈ s, BlankChar c) → Lexeme ⟨.ws, s⟩
  | line (s : List Char) : (∀ c ∈ s, c ≠ '\r' ∧ c ≠ '\n') → Lexeme ⟨.line, '/' :: '/' :: s⟩
  | block (s : List Char) : ¬ ['*', '/'] <:+: s → Lexeme ⟨.block, '/' :: '*' :: (s ++ ['*', '/'])⟩

/-- The text `next` can follow the lexical element `t` without changing it: it does not continue a word or number, `.` and a number are not written
together, the end of a line comment is the end of the line. -/
def MayFollow (t : Tok) (next : List Char) : Prop :=
  ∀ c ∈ next.head?,
    (t.kind = .ws → ¬ BlankChar c) ∧ (t.kind = .line → c = '\r' ∨ c = '\n') ∧
    (ProtoIdent t.text → ¬ IdentChar c) ∧ ((∃ v, IntLit t.text v) ∨ FloatLit t.text → ¬ IdentChar c ∧ c ≠ '.') ∧
    (t.text = ['.'] → ¬ Digit c)

/-- Each element can be followed by the one after it. -/
inductive Separated : List Tok → Prop
  | nil : Separated []
  | cons (t : Tok) (ts : List Tok) : MayFollow t (ts.flatMap Tok.text) → Separated ts → Separated (t :: ts)

end Verif.Spec.Gen
