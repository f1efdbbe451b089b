import Verif.Spec.Gen.Lexical
/-!
# Specification: types and channels of tokens

The types are numbered as in prutalgen/internal/Protobuf.g4: the keywords, the symbols, then literals, identifiers, white space and comments.  The
parser sees the channel 0.
-/
namespace Verif.Spec.Gen
open Verif.Model.Gen

/-- The keywords; the first has the type 1. -/
def Keywords : List (List Char) :=
  ["syntax", "edition", "import", "weak", "public", "package", "option", "optional", "required", "repeated", "oneof", "map", "int32", "int64", "uint32",
   "uint64", "sint32", "sint64", "fixed32", "fixed64", "sfixed32", "sfixed64", "bool", "string", "double", "float", "bytes", "reserved", "extensions",
   "to", "max", "enum", "message", "service", "extend", "rpc", "stream", "returns"].map String.toList

/-- The symbols; the first has the type 39. -/
def Symbols : List Char := ";=()[]{}<>.,:+-".toList

/-- The type and the channel of a token. -/
inductive TokenType : Tok → Nat → Nat → Prop
  | keyword (i : Nat) (w : List Char) : Keywords[i]? = some w → TokenType ⟨.visible, w⟩ (i + 1) 0
  | symbol (i : Nat) (c : Char) : Symbols[i]? = some c → TokenType ⟨.visible, [c]⟩ (i + 39) 0
  | str (q : Char) (s : List Char) : q = '"' ∨ q = '\'' → StrBody q s → TokenType ⟨.visible, q :: s⟩ 54 0
  | bool (w : List Char) : w = "true".toList ∨ w = "false".toList → TokenType ⟨.visible, w⟩ 55 0
  | inf (w : List Char) : w = "inf".toList ∨ w = "nan".toList → TokenType ⟨.visible, w⟩ 56 0
  | float (s : List Char) : FloatLit s → TokenType ⟨.visible, s⟩ 56 0
  | int (s : List Char) (v : Nat) : IntLit s v → TokenType ⟨.visible, s⟩ 57 0
  | ident (w : List Char) : ProtoIdent w → w ∉ Keywords → w ∉ ["true", "false", "inf", "nan"].map String.toList → TokenType ⟨.visible, w⟩ 58 0
  | space (s : List Char) : TokenType ⟨.ws, s⟩ 59 2
  | line (s : List Char) : TokenType ⟨.line, s⟩ 60 3
  | block (s : List Char) : TokenType ⟨.block, s⟩ 61 3

/-- Lists that agree element by element. -/
inductive Pairs {α β : Type} (R : α → β → Prop) : List α → List β → Prop
  | nil : Pairs R [] []
  | cons {a b as bs} : R a b → Pairs R as bs → Pairs R (a :: as) (b :: bs)

end Verif.Spec.Gen
