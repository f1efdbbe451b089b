import Verif.Model.Gen.Comments
import Verif.Spec.Gen.Text

/-!
# What belongs to a declaration

Stated on the tokens of the file alone.
-/
namespace Verif.Spec.Gen
open Verif.Model.Gen

/-- The token at position `j` is a comment. -/
def CommentAt (toks : List Tok) (j : Nat) : Prop := ∃ t, toks[j]? = some t ∧ (t.kind = .line ∨ t.kind = .block)

/-- A comment above a declaration: there are neither other parts of the file nor empty lines between the comment and the first token of
the declaration, which is at position `i`. -/
structure Above (toks : List Tok) (i j : Nat) : Prop where
  before : j < i
  comment : CommentAt toks j
  between : ∀ k t, j < k → k < i → toks[k]? = some t → t.kind ≠ .visible ∧ ¬ (t.kind = .ws ∧ 2 ≤ t.text.count '\n')

/-- A comment beside a declaration: the first after its last token, which is at position `i`, with neither other parts of the file nor an end
of line between them. -/
structure Beside (toks : List Tok) (i j : Nat) : Prop where
  after : i < j
  comment : CommentAt toks j
  between : ∀ k t, i < k → k < j → toks[k]? = some t → t.kind ≠ .visible ∧ t.kind ≠ .line ∧ t.kind ≠ .block ∧ ¬ (t.kind = .ws ∧ '\n' ∈ t.text)

/-- What a lexer returns: whitespace consists of spaces, and comments are more than spaces. -/
structure Lexed (toks : List Tok) : Prop where
  ws : ∀ t ∈ toks, t.kind = .ws → ∀ c ∈ t.text, isSpace c = true
  comment : ∀ t ∈ toks, t.kind = .line ∨ t.kind = .block → ∃ c ∈ t.text, isSpace c = false

/-- The text of the comments at the given positions: without the space around them, one per line. -/
inductive CommentText (toks : List Tok) : List Nat → Str → Prop where
  | none : CommentText toks [] []
  | one (j : Nat) (t : Tok) (u : Str) : toks[j]? = some t → Trimmed t.text u → CommentText toks [j] u
  | more (j : Nat) (t : Tok) (u : Str) (js : List Nat) (s : Str) : toks[j]? = some t → Trimmed t.text u → js ≠ [] → CommentText toks js s →
    CommentText toks (j :: js) (u ++ '\n' :: s)

/-- The parser sees the token at position `i`, as it does the first and last token of a declaration. -/
def VisibleAt (toks : List Tok) (i : Nat) : Prop := ∃ t, toks[i]? = some t ∧ t.kind = .visible

end Verif.Spec.Gen
