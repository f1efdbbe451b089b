import Verif.Model.Gen.Options

/-!
# Model of prutalgen/pkg/prutalgen/comment.go: which comments belong to which declaration

The lexer is in `Lexer.lean`: here the tokens of a file are given, with their kind and text.  A parse tree node enters with the position
of its first token (`GetStart`) or last token (`GetStop`) in the stream, which are visible to the parser.
-/
namespace Verif.Model.Gen

/-- Kinds of tokens.  prutalgen/internal/parser/protobuf_lexer.go: `LINE_COMMENT`, `COMMENT`, `WS`, any other token on a hidden channel
and all those on the default channel, which the parser sees. -/
inductive TokKind where
  | line | block | ws | hidden | visible
  deriving DecidableEq, Repr

/-- A token.  Its index is its position in the list of tokens. -/
structure Tok where
  kind : TokKind
  text : Str
  deriving DecidableEq, Repr

/-- prutalgen/internal/antlr/common_token_stream.go:268-286 (`GetHiddenTokensToLeft` with channel -1): the tokens before position `i`
down to the nearest visible one, here nearest first, with their positions. -/
def hiddenLeft (toks : List Tok) : Nat → List (Tok × Nat)
  | 0 => []
  | i + 1 =>
    match toks[i]? with
    | none => []
    | some t => if t.kind = .visible then [] else (t, i) :: hiddenLeft toks i

/-- prutalgen/internal/antlr/common_token_stream.go:288- (`filterForChannel`), for a range that begins at the head of the list, which has
position `i`, and ends at the first visible token. -/
def hiddenFrom : List Tok → Nat → List (Tok × Nat)
  | [], _ => []
  | t :: ts, i => if t.kind = .visible then [] else (t, i) :: hiddenFrom ts (i + 1)

/-- prutalgen/internal/antlr/common_token_stream.go:243-263 (`GetHiddenTokensToRight` with channel -1). -/
def hiddenRight (toks : List Tok) (i : Nat) : List (Tok × Nat) := hiddenFrom (toks.drop (i + 1)) (i + 1)

/-- prutalgen/pkg/prutalgen/comment.go:38-56 (`filterCommentOrWhitespace`); `none` is `(nil, false)`. -/
def filterCommentOrWs (tt : List (Tok × Nat)) : Option (List (Tok × Nat)) :=
  let ret := tt.filter (fun t => t.1.kind = .line ∨ t.1.kind = .block ∨ t.1.kind = .ws)
  if ret.any (fun t => t.1.kind = .line ∨ t.1.kind = .block) then some ret else none

/-- prutalgen/pkg/prutalgen/comment.go:66-86, the loop of `consumeHeadComment` over the tokens nearest first, with the positions consumed so
far; returns `ss` and the positions consumed after. -/
def headLoop : List Nat → List (Tok × Nat) → List Str × List Nat
  | c, [] => ([], c)
  | c, (t, i) :: tt =>
    if i ∈ c then ([], c)
    else if t.kind = .ws ∧ t.text.count '\n' > 1 then ([], c)
    else
      let r := headLoop (i :: c) tt
      (if trimSpace t.text ≠ [] then trimSpace t.text :: r.1 else r.1, r.2)

/-- Go's `strings.Join(ss, "\n")`. -/
def joinLines : List Str → Str
  | [] => []
  | [s] => s
  | s :: ss => s ++ '\n' :: joinLines ss

/-- prutalgen/pkg/prutalgen/comment.go:58-95 (`consumeHeadComment`) for a node whose first token has position `i`. -/
def consumeHead (toks : List Tok) (c : List Nat) (i : Nat) : Str × List Nat :=
  match filterCommentOrWs (hiddenLeft toks i) with
  | none => ([], c)
  | some tt =>
    let r := headLoop c tt
    (joinLines r.1.reverse, r.2)

/-- prutalgen/pkg/prutalgen/comment.go:104-121, the loop of `consumeInlineComment`. -/
def inlineLoop : List Nat → List (Tok × Nat) → Str × List Nat
  | c, [] => ([], c)
  | c, (t, i) :: tt =>
    if i ∈ c then ([], c)
    else if t.kind = .ws then
      if '\n' ∈ t.text then ([], c) else inlineLoop c tt
    else (trimSpace t.text, i :: c)

/-- prutalgen/pkg/prutalgen/comment.go:97-122 (`consumeInlineComment`) for a node whose last token has position `i`. -/
def consumeInline (toks : List Tok) (c : List Nat) (i : Nat) : Str × List Nat :=
  match filterCommentOrWs (hiddenRight toks i) with
  | none => ([], c)
  | some tt => inlineLoop c tt

/-- A call to `consumeHeadComment` or to `consumeInlineComment`. -/
inductive CommentCall where
  | head (start : Nat)
  | inline (stop : Nat)
  deriving DecidableEq, Repr

/-- One call. -/
def consume (toks : List Tok) (c : List Nat) : CommentCall → Str × List Nat
  | .head i => consumeHead toks c i
  | .inline i => consumeInline toks c i

/-- What the calls made while walking a file return: enum.go:157 and 183, message.go:228-229, field.go (`newField`), service.go:78 and 93,
oneof.go, prutalgen.go:255.  The walk itself (which node is visited when) is left to the list of calls. -/
def consumeAll (toks : List Tok) : List Nat → List CommentCall → List Str
  | _, [] => []
  | c, k :: ks => (consume toks c k).1 :: consumeAll toks (consume toks c k).2 ks

/-- Characters of Go's format directives between `%` and the verb: fmt/print.go (`doPrintf`).  Argument indexes (`[`) and `*` are not
modelled. -/
def isFormatFlag (c : Char) : Bool := c ∈ "+-# 0123456789.".toList

/-- Go's `fmt.Sprintf` for string arguments and the verbs `%s` and `%%`; for other verbs only the case that no argument is left.  Arguments
that are not used up are not modelled, nor is padding. -/
def sprintf : Nat → Str → List Str → Str
  | 0, _, _ => []
  | _ + 1, [], _ => []
  | n + 1, c :: s, args =>
    if c ≠ '%' then c :: sprintf n s args
    else
      match s.dropWhile isFormatFlag with
      | [] => "%!(NOVERB)".toList
      | v :: s' =>
        if v = '%' then '%' :: sprintf n s' args
        else match args with
          | a :: args' => a ++ sprintf n s' args'
          | [] => "%!".toList ++ v :: "(MISSING)".toList ++ sprintf n s' []

/-- prutalgen/pkg/prutalgen/code.go:137 and codewriter.go:146-163 (`F`): the line that declares the type of an enum.  The comment of the enum
is a part of the format. -/
def enumTypeLine (goName inlineComment : Str) : Str :=
  let format := "type %s int32".toList ++ inlineComment
  sprintf format.length format [goName]

end Verif.Model.Gen
