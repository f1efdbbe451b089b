import Verif.Model.Gen.Antlr.Ast
import Verif.Model.Gen.Antlr.Predict
import Verif.Model.Gen.Reader
/-!
# Model of reading a file, with the lexer and the parser that are run

`parseInput` of prutalgen/pkg/prutalgen/prutalgen.go:236-254 from the bytes of a file on: the characters, the tokens by the automaton of the lexer and its cache, the tree by the rule functions
of the parser and the automata of its decisions, and what the listeners take from the tree.  The cache and the automata are those of the process, which the files
read before have filled.
-/
namespace Verif.Model.Gen.Antlr
open Verif.Model.Gen

/-- prutalgen/internal/antlr/input_stream.go:23-47 (`NewIoStream`; also file_stream.go:21-66): the characters of a file.  ByteFiles that are not UTF-8 become
U+FFFD (`ReadRune`). -/
def streamChars (bs : List Nat) : Str := bytesChars bs.length bs

/-- A token as the comments look at it: prutalgen/pkg/prutalgen/comment.go:40-57 goes by the type of the token
(`ProtobufParserWS`, `ProtobufParserLINE_COMMENT`, `ProtobufParserCOMMENT`). -/
def tokOf (a : AToken) : Tok :=
  ⟨if a.typ = 59 then .ws else if a.typ = 60 then .line else if a.typ = 61 then .block else .visible, a.text⟩

/-- What the process keeps between files: prutalgen/internal/parser/protobuf_lexer.go:19-35 and prutalgen/internal/parser/protobuf_parser.go:22-31 (`decisionToDFA` in
`ProtobufLexerLexerStaticData` and `ProtobufParserStaticData`). -/
structure Caches where
  lexer : Dfa
  parser : Pred.PCache

/-- Before the first file. -/
def Caches.cold : Caches := ⟨Dfa.empty, fun _ => {}⟩

/-- prutalgen/pkg/prutalgen/prutalgen.go:236-254 (`parseInput`, as far as a file is concerned that is alone): what is read from the bytes of a file, and what is kept; `none` is a syntax
error.  `steps` bounds the steps of predictions and `n` the depth of recursion of the parser. -/
def readInput (A : Net) (N : Pred.PNet) (steps n : Nat) (C : Caches) (bs : List Nat) : Option (Text × Caches) :=
  match A.lexFile C.lexer (streamChars bs) with
  | none => none
  | some (D, toks) =>
    match Pred.parseShared N steps n C.parser (visibleTokens toks) with
    | none => none
    | some (ts, σ) => some (readProto (toks.map tokOf ++ [eofTok]) (astProto ts), ⟨D, σ⟩)

/-- Files that are read one after another, until there is an error. -/
def readInputs (A : Net) (N : Pred.PNet) (steps n : Nat) : Caches → List (List Nat) → Option (List Text × Caches)
  | C, [] => some ([], C)
  | C, b :: bs =>
    match readInput A N steps n C b with
    | none => none
    | some (t, C) =>
      match readInputs A N steps n C bs with
      | none => none
      | some (ts, C) => some (t :: ts, C)

/-- The files that the generator sees (see `Disk`), with their bytes. -/
structure ByteFiles where
  cwd : Str
  stat : Str → Bool
  read : Str → Option (List Nat)
  embedded : Str → Option (Option (List Nat))

/-- The files with their characters. -/
def ByteFiles.disk (B : ByteFiles) : Disk where
  cwd := B.cwd
  stat := B.stat
  read := fun f => (B.read f).map streamChars
  embedded := fun f => (B.embedded f).map fun b => b.map streamChars

/-- The files with what is read from them, each with the caches as they are when it is read. -/
def ByteFiles.texts (A : Net) (N : Pred.PNet) (steps n : Nat) (C : Str → Caches) (B : ByteFiles) : Texts where
  cwd := B.cwd
  stat := B.stat
  read := fun f => (B.read f).bind fun b => (readInput A N steps n (C f) b).map Prod.fst
  embedded := fun f => (B.embedded f).map fun b => b.bind fun b => (readInput A N steps n (C f) b).map Prod.fst

end Verif.Model.Gen.Antlr
