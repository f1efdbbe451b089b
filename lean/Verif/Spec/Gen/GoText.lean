import Verif.Model.Gen.Ast
/-!
# Specification: how Go reads a source file

The lexical rules of Go (https://go.dev/ref/spec#Lexical_elements) as far as generated files need them, as a relation between text and tokens, with automatic
semicolons; and the declarations of generated files as sequences of tokens.  Restrictions, which make fewer texts readable: identifiers are in ASCII, numbers are decimal
integers, strings in double quotes have no escapes, and raw strings have no carriage returns.
-/
namespace Verif.Spec.Gen
open Verif.Model.Gen (Str)

/-- Tokens of Go: identifiers and keywords, integers (their text), strings (their value), operators, semicolons (written or not). -/
inductive GTok where
  | word (s : Str)
  | int (s : Str)
  | str (s : Str)
  | op (s : Str)
  | semi
  deriving DecidableEq

/-- The first character of an identifier. -/
def wordStart (c : Char) : Bool := c.isAlpha || c == '_'

/-- The characters of identifiers. -/
def wordChar (c : Char) : Bool := c.isAlphanum || c == '_'

/-- The keywords of Go. -/
def goKeywords : List Str :=
  ["break", "case", "chan", "const", "continue", "default", "defer", "else", "fallthrough", "for", "func", "go", "goto", "if", "import", "interface", "map",
   "package", "range", "return", "select", "struct", "switch", "type", "var"].map String.toList

/-- An identifier of Go (not a keyword). -/
structure GoWord (s : Str) : Prop where
  ident : ∃ c r, s = c :: r ∧ wordStart c = true ∧ ∀ x ∈ r, wordChar x = true
  notKeyword : goKeywords.contains s = false

/-- The operators and punctuation of Go. -/
def goOperators : List Str :=
  ["+", "&", "+=", "&=", "&&", "==", "!=", "(", ")", "-", "|", "-=", "|=", "||", "<", "<=", "[", "]", "*", "^", "*=", "^=", "<-", ">", ">=", "{", "}",
   "/", "<<", "/=", "<<=", "++", "=", ":=", ",", ";", "%", ">>", "%=", ">>=", "--", "!", "...", ".", ":", "&^", "&^=", "~"].map String.toList

/-- The token of an operator. -/
def opTok (o : Str) : GTok := if o = [';'] then .semi else .op o

/-- Is a semicolon added when the line ends after this token? -/
def semiAfter : GTok → Bool
  | .word s => !goKeywords.contains s || (["break", "continue", "fallthrough", "return"].map String.toList).contains s
  | .int _ => true
  | .str _ => true
  | .op s => (["++", "--", ")", "]", "}"].map String.toList).contains s
  | .semi => false

/-- Characters that may stand in a source file (Go compilers reject NUL, and a byte order mark except at the start). -/
def Legal (c : Char) : Prop := c ≠ Char.ofNat 0 ∧ c ≠ Char.ofNat 0xFEFF

instance (c : Char) : Decidable (Legal c) := inferInstanceAs (Decidable (_ ∧ _))

/-- The semicolon at the end of a line. -/
def semis (b : Bool) : List GTok := if b then [.semi] else []

/-- An identifier or number ends before this text. -/
def EndsWord (s : Str) : Prop := ∀ c ∈ s.head?, c.toNat < 128 ∧ wordChar c = false

/-- The end of a general comment comes right after this text, and not before. -/
def Unclosed (body : Str) : Prop := ¬ ['*', '/'] <:+: body ++ ['*']

/-- `Lexes b s ts`: the text `s` consists of the tokens `ts`, where `b` says whether the token before was one after which a line end is a semicolon. -/
inductive Lexes : Bool → Str → List GTok → Prop
  | eof (b : Bool) : Lexes b [] (semis b)
  | space (b : Bool) (c : Char) (s : Str) (ts : List GTok) : c = ' ' ∨ c = '\t' ∨ c = '\r' → Lexes b s ts → Lexes b (c :: s) ts
  | newline (b : Bool) (s : Str) (ts : List GTok) : Lexes false s ts → Lexes b ('\n' :: s) (semis b ++ ts)
  | line (b : Bool) (body s : Str) (ts : List GTok) : (∀ c ∈ body, c ≠ '\n' ∧ Legal c) → (∀ c ∈ s.head?, c = '\n') → Lexes b s ts →
      Lexes b ('/' :: '/' :: (body ++ s)) ts
  | block (b : Bool) (body s : Str) (ts : List GTok) : '\n' ∉ body → Unclosed body → (∀ c ∈ body, Legal c) → Lexes b s ts →
      Lexes b ('/' :: '*' :: (body ++ '*' :: '/' :: s)) ts
  | blockLines (b : Bool) (body s : Str) (ts : List GTok) : '\n' ∈ body → Unclosed body → (∀ c ∈ body, Legal c) → Lexes false s ts →
      Lexes b ('/' :: '*' :: (body ++ '*' :: '/' :: s)) (semis b ++ ts)
  | word (b : Bool) (c : Char) (w s : Str) (ts : List GTok) : wordStart c = true → (∀ x ∈ w, wordChar x = true) → EndsWord s → Lexes (semiAfter (.word (c :: w))) s ts →
      Lexes b (c :: w ++ s) (.word (c :: w) :: ts)
  | int (b : Bool) (c : Char) (w s : Str) (ts : List GTok) : c.isDigit = true → (∀ x ∈ w, x.isDigit = true) → (c = '0' → w = []) → EndsWord s →
      (∀ x ∈ s.head?, x ≠ '.') → Lexes true s ts → Lexes b (c :: w ++ s) (.int (c :: w) :: ts)
  | str (b : Bool) (body s : Str) (ts : List GTok) : (∀ c ∈ body, c ≠ '"' ∧ c ≠ '\\' ∧ c ≠ '\n' ∧ Legal c) → Lexes true s ts →
      Lexes b ('"' :: (body ++ '"' :: s)) (.str body :: ts)
  | raw (b : Bool) (body s : Str) (ts : List GTok) : (∀ c ∈ body, c ≠ '`' ∧ c ≠ '\r' ∧ Legal c) → Lexes true s ts →
      Lexes b ('`' :: (body ++ '`' :: s)) (.str body :: ts)
  | op (b : Bool) (o s : Str) (ts : List GTok) : o ∈ goOperators → (∀ o' ∈ goOperators, o' <+: o ++ s → o'.length ≤ o.length) →
      ¬ ['/', '/'] <+: o ++ s → ¬ ['/', '*'] <+: o ++ s → (o = ['.'] → ∀ c ∈ s.head?, c.isDigit = false) → Lexes (semiAfter (opTok o)) s ts →
      Lexes b (o ++ s) (opTok o :: ts)

/-! ## Comments -/

/-- A comment (a line comment without the end of the line). -/
inductive GoComment : Str → Prop
  | line (body : Str) : (∀ c ∈ body, c ≠ '\n' ∧ Legal c) → GoComment ('/' :: '/' :: body)
  | block (body : Str) : Unclosed body → (∀ c ∈ body, Legal c) → GoComment ('/' :: '*' :: (body ++ ['*', '/']))

/-- Comments, one per line. -/
inductive GoComments : Str → Prop
  | one (s : Str) : GoComment s → GoComments s
  | more (s t : Str) : GoComment s → GoComments t → GoComments (s ++ '\n' :: t)

/-! ## Declarations -/

/-- A type. -/
inductive TypeSyn where
  | name (s : Str)
  | qual (p s : Str)
  | ptr (t : TypeSyn)
  | slice (t : TypeSyn)
  | map (k v : TypeSyn)
  deriving DecidableEq

/-- An expression for a zero value. -/
inductive ZeroSyn where
  | nil
  | zero
  | false
  | empty
  | const (s : Str)
  | qual (p s : Str)
  | lit (t : TypeSyn)
  deriving DecidableEq

/-- The first statement of a getter: `if x != nil && x.F != nil { return *x.F }`, `if x != nil { return x.F }`, or `if p, ok := x.G().(*W); ok { return p.F }`. -/
inductive GuardSyn where
  | deref (field : Str)
  | field (field : Str)
  | member (getter wrapper field : Str)
  deriving DecidableEq

/-- The declarations of a generated file. -/
inductive GoDecl where
  /-- `type N int32` -/
  | intType (n : Str)
  /-- constants: name, type, value -/
  | consts (cs : List (Str × Str × Int))
  /-- `var V = map[int32]string{…}` -/
  | nameVar (v : Str) (es : List (Int × Str))
  /-- `var V = map[string]int32{…}` -/
  | valueVar (v : Str) (es : List (Str × Int))
  /-- the method `String` of the type `t`, with the table `v` -/
  | stringer (t v : Str)
  /-- a struct type: fields with names, types and tags -/
  | struct (n : Str) (fs : List (Str × TypeSyn × Str))
  /-- an interface type with one method -/
  | iface (n m : Str)
  /-- the method `func (*T) M() {}` -/
  | marker (t m : Str)
  /-- the method `Reset` -/
  | reset (t : Str)
  /-- the methods `Marshal` and `Unmarshal` -/
  | marshal (t : Str)
  | unmarshal (t : Str)
  /-- a getter of the type `t` -/
  | getter (t n : Str) (ty : TypeSyn) (g : GuardSyn) (z : ZeroSyn)
  /-- the method `XXX_OneofWrappers` -/
  | wrappers (t : Str) (ws : List Str)
  deriving DecidableEq

/-- A word of Go. -/
def gw (s : String) : GTok := .word s.toList
/-- An operator of Go. -/
def go (s : String) : GTok := .op s.toList

def TypeSyn.toks : TypeSyn → List GTok
  | .name s => [.word s]
  | .qual p s => [.word p, go ".", .word s]
  | .ptr t => go "*" :: t.toks
  | .slice t => go "[" :: go "]" :: t.toks
  | .map k v => gw "map" :: go "[" :: k.toks ++ go "]" :: v.toks

def ZeroSyn.toks : ZeroSyn → List GTok
  | .nil => [gw "nil"]
  | .zero => [.int ['0']]
  | .false => [gw "false"]
  | .empty => [.str []]
  | .const s => [.word s]
  | .qual p s => [.word p, go ".", .word s]
  | .lit t => t.toks ++ [go "{", go "}"]

/-- A number, as an expression. -/
def intToks (i : Int) : List GTok := if i < 0 then [go "-", .int (Nat.toDigits 10 i.natAbs)] else [.int (Nat.toDigits 10 i.natAbs)]

def GuardSyn.toks : GuardSyn → List GTok
  | .deref f => [gw "if", gw "x", go "!=", gw "nil", go "&&", gw "x", go ".", .word f, go "!=", gw "nil", go "{", gw "return", go "*", gw "x", go ".", .word f, go "}", .semi]
  | .field f => [gw "if", gw "x", go "!=", gw "nil", go "{", gw "return", gw "x", go ".", .word f, go "}", .semi]
  | .member g w f => [gw "if", gw "p", go ",", gw "ok", go ":=", gw "x", go ".", .word g, go "(", go ")", go ".", go "(", go "*", .word w, go ")", .semi, gw "ok", go "{",
      gw "return", gw "p", go ".", .word f, .semi, go "}", .semi]

/-- The receiver `(x *T)`. -/
def recvToks (t : Str) : List GTok := [go "(", gw "x", go "*", .word t, go ")"]

def GoDecl.toks : GoDecl → List GTok
  | .intType n => [gw "type", .word n, gw "int32", .semi]
  | .consts cs => gw "const" :: go "(" :: cs.flatMap (fun c => .word c.1 :: .word c.2.1 :: go "=" :: intToks c.2.2 ++ [.semi]) ++ [go ")", .semi]
  | .nameVar v es => [gw "var", .word v, go "=", gw "map", go "[", gw "int32", go "]", gw "string", go "{"] ++
      es.flatMap (fun e => intToks e.1 ++ [go ":", .str e.2, go ","]) ++ [go "}", .semi]
  | .valueVar v es => [gw "var", .word v, go "=", gw "map", go "[", gw "string", go "]", gw "int32", go "{"] ++
      es.flatMap (fun e => .str e.1 :: go ":" :: intToks e.2 ++ [go ","]) ++ [go "}", .semi]
  | .stringer t v => [gw "func", go "(", gw "x", .word t, go ")", gw "String", go "(", go ")", gw "string", go "{",
      gw "s", go ",", gw "ok", go ":=", .word v, go "[", gw "int32", go "(", gw "x", go ")", go "]", .semi,
      gw "if", gw "ok", go "{", gw "return", gw "s", go "}", .semi,
      gw "return", gw "strconv", go ".", gw "Itoa", go "(", gw "int", go "(", gw "x", go ")", go ")", .semi, go "}", .semi]
  | .struct n fs => [gw "type", .word n, gw "struct", go "{"] ++ fs.flatMap (fun f => .word f.1 :: f.2.1.toks ++ [.str f.2.2, .semi]) ++ [go "}", .semi]
  | .iface n m => [gw "type", .word n, gw "interface", go "{", .word m, go "(", go ")", .semi, go "}", .semi]
  | .marker t m => [gw "func", go "(", go "*", .word t, go ")", .word m, go "(", go ")", go "{", go "}", .semi]
  | .reset t => gw "func" :: recvToks t ++ [gw "Reset", go "(", go ")", go "{", go "*", gw "x", go "=", .word t, go "{", go "}", go "}", .semi]
  | .marshal t => gw "func" :: recvToks t ++ [gw "Marshal", go "(", gw "in", go "[", go "]", gw "byte", go ")",
      go "(", go "[", go "]", gw "byte", go ",", gw "error", go ")",
      go "{", gw "return", gw "prutal", go ".", gw "MarshalAppend", go "(", gw "in", go ",", gw "x", go ")", go "}", .semi]
  | .unmarshal t => gw "func" :: recvToks t ++ [gw "Unmarshal", go "(", gw "in", go "[", go "]", gw "byte", go ")", gw "error",
      go "{", gw "return", gw "prutal", go ".", gw "Unmarshal", go "(", gw "in", go ",", gw "x", go ")", go "}", .semi]
  | .getter t n ty g z => gw "func" :: recvToks t ++ .word n :: go "(" :: go ")" :: ty.toks ++ go "{" :: g.toks ++ gw "return" :: z.toks ++ [.semi, go "}", .semi]
  | .wrappers t ws => [gw "func", go "(", go "*", .word t, go ")", gw "XXX_OneofWrappers", go "(", go ")", go "[", go "]", gw "interface", go "{", go "}", go "{",
      gw "return", go "[", go "]", gw "interface", go "{", go "}", go "{"] ++
      ws.flatMap (fun w => [go "(", go "*", .word w, go ")", go "(", gw "nil", go ")", go ","]) ++ [go "}", go "}", .semi]

/-- The names of packages in a type. -/
def TypeSyn.quals : TypeSyn → List Str
  | .name _ => []
  | .qual p _ => [p]
  | .ptr t => t.quals
  | .slice t => t.quals
  | .map k v => k.quals ++ v.quals

def ZeroSyn.quals : ZeroSyn → List Str
  | .qual p _ => [p]
  | .lit t => t.quals
  | _ => []

/-- The names of packages in a declaration. -/
def GoDecl.quals : GoDecl → List Str
  | .stringer _ _ => ["strconv".toList]
  | .struct _ fs => fs.flatMap fun f => f.2.1.quals
  | .marshal _ => ["prutal".toList]
  | .unmarshal _ => ["prutal".toList]
  | .getter _ _ ty _ z => ty.quals ++ z.quals
  | _ => []

/-- The imports of a file: names (empty for none) and paths. -/
def importToks : List (Str × Str) → List GTok
  | [] => []
  | [(a, p)] => gw "import" :: (if a = [] then [] else [.word a]) ++ [.str p, .semi]
  | l => gw "import" :: go "(" :: l.flatMap (fun i => (if i.1 = [] then [] else [.word i.1]) ++ [.str i.2, .semi]) ++ [go ")", .semi]

/-- A file: the package clause, the imports, the declarations. -/
structure GoFile where
  pkg : Str
  imports : List (Str × Str)
  decls : List GoDecl
  deriving DecidableEq

def GoFile.toks (f : GoFile) : List GTok := gw "package" :: .word f.pkg :: .semi :: importToks f.imports ++ f.decls.flatMap GoDecl.toks

/-- The names in a type are not keywords of types. -/
def TypeSyn.Plain : TypeSyn → Prop
  | .name s => s ≠ "map".toList
  | .qual p _ => p ≠ "map".toList
  | .ptr t => t.Plain
  | .slice t => t.Plain
  | .map k v => k.Plain ∧ v.Plain

/-- Constants do not have the names of predeclared values. -/
def ZeroSyn.Plain : ZeroSyn → Prop
  | .const s => s ≠ "nil".toList ∧ s ≠ "false".toList
  | .lit t => t.Plain
  | _ => True

/-- The same for declarations. -/
def GoDecl.Plain : GoDecl → Prop
  | .struct _ fs => ∀ f ∈ fs, f.2.1.Plain
  | .getter _ _ ty _ z => ty.Plain ∧ z.Plain
  | _ => True

/-- The same for files. -/
def GoFile.Plain (f : GoFile) : Prop := ∀ d ∈ f.decls, d.Plain

/-- Go reads the text as this file. -/
def ReadsAs (text : Str) (f : GoFile) : Prop := Lexes false text f.toks

end Verif.Spec.Gen
