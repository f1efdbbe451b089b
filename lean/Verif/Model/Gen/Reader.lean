import Verif.Model.Gen.Grammar
import Verif.Model.Gen.Pipeline
import Verif.Model.Gen.Comments
import Verif.Model.Gen.StrLit
/-!
# Model of what the listeners read off the parse tree

`Model/Gen/Grammar.lean` gives the parse tree of a text with the tokens in it; `Model/Gen/Listener.lean` works on trees that hold what the listeners take from the nodes:
the texts of names and types (`GetText`, which puts the texts of tokens together), the values of literals, and the directives in the comments of declarations.
This file goes from the first to the second, so that `LoadProto` is modelled from the characters of files on.

The places of nodes are needed for the comments: each function gets the number of visible tokens before its node, and adds the numbers of tokens of the parts.  The comments
consumed so far (`streamContext.consumed`, prutalgen/pkg/prutalgen/comment.go:26-36) are passed along in the order of the walk.
-/
namespace Verif.Model.Gen

/-! ## Strings -/

/-- A Go string as bytes. -/
def strBytes (s : Str) : List Nat := s.flatMap fun c => encodeRune c.toNat

/-- Bytes as characters, as in Go's `[]rune(s)`: bytes that are not UTF-8 become U+FFFD.  Simplification: values of options with such bytes (by escapes like `\xff`) keep
these bytes in the program.  The number bounds the length. -/
def bytesChars : Nat → List Nat → Str
  | 0, _ => []
  | _ + 1, [] => []
  | n + 1, b :: bs =>
    match decodeRune (b :: bs) with
    | some (c, k) => Char.ofNat c :: bytesChars n ((b :: bs).drop k)
    | none => Char.ofNat 0xFFFD :: bytesChars n bs

/-- prutalgen/internal/protobuf/text/decode_string.go:164-170 (`UnmarshalString`) for characters. -/
def unmarshalChars (s : Str) : Option Str := (unmarshalString (strBytes s)).map fun b => bytesChars b.length b

/-- prutalgen/pkg/prutalgen/utils.go:43-48 (`unmarshalConst`). -/
def unmarshalConst (s : Str) : Option Str :=
  match s with
  | [] => some []
  | c :: _ => if c = '\'' ∨ c = '"' then unmarshalChars s else some s

/-! ## Numbers of tokens (prutalgen/internal/Protobuf.g4) -/

/-- Parts with commas between them. -/
def commaWidth {α : Type} (w : α → Nat) : List α → Nat
  | [] => 0
  | [x] => w x
  | x :: y :: xs => w x + 1 + commaWidth w (y :: xs)

/-- prutalgen/internal/Protobuf.g4:34-36, 58-60: `name = value`. -/
def optionWidth (o : RawOption) : Nat := o.name.length + 1 + o.value.length

/-- prutalgen/internal/Protobuf.g4:34-36: `option name = value;`. -/
def optionStmtWidth (o : RawOption) : Nat := 1 + optionWidth o + 1

/-- prutalgen/internal/Protobuf.g4:50-56: `[ … ]` or nothing. -/
def bracketsWidth (os : List RawOption) : Nat := if os = [] then 0 else commaWidth optionWidth os + 2

/-- prutalgen/internal/Protobuf.g4:50-52, 72-80. -/
def fieldWidth (f : RawField) : Nat :=
  (if f.label = none then 0 else 1) + (if f.key = none then f.typ.length else f.typ.length + 5) + 3 + bracketsWidth f.options + 1

/-- prutalgen/internal/Protobuf.g4:135-137. -/
def rangeWidth (r : RangeNode) : Nat :=
  match r.hi with
  | .single => 1
  | _ => 3

/-- prutalgen/internal/Protobuf.g4:121-125. -/
def reservedWidth (rr : List RangeNode) : Nat := commaWidth rangeWidth rr + 2

/-- prutalgen/internal/Protobuf.g4:121-125, 139-141. -/
def reservedNamesWidth (ss : List (List Str)) : Nat := commaWidth List.length ss + 2

/-- prutalgen/internal/Protobuf.g4:127-129. -/
def extensionsWidth (rr : List RangeNode) (os : List RawOption) : Nat := commaWidth rangeWidth rr + bracketsWidth os + 2

/-- prutalgen/internal/Protobuf.g4:170-172. -/
def enumValueWidth (v : RawEnumValue) : Nat := (if v.minus then 4 else 3) + bracketsWidth v.options + 1

/-- prutalgen/internal/Protobuf.g4:163-168. -/
def enumElemWidth : RawEnumElem → Nat
  | .option o => optionStmtWidth o
  | .value v => enumValueWidth v
  | .reserved rr => reservedWidth rr
  | .reservedNames ss => reservedNamesWidth ss
  | .empty => 1

/-- prutalgen/internal/Protobuf.g4:155-161: `enum name { … }`. -/
def enumWidth (e : RawEnum) : Nat := (e.elems.map enumElemWidth).sum + 4

/-- prutalgen/internal/Protobuf.g4:68-70. -/
def oneofElemWidth : RawOneofElem → Nat
  | .option o => optionStmtWidth o
  | .field f => fieldWidth f
  | .empty => 1

/-- prutalgen/internal/Protobuf.g4:212-214. -/
def extendWidth (t : List Str) (fs : List (Option RawField)) : Nat :=
  t.length + (fs.map fun f => match f with | some f => fieldWidth f | none => 1).sum + 3

mutual
/-- prutalgen/internal/Protobuf.g4:192-203. -/
def elemWidth : RawElem → Nat
  | .field f => fieldWidth f
  | .enum e => enumWidth e
  | .message _ es => elemsWidth es + 4
  | .extend t fs => extendWidth t fs
  | .option o => optionStmtWidth o
  | .oneof _ es => (es.map oneofElemWidth).sum + 4
  | .mapField f => fieldWidth f
  | .reserved rr => reservedWidth rr
  | .reservedNames ss => reservedNamesWidth ss
  | .extensions rr os => extensionsWidth rr os
  | .empty => 1
/-- prutalgen/internal/Protobuf.g4:188-190. -/
def elemsWidth : List RawElem → Nat
  | [] => 0
  | e :: es => elemWidth e + elemsWidth es
end

/-- prutalgen/internal/Protobuf.g4:228-233: what is in the braces after `rpc`, or `;`. -/
def rpcBodyWidth : Option (List (Option RawOption)) → Nat
  | some es => (es.map fun o => match o with | some o => optionStmtWidth o | none => 1).sum + 2
  | none => 1

/-- prutalgen/internal/Protobuf.g4:228-233: the tokens before the type of the request: `rpc name (` and `stream`. -/
def requestAt (r : RawRpc) : Nat := if r.requestStream then 4 else 3

/-- The same for the type that is returned: the type of the request, `) returns (` and `stream`. -/
def returnAt (r : RawRpc) : Nat := requestAt r + r.request.length + (if r.returnStream then 4 else 3)

/-- prutalgen/internal/Protobuf.g4:228-233. -/
def rpcWidth (r : RawRpc) : Nat := returnAt r + r.ret.length + 1 + rpcBodyWidth r.body

/-- prutalgen/internal/Protobuf.g4:222-226. -/
def serviceElemWidth : RawServiceElem → Nat
  | .option o => optionStmtWidth o
  | .rpc r => rpcWidth r
  | .empty => 1

/-- prutalgen/internal/Protobuf.g4:10-12, 22-36, 146-151. -/
def topWidth : RawTop → Nat
  | .importStmt k p => (if k = .plain then 1 else 2) + p.length + 1
  | .package p => p.length + 2
  | .option o => optionStmtWidth o
  | .message _ es => elemsWidth es + 4
  | .enum e => enumWidth e
  | .extend t fs => extendWidth t fs
  | .service _ es => (es.map serviceElemWidth).sum + 4
  | .empty => 1

/-- prutalgen/internal/Protobuf.g4:16-18. -/
def editionWidth : Option RawEdition → Nat
  | some e => e.lit.length + 3
  | none => 0

/-! ## Places and comments -/

/-- The index in the stream of the visible token with the number `k`: what `GetStart().GetTokenIndex()` of a node is, when `k` visible tokens are before the node. -/
def visibleIndex : List Tok → Nat → Nat
  | [], _ => 0
  | t :: ts, k =>
    if t.kind = .visible then
      match k with
      | 0 => 0
      | k + 1 => visibleIndex ts k + 1
    else visibleIndex ts k + 1

/-- The comments of a node of `w` tokens with `k` visible tokens before it, and the directives in them (e.g. prutalgen/pkg/prutalgen/message.go:228-230): first
the comment above, then the one beside. -/
def nodeDirectives (toks : List Tok) (c : List Nat) (k w : Nat) : List Str × List Nat :=
  let h := consumeHead toks c (visibleIndex toks k)
  let i := consumeInline toks h.2 (visibleIndex toks (k + w - 1))
  (dirParse [h.1, i.1], i.2)

/-! ## Nodes -/

/-- prutalgen/pkg/prutalgen/option.go:62-67, field.go:307-316, enum.go:197-205: the name and the value of an option. -/
def readOption (o : RawOption) : OptionNode := ⟨o.name.flatten, unmarshalConst o.value.flatten⟩

/-- prutalgen/pkg/prutalgen/field.go:290-320 (`newField`). -/
def readField (toks : List Tok) (c : List Nat) (k : Nat) (f : RawField) : FieldNode × List Nat :=
  let d := nodeDirectives toks c k (fieldWidth f)
  (⟨f.label, f.key, f.typ.flatten, f.name, f.number, f.options.map readOption, d.1⟩, d.2)

/-- prutalgen/pkg/prutalgen/enum.go:180-210 (`ExitEnumField`). -/
def readEnumValue (toks : List Tok) (c : List Nat) (k : Nat) (v : RawEnumValue) : EnumValueNode × List Nat :=
  let d := nodeDirectives toks c k (enumValueWidth v)
  (⟨v.name, v.minus, v.number, v.options.map readOption, d.1⟩, d.2)

/-- prutalgen/internal/Protobuf.g4:163-168. -/
def readEnumElem (toks : List Tok) (c : List Nat) (k : Nat) : RawEnumElem → EnumElem × List Nat
  | .option o => (.option (readOption o), c)
  | .value v => let r := readEnumValue toks c k v; (.value r.1, r.2)
  | .reserved rr => (.reserved rr, c)
  | .reservedNames ss => (.reservedNames (ss.map List.flatten), c)
  | .empty => (.empty, c)

/-- The children of a node, one after the other (prutalgen/internal/antlr/tree.go, `Walk`). -/
def readMany {α β : Type} (width : α → Nat) (read : List Nat → Nat → α → β × List Nat) : List Nat → Nat → List α → List β × List Nat
  | c, _, [] => ([], c)
  | c, k, x :: xs =>
    let r := read c k x
    let rs := readMany width read r.2 (k + width x) xs
    (r.1 :: rs.1, rs.2)

/-- prutalgen/pkg/prutalgen/enum.go:154-174 (`EnterEnumDef`): the comments of the enum come before those in it. -/
def readEnum (toks : List Tok) (c : List Nat) (k : Nat) (e : RawEnum) : EnumNode × List Nat :=
  let d := nodeDirectives toks c k (enumWidth e)
  let r := readMany enumElemWidth (readEnumElem toks) d.2 (k + 3) e.elems
  (⟨e.name, d.1, r.1⟩, r.2)

/-- prutalgen/pkg/prutalgen/field.go:349-359 (`ExitOneofField`). -/
def readOneofElem (toks : List Tok) (c : List Nat) (k : Nat) : RawOneofElem → OneofElem × List Nat
  | .option o => (.option (readOption o), c)
  | .field f => let r := readField toks c k f; (.field r.1, r.2)
  | .empty => (.empty, c)

/-- prutalgen/pkg/prutalgen/field.go:322-326: fields of `extend` are left out, their comments are not consumed. -/
def readExtendFields : List (Option RawField) → List FieldNode
  | [] => []
  | some f :: fs => ⟨f.label, f.key, f.typ.flatten, f.name, f.number, f.options.map readOption, []⟩ :: readExtendFields fs
  | none :: fs => readExtendFields fs

mutual
/-- prutalgen/internal/Protobuf.g4:192-203; prutalgen/pkg/prutalgen/message.go:226-248 (`EnterMessageDef`): the comments of a message come before those in it. -/
def readElem (toks : List Tok) (c : List Nat) (k : Nat) : RawElem → MsgElem × List Nat
  | .field f => let r := readField toks c k f; (.field r.1, r.2)
  | .enum e => let r := readEnum toks c k e; (.enum r.1, r.2)
  | .message n es =>
    let d := nodeDirectives toks c k (elemsWidth es + 4)
    let r := readElems toks d.2 (k + 3) es
    (.message n d.1 r.1, r.2)
  | .extend t fs => (.extend t.flatten (readExtendFields fs), c)
  | .option o => (.option (readOption o), c)
  | .oneof n es => let r := readMany oneofElemWidth (readOneofElem toks) c (k + 3) es; (.oneof n r.1, r.2)
  | .mapField f => let r := readField toks c k f; (.mapField r.1, r.2)
  | .reserved rr => (.reserved rr, c)
  | .reservedNames ss => (.reservedNames (ss.map List.flatten), c)
  | .extensions rr os => (.extensions rr (os.map readOption), c)
  | .empty => (.empty, c)
/-- prutalgen/internal/Protobuf.g4:188-190. -/
def readElems (toks : List Tok) (c : List Nat) (k : Nat) : List RawElem → List MsgElem × List Nat
  | [] => ([], c)
  | e :: es =>
    let r := readElem toks c k e
    let rs := readElems toks r.2 (k + elemWidth e) es
    (r.1 :: rs.1, rs.2)
end

/-- prutalgen/pkg/prutalgen/service.go:88-121 (`EnterRpc`, `ExitRpc`).  The places of `stream` and of the types are numbers of visible tokens here, where the program
has places in the text; they are only compared with each other. -/
def readRpc (toks : List Tok) (c : List Nat) (k : Nat) (r : RawRpc) : RpcNode × List Nat :=
  let d := nodeDirectives toks c k (rpcWidth r)
  (⟨r.name, d.1, if r.requestStream then some (k + requestAt r - 1) else none, k + requestAt r, r.request.flatten,
    if r.returnStream then some (k + returnAt r - 1) else none, k + returnAt r, r.ret.flatten,
    match r.body with
    | some es => es.map (Option.map readOption)
    | none => []⟩, d.2)

/-- prutalgen/internal/Protobuf.g4:222-226. -/
def readServiceElem (toks : List Tok) (c : List Nat) (k : Nat) : RawServiceElem → ServiceElem × List Nat
  | .option o => (.option (readOption o), c)
  | .rpc r => let x := readRpc toks c k r; (.rpc x.1, x.2)
  | .empty => (.empty, c)

/-- prutalgen/internal/Protobuf.g4:10-12, 146-151; prutalgen/pkg/prutalgen/proto.go:186-211, service.go:75-86 (`EnterServiceDef`). -/
def readTop (toks : List Tok) (c : List Nat) (k : Nat) : RawTop → TopElem × List Nat
  | .importStmt kind p => (.importStmt (kind = .public) (unmarshalChars p.flatten), c)
  | .package p => (.package p.flatten, c)
  | .option o => (.option (readOption o), c)
  | .message n es =>
    let d := nodeDirectives toks c k (elemsWidth es + 4)
    let r := readElems toks d.2 (k + 3) es
    (.message n d.1 r.1, r.2)
  | .enum e => let r := readEnum toks c k e; (.enum r.1, r.2)
  | .extend t fs => (.extend t.flatten (readExtendFields fs), c)
  | .service n es =>
    let d := nodeDirectives toks c k ((es.map serviceElemWidth).sum + 4)
    let r := readMany serviceElemWidth (readServiceElem toks) d.2 (k + 3) es
    (.service n d.1 r.1, r.2)
  | .empty => (.empty, c)

/-- prutalgen/pkg/prutalgen/prutalgen.go:251-254: the walk, and after it the head comment of the file, whose first token is the first visible one. -/
def readProto (toks : List Tok) (p : RawProto) : Text :=
  let r := readMany topWidth (readTop toks) [] (editionWidth p.edition) p.elems
  ⟨dirParse [(consumeHead toks r.2 (visibleIndex toks 0)).1], ⟨p.edition.map fun e => unmarshalChars e.lit.flatten, r.1⟩⟩

/-- prutalgen/internal/antlr/lexer.go:317-324 (`EmitEOF`): the last token of the stream. -/
def eofTok : Tok := ⟨.visible, "<EOF>".toList⟩

/-- prutalgen/pkg/prutalgen/prutalgen.go:236-254 (`parseInput`): a file from its characters; `none` is a syntax error. -/
def readText (s : Str) : Option Text := (parseText s).map (readProto (lex s ++ [eofTok]))

/-- The files that the generator sees, with their characters (prutalgen/pkg/prutalgen/prutalgen.go:178-234; bytes that are not UTF-8 are U+FFFD,
prutalgen/internal/antlr/input_stream.go:23-57). -/
structure Disk where
  cwd : Str
  stat : Str → Bool
  read : Str → Option Str
  embedded : Str → Option (Option Str)

/-- The files with their parse trees. -/
def Disk.texts (D : Disk) : Texts where
  cwd := D.cwd
  stat := D.stat
  read := fun f => (D.read f).bind readText
  embedded := fun f => (D.embedded f).map fun s => s.bind readText

end Verif.Model.Gen
