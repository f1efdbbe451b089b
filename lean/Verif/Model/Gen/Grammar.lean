import Verif.Model.Gen.Lexer
import Verif.Model.Gen.Listener
/-!
# Model of the parser: from the tokens of a proto file to its parse tree

prutalgen/internal/parser/protobuf_parser.go is generated from the rules of prutalgen/internal/Protobuf.g4 and run by prutalgen/internal/antlr: a file is
accepted iff its visible tokens can be derived from `proto`; where several alternatives of a rule lead to a derivation, the first one in the grammar is taken
(prutalgen/internal/antlr/parser_atn_simulator.go, prediction mode LL: an alternative is followed as long as it can be continued, and ambiguities are resolved
to the smallest number; an optional part is present if it can be).  Any error ends the program (prutalgen/pkg/prutalgen/prutalgen.go:276-289).

Here the rules are functions from the texts of the tokens that are left to a tree and the texts that remain, with ordered choice; that they accept
what the grammar derives is `C78`.  The trees keep the texts of the tokens, without keywords and punctuation.  Numbers bound the depth of recursion; the
number of tokens is enough.
-/
namespace Verif.Model.Gen

/-! ## Types of tokens: the first lexical rule that matches the text -/

/-- prutalgen/internal/Protobuf.g4:257-260, 624-663 (`ident`): every word except `required` (`REQUIRED` is not in `keywords`), `inf` and `nan` (`FLOAT_LIT`). -/
def isNameTok : Str → Bool
  | [] => false
  | c :: r => isLetter c && r.all isWordChar && !(c :: r == "required".toList || c :: r == "inf".toList || c :: r == "nan".toList)

/-- prutalgen/internal/Protobuf.g4:572-588 (`INT_LIT`). -/
def isIntTok : Str → Bool
  | [] => false
  | c :: r => isDecChar c && (intLit c r == c :: r)

/-- prutalgen/internal/Protobuf.g4:558-562 (`INT_LIT` or `FLOAT_LIT`). -/
def isNumTok : Str → Bool
  | [] => false
  | c :: r => (isDecChar c && numberLit c r == c :: r) || (c == '.' && dotLit r == c :: r && r != []) || c :: r == "inf".toList || c :: r == "nan".toList

/-- prutalgen/internal/Protobuf.g4:529-532 (`STR_LIT_SINGLE`). -/
def isStrTok : Str → Bool
  | [] => false
  | q :: r => (q == '"' || q == '\'') && match strScan q .body r with
    | .ok (_, []) => true
    | _ => false

/-! ## Parse trees -/

/-- prutalgen/internal/Protobuf.g4:34-36, 58-60, 178-180: the tokens of `optionName` and of `constant`. -/
structure RawOption where
  name : List Str
  value : List Str
  deriving DecidableEq

/-- prutalgen/internal/Protobuf.g4:50-52, 72-80 (`field`, `oneofField`, `mapField`); `typ` are the tokens of the type. -/
structure RawField where
  label : Option Label
  key : Option Str
  typ : List Str
  name : Str
  number : Str
  options : List RawOption
  deriving DecidableEq

deriving instance DecidableEq for RangeEnd
deriving instance DecidableEq for RangeNode

/-- prutalgen/internal/Protobuf.g4:170-172 (`enumField`). -/
structure RawEnumValue where
  name : Str
  minus : Bool
  number : Str
  options : List RawOption
  deriving DecidableEq

/-- prutalgen/internal/Protobuf.g4:163-168 (`enumElement`). -/
inductive RawEnumElem where
  | option (o : RawOption)
  | value (v : RawEnumValue)
  | reserved (rr : List RangeNode)
  | reservedNames (ss : List (List Str))
  | empty
  deriving DecidableEq

/-- prutalgen/internal/Protobuf.g4:155-161 (`enumDef`). -/
structure RawEnum where
  name : Str
  elems : List RawEnumElem
  deriving DecidableEq

/-- prutalgen/internal/Protobuf.g4:68-70 (`oneof`). -/
inductive RawOneofElem where
  | option (o : RawOption)
  | field (f : RawField)
  | empty
  deriving DecidableEq

/-- prutalgen/internal/Protobuf.g4:192-203 (`messageElement`); in `extend`, `none` is an empty statement. -/
inductive RawElem where
  | field (f : RawField)
  | enum (e : RawEnum)
  | message (name : Str) (elems : List RawElem)
  | extend (typ : List Str) (fields : List (Option RawField))
  | option (o : RawOption)
  | oneof (name : Str) (elems : List RawOneofElem)
  | mapField (f : RawField)
  | reserved (rr : List RangeNode)
  | reservedNames (ss : List (List Str))
  | extensions (rr : List RangeNode) (options : List RawOption)
  | empty

/-- prutalgen/internal/Protobuf.g4:228-233 (`rpc`); `body` is what is between braces, if there are any (`none` inside is an empty statement). -/
structure RawRpc where
  name : Str
  requestStream : Bool
  request : List Str
  returnStream : Bool
  ret : List Str
  body : Option (List (Option RawOption))
  deriving DecidableEq

/-- prutalgen/internal/Protobuf.g4:222-226 (`serviceElement`). -/
inductive RawServiceElem where
  | option (o : RawOption)
  | rpc (r : RawRpc)
  | empty
  deriving DecidableEq

/-- prutalgen/internal/Protobuf.g4:22-24: what may stand after `import`. -/
inductive ImportKind where
  | plain | weak | «public»
  deriving DecidableEq

/-- prutalgen/internal/Protobuf.g4:10-12, 146-151 (the statements of a file). -/
inductive RawTop where
  | importStmt (kind : ImportKind) (path : List Str)
  | package (name : List Str)
  | option (o : RawOption)
  | message (name : Str) (elems : List RawElem)
  | enum (e : RawEnum)
  | extend (typ : List Str) (fields : List (Option RawField))
  | service (name : Str) (elems : List RawServiceElem)
  | empty

/-- prutalgen/internal/Protobuf.g4:16-18: `syntax` or `edition`, and the string. -/
structure RawEdition where
  isEdition : Bool
  lit : List Str
  deriving DecidableEq

/-- prutalgen/internal/Protobuf.g4:10-12 (`proto`). -/
structure RawProto where
  edition : Option RawEdition
  elems : List RawTop

/-! ## Rules -/

/-- A rule: what it derives from the beginning of the tokens, and the rest. -/
abbrev Rule (α : Type) := List Str → Option (α × List Str)

/-- One token. -/
def eat (k : Str) : List Str → Option (List Str)
  | [] => none
  | t :: ts => if t = k then some ts else none

/-- One token of a type. -/
def takeIf (p : Str → Bool) : Rule Str
  | [] => none
  | t :: ts => if p t then some (t, ts) else none

/-- The tree of a rule as an alternative of another. -/
def Rule.as {α β : Type} (p : Rule α) (f : α → β) : Rule β := fun ts =>
  match p ts with
  | none => none
  | some (x, r) => some (f x, r)

/-- Alternatives. -/
def Rule.orElse {α : Type} (p q : Rule α) : Rule α := fun ts =>
  match p ts with
  | some x => some x
  | none => q ts

/-- `X (COMMA X)*`. -/
def sepBy {α : Type} (p : Rule α) : Nat → Rule (List α)
  | 0, _ => none
  | n + 1, ts =>
    match p ts with
    | none => none
    | some (x, r) =>
      match eat ",".toList r with
      | none => some ([x], r)
      | some r =>
        match sepBy p n r with
        | none => none
        | some (xs, r) => some (x :: xs, r)

/-- `X* RC`. -/
def manyUntil {α : Type} (p : Rule α) : Nat → Rule (List α)
  | 0, _ => none
  | n + 1, ts =>
    match eat "}".toList ts with
    | some r => some ([], r)
    | none =>
      match p ts with
      | none => none
      | some (x, r) =>
        match manyUntil p n r with
        | none => none
        | some (xs, r) => some (x :: xs, r)

/-- `X* EOF`. -/
def manyToEnd {α : Type} (p : Rule α) : Nat → List Str → Option (List α)
  | _, [] => some []
  | 0, _ :: _ => none
  | n + 1, t :: ts =>
    match p (t :: ts) with
    | none => none
    | some (x, r) =>
      match manyToEnd p n r with
      | none => none
      | some xs => some (x :: xs)

/-- prutalgen/internal/Protobuf.g4:251-253 (`emptyStatement`). -/
def takeEmpty : Rule Unit := fun ts =>
  match eat ";".toList ts with
  | none => none
  | some r => some ((), r)

/-- prutalgen/internal/Protobuf.g4:262-264: `(DOT ident)*`. -/
def takeTail : List Str → List Str × List Str
  | d :: t :: ts => if d = ".".toList && isNameTok t then (d :: t :: (takeTail ts).1, (takeTail ts).2) else ([], d :: t :: ts)
  | ts => ([], ts)

/-- prutalgen/internal/Protobuf.g4:262-264 (`fullIdent`). -/
def takePath : Rule (List Str)
  | [] => none
  | t :: ts => if isNameTok t then some (t :: (takeTail ts).1, (takeTail ts).2) else none

/-- prutalgen/internal/Protobuf.g4:290-296 (`messageType`, `enumType`), and 99-117 (`fieldType`: the names of scalar types are identifiers as well, with the
same text). -/
def takeType : Rule (List Str) := fun ts =>
  match eat ".".toList ts with
  | some r =>
    match takePath r with
    | none => none
    | some (p, r) => some (".".toList :: p, r)
  | none => takePath ts

/-- prutalgen/internal/Protobuf.g4:38-41: the second alternative of `optionName`, after `LP fullIdent RP`. -/
def takeOptSuffix (p r : List Str) : Option (List Str × List Str) :=
  match eat ".".toList r with
  | none => some ("(".toList :: (p ++ [")".toList]), r)
  | some r =>
    match takePath r with
    | none => none
    | some (q, r) => some ("(".toList :: (p ++ ")".toList :: ".".toList :: q), r)

/-- prutalgen/internal/Protobuf.g4:38-41 (`optionName`). -/
def takeOptName : Rule (List Str) := fun ts =>
  match eat "(".toList ts with
  | none => takePath ts
  | some r =>
    match takePath r with
    | none => none
    | some (p, r) =>
      match eat ")".toList r with
      | none => none
      | some r => takeOptSuffix p r

/-- prutalgen/internal/Protobuf.g4:302-304 (`strLit`). -/
def takeStrs : Rule (List Str)
  | [] => none
  | t :: ts => if isStrTok t then some (t :: ts.takeWhile isStrTok, ts.dropWhile isStrTok) else none

/-- prutalgen/internal/Protobuf.g4:237-245: a number after a sign. -/
def takeSigned (sign : Str) : Rule (List Str)
  | [] => none
  | t :: ts => if isNumTok t then some ([sign, t], ts) else none

/-- prutalgen/internal/Protobuf.g4:247-249: `(SEMI | COMMA)?`. -/
def takeSep : List Str → List Str × List Str
  | [] => ([], [])
  | t :: ts => if t = ";".toList || t = ",".toList then ([t], ts) else ([], t :: ts)

mutual
/-- prutalgen/internal/Protobuf.g4:237-245 (`constant`; `true` and `false` are identifiers as well). -/
def takeConst : Nat → Rule (List Str)
  | 0, _ => none
  | _ + 1, [] => none
  | n + 1, t :: ts =>
    if isNameTok t then takePath (t :: ts)
    else if isNumTok t then some ([t], ts)
    else if t = "-".toList || t = "+".toList then takeSigned t ts
    else if isStrTok t then takeStrs (t :: ts)
    else if t = "{".toList then
      match takeEntries n ts with
      | none => none
      | some (a, r) => some (t :: a, r)
    else none
/-- prutalgen/internal/Protobuf.g4:247-249 (`blockLit`) after `LC`. -/
def takeEntries : Nat → Rule (List Str)
  | 0, _ => none
  | n + 1, ts =>
    match eat "}".toList ts with
    | some r => some (["}".toList], r)
    | none =>
      match takeIf isNameTok ts with
      | none => none
      | some (k, r) =>
        match eat ":".toList r with
        | none => none
        | some r =>
          match takeConst n r with
          | none => none
          | some (c, r) =>
            match takeEntries n (takeSep r).2 with
            | none => none
            | some (a, r') => some (k :: ":".toList :: (c ++ ((takeSep r).1 ++ a)), r')
end

/-- prutalgen/internal/Protobuf.g4:58-60, 178-180 (`fieldOption`, `enumValueOption`). -/
def parseOption : Rule RawOption := fun ts => do
  let (n, ts) ← takeOptName ts
  let ts ← eat "=".toList ts
  let (v, ts) ← takeConst ts.length ts
  return (⟨n, v⟩, ts)

/-- prutalgen/internal/Protobuf.g4:34-36 (`optionStatement`). -/
def parseOptionStmt : Rule RawOption := fun ts => do
  let ts ← eat "option".toList ts
  let (o, ts) ← parseOption ts
  let ts ← eat ";".toList ts
  return (o, ts)

/-- prutalgen/internal/Protobuf.g4:51: `(LB fieldOptions RB)?`; 174-176 (`enumValueOptions`). -/
def parseBrackets : Rule (List RawOption) := fun ts =>
  match eat "[".toList ts with
  | none => some ([], ts)
  | some r => do
    let (os, r) ← sepBy parseOption r.length r
    let r ← eat "]".toList r
    return (os, r)

/-- prutalgen/internal/Protobuf.g4:51, 73, 79: `fieldName EQ fieldNumber (LB fieldOptions RB)? SEMI`. -/
def parseFieldEnd (label : Option Label) (key : Option Str) (typ : List Str) : Rule RawField := fun ts => do
  let (n, ts) ← takeIf isNameTok ts
  let ts ← eat "=".toList ts
  let (i, ts) ← takeIf isIntTok ts
  let (os, ts) ← parseBrackets ts
  let ts ← eat ";".toList ts
  return (⟨label, key, typ, n, i, os⟩, ts)

/-- prutalgen/internal/Protobuf.g4:50-52, 72-74: a field after its label. -/
def parseFieldRest (label : Option Label) : Rule RawField := fun ts => do
  let (t, ts) ← takeType ts
  parseFieldEnd label none t ts

/-- prutalgen/internal/Protobuf.g4:44-48 (`fieldLabel`). -/
def takeLabel : Rule Label
  | [] => none
  | t :: ts =>
    if t = "optional".toList then some (.optional, ts)
    else if t = "required".toList then some (.required, ts)
    else if t = "repeated".toList then some (.repeated, ts)
    else none

/-- A field with a label. -/
def parseLabelled : Rule RawField := fun ts => do
  let (l, ts) ← takeLabel ts
  parseFieldRest (some l) ts

/-- prutalgen/internal/Protobuf.g4:50-52 (`field`). -/
def parseFieldStmt : Rule RawField := parseLabelled.orElse (parseFieldRest none)

/-- prutalgen/internal/Protobuf.g4:82-95 (`keyType`). -/
def isMapKeyType (s : Str) : Bool :=
  ["int32", "int64", "uint32", "uint64", "sint32", "sint64", "fixed32", "fixed64", "sfixed32", "sfixed64", "bool", "string"].any fun k => s = k.toList

/-- prutalgen/internal/Protobuf.g4:78-80 (`mapField`). -/
def parseMapField : Rule RawField := fun ts => do
  let ts ← eat "map".toList ts
  let ts ← eat "<".toList ts
  let (k, ts) ← takeIf isMapKeyType ts
  let ts ← eat ",".toList ts
  let (t, ts) ← takeType ts
  let ts ← eat ">".toList ts
  parseFieldEnd none (some k) t ts

/-- prutalgen/internal/Protobuf.g4:135-137: `TO (intLit | MAX)`. -/
def takeRangeEnd : Rule RangeEnd := fun ts =>
  match eat "to".toList ts with
  | none => some (.single, ts)
  | some r =>
    match eat "max".toList r with
    | some r => some (.max, r)
    | none =>
      match takeIf isIntTok r with
      | none => none
      | some (i, r) => some (.lit i, r)

/-- prutalgen/internal/Protobuf.g4:135-137 (`oneRange`). -/
def parseRange : Rule RangeNode := fun ts => do
  let (i, ts) ← takeIf isIntTok ts
  let (e, ts) ← takeRangeEnd ts
  return (⟨i, e⟩, ts)

/-- prutalgen/internal/Protobuf.g4:121-123, 131-133: `RESERVED ranges SEMI`. -/
def parseReserved : Rule (List RangeNode) := fun ts => do
  let ts ← eat "reserved".toList ts
  let (rr, ts) ← sepBy parseRange ts.length ts
  let ts ← eat ";".toList ts
  return (rr, ts)

/-- prutalgen/internal/Protobuf.g4:121-123, 139-141: `RESERVED reservedFieldNames SEMI`. -/
def parseReservedNames : Rule (List (List Str)) := fun ts => do
  let ts ← eat "reserved".toList ts
  let (ss, ts) ← sepBy takeStrs ts.length ts
  let ts ← eat ";".toList ts
  return (ss, ts)

/-- prutalgen/internal/Protobuf.g4:127-129 (`extensions`). -/
def parseExtensions : Rule (List RangeNode × List RawOption) := fun ts => do
  let ts ← eat "extensions".toList ts
  let (rr, ts) ← sepBy parseRange ts.length ts
  let (os, ts) ← parseBrackets ts
  let ts ← eat ";".toList ts
  return ((rr, os), ts)

/-- `MINUS?`. -/
def takeMinus (ts : List Str) : Bool × List Str :=
  match eat "-".toList ts with
  | some r => (true, r)
  | none => (false, ts)

/-- prutalgen/internal/Protobuf.g4:170-172 (`enumField`). -/
def parseEnumValue : Rule RawEnumValue := fun ts => do
  let (n, ts) ← takeIf isNameTok ts
  let ts ← eat "=".toList ts
  let (i, r) ← takeIf isIntTok (takeMinus ts).2
  let (os, r) ← parseBrackets r
  let r ← eat ";".toList r
  return (⟨n, (takeMinus ts).1, i, os⟩, r)

/-- prutalgen/internal/Protobuf.g4:163-168 (`enumElement`). -/
def parseEnumElem : Rule RawEnumElem :=
  (parseOptionStmt.as .option).orElse <| (parseEnumValue.as .value).orElse <| (parseReserved.as .reserved).orElse <|
    (parseReservedNames.as .reservedNames).orElse (takeEmpty.as fun _ => .empty)

/-- `keyword ident LC X* RC`, for enums, messages, oneofs and services. -/
def parseBlock {α : Type} (k : Str) (p : Rule α) : Rule (Str × List α) := fun ts => do
  let ts ← eat k ts
  let (n, ts) ← takeIf isNameTok ts
  let ts ← eat "{".toList ts
  let (es, ts) ← manyUntil p ts.length ts
  return ((n, es), ts)

/-- prutalgen/internal/Protobuf.g4:155-161 (`enumDef`). -/
def parseEnum : Rule RawEnum := (parseBlock "enum".toList parseEnumElem).as fun x => ⟨x.1, x.2⟩

/-- prutalgen/internal/Protobuf.g4:68-70: the elements of a oneof. -/
def parseOneofElem : Rule RawOneofElem :=
  (parseOptionStmt.as .option).orElse <| ((parseFieldRest none).as .field).orElse (takeEmpty.as fun _ => .empty)

/-- prutalgen/internal/Protobuf.g4:213: `field | emptyStatement`. -/
def parseExtendElem : Rule (Option RawField) := (parseFieldStmt.as some).orElse (takeEmpty.as fun _ => none)

/-- prutalgen/internal/Protobuf.g4:212-214 (`extendDef`). -/
def parseExtend : Rule (List Str × List (Option RawField)) := fun ts => do
  let ts ← eat "extend".toList ts
  let (t, ts) ← takeType ts
  let ts ← eat "{".toList ts
  let (fs, ts) ← manyUntil parseExtendElem ts.length ts
  return ((t, fs), ts)

/-- prutalgen/internal/Protobuf.g4:184-203 (`messageDef`, `messageElement`). -/
def parseElem : Nat → Rule RawElem
  | 0 => fun _ => none
  | n + 1 =>
    (parseFieldStmt.as .field).orElse <| (parseEnum.as .enum).orElse <|
    ((parseBlock "message".toList (parseElem n)).as fun x => .message x.1 x.2).orElse <|
    (parseExtend.as fun x => .extend x.1 x.2).orElse <| (parseOptionStmt.as .option).orElse <|
    ((parseBlock "oneof".toList parseOneofElem).as fun x => .oneof x.1 x.2).orElse <| (parseMapField.as .mapField).orElse <|
    (parseReserved.as .reserved).orElse <| (parseReservedNames.as .reservedNames).orElse <|
    (parseExtensions.as fun x => .extensions x.1 x.2).orElse (takeEmpty.as fun _ => .empty)

/-- prutalgen/internal/Protobuf.g4:228-233: `LP STREAM? messageType RP`, with `stream`. -/
def takeStreamed : Rule (Bool × List Str) := fun ts => do
  let ts ← eat "(".toList ts
  let ts ← eat "stream".toList ts
  let (t, ts) ← takeType ts
  let ts ← eat ")".toList ts
  return ((true, t), ts)

/-- prutalgen/internal/Protobuf.g4:228-233: `LP STREAM? messageType RP`, without `stream`. -/
def takeUnary : Rule (Bool × List Str) := fun ts => do
  let ts ← eat "(".toList ts
  let (t, ts) ← takeType ts
  let ts ← eat ")".toList ts
  return ((false, t), ts)

/-- prutalgen/internal/Protobuf.g4:228-233: `LP STREAM? messageType RP`. -/
def takeRpcType : Rule (Bool × List Str) := takeStreamed.orElse takeUnary

/-- prutalgen/internal/Protobuf.g4:230: `optionStatement | emptyStatement`. -/
def parseRpcElem : Rule (Option RawOption) := (parseOptionStmt.as some).orElse (takeEmpty.as fun _ => none)

/-- prutalgen/internal/Protobuf.g4:229-232: the end of `rpc`. -/
def parseRpcBody : Rule (Option (List (Option RawOption))) := fun ts =>
  match eat "{".toList ts with
  | some r => ((manyUntil parseRpcElem r.length).as some) r
  | none => (takeEmpty.as fun _ => none) ts

/-- prutalgen/internal/Protobuf.g4:228-233 (`rpc`). -/
def parseRpc : Rule RawRpc := fun ts => do
  let ts ← eat "rpc".toList ts
  let (n, ts) ← takeIf isNameTok ts
  let (a, ts) ← takeRpcType ts
  let ts ← eat "returns".toList ts
  let (b, ts) ← takeRpcType ts
  let (body, ts) ← parseRpcBody ts
  return (⟨n, a.1, a.2, b.1, b.2, body⟩, ts)

/-- prutalgen/internal/Protobuf.g4:222-226 (`serviceElement`). -/
def parseServiceElem : Rule RawServiceElem :=
  (parseOptionStmt.as .option).orElse <| (parseRpc.as .rpc).orElse (takeEmpty.as fun _ => .empty)

/-- prutalgen/internal/Protobuf.g4:22-24: `(WEAK | PUBLIC)?`. -/
def takeImportKind : List Str → ImportKind × List Str
  | [] => (.plain, [])
  | t :: ts => if t = "weak".toList then (.weak, ts) else if t = "public".toList then (.public, ts) else (.plain, t :: ts)

/-- prutalgen/internal/Protobuf.g4:22-24 (`importStatement`). -/
def parseImport : Rule (ImportKind × List Str) := fun ts => do
  let ts ← eat "import".toList ts
  let (s, r) ← takeStrs (takeImportKind ts).2
  let r ← eat ";".toList r
  return (((takeImportKind ts).1, s), r)

/-- prutalgen/internal/Protobuf.g4:28-30 (`packageStatement`). -/
def parsePackage : Rule (List Str) := fun ts => do
  let ts ← eat "package".toList ts
  let (p, ts) ← takePath ts
  let ts ← eat ";".toList ts
  return (p, ts)

/-- prutalgen/internal/Protobuf.g4:10-12, 146-151: a statement of a file. -/
def parseTop (n : Nat) : Rule RawTop :=
  (parseImport.as fun x => .importStmt x.1 x.2).orElse <| (parsePackage.as .package).orElse <| (parseOptionStmt.as .option).orElse <|
    ((parseBlock "message".toList (parseElem n)).as fun x => .message x.1 x.2).orElse <| (parseEnum.as .enum).orElse <|
    (parseExtend.as fun x => .extend x.1 x.2).orElse <|
    ((parseBlock "service".toList parseServiceElem).as fun x => .service x.1 x.2).orElse (takeEmpty.as fun _ => .empty)

/-- prutalgen/internal/Protobuf.g4:16-18: `SYNTAX | EDITION`. -/
def takeEditionWord : Rule Bool
  | [] => none
  | t :: ts => if t = "syntax".toList then some (false, ts) else if t = "edition".toList then some (true, ts) else none

/-- prutalgen/internal/Protobuf.g4:16-18 (`edition`). -/
def parseEdition : Rule RawEdition := fun ts => do
  let (b, ts) ← takeEditionWord ts
  let ts ← eat "=".toList ts
  let (s, ts) ← takeStrs ts
  let ts ← eat ";".toList ts
  return (⟨b, s⟩, ts)

/-- prutalgen/internal/Protobuf.g4:10-12: `edition?`. -/
def parseEditionOpt : Rule (Option RawEdition) := (parseEdition.as some).orElse fun ts => some (none, ts)

/-- prutalgen/internal/Protobuf.g4:10-12 (`proto`). -/
def parseProto (ts : List Str) : Option RawProto := do
  let (e, ts) ← parseEditionOpt ts
  let es ← manyToEnd (parseTop ts.length) ts.length ts
  return ⟨e, es⟩

/-- The tokens that the parser sees. -/
def visibleTexts (toks : List Tok) : List Str := (toks.filter fun t => t.kind = .visible).map Tok.text

/-- prutalgen/pkg/prutalgen/prutalgen.go:236-251: the parse tree of a text, `none` for an error. -/
def parseText (s : Str) : Option RawProto := parseProto (visibleTexts (lex s))

end Verif.Model.Gen
