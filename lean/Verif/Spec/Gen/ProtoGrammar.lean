import Verif.Spec.Gen.Lexical
import Verif.Model.Gen.Grammar
/-!
# Specification: how the parts of a proto file are written

The grammar of the protobuf language, as functions from syntax trees to the tokens by which they are written, and predicates that say which trees are
well formed (`WF…`).  Only the types of trees are shared with the model.
-/
namespace Verif.Spec.Gen
open Verif.Model.Gen

/-! ## Tokens -/

/-- A word that can be used as a name.  (In the protobuf language every word can.) -/
def NameTok (s : Str) : Prop := ProtoIdent s ∧ s ≠ "required".toList ∧ s ≠ "inf".toList ∧ s ≠ "nan".toList

def IntTok (s : Str) : Prop := ∃ v, IntLit s v

def FloatTok (s : Str) : Prop := FloatLit s ∨ s = "inf".toList ∨ s = "nan".toList

def StrTok (s : Str) : Prop := ∃ q r, s = q :: r ∧ (q = '"' ∨ q = '\'') ∧ StrBody q r

/-- `a.b.c` -/
inductive PathToks : List Str → Prop
  | one (n : Str) : NameTok n → PathToks [n]
  | dot (n : Str) (p : List Str) : NameTok n → PathToks p → PathToks (n :: ".".toList :: p)

/-- `a.b.c` or `.a.b.c` -/
inductive TypeToks : List Str → Prop
  | plain (p : List Str) : PathToks p → TypeToks p
  | rooted (p : List Str) : PathToks p → TypeToks (".".toList :: p)

/-- `a.b`, `(a.b)` or `(a.b).c` -/
inductive OptNameToks : List Str → Prop
  | plain (p : List Str) : PathToks p → OptNameToks p
  | ext (p : List Str) : PathToks p → OptNameToks ("(".toList :: (p ++ [")".toList]))
  | extDot (p q : List Str) : PathToks p → PathToks q → OptNameToks ("(".toList :: (p ++ ")".toList :: ".".toList :: q))

/-- One or more string literals, which are concatenated. -/
def StrLitToks (ss : List Str) : Prop := ss ≠ [] ∧ ∀ s ∈ ss, StrTok s

mutual
/-- The value of an option. -/
inductive ConstToks : List Str → Prop
  | path (p : List Str) : PathToks p → ConstToks p
  | num (s : Str) : IntTok s ∨ FloatTok s → ConstToks [s]
  | signed (sign s : Str) : sign = "-".toList ∨ sign = "+".toList → IntTok s ∨ FloatTok s → ConstToks [sign, s]
  | str (ss : List Str) : StrLitToks ss → ConstToks ss
  | block (es : List Str) : EntriesToks es → ConstToks ("{".toList :: (es ++ ["}".toList]))
/-- `name: value` pairs, each followed by `;`, `,` or nothing. -/
inductive EntriesToks : List Str → Prop
  | nil : EntriesToks []
  | cons (n : Str) (c sep es : List Str) : NameTok n → ConstToks c → sep = [] ∨ sep = [";".toList] ∨ sep = [",".toList] → EntriesToks es →
      EntriesToks (n :: ":".toList :: (c ++ (sep ++ es)))
end

/-! ## How trees are written -/

/-- `a, b, c` -/
def commaSep {α : Type} (f : α → List Str) : List α → List Str
  | [] => []
  | [x] => f x
  | x :: y :: xs => f x ++ ",".toList :: commaSep f (y :: xs)

def spellOption (o : RawOption) : List Str := o.name ++ "=".toList :: o.value

/-- `option name = value;` -/
def spellOptionStmt (o : RawOption) : List Str := "option".toList :: (spellOption o ++ [";".toList])

/-- `[a = 1, b = 2]`, or nothing -/
def spellBrackets (os : List RawOption) : List Str :=
  if os = [] then [] else "[".toList :: (commaSep spellOption os ++ ["]".toList])

def spellLabel : Option Label → List Str
  | none => []
  | some .optional => ["optional".toList]
  | some .required => ["required".toList]
  | some .repeated => ["repeated".toList]

/-- `label type name = 1 [options];` or `map<key, type> name = 1 [options];` -/
def spellField (f : RawField) : List Str :=
  spellLabel f.label ++
    ((match f.key with
      | none => f.typ
      | some k => "map".toList :: "<".toList :: k :: ",".toList :: (f.typ ++ [">".toList])) ++
      (f.name :: "=".toList :: f.number :: (spellBrackets f.options ++ [";".toList])))

/-- `1`, `1 to 5` or `1 to max` -/
def spellRange (r : RangeNode) : List Str :=
  match r.hi with
  | .single => [r.lo]
  | .max => [r.lo, "to".toList, "max".toList]
  | .lit s => [r.lo, "to".toList, s]

def spellReserved (rr : List RangeNode) : List Str := "reserved".toList :: (commaSep spellRange rr ++ [";".toList])
def spellReservedNames (ss : List (List Str)) : List Str := "reserved".toList :: (commaSep id ss ++ [";".toList])
def spellExtensions (rr : List RangeNode) (os : List RawOption) : List Str :=
  "extensions".toList :: (commaSep spellRange rr ++ (spellBrackets os ++ [";".toList]))

/-- `NAME = -1 [options];` -/
def spellEnumValue (v : RawEnumValue) : List Str :=
  v.name :: "=".toList :: ((if v.minus then ["-".toList] else []) ++ (v.number :: (spellBrackets v.options ++ [";".toList])))

def spellEnumElem : RawEnumElem → List Str
  | .option o => spellOptionStmt o
  | .value v => spellEnumValue v
  | .reserved rr => spellReserved rr
  | .reservedNames ss => spellReservedNames ss
  | .empty => [";".toList]

/-- `keyword name { … }` -/
def spellBlock (k n : Str) (body : List Str) : List Str := k :: n :: "{".toList :: (body ++ ["}".toList])

def spellEnum (e : RawEnum) : List Str := spellBlock "enum".toList e.name (e.elems.flatMap spellEnumElem)

def spellOneofElem : RawOneofElem → List Str
  | .option o => spellOptionStmt o
  | .field f => spellField f
  | .empty => [";".toList]

def spellExtendElem : Option RawField → List Str
  | some f => spellField f
  | none => [";".toList]

def spellExtend (t : List Str) (fs : List (Option RawField)) : List Str :=
  "extend".toList :: (t ++ "{".toList :: (fs.flatMap spellExtendElem ++ ["}".toList]))

mutual
def spellElem : RawElem → List Str
  | .field f => spellField f
  | .enum e => spellEnum e
  | .message n es => spellBlock "message".toList n (spellElems es)
  | .extend t fs => spellExtend t fs
  | .option o => spellOptionStmt o
  | .oneof n es => spellBlock "oneof".toList n (es.flatMap spellOneofElem)
  | .mapField f => spellField f
  | .reserved rr => spellReserved rr
  | .reservedNames ss => spellReservedNames ss
  | .extensions rr os => spellExtensions rr os
  | .empty => [";".toList]
def spellElems : List RawElem → List Str
  | [] => []
  | e :: es => spellElem e ++ spellElems es
end

/-- `(stream type)` or `(type)` -/
def spellRpcType (stream : Bool) (t : List Str) : List Str :=
  "(".toList :: ((if stream then ["stream".toList] else []) ++ (t ++ [")".toList]))

def spellRpcElem : Option RawOption → List Str
  | some o => spellOptionStmt o
  | none => [";".toList]

/-- `{ option …; }` or `;` -/
def spellRpcBody : Option (List (Option RawOption)) → List Str
  | some es => "{".toList :: (es.flatMap spellRpcElem ++ ["}".toList])
  | none => [";".toList]

/-- `rpc Name(A) returns (stream B);` -/
def spellRpc (r : RawRpc) : List Str :=
  "rpc".toList :: r.name :: (spellRpcType r.requestStream r.request ++ "returns".toList :: (spellRpcType r.returnStream r.ret ++ spellRpcBody r.body))

def spellServiceElem : RawServiceElem → List Str
  | .option o => spellOptionStmt o
  | .rpc r => spellRpc r
  | .empty => [";".toList]

def spellImportKind : ImportKind → List Str
  | .plain => []
  | .weak => ["weak".toList]
  | .public => ["public".toList]

def spellTop : RawTop → List Str
  | .importStmt k p => "import".toList :: (spellImportKind k ++ (p ++ [";".toList]))
  | .package p => "package".toList :: (p ++ [";".toList])
  | .option o => spellOptionStmt o
  | .message n es => spellBlock "message".toList n (spellElems es)
  | .enum e => spellEnum e
  | .extend t fs => spellExtend t fs
  | .service n es => spellBlock "service".toList n (es.flatMap spellServiceElem)
  | .empty => [";".toList]

/-- `syntax = "proto3";` or `edition = "2023";` -/
def spellEdition (e : RawEdition) : List Str :=
  (if e.isEdition then "edition".toList else "syntax".toList) :: "=".toList :: (e.lit ++ [";".toList])

def spellEditionOpt : Option RawEdition → List Str
  | some e => spellEdition e
  | none => []

/-- The tokens of a file. -/
def spellProto (p : RawProto) : List Str := spellEditionOpt p.edition ++ p.elems.flatMap spellTop

/-! ## Well-formed trees -/

def WFOption (o : RawOption) : Prop := OptNameToks o.name ∧ ConstToks o.value

/-- The types of map keys. -/
def KeyType (s : Str) : Prop :=
  ∃ k ∈ ["int32", "int64", "uint32", "uint64", "sint32", "sint64", "fixed32", "fixed64", "sfixed32", "sfixed64", "bool", "string"], s = k.toList

/-- What all kinds of fields have in common. -/
def WFFieldEnd (f : RawField) : Prop := TypeToks f.typ ∧ NameTok f.name ∧ IntTok f.number ∧ ∀ o ∈ f.options, WFOption o
def WFField (f : RawField) : Prop := WFFieldEnd f ∧ f.key = none
def WFOneofField (f : RawField) : Prop := WFFieldEnd f ∧ f.key = none ∧ f.label = none
def WFMapField (f : RawField) : Prop := WFFieldEnd f ∧ f.label = none ∧ ∃ k, f.key = some k ∧ KeyType k

def WFRange (r : RangeNode) : Prop := IntTok r.lo ∧ ∀ s, r.hi = .lit s → IntTok s
def WFRanges (rr : List RangeNode) : Prop := rr ≠ [] ∧ ∀ r ∈ rr, WFRange r
def WFNames (ss : List (List Str)) : Prop := ss ≠ [] ∧ ∀ s ∈ ss, StrLitToks s

def WFEnumElem : RawEnumElem → Prop
  | .option o => WFOption o
  | .value v => NameTok v.name ∧ IntTok v.number ∧ ∀ o ∈ v.options, WFOption o
  | .reserved rr => WFRanges rr
  | .reservedNames ss => WFNames ss
  | .empty => True

def WFEnum (e : RawEnum) : Prop := NameTok e.name ∧ ∀ x ∈ e.elems, WFEnumElem x

def WFOneofElem : RawOneofElem → Prop
  | .option o => WFOption o
  | .field f => WFOneofField f
  | .empty => True

def WFExtend (t : List Str) (fs : List (Option RawField)) : Prop := TypeToks t ∧ ∀ f, some f ∈ fs → WFField f

mutual
def WFElem : RawElem → Prop
  | .field f => WFField f
  | .enum e => WFEnum e
  | .message n es => NameTok n ∧ WFElems es
  | .extend t fs => WFExtend t fs
  | .option o => WFOption o
  | .oneof n es => NameTok n ∧ ∀ x ∈ es, WFOneofElem x
  | .mapField f => WFMapField f
  | .reserved rr => WFRanges rr
  | .reservedNames ss => WFNames ss
  | .extensions rr os => WFRanges rr ∧ ∀ o ∈ os, WFOption o
  | .empty => True
def WFElems : List RawElem → Prop
  | [] => True
  | e :: es => WFElem e ∧ WFElems es
end

def WFRpc (r : RawRpc) : Prop := NameTok r.name ∧ TypeToks r.request ∧ TypeToks r.ret ∧ ∀ es, r.body = some es → ∀ o, some o ∈ es → WFOption o

def WFServiceElem : RawServiceElem → Prop
  | .option o => WFOption o
  | .rpc r => WFRpc r
  | .empty => True

def WFTop : RawTop → Prop
  | .importStmt _ p => StrLitToks p
  | .package p => PathToks p
  | .option o => WFOption o
  | .message n es => NameTok n ∧ WFElems es
  | .enum e => WFEnum e
  | .extend t fs => WFExtend t fs
  | .service n es => NameTok n ∧ ∀ x ∈ es, WFServiceElem x
  | .empty => True

/-- A file that the grammar allows. -/
def WFProto (p : RawProto) : Prop := (∀ e, p.edition = some e → StrLitToks e.lit) ∧ ∀ x ∈ p.elems, WFTop x

/-! ## Trees that are not written like another one -/

/-- The type of a field without label does not begin with `optional.` or `repeated.`. -/
def ProperField (f : RawField) : Prop :=
  f.label = none → ∀ t r, f.typ = t :: r → t = "optional".toList ∨ t = "repeated".toList → r = []

/-- An option in a message is not of the form `option name = 1;`, like a field of the type `option`. -/
def ProperMsgOption (o : RawOption) : Prop := ¬ ∃ n v, o.name = [n] ∧ o.value = [v] ∧ IntTok v

def ProperOneofElem : RawOneofElem → Prop
  | .field f => ¬ (f.typ = ["option".toList] ∧ f.options = [])
  | _ => True

def ProperExtend (fs : List (Option RawField)) : Prop := ∀ f, some f ∈ fs → ProperField f

mutual
def ProperElem : RawElem → Prop
  | .field f => ProperField f
  | .message _ es => ProperElems es
  | .extend _ fs => ProperExtend fs
  | .option o => ProperMsgOption o
  | .oneof _ es => ∀ x ∈ es, ProperOneofElem x
  | _ => True
def ProperElems : List RawElem → Prop
  | [] => True
  | e :: es => ProperElem e ∧ ProperElems es
end

/-- The type of a message that is not a stream does not begin with `stream.`. -/
def ProperRpcType (stream : Bool) (ty : List Str) : Prop := stream = false → ∀ r, ty = "stream".toList :: r → r = []

def ProperServiceElem : RawServiceElem → Prop
  | .rpc r => ProperRpcType r.requestStream r.request ∧ ProperRpcType r.returnStream r.ret
  | _ => True

def ProperTop : RawTop → Prop
  | .message _ es => ProperElems es
  | .extend _ fs => ProperExtend fs
  | .service _ es => ∀ x ∈ es, ProperServiceElem x
  | _ => True

def ProperProto (p : RawProto) : Prop := ∀ x ∈ p.elems, ProperTop x

end Verif.Spec.Gen
