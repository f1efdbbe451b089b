import Verif.Model.Gen.Antlr.Parser
import Verif.Model.Gen.Grammar
/-!
# What is read from the tree of the parser

The listeners of prutalgen/pkg/prutalgen read a tree through the accessors that are generated for each rule: the first child that belongs to a rule, all
of them, the first token of a type; and `GetText`, the texts of the tokens below.  Here the tree is turned into one of the type `RawProto` in the same way.
-/
namespace Verif.Model.Gen.Antlr
open Verif.Model.Gen

mutual
/-- prutalgen/internal/antlr/parser_rule_context.go:94-105 (`GetText`, before the texts are joined). -/
def leaves : PTree → List Str
  | .leaf x => [x.text]
  | .node _ ts => leavesL ts
/-- The texts below a list of trees. -/
def leavesL : List PTree → List Str
  | [] => []
  | t :: ts => leaves t ++ leavesL ts
end

/-- prutalgen/internal/parser/protobuf_parser.go:1838-1852 and the like: the children of the first child that belongs to a rule. -/
def kid (r : Nat) : List PTree → Option (List PTree)
  | [] => none
  | .node q ts :: l => if q = r then some ts else kid r l
  | .leaf _ :: l => kid r l

/-- prutalgen/internal/parser/protobuf_parser.go:2093-2112 and the like: those of all such children. -/
def kids (r : Nat) : List PTree → List (List PTree)
  | [] => []
  | .node q ts :: l => if q = r then ts :: kids r l else kids r l
  | .leaf _ :: l => kids r l

/-- prutalgen/internal/antlr/parser_rule_context.go:218-233 (`GetToken`): whether there is a token of a type. -/
def hasTok (t : Nat) : List PTree → Bool
  | [] => false
  | .leaf x :: l => if x.typ = t then true else hasTok t l
  | .node _ _ :: l => hasTok t l

/-- The texts below the first child of a rule. -/
def textsOf (r : Nat) (l : List PTree) : List Str :=
  match kid r l with
  | none => []
  | some ts => leavesL ts

/-- `GetText` of the first child of a rule. -/
def textOf (r : Nat) (l : List PTree) : Str := (textsOf r l).flatten

/-- `optionStatement`, `fieldOption` and `enumValueOption`: prutalgen/pkg/prutalgen/option.go:62-71. -/
def astOption (l : List PTree) : RawOption := ⟨textsOf 5 l, textsOf 35 l⟩

/-- `fieldOptions`: prutalgen/pkg/prutalgen/field.go:310-318. -/
def astFieldOptions (l : List PTree) : List RawOption :=
  match kid 8 l with
  | none => []
  | some ts => (kids 9 ts).map astOption

/-- `fieldLabel`: prutalgen/pkg/prutalgen/field.go:329-345. -/
def astLabel (l : List PTree) : Option Label :=
  match kid 6 l with
  | none => none
  | some ts => if hasTok 8 ts then some .optional else if hasTok 9 ts then some .required else if hasTok 10 ts then some .repeated else none

/-- `keyType`: prutalgen/pkg/prutalgen/field.go:301-303. -/
def astKey (l : List PTree) : Option Str :=
  match kid 14 l with
  | none => none
  | some ts => some (leavesL ts).flatten

/-- `field`, `oneofField` and `mapField`: prutalgen/pkg/prutalgen/field.go:290-367. -/
def astField (l : List PTree) : RawField := ⟨astLabel l, astKey l, textsOf 15 l, textOf 42 l, textOf 10 l, astFieldOptions l⟩

/-- `oneRange`: prutalgen/pkg/prutalgen/reserved.go:55-76. -/
def astRange (l : List PTree) : RangeNode :=
  match kids 48 l with
  | [a] => ⟨(leavesL a).flatten, if hasTok 31 l then .max else .single⟩
  | a :: b :: _ => ⟨(leavesL a).flatten, .lit (leavesL b).flatten⟩
  | [] => ⟨[], .single⟩

/-- `ranges`. -/
def astRanges (l : List PTree) : List RangeNode :=
  match kid 18 l with
  | none => []
  | some ts => (kids 19 ts).map astRange

/-- `reservedFieldNames`. -/
def astNames (l : List PTree) : List (List Str) :=
  match kid 20 l with
  | none => []
  | some ts => (kids 49 ts).map leavesL

/-- `enumValueOptions`: prutalgen/pkg/prutalgen/enum.go:199-208. -/
def astEnumOptions (l : List PTree) : List RawOption :=
  match kid 26 l with
  | none => []
  | some ts => (kids 27 ts).map astOption

/-- `enumField`: prutalgen/pkg/prutalgen/enum.go:180-210. -/
def astEnumValue (l : List PTree) : RawEnumValue := ⟨textOf 38 l, hasTok 53 l, textOf 48 l, astEnumOptions l⟩

/-- `enumElement`. -/
def astEnumElem : List PTree → RawEnumElem
  | .node 4 ts :: _ => .option (astOption ts)
  | .node 25 ts :: _ => .value (astEnumValue ts)
  | .node 16 ts :: _ => if (kid 18 ts).isSome then .reserved (astRanges ts) else .reservedNames (astNames ts)
  | _ => .empty

/-- `enumDef`, `enumBody`: prutalgen/pkg/prutalgen/enum.go:154-174. -/
def astEnum (l : List PTree) : RawEnum :=
  ⟨textOf 41 l,
    match kid 23 l with
    | none => []
    | some ts => (kids 24 ts).map astEnumElem⟩

/-- The children of `oneof` that are elements. -/
def astOneofElem : PTree → List RawOneofElem
  | .node 4 ts => [.option (astOption ts)]
  | .node 12 ts => [.field (astField ts)]
  | .node 37 _ => [.empty]
  | _ => []

/-- The children of `extendDef` that are elements. -/
def astExtendElem : PTree → List (Option RawField)
  | .node 7 ts => [some (astField ts)]
  | .node 37 _ => [none]
  | _ => []

mutual
/-- `messageDef`: the elements of `messageBody`. -/
def astBody : List PTree → List RawElem
  | [] => []
  | .node 29 ts :: _ => astElems ts
  | _ :: l => astBody l
/-- `messageBody`. -/
def astElems : List PTree → List RawElem
  | [] => []
  | .node 30 ts :: l => astElem ts :: astElems l
  | _ :: l => astElems l
/-- `messageElement`. -/
def astElem : List PTree → RawElem
  | .node 7 ts :: _ => .field (astField ts)
  | .node 22 ts :: _ => .enum (astEnum ts)
  | .node 28 ts :: _ => .message (textOf 40 ts) (astBody ts)
  | .node 31 ts :: _ => .extend (textsOf 46 ts) (ts.flatMap astExtendElem)
  | .node 4 ts :: _ => .option (astOption ts)
  | .node 11 ts :: _ => .oneof (textOf 43 ts) (ts.flatMap astOneofElem)
  | .node 13 ts :: _ => .mapField (astField ts)
  | .node 16 ts :: _ => if (kid 18 ts).isSome then .reserved (astRanges ts) else .reservedNames (astNames ts)
  | .node 17 ts :: _ => .extensions (astRanges ts) (astFieldOptions ts)
  | _ => .empty
end

/-- The children up to the first one of a rule, and those after it. -/
def splitAtRule (r : Nat) : List PTree → List PTree × List PTree
  | [] => ([], [])
  | .node q ts :: l => if q = r then ([], l) else (.node q ts :: (splitAtRule r l).1, (splitAtRule r l).2)
  | .leaf x :: l => (.leaf x :: (splitAtRule r l).1, (splitAtRule r l).2)

/-- The children of `rpc` that are options or empty statements. -/
def astRpcElem : PTree → List (Option RawOption)
  | .node 4 ts => [some (astOption ts)]
  | .node 37 _ => [none]
  | _ => []

/-- `rpc`: prutalgen/pkg/prutalgen/service.go:88-121; the first `messageType` is the request, the second one the result, and `stream` belongs to the one
that it stands before. -/
def astRpc (l : List PTree) : RawRpc :=
  ⟨textOf 45 l, hasTok 37 (splitAtRule 46 l).1, textsOf 46 l, hasTok 37 (splitAtRule 46 (splitAtRule 46 l).2).1, textsOf 46 (splitAtRule 46 l).2,
    if hasTok 45 l then some (l.flatMap astRpcElem) else none⟩

/-- `serviceElement`. -/
def astServiceElem : List PTree → RawServiceElem
  | .node 4 ts :: _ => .option (astOption ts)
  | .node 34 ts :: _ => .rpc (astRpc ts)
  | _ => .empty

/-- `importStatement`: prutalgen/pkg/prutalgen/proto.go:193-211. -/
def astImportKind (l : List PTree) : ImportKind := if hasTok 4 l then .weak else if hasTok 5 l then .public else .plain

/-- `topLevelDef`. -/
def astDef : List PTree → RawTop
  | .node 28 ts :: _ => .message (textOf 40 ts) (astBody ts)
  | .node 22 ts :: _ => .enum (astEnum ts)
  | .node 31 ts :: _ => .extend (textsOf 46 ts) (ts.flatMap astExtendElem)
  | .node 32 ts :: _ => .service (textOf 44 ts) ((kids 33 ts).map astServiceElem)
  | _ => .empty

/-- The children of `proto` that are statements. -/
def astTop : PTree → List RawTop
  | .node 2 ts => [.importStmt (astImportKind ts) (textsOf 49 ts)]
  | .node 3 ts => [.package (textsOf 39 ts)]
  | .node 4 ts => [.option (astOption ts)]
  | .node 21 ts => [astDef ts]
  | .node 37 _ => [.empty]
  | _ => []

/-- `proto`, and `edition`: prutalgen/pkg/prutalgen/proto.go:171-184. -/
def astProto (l : List PTree) : RawProto :=
  ⟨match kid 1 l with
    | none => none
    | some ts => some ⟨hasTok 2 ts, textsOf 49 ts⟩,
   l.flatMap astTop⟩

end Verif.Model.Gen.Antlr
