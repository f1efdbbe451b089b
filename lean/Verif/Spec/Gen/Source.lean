import Verif.Model.Gen.Listener
import Verif.Spec.Gen.Literals
/-!
# Specification: what the text of a file declares

Only the parse tree, the declarations and the tables of messages and enums are shared with the model; the order in which
the listeners are called and what they do is not used.
-/
namespace Verif.Spec.Gen
open Verif.Model.Gen

/-- Two lists have the same length and related elements in the same places. -/
inductive All2 {α β : Type} (R : α → β → Prop) : List α → List β → Prop
  | nil : All2 R [] []
  | cons {x : α} {y : β} {xs : List α} {ys : List β} : R x y → All2 R xs ys → All2 R (x :: xs) (y :: ys)

/-! ## What is written, by kind and in order -/

/-- The options in an enum. -/
def enumOptions : List EnumElem → List OptionNode
  | [] => []
  | .option o :: es => o :: enumOptions es
  | _ :: es => enumOptions es

/-- The values of an enum. -/
def enumValues : List EnumElem → List EnumValueNode
  | [] => []
  | .value v :: es => v :: enumValues es
  | _ :: es => enumValues es

/-- The reserved ranges of an enum. -/
def enumRanges : List EnumElem → List RangeNode
  | [] => []
  | .reserved rr :: es => rr ++ enumRanges es
  | _ :: es => enumRanges es

/-- The options in a oneof. -/
def oneofOptions : List OneofElem → List OptionNode
  | [] => []
  | .option o :: es => o :: oneofOptions es
  | _ :: es => oneofOptions es

/-- The fields of a oneof. -/
def oneofFields : List OneofElem → List FieldNode
  | [] => []
  | .field f :: es => f :: oneofFields es
  | _ :: es => oneofFields es

/-- The fields of a message (not those of messages in it), each with its label and the number of its oneof, when the first oneof has number `k`. -/
def fieldsOf (k : Nat) : List MsgElem → List (Option Label × FieldNode × Option Nat)
  | [] => []
  | .field f :: es => (f.label, f, none) :: fieldsOf k es
  | .mapField f :: es => (none, f, none) :: fieldsOf k es
  | .oneof _ os :: es => (oneofFields os).map (fun f => (none, f, some k)) ++ fieldsOf (k + 1) es
  | _ :: es => fieldsOf k es

/-- The oneofs of a message, each with the number of fields of the message before it, when there are `n` fields before the elements. -/
def oneofsOf (n : Nat) : List MsgElem → List (Str × Nat × List OneofElem)
  | [] => []
  | .field _ :: es => oneofsOf (n + 1) es
  | .mapField _ :: es => oneofsOf (n + 1) es
  | .oneof name os :: es => (name, n, os) :: oneofsOf (n + (oneofFields os).length) es
  | _ :: es => oneofsOf n es

/-- The options of a message. -/
def optionsOf : List MsgElem → List OptionNode
  | [] => []
  | .option o :: es => o :: optionsOf es
  | _ :: es => optionsOf es

/-- The reserved ranges of a message. -/
def rangesOf : List MsgElem → List RangeNode
  | [] => []
  | .reserved rr :: es => rr ++ rangesOf es
  | _ :: es => rangesOf es

/-- The enums in a message. -/
def enumsOf : List MsgElem → List EnumNode
  | [] => []
  | .enum e :: es => e :: enumsOf es
  | _ :: es => enumsOf es

/-- The messages in a message. -/
def messagesOf : List MsgElem → List (Str × List Str × List MsgElem)
  | [] => []
  | .message n d ms :: es => (n, d, ms) :: messagesOf es
  | _ :: es => messagesOf es

/-! ## Declarations that say what is written -/

/-- A number in decimal. -/
def Decimal (s : List Char) (v : Nat) : Prop := s ≠ [] ∧ Digits 10 s v

/-- The options are those written. -/
def OptionsAre (nodes : List OptionNode) (oo : List Opt) : Prop :=
  oo.map (fun o => (o.1, some o.2)) = nodes.map (fun o => (o.name, o.value))

/-- The range is the one written. -/
def RangeIs (n : RangeNode) (r : Range) : Prop :=
  (∃ a : Nat, Decimal n.lo a ∧ r.1 = a) ∧
    match n.hi with
    | .single => r.2 = r.1
    | .max => r.2 = 2 ^ 31 - 1
    | .lit s => ∃ b : Nat, Decimal s b ∧ r.2 = b

/-- The field is the one written, with its label, in its oneof. -/
def FieldIs (x : Option Label × FieldNode × Option Nat) (d : FieldDecl) : Prop :=
  d.name = x.2.1.name ∧ d.key = x.2.1.key ∧ d.typ = x.2.1.typ ∧ (∃ v : Nat, IntLit x.2.1.number v ∧ d.number = v) ∧
    d.directives = x.2.1.directives ∧ OptionsAre x.2.1.options d.options ∧ d.oneof = x.2.2 ∧
    (d.repeated = true ↔ x.1 = some .repeated) ∧ (d.required = true ↔ x.1 = some .required) ∧ (d.optional = true ↔ x.1 = some .optional)

/-- The value of an enum is the one written. -/
def ValueIs (n : EnumValueNode) (f : EnumField) : Prop :=
  f.name = n.name ∧ (∃ v : Nat, IntLit n.number v ∧ f.value = if n.minus then -(v : Int) else v) ∧ f.directives = n.directives ∧
    OptionsAre n.options f.options

/-- The enum is the one written. -/
def EnumIs (n : EnumNode) (e : EnumDecl) : Prop :=
  e.name = n.name ∧ e.directives = n.directives ∧ All2 ValueIs (enumValues n.elems) e.fields ∧ OptionsAre (enumOptions n.elems) e.options ∧
    All2 RangeIs (enumRanges n.elems) e.reserved

/-- The oneof is the one written; its fields are consecutive fields of the message. -/
def OneofIs (x : Str × Nat × List OneofElem) (o : OneofRec) : Prop :=
  o.name = x.1 ∧ OptionsAre (oneofOptions x.2.2) o.options ∧ o.fields = List.range' x.2.1 (oneofFields x.2.2).length

/-- The message written (name, directives, elements) is at index `i` of the table, inside the message `parent`, and is the declaration in
the last argument: every enum and message in it is in the place where it is written and points back to it. -/
inductive Loaded (s : LState) : Option Nat → Str → List Str → List MsgElem → Nat → MsgDecl → Prop
  | mk {parent : Option Nat} {name : Str} {directives : List Str} {elems : List MsgElem} {i : Nat} {r : MsgRec}
      {enums : List EnumDecl} {messages : List MsgDecl} :
      s.msgStore[i]? = some r → r.name = name → r.directives = directives → r.parent = parent →
      All2 FieldIs (fieldsOf 0 elems) r.fields → All2 OneofIs (oneofsOf 0 elems) r.oneofs → OptionsAre (optionsOf elems) r.options →
      All2 RangeIs (rangesOf elems) r.reserved →
      r.enums.length = (enumsOf elems).length → enums.length = (enumsOf elems).length →
      (∀ (k : Nat) (n : EnumNode) (j : Nat) (e : EnumDecl), (enumsOf elems)[k]? = some n → r.enums[k]? = some j → enums[k]? = some e →
        s.enumStore[j]? = some ⟨e, some i⟩ ∧ EnumIs n e) →
      r.messages.length = (messagesOf elems).length → messages.length = (messagesOf elems).length →
      (∀ (k : Nat) (n : Str) (d : List Str) (es : List MsgElem) (j : Nat) (m : MsgDecl), (messagesOf elems)[k]? = some (n, d, es) →
        r.messages[k]? = some j → messages[k]? = some m → Loaded s (some i) n d es j m) →
      (∀ j ∈ r.messages, i < j) →
      Loaded s parent name directives elems i (.mk name enums messages r.fields (r.oneofs.map OneofRec.name) directives r.options r.reserved)

/-! ## The file -/

/-- The enums of a file. -/
def topEnums : List TopElem → List EnumNode
  | [] => []
  | .enum e :: es => e :: topEnums es
  | _ :: es => topEnums es

/-- The messages of a file. -/
def topMessages : List TopElem → List (Str × List Str × List MsgElem)
  | [] => []
  | .message n d ms :: es => (n, d, ms) :: topMessages es
  | _ :: es => topMessages es

/-- The options of a file. -/
def topOptions : List TopElem → List OptionNode
  | [] => []
  | .option o :: es => o :: topOptions es
  | _ :: es => topOptions es

/-- The imports of a file. -/
def topImports : List TopElem → List (Option Str × Bool)
  | [] => []
  | .importStmt p s :: es => (s, p) :: topImports es
  | _ :: es => topImports es

/-- The package statements of a file. -/
def topPackages : List TopElem → List Str
  | [] => []
  | .package n :: es => n :: topPackages es
  | _ :: es => topPackages es

/-- The services of a file. -/
def topServices : List TopElem → List (Str × List Str × List ServiceElem)
  | [] => []
  | .service n d ss :: es => (n, d, ss) :: topServices es
  | _ :: es => topServices es

/-- The options of a service. -/
def serviceOptions : List ServiceElem → List OptionNode
  | [] => []
  | .option o :: es => o :: serviceOptions es
  | _ :: es => serviceOptions es

/-- The methods of a service. -/
def serviceRpcs : List ServiceElem → List RpcNode
  | [] => []
  | .rpc r :: es => r :: serviceRpcs es
  | _ :: es => serviceRpcs es

/-- The options of a method. -/
def rpcOptions : List (Option OptionNode) → List OptionNode
  | [] => []
  | some o :: es => o :: rpcOptions es
  | none :: es => rpcOptions es

/-- The method is the one written: its types, and which of them the keyword `stream` precedes. -/
def MethodIs (n : RpcNode) (m : MethodRec) : Prop :=
  m.name = n.name ∧ m.directives = n.directives ∧ m.request = n.request ∧ m.ret = n.ret ∧ OptionsAre (rpcOptions n.options) m.options ∧
    (m.requestStream = true ↔ n.requestStream.isSome) ∧ (m.returnStream = true ↔ n.returnStream.isSome)

/-- The service is the one written. -/
def ServiceIs (n : Str × List Str × List ServiceElem) (s : ServiceRec) : Prop :=
  s.name = n.1 ∧ s.directives = n.2.1 ∧ OptionsAre (serviceOptions n.2.2) s.options ∧ All2 MethodIs (serviceRpcs n.2.2) s.methods

/-- The editions by name. -/
def EditionName : Edition → Str
  | .proto2 => "proto2".toList
  | .proto3 => "proto3".toList
  | .ed2023 => "2023".toList

/-- The edition of a file: proto2 if there is no statement. -/
def EditionIs (p : ProtoNode) (e : Edition) : Prop :=
  match p.edition with
  | none => e = .proto2
  | some v => v = some (EditionName e)

/-- The file that was loaded is the one written. -/
structure LoadedFile (p : ProtoNode) (s : LState) (enums : List EnumDecl) (messages : List MsgDecl) : Prop where
  edition : EditionIs p s.edition
  package : s.package = ((topPackages p.elems).head?).getD []
  imports : s.imports.map (fun x => (some x.1, x.2)) = topImports p.elems
  options : OptionsAre (topOptions p.elems) s.options
  services : All2 ServiceIs (topServices p.elems) s.services
  enumIds : s.enums.length = (topEnums p.elems).length
  enumDecls : enums.length = (topEnums p.elems).length
  enumsAre : ∀ (k : Nat) (n : EnumNode) (j : Nat) (e : EnumDecl), (topEnums p.elems)[k]? = some n → s.enums[k]? = some j → enums[k]? = some e →
    s.enumStore[j]? = some ⟨e, none⟩ ∧ EnumIs n e
  messageIds : s.messages.length = (topMessages p.elems).length
  messageDecls : messages.length = (topMessages p.elems).length
  messagesAre : ∀ (k : Nat) (n : Str) (d : List Str) (es : List MsgElem) (j : Nat) (m : MsgDecl), (topMessages p.elems)[k]? = some (n, d, es) →
    s.messages[k]? = some j → messages[k]? = some m → Loaded s none n d es j m

/-! ## Which files are accepted -/

/-- The elements of a message and of the messages in it, at any depth. -/
inductive Inside : List MsgElem → MsgElem → Prop
  | here {es : List MsgElem} {e : MsgElem} : e ∈ es → Inside es e
  | deeper {es : List MsgElem} {n : Str} {d : List Str} {ms : List MsgElem} {e : MsgElem} : .message n d ms ∈ es → Inside ms e → Inside es e

/-- What the lexer guarantees for the number of a field or enum value. -/
def IsNumber (s : Str) : Prop := ∃ v, IntLit s v

/-- What is required of the bounds of ranges (see C53 for bounds that are not in decimal). -/
def DecimalRange (r : RangeNode) : Prop :=
  (∃ v, Decimal r.lo v) ∧ ∀ s, r.hi = .lit s → ∃ v, Decimal s v

/-- Numbers are numbers. -/
def NumbersElem : MsgElem → Prop
  | .field f => IsNumber f.number
  | .mapField f => IsNumber f.number
  | .oneof _ os => ∀ f ∈ oneofFields os, IsNumber f.number
  | .enum e => (∀ v ∈ enumValues e.elems, IsNumber v.number) ∧ ∀ r ∈ enumRanges e.elems, DecimalRange r
  | .reserved rr => ∀ r ∈ rr, DecimalRange r
  | _ => True

/-- The keyword `stream` stands before the type it belongs to. -/
def OrderedRpc (r : RpcNode) : Prop :=
  (∀ x, r.requestStream = some x → x < r.requestPos) ∧ (∀ x, r.returnStream = some x → r.requestPos ≤ x ∧ x < r.returnPos)

/-- The parse trees of files, with ranges in decimal. -/
def Parsed (p : ProtoNode) : Prop :=
  (∀ n d es, .message n d es ∈ p.elems → ∀ e, Inside es e → NumbersElem e) ∧ (∀ e, .enum e ∈ p.elems → NumbersElem (.enum e)) ∧
    (∀ n ∈ topPackages p.elems, n ≠ []) ∧ ∀ n d es, .service n d es ∈ p.elems → ∀ r ∈ serviceRpcs es, OrderedRpc r

/-- A number that is not too large. -/
def Small (s : Str) : Prop := ∃ v, IntLit s v ∧ v < 2 ^ 31

/-- A range with bounds that are not too large. -/
def SmallRange (r : RangeNode) : Prop :=
  (∃ v, Decimal r.lo v ∧ v < 2 ^ 31) ∧ ∀ s, r.hi = .lit s → ∃ v, Decimal s v ∧ v < 2 ^ 31

/-- The literals of the options are well formed. -/
def GoodLits (oo : List OptionNode) : Prop := ∀ o ∈ oo, o.value ≠ none

/-- An option statement is accepted: the literal is well formed and the value is one of those that the option can have. -/
def GoodOption (o : OptionNode) : Prop :=
  o.value ≠ none ∧
    (o.name = "features.repeated_field_encoding".toList → o.value = some "EXPANDED".toList ∨ o.value = some "PACKED".toList) ∧
    (o.name = "features.field_presence".toList → o.value = some "EXPLICIT".toList ∨ o.value = some "IMPLICIT".toList) ∧
    (o.name = "packed".toList ∨ o.name = "allow_alias".toList → o.value = some "true".toList ∨ o.value = some "false".toList)

/-- A field is accepted. -/
def GoodField (f : FieldNode) : Prop := Small f.number ∧ GoodLits f.options

/-- An element of an enum is accepted. -/
def GoodEnumElem : EnumElem → Prop
  | .option o => GoodOption o
  | .value v => Small v.number ∧ GoodLits v.options
  | .reserved rr => ∀ r ∈ rr, SmallRange r
  | _ => True

/-- An element of a oneof is accepted. -/
def GoodOneofElem : OneofElem → Prop
  | .option o => GoodOption o
  | .field f => GoodField f
  | .empty => True

/-- An element of a message is accepted, apart from the elements of a message in it: `required` is for proto2 only. -/
def GoodElem (ed : Edition) : MsgElem → Prop
  | .field f => GoodField f ∧ (f.label = some .required → ed = .proto2)
  | .mapField f => GoodField f
  | .oneof _ os => ∀ x ∈ os, GoodOneofElem x
  | .enum e => ∀ x ∈ e.elems, GoodEnumElem x
  | .option o => GoodOption o
  | .reserved rr => ∀ r ∈ rr, SmallRange r
  | _ => True

/-- An element of a service is accepted. -/
def GoodServiceElem : ServiceElem → Prop
  | .option o => GoodOption o
  | .rpc r => ∀ o ∈ rpcOptions r.options, GoodOption o
  | .empty => True

/-- A statement of a file is accepted. -/
def GoodTop (ed : Edition) : TopElem → Prop
  | .importStmt _ path => path ≠ none
  | .option o => GoodOption o
  | .message _ _ es => ∀ e, Inside es e → GoodElem ed e
  | .enum e => ∀ x ∈ e.elems, GoodEnumElem x
  | .service _ _ es => ∀ x ∈ es, GoodServiceElem x
  | _ => True

/-- A file is accepted: its edition is known, it has at most one package, and its statements are accepted. -/
def Acceptable (p : ProtoNode) : Prop :=
  ∃ ed, EditionIs p ed ∧ (topPackages p.elems).length ≤ 1 ∧ ∀ e ∈ p.elems, GoodTop ed e

/-- An option statement stands somewhere in the file. -/
inductive Written (p : ProtoNode) (o : OptionNode) : Prop
  | file : .option o ∈ p.elems → Written p o
  | enum {e : EnumNode} : .enum e ∈ p.elems → .option o ∈ e.elems → Written p o
  | message {n : Str} {d : List Str} {es : List MsgElem} : .message n d es ∈ p.elems → Inside es (.option o) → Written p o
  | nestedEnum {n : Str} {d : List Str} {es : List MsgElem} {e : EnumNode} : .message n d es ∈ p.elems → Inside es (.enum e) →
      .option o ∈ e.elems → Written p o
  | oneof {n : Str} {d : List Str} {es : List MsgElem} {x : Str} {os : List OneofElem} : .message n d es ∈ p.elems → Inside es (.oneof x os) →
      .option o ∈ os → Written p o
  | service {n : Str} {d : List Str} {es : List ServiceElem} : .service n d es ∈ p.elems → .option o ∈ es → Written p o
  | rpc {n : Str} {d : List Str} {es : List ServiceElem} {r : RpcNode} : .service n d es ∈ p.elems → .rpc r ∈ es → o ∈ rpcOptions r.options → Written p o

end Verif.Spec.Gen
