import Verif.Spec.Gen.ProtoGrammar
import Verif.Spec.Gen.Comments
import Verif.Spec.Gen.Source
import Verif.Spec.Gen.StrLit
/-!
# Specification: what is taken from a proto file

What the parts of a file say: the syntax trees with the tokens in them (see `Spec/Gen/ProtoGrammar.lean`) and trees of names, numbers, values and
directives.  Only the types of trees and tokens are shared with the model.
-/
namespace Verif.Spec.Gen
open Verif.Model.Gen

/-! ## Constants -/

/-- A text in UTF-8. -/
def CharBytes (s : Str) : List Nat := s.flatMap fun c => utf8 c.toNat

/-- The token begins with a quote. -/
def Quoted (s : Str) : Prop := s.head? = some '"' ∨ s.head? = some '\''

/-- The value of a constant: that of the literal if it is a string, and otherwise what is written.  `none` is a string literal without meaning. -/
inductive ConstIs : List Str → Option Str → Prop
  | plain (ts : List Str) : (∀ t ∈ ts.head?, ¬ Quoted t) → ConstIs ts (some ts.flatten)
  | lit (t v : Str) : Quoted t → IsLit (CharBytes t) (CharBytes v) → ConstIs [t] (some v)
  | bad (t : Str) : Quoted t → (∀ b, ¬ IsLit (CharBytes t) b) → ConstIs [t] none

/-- A constant that is not made of several string literals, and is not a string that is no UTF-8. -/
def SimpleConst (ts : List Str) : Prop :=
  ∀ t r, ts = t :: r → Quoted t → r = [] ∧ ∀ b, IsLit (CharBytes t) b → ∃ v, b = CharBytes v

/-! ## The parts of a file -/

def OptionReads (o : RawOption) (n : OptionNode) : Prop := n.name = o.name.flatten ∧ ConstIs o.value n.value

structure FieldReads (f : RawField) (n : FieldNode) : Prop where
  label : n.label = f.label
  key : n.key = f.key
  typ : n.typ = f.typ.flatten
  name : n.name = f.name
  number : n.number = f.number
  options : All2 OptionReads f.options n.options

structure EnumValueReads (v : RawEnumValue) (n : EnumValueNode) : Prop where
  name : n.name = v.name
  minus : n.minus = v.minus
  number : n.number = v.number
  options : All2 OptionReads v.options n.options

inductive EnumElemReads : RawEnumElem → EnumElem → Prop
  | option {o : RawOption} {n : OptionNode} : OptionReads o n → EnumElemReads (.option o) (.option n)
  | value {v : RawEnumValue} {n : EnumValueNode} : EnumValueReads v n → EnumElemReads (.value v) (.value n)
  | reserved (rr : List RangeNode) : EnumElemReads (.reserved rr) (.reserved rr)
  | reservedNames (ss : List (List Str)) : EnumElemReads (.reservedNames ss) (.reservedNames (ss.map List.flatten))
  | empty : EnumElemReads .empty .empty

structure EnumReads (e : RawEnum) (n : EnumNode) : Prop where
  name : n.name = e.name
  elems : All2 EnumElemReads e.elems n.elems

inductive OneofElemReads : RawOneofElem → OneofElem → Prop
  | option {o : RawOption} {n : OptionNode} : OptionReads o n → OneofElemReads (.option o) (.option n)
  | field {f : RawField} {n : FieldNode} : FieldReads f n → OneofElemReads (.field f) (.field n)
  | empty : OneofElemReads .empty .empty

mutual
inductive ElemReads : RawElem → MsgElem → Prop
  | field {f : RawField} {n : FieldNode} : FieldReads f n → ElemReads (.field f) (.field n)
  | enum {e : RawEnum} {n : EnumNode} : EnumReads e n → ElemReads (.enum e) (.enum n)
  | message {name : Str} {es : List RawElem} {d : List Str} {ns : List MsgElem} : ElemsRead es ns → ElemReads (.message name es) (.message name d ns)
  | extend {t : List Str} {fs : List (Option RawField)} {ns : List FieldNode} : All2 FieldReads (fs.filterMap id) ns →
      ElemReads (.extend t fs) (.extend t.flatten ns)
  | option {o : RawOption} {n : OptionNode} : OptionReads o n → ElemReads (.option o) (.option n)
  | oneof {name : Str} {es : List RawOneofElem} {ns : List OneofElem} : All2 OneofElemReads es ns → ElemReads (.oneof name es) (.oneof name ns)
  | mapField {f : RawField} {n : FieldNode} : FieldReads f n → ElemReads (.mapField f) (.mapField n)
  | reserved (rr : List RangeNode) : ElemReads (.reserved rr) (.reserved rr)
  | reservedNames (ss : List (List Str)) : ElemReads (.reservedNames ss) (.reservedNames (ss.map List.flatten))
  | extensions {rr : List RangeNode} {os : List RawOption} {ns : List OptionNode} : All2 OptionReads os ns → ElemReads (.extensions rr os) (.extensions rr ns)
  | empty : ElemReads .empty .empty
inductive ElemsRead : List RawElem → List MsgElem → Prop
  | nil : ElemsRead [] []
  | cons {e : RawElem} {n : MsgElem} {es : List RawElem} {ns : List MsgElem} : ElemReads e n → ElemsRead es ns → ElemsRead (e :: es) (n :: ns)
end

structure RpcReads (r : RawRpc) (n : RpcNode) : Prop where
  name : n.name = r.name
  requestStream : n.requestStream.isSome = r.requestStream
  request : n.request = r.request.flatten
  returnStream : n.returnStream.isSome = r.returnStream
  ret : n.ret = r.ret.flatten
  options : All2 OptionReads ((r.body.getD []).filterMap id) (n.options.filterMap id)

inductive ServiceElemReads : RawServiceElem → ServiceElem → Prop
  | option {o : RawOption} {n : OptionNode} : OptionReads o n → ServiceElemReads (.option o) (.option n)
  | rpc {r : RawRpc} {n : RpcNode} : RpcReads r n → ServiceElemReads (.rpc r) (.rpc n)
  | empty : ServiceElemReads .empty .empty

inductive TopReads : RawTop → TopElem → Prop
  | importStmt {k : ImportKind} {p : List Str} {b : Bool} {path : Option Str} : (b = true ↔ k = .public) → ConstIs p path →
      TopReads (.importStmt k p) (.importStmt b path)
  | package (p : List Str) : TopReads (.package p) (.package p.flatten)
  | option {o : RawOption} {n : OptionNode} : OptionReads o n → TopReads (.option o) (.option n)
  | message {name : Str} {es : List RawElem} {d : List Str} {ns : List MsgElem} : ElemsRead es ns → TopReads (.message name es) (.message name d ns)
  | enum {e : RawEnum} {n : EnumNode} : EnumReads e n → TopReads (.enum e) (.enum n)
  | extend {t : List Str} {fs : List (Option RawField)} {ns : List FieldNode} : All2 FieldReads (fs.filterMap id) ns →
      TopReads (.extend t fs) (.extend t.flatten ns)
  | service {name : Str} {es : List RawServiceElem} {d : List Str} {ns : List ServiceElem} : All2 ServiceElemReads es ns →
      TopReads (.service name es) (.service name d ns)
  | empty : TopReads .empty .empty

/-- The edition of a file, by its literal. -/
inductive EditionReads : Option RawEdition → Option (Option Str) → Prop
  | none : EditionReads none none
  | some (e : RawEdition) (v : Option Str) : ConstIs e.lit v → EditionReads (some e) (some v)

/-- The tree holds what is written in the file. -/
structure ProtoReads (p : RawProto) (n : ProtoNode) : Prop where
  edition : EditionReads p.edition n.edition
  elems : All2 TopReads p.elems n.elems

/-! ## Constants and ranges of a file -/

/-- The constants of options. -/
def optionsConsts (os : List RawOption) : List (List Str) := os.map RawOption.value

def enumElemConsts : RawEnumElem → List (List Str)
  | .option o => [o.value]
  | .value v => optionsConsts v.options
  | _ => []

def oneofElemConsts : RawOneofElem → List (List Str)
  | .option o => [o.value]
  | .field f => optionsConsts f.options
  | .empty => []

def extendConsts (fs : List (Option RawField)) : List (List Str) := (fs.filterMap id).flatMap fun f => optionsConsts f.options

mutual
def elemConsts : RawElem → List (List Str)
  | .field f => optionsConsts f.options
  | .enum e => e.elems.flatMap enumElemConsts
  | .message _ es => elemsConsts es
  | .extend _ fs => extendConsts fs
  | .option o => [o.value]
  | .oneof _ es => es.flatMap oneofElemConsts
  | .mapField f => optionsConsts f.options
  | .extensions _ os => optionsConsts os
  | _ => []
def elemsConsts : List RawElem → List (List Str)
  | [] => []
  | e :: es => elemConsts e ++ elemsConsts es
end

def serviceElemConsts : RawServiceElem → List (List Str)
  | .option o => [o.value]
  | .rpc r => optionsConsts ((r.body.getD []).filterMap id)
  | .empty => []

def topConsts : RawTop → List (List Str)
  | .importStmt _ p => [p]
  | .option o => [o.value]
  | .message _ es => elemsConsts es
  | .enum e => e.elems.flatMap enumElemConsts
  | .extend _ fs => extendConsts fs
  | .service _ es => es.flatMap serviceElemConsts
  | _ => []

/-- All constants of a file: the edition, import paths and values of options. -/
def protoConsts (p : RawProto) : List (List Str) := (p.edition.toList.map RawEdition.lit) ++ p.elems.flatMap topConsts

def enumElemRanges : RawEnumElem → List RangeNode
  | .reserved rr => rr
  | _ => []

mutual
def elemRanges : RawElem → List RangeNode
  | .enum e => e.elems.flatMap enumElemRanges
  | .message _ es => elemsRanges es
  | .reserved rr => rr
  | _ => []
def elemsRanges : List RawElem → List RangeNode
  | [] => []
  | e :: es => elemRanges e ++ elemsRanges es
end

/-- The reserved ranges of a statement of a file. -/
def topRanges : RawTop → List RangeNode
  | .message _ es => elemsRanges es
  | .enum e => e.elems.flatMap enumElemRanges
  | _ => []

/-- The bounds of all reserved ranges are in decimal. -/
def DecimalRanges (p : RawProto) : Prop := ∀ x ∈ p.elems, ∀ r ∈ topRanges x, DecimalRange r

/-! ## The places of declarations -/

/-- The parts of something, one after the other. -/
def partSpans {α : Type} (spell : α → List Str) (spans : Nat → α → List (Nat × Nat)) : Nat → List α → List (Nat × Nat)
  | _, [] => []
  | k, x :: xs => spans k x ++ partSpans spell spans (k + (spell x).length) xs

/-- The numbers of the first and the last token of something that begins after `k` tokens. -/
def span (k : Nat) (ts : List Str) : Nat × Nat := (k, k + ts.length - 1)

def enumElemSpans (k : Nat) : RawEnumElem → List (Nat × Nat)
  | .value v => [span k (spellEnumValue v)]
  | _ => []

def enumSpans (k : Nat) (e : RawEnum) : List (Nat × Nat) := span k (spellEnum e) :: partSpans spellEnumElem enumElemSpans (k + 3) e.elems

def oneofElemSpans (k : Nat) : RawOneofElem → List (Nat × Nat)
  | .field f => [span k (spellField f)]
  | _ => []

mutual
def elemSpans (k : Nat) : RawElem → List (Nat × Nat)
  | .field f => [span k (spellField f)]
  | .enum e => enumSpans k e
  | .message n es => span k (spellBlock "message".toList n (spellElems es)) :: elemsSpans (k + 3) es
  | .oneof _ es => partSpans spellOneofElem oneofElemSpans (k + 3) es
  | .mapField f => [span k (spellField f)]
  | _ => []
def elemsSpans (k : Nat) : List RawElem → List (Nat × Nat)
  | [] => []
  | e :: es => elemSpans k e ++ elemsSpans (k + (spellElem e).length) es
end

def serviceElemSpans (k : Nat) : RawServiceElem → List (Nat × Nat)
  | .rpc r => [span k (spellRpc r)]
  | _ => []

def topSpans (k : Nat) : RawTop → List (Nat × Nat)
  | .message n es => span k (spellBlock "message".toList n (spellElems es)) :: elemsSpans (k + 3) es
  | .enum e => enumSpans k e
  | .service n es => span k (spellBlock "service".toList n (es.flatMap spellServiceElem)) :: partSpans spellServiceElem serviceElemSpans (k + 3) es
  | _ => []

/-- The declarations of a file (messages, fields, enums and their values, services and their methods, but not what is in `extend`), outer ones before those in them: the
numbers of their first and last tokens. -/
def protoSpans (p : RawProto) : List (Nat × Nat) := partSpans spellTop topSpans (spellEditionOpt p.edition).length p.elems

def enumElemDirs : EnumElem → List (List Str)
  | .value v => [v.directives]
  | _ => []

def enumDirs (e : EnumNode) : List (List Str) := e.directives :: e.elems.flatMap enumElemDirs

def oneofElemDirs : OneofElem → List (List Str)
  | .field f => [f.directives]
  | _ => []

mutual
def elemDirs : MsgElem → List (List Str)
  | .field f => [f.directives]
  | .enum e => enumDirs e
  | .message _ d es => d :: elemsDirs es
  | .oneof _ es => es.flatMap oneofElemDirs
  | .mapField f => [f.directives]
  | _ => []
def elemsDirs : List MsgElem → List (List Str)
  | [] => []
  | e :: es => elemDirs e ++ elemsDirs es
end

def serviceElemDirs : ServiceElem → List (List Str)
  | .rpc r => [r.directives]
  | _ => []

def topDirs : TopElem → List (List Str)
  | .message _ d es => d :: elemsDirs es
  | .enum e => enumDirs e
  | .service _ d es => d :: es.flatMap serviceElemDirs
  | _ => []

/-- The directives of the declarations of a file, in the same order. -/
def protoDirs (p : ProtoNode) : List (List Str) := p.elems.flatMap topDirs

/-- The token with the index `i` is the visible one with the number `k` (from 0 on). -/
def NthVisible (toks : List Tok) (k i : Nat) : Prop := VisibleAt toks i ∧ ((toks.take i).filter fun t => t.kind = .visible).length = k

/-- The comment at position `j` is above the declaration with these first and last tokens, or beside its end. -/
def Near (toks : List Tok) (s : Nat × Nat) (j : Nat) : Prop := ∃ i, NthVisible toks s.1 i ∧ Above toks i j ∨ NthVisible toks s.2 i ∧ Beside toks i j

/-- There is the directive `d` in the comment at position `j`. -/
def DirectiveAt (toks : List Tok) (j : Nat) (d : Str) : Prop := ∃ t, toks[j]? = some t ∧ Carries t.text d

end Verif.Spec.Gen
