import Verif.Lemmas.Gen.GrammarNormal
import Verif.Props.Gen.Lexer
/-!
# C78: which proto files are accepted as such, and as what they are read
-/
namespace Verif.Props
open Verif.Model.Gen Verif.Spec.Gen Verif.Lemmas.Gen

/-- **C78, nothing is misread.** A list of tokens that is accepted is what the tree that was read is written as, and that tree is one that the grammar
allows: every token has its place in the tree, none is skipped, and nothing is added. -/
theorem C78_sound (ts : List Str) (t : RawProto) (h : parseProto ts = some t) : spellProto t = ts ∧ WFProto t :=
  ⟨(proto_sound h).1.symm, (proto_sound h).2⟩

/-- **C78, what is written is read.** Every file that the grammar allows is read as the tree it was written from; `ProperProto` excludes the few trees
that are written like another one (a type `optional.x` without label, `stream.x` without `stream`, and `option x = 1;` where a field of a type named
`option` can stand). -/
theorem C78_complete (t : RawProto) (h : WFProto t) (hp : ProperProto t) : parseProto (spellProto t) = some t := proto_complete h hp

/-- **C78, acceptance.** The accepted lists of tokens are exactly those that the grammar allows. -/
theorem C78_accepts (ts : List Str) : (parseProto ts).isSome = true ↔ ∃ t, WFProto t ∧ spellProto t = ts := by
  constructor
  · intro h
    obtain ⟨t, ht⟩ := Option.isSome_iff_exists.1 h
    exact ⟨t, (C78_sound ts t ht).2, (C78_sound ts t ht).1⟩
  · rintro ⟨t, h, rfl⟩
    obtain ⟨q, ⟨h1, h2⟩, h3⟩ := normal_proto h
    rw [← h3, C78_complete q h1 h2]
    rfl

/-- **C78, no two meanings.** Trees that are not written like another one are written differently. -/
theorem C78_unambiguous (t u : RawProto) (ht : WFProto t) (hu : WFProto u) (hpt : ProperProto t) (hpu : ProperProto u)
    (h : spellProto t = spellProto u) : t = u := by
  have h1 := C78_complete t ht hpt
  rw [h, C78_complete u hu hpu] at h1
  exact (Option.some.inj h1).symm

/-- **C78, from characters to trees.** Write the tokens of a file with any white space and any comments around them, so long as no token runs into the
next: the text is read as that file. -/
theorem C78_text (toks : List Tok) (t : RawProto) (hl : ∀ k ∈ toks, Lexeme k) (hs : Separated toks) (ht : WFProto t) (hp : ProperProto t)
    (hv : (toks.filter fun k => k.kind = .visible).map Tok.text = spellProto t) : parseText (toks.flatMap Tok.text) = some t := by
  rw [parseText, C77_tokens toks hl hs, visibleTexts, hv]
  exact C78_complete t ht hp

/-- **C78, layout and comments do not matter.** Two texts whose tokens are the same, apart from white space and comments, are read as the same tree,
or both refused. -/
theorem C78_layout (toks toks' : List Tok) (hl : ∀ k ∈ toks, Lexeme k) (hs : Separated toks) (hl' : ∀ k ∈ toks', Lexeme k) (hs' : Separated toks')
    (hv : (toks.filter fun k => k.kind = .visible).map Tok.text = (toks'.filter fun k => k.kind = .visible).map Tok.text) :
    parseText (toks.flatMap Tok.text) = parseText (toks'.flatMap Tok.text) := by
  rw [parseText, parseText, C77_tokens toks hl hs, C77_tokens toks' hl' hs', visibleTexts, visibleTexts, hv]

/-! Comparison of trees, for the examples. -/
namespace Gen

mutual
def sameElem : RawElem → RawElem → Bool
  | .field f, .field g => f = g
  | .enum a, .enum b => a = b
  | .message n es, .message m fs => n = m && sameElems es fs
  | .extend t fs, .extend u gs => t = u && fs = gs
  | .option o, .option p => o = p
  | .oneof n es, .oneof m fs => n = m && es = fs
  | .mapField f, .mapField g => f = g
  | .reserved a, .reserved b => a = b
  | .reservedNames a, .reservedNames b => a = b
  | .extensions a b, .extensions c d => a = c && b = d
  | .empty, .empty => true
  | _, _ => false
def sameElems : List RawElem → List RawElem → Bool
  | [], [] => true
  | a :: as, b :: bs => sameElem a b && sameElems as bs
  | _, _ => false
end

mutual
theorem sameElem_eq (a b : RawElem) (h : sameElem a b = true) : a = b := by
  cases a <;> cases b <;> first | (simp only [sameElem, Bool.and_eq_true, decide_eq_true_eq] at h) | (simp [sameElem] at h)
  case message.message n es m fs => rw [h.1, sameElems_eq es fs h.2]
  all_goals simp_all
theorem sameElems_eq (as bs : List RawElem) (h : sameElems as bs = true) : as = bs := by
  cases as with
  | nil => cases bs with
    | nil => rfl
    | cons => simp [sameElems] at h
  | cons a as => cases bs with
    | nil => simp [sameElems] at h
    | cons b bs =>
      simp only [sameElems, Bool.and_eq_true] at h
      rw [sameElem_eq a b h.1, sameElems_eq as bs h.2]
end

def sameTop : RawTop → RawTop → Bool
  | .importStmt k p, .importStmt l q => k = l && p = q
  | .package p, .package q => p = q
  | .option o, .option p => o = p
  | .message n es, .message m fs => n = m && sameElems es fs
  | .enum a, .enum b => a = b
  | .extend t fs, .extend u gs => t = u && fs = gs
  | .service n es, .service m fs => n = m && es = fs
  | .empty, .empty => true
  | _, _ => false

theorem sameTop_eq (a b : RawTop) (h : sameTop a b = true) : a = b := by
  cases a <;> cases b <;> first | (simp only [sameTop, Bool.and_eq_true, decide_eq_true_eq] at h) | (simp [sameTop] at h)
  case message.message n es m fs => rw [h.1, sameElems_eq es fs h.2]
  all_goals simp_all

def sameTops : List RawTop → List RawTop → Bool
  | [], [] => true
  | a :: as, b :: bs => sameTop a b && sameTops as bs
  | _, _ => false

theorem sameTops_eq : ∀ (as bs : List RawTop), sameTops as bs = true → as = bs
  | [], [], _ => rfl
  | [], _ :: _, h => by simp [sameTops] at h
  | _ :: _, [], h => by simp [sameTops] at h
  | a :: as, b :: bs, h => by
    simp only [sameTops, Bool.and_eq_true] at h
    rw [sameTop_eq a b h.1, sameTops_eq as bs h.2]

def sameProto : Option RawProto → RawProto → Bool
  | some p, q => p.edition = q.edition && sameTops p.elems q.elems
  | none, _ => false

theorem sameProto_eq {a : Option RawProto} {b : RawProto} (h : sameProto a b = true) : a = some b := by
  cases a with
  | none => cases h
  | some p =>
    simp only [sameProto, Bool.and_eq_true, decide_eq_true_eq] at h
    obtain ⟨e, es⟩ := p
    obtain ⟨e', es'⟩ := b
    rw [show e = e' from h.1, sameTops_eq es es' h.2]

end Gen
open Gen

/-! A file in which most constructs occur. -/

def grammarText : List Char := "// a file
syntax = \"proto3\";
package a.b;
import public 'x' \"y.proto\";
option (c.d).e = { k: -1, s: \"t\"; };
message M {
  repeated .a.M kids = 1 [packed = true, (x) = 1.5e3]; /* kids */
  optional.N n = 0x2;
  map<string, M> m = 3;
  oneof o { int32 i = 4; option (z) = 1; }
  message N { enum E { option allow_alias = true; A = 0; B = -1; reserved 5 to max; } ; }
  reserved 10, 12 to 15, 17 to max;
  reserved 'p', \"q\";
  extensions 100 to 200;
}
service S { rpc F(stream M) returns (.a.b.M) { option x = y; } rpc G(M) returns (M); }
extend M { int32 ext = 100; }
".toList

def grammarTree : RawProto where
  edition := some ⟨false, ["\"proto3\"".toList]⟩
  elems := [
    .package ["a".toList, ".".toList, "b".toList],
    .importStmt .public ["'x'".toList, "\"y.proto\"".toList],
    .option ⟨["(", "c", ".", "d", ")", ".", "e"].map String.toList, ["{", "k", ":", "-", "1", ",", "s", ":", "\"t\"", ";", "}"].map String.toList⟩,
    .message "M".toList [
      .field ⟨some .repeated, none, [".", "a", ".", "M"].map String.toList, "kids".toList, "1".toList,
        [⟨["packed".toList], ["true".toList]⟩, ⟨["(", "x", ")"].map String.toList, ["1.5e3".toList]⟩]⟩,
      .field ⟨some .optional, none, [".".toList, "N".toList], "n".toList, "0x2".toList, []⟩,
      .mapField ⟨none, some "string".toList, ["M".toList], "m".toList, "3".toList, []⟩,
      .oneof "o".toList [.field ⟨none, none, ["int32".toList], "i".toList, "4".toList, []⟩, .option ⟨["(", "z", ")"].map String.toList, ["1".toList]⟩],
      .message "N".toList [
        .enum ⟨"E".toList, [.option ⟨["allow_alias".toList], ["true".toList]⟩, .value ⟨"A".toList, false, "0".toList, []⟩,
          .value ⟨"B".toList, true, "1".toList, []⟩, .reserved [⟨"5".toList, .max⟩]]⟩, .empty],
      .reserved [⟨"10".toList, .single⟩, ⟨"12".toList, .lit "15".toList⟩, ⟨"17".toList, .max⟩],
      .reservedNames [["'p'".toList], ["\"q\"".toList]],
      .extensions [⟨"100".toList, .lit "200".toList⟩] []],
    .service "S".toList [
      .rpc ⟨"F".toList, true, ["M".toList], false, [".", "a", ".", "b", ".", "M"].map String.toList, some [some ⟨["x".toList], ["y".toList]⟩]⟩,
      .rpc ⟨"G".toList, false, ["M".toList], false, ["M".toList], none⟩],
    .extend ["M".toList] [some ⟨none, none, ["int32".toList], "ext".toList, "100".toList, []⟩]]

theorem grammarText_read : parseText grammarText = some grammarTree := sameProto_eq (by decide +kernel)
theorem grammarText_wf : WFProto grammarTree := (C78_sound _ _ grammarText_read).2
example : ProperProto grammarTree := by
  simp [ProperProto, grammarTree, ProperTop, ProperElems, ProperElem, ProperField, ProperOneofElem, ProperExtend, ProperServiceElem, ProperRpcType]

/-- **Violation of C78.** Names that the protobuf language allows and that are refused: `required`, `inf` and `nan`, as names of fields, messages or
packages. -/
theorem C78_names_violated :
    parseText "message M { bool required = 1; }".toList = none ∧ parseText "message M { double inf = 1; }".toList = none ∧
    parseText "package nan;".toList = none ∧
    (parseText "message M { bool optional = 1; bool repeated = 2; bool message = 3; bool max = 4; }".toList).isSome = true := by
  decide +kernel

/-- **Violation of C78.** Constructs of the protobuf language that are refused: reserved names without quotes (editions), negative reserved numbers of
enums, lists and nested messages without colon in the values of options, and groups. -/
theorem C78_constructs_violated :
    parseText "edition = \"2023\"; message M { reserved foo; }".toList = none ∧
    parseText "enum E { A = 0; reserved -5 to -1; }".toList = none ∧
    parseText "option (x) = { a: [1, 2] };".toList = none ∧
    parseText "option (x) = { a { b: 1 } };".toList = none ∧
    parseText "message M { optional group G = 1 { } }".toList = none := by
  decide +kernel

/-- **Violation of C78.** In a message `option x = 1;` is not read as an option, but as a field `x` of a type named `option`. -/
theorem C78_option_violated :
    parseText "message M { option x = 1; }".toList =
      some ⟨none, [.message "M".toList [.field ⟨none, none, ["option".toList], "x".toList, "1".toList, []⟩]]⟩ :=
  sameProto_eq (by decide +kernel)

end Verif.Props
