import Verif.Lemmas.Gen.ListenerTop
/-!
# C64, C66: what was loaded is what is written
-/
namespace Verif.Props
open Verif.Model.Gen Verif.Spec.Gen

namespace Gen

theorem edition_name {e : Edition} {v : Str} : v = EditionName e → exitEdition {} (some v) = .ok { edition := e } := by
  rintro rfl
  cases e <;> rfl

theorem edition_ends (p : ProtoNode) : Ends (∃ ed, EditionIs p ed) (run (evEdition p.edition) {}) (fun s => ∃ ed, EditionIs p ed ∧ s = { edition := ed }) := by
  unfold EditionIs
  cases p.edition with
  | none => exact .pure ⟨_, rfl⟩ ⟨_, rfl, rfl⟩
  | some v =>
    dsimp only
    rw [evEdition, run_one]
    by_cases h : ∃ ed, v = some (EditionName ed)
    · obtain ⟨ed, rfl⟩ := h
      have : step {} (.exitEdition (some (EditionName ed))) = .ok { edition := ed } := edition_name rfl
      rw [this]
      exact .pure ⟨ed, rfl⟩ ⟨ed, rfl, rfl⟩
    · have : step {} (.exitEdition v) = .error .fatal := by
        cases v with
        | none => rfl
        | some v =>
          have h1 : v ≠ EditionName .proto2 := fun e => h ⟨_, by rw [e]⟩
          have h2 : v ≠ EditionName .proto3 := fun e => h ⟨_, by rw [e]⟩
          have h3 : v ≠ EditionName .ed2023 := fun e => h ⟨_, by rw [e]⟩
          simp only [step, exitEdition]
          exact (if_neg h1).trans ((if_neg h2).trans (if_neg h3))
      rw [this]
      exact .fail h

theorem edition_unique {p : ProtoNode} {a b : Edition} (ha : EditionIs p a) (hb : EditionIs p b) : a = b := by
  unfold EditionIs at ha hb
  cases he : p.edition with
  | none => rw [he] at ha hb; exact ha.trans hb.symm
  | some v =>
    rw [he] at ha hb
    dsimp only at ha hb
    rw [ha] at hb
    cases a <;> cases b <;> first | rfl | (exact absurd (Option.some.inj hb) (by decide))

theorem walk_ends (p : ProtoNode) (hp : Parsed p) :
    Ends (Acceptable p) (walk p) (fun s => ∃ enums messages, LoadedFile p s enums messages) := by
  obtain ⟨h1, h2, h3, h4⟩ := hp
  show Ends _ (run (evProto p) {}) _
  rw [evProto, run_append]
  by_cases he : ∃ ed, EditionIs p ed
  · obtain ⟨ed, hed⟩ := he
    obtain ⟨s, hs, ed', hed', rfl⟩ := (edition_ends p).1 ⟨ed, hed⟩
    cases edition_unique hed hed'
    rw [hs]
    refine (tops_ends p.elems (s := { edition := ed }) rfl rfl h1 h2 h4 h3).mono ?_ ?_
    · unfold Acceptable PackagesOk
      constructor
      · rintro ⟨e, he, hl, hg⟩
        cases edition_unique hed he
        exact ⟨hg, hl, fun h => absurd rfl h⟩
      · rintro ⟨hg, hl, _⟩
        exact ⟨ed, hed, hl, hg⟩
    · intro s hs
      obtain ⟨xs, i1, i2⟩ := hs.imports
      obtain ⟨oo, o1, o2⟩ := hs.options
      obtain ⟨vs, v1, v2⟩ := hs.services
      obtain ⟨ej, ed2, e1, e2⟩ := hs.enums
      obtain ⟨mj, md, m1, m2⟩ := hs.messages
      simp only [List.nil_append] at i1 o1 v1 e1 m1
      subst i1 o1 v1 e1 m1
      refine ⟨ed2, md, ?_, ?_, i2, o2, v2, e2.1, e2.2.1, e2.2.2, m2.1, m2.2.1, fun k n d es j m a b c => m2.2.2 k (n, d, es) j m a b c⟩
      · rw [hs.edition]; exact hed
      · rw [hs.package, if_pos rfl]
  · rw [(edition_ends p).2 he]
    exact .fail (fun ⟨ed, h, _⟩ => he ⟨ed, h⟩)

end Gen

open Gen

/-- C64: a file is loaded exactly when it is acceptable; what is loaded has everything that is written in the file, in the place where
it is written and in order, with the properties that are written; and loading a file that is not acceptable ends with a message. -/
theorem C64_load (p : ProtoNode) (hp : Parsed p) :
    (Acceptable p → ∃ s enums messages, walk p = .ok s ∧ LoadedFile p s enums messages) ∧ (¬ Acceptable p → walk p = .error .fatal) := by
  constructor
  · intro h
    obtain ⟨s, hs, e, m, hl⟩ := (walk_ends p hp).1 h
    exact ⟨s, e, m, hs, hl⟩
  · exact (walk_ends p hp).2

/-! ## An example -/

namespace Gen

/-- ```
syntax = "proto3";
package a.b;
import public "x.proto";
option go_package = "p";
message Outer {
  reserved 5, 70 to max;
  message Inner {
    enum Kind { A = 0; B = -0x1F; reserved 3 to 4; }
    repeated Kind kinds = 0x2;
  }
  oneof pick { option (o) = "x"; Inner inner = 3; int32 n = 4 [deprecated = true]; }
  Inner other = 1;
  map<string, Outer> m = 6;
}
service S { rpc Do(stream Outer) returns (Outer.Inner) { option (z) = "1"; ; } }
``` -/
def sampleFile : ProtoNode where
  edition := some (some "proto3".toList)
  elems := [
    .package "a.b".toList,
    .importStmt true (some "x.proto".toList),
    .option ⟨"go_package".toList, some "p".toList⟩,
    .message "Outer".toList [] [
      .reserved [⟨"5".toList, .single⟩, ⟨"70".toList, .max⟩],
      .message "Inner".toList [] [
        .enum { name := "Kind".toList, elems := [.value { name := "A".toList, minus := false, number := "0".toList },
          .value { name := "B".toList, minus := true, number := "0x1F".toList }, .reserved [⟨"3".toList, .lit "4".toList⟩]] },
        .field { label := some .repeated, typ := "Kind".toList, name := "kinds".toList, number := "0x2".toList }],
      .oneof "pick".toList [.option ⟨"(o)".toList, some "x".toList⟩, .field { typ := "Inner".toList, name := "inner".toList, number := "3".toList },
        .field { typ := "int32".toList, name := "n".toList, number := "4".toList, options := [⟨"deprecated".toList, some "true".toList⟩] }],
      .field { typ := "Inner".toList, name := "other".toList, number := "1".toList },
      .mapField { key := some "string".toList, typ := "Outer".toList, name := "m".toList, number := "6".toList }],
    .service "S".toList [] [.rpc { name := "Do".toList, requestStream := some 10, requestPos := 17, request := "Outer".toList, returnPos := 40,
                                   ret := "Outer.Inner".toList, options := [some ⟨"(z)".toList, some "1".toList⟩, none] }]]

theorem lit_decimal {c : Char} {s : Str} (hc : c ≠ '0') (h : (parseDigits 10 0 (c :: s)).isSome) : IsNumber (c :: s) := by
  obtain ⟨v, hv⟩ := Option.isSome_iff_exists.1 h
  exact ⟨v, .decimal c s v hc ((parseDigits_iff (by omega)).1 hv)⟩

theorem lit_hex {s : Str} (hs : s ≠ []) (h : (parseDigits 16 0 s).isSome) : IsNumber ('0' :: 'x' :: s) := by
  obtain ⟨v, hv⟩ := Option.isSome_iff_exists.1 h
  exact ⟨v, .hex 'x' s v (.inl rfl) hs ((parseDigits_iff (by omega)).1 hv)⟩

theorem lit_zero : IsNumber ['0'] := ⟨0, .octal [] 0 .nil⟩

theorem decimal_test {s : Str} (hs : s ≠ []) (h : (parseDigits 10 0 s).isSome) : ∃ v, Decimal s v := by
  obtain ⟨v, hv⟩ := Option.isSome_iff_exists.1 h
  exact ⟨v, hs, (parseDigits_iff (by omega)).1 hv⟩

theorem range_test {lo : Str} {hi : RangeEnd} (hs : lo ≠ []) (h : (parseDigits 10 0 lo).isSome)
    (hh : ∀ s, hi = .lit s → s ≠ [] ∧ (parseDigits 10 0 s).isSome) : DecimalRange ⟨lo, hi⟩ :=
  ⟨decimal_test hs h, fun s e => decimal_test (hh s e).1 (hh s e).2⟩

theorem sample_parsed : Parsed sampleFile := by
  refine ⟨?_, ?_, ?_, ?_⟩
  · intro n d es h
    simp only [sampleFile, List.mem_cons, List.not_mem_nil, or_false, reduceCtorEq, false_or] at h
    cases h
    refine inside_cons.2 ⟨(inside_other (by intros; simp)).2 ?_, inside_cons.2 ⟨inside_message.2 ⟨trivial, inside_cons.2
      ⟨(inside_other (by intros; simp)).2 ?_, (inside_other (by intros; simp)).2 ?_⟩⟩, inside_cons.2 ⟨(inside_other (by intros; simp)).2 ?_,
      inside_cons.2 ⟨(inside_other (by intros; simp)).2 ?_, (inside_other (by intros; simp)).2 ?_⟩⟩⟩⟩
    · intro r hr
      simp only [List.mem_cons, List.not_mem_nil, or_false] at hr
      rcases hr with rfl | rfl
      · exact range_test (by decide) (by decide +kernel) (fun s e => by cases e)
      · exact range_test (by decide) (by decide +kernel) (fun s e => by cases e)
    · constructor
      · intro v hv
        simp only [enumValues, List.mem_cons, List.not_mem_nil, or_false] at hv
        rcases hv with rfl | rfl
        · exact lit_zero
        · exact lit_hex (s := ['1', 'F']) (by decide) (by decide +kernel)
      · intro r hr
        simp only [enumRanges, List.append_nil, List.mem_cons, List.not_mem_nil, or_false] at hr
        cases hr
        exact range_test (by decide) (by decide +kernel) (fun s e => by cases e; exact ⟨by decide, by decide +kernel⟩)
    · exact lit_hex (s := ['2']) (by decide) (by decide +kernel)
    · intro f hf
      simp only [oneofFields, List.mem_cons, List.not_mem_nil, or_false] at hf
      rcases hf with rfl | rfl
      · exact lit_decimal (c := '3') (s := []) (by decide) (by decide +kernel)
      · exact lit_decimal (c := '4') (s := []) (by decide) (by decide +kernel)
    · exact lit_decimal (c := '1') (s := []) (by decide) (by decide +kernel)
    · exact lit_decimal (c := '6') (s := []) (by decide) (by decide +kernel)
  · intro e h
    simp [sampleFile] at h
  · intro n hn
    simp only [sampleFile, topPackages, List.mem_cons, List.not_mem_nil, or_false] at hn
    subst hn
    decide
  · intro n d es h
    simp only [sampleFile, List.mem_cons, List.not_mem_nil, or_false, reduceCtorEq, false_or] at h
    cases h
    intro r hr
    simp only [serviceRpcs, List.mem_cons, List.not_mem_nil, or_false] at hr
    subst hr
    refine ⟨fun x hx => ?_, fun x hx => by cases hx⟩
    cases hx
    decide

/-- The messages after the example was loaded. -/
def sampleNames (s : LState) : List (Str × Option Nat × List Nat × List Nat) := s.msgStore.map fun m => (m.name, m.parent, m.enums, m.messages)

/-- The fields after the example was loaded. -/
def sampleFields (s : LState) : List (Str × Int × Bool × Option Nat) :=
  s.msgStore.flatMap fun m => m.fields.map fun f => (f.name, f.number, f.repeated, f.oneof)

theorem sample_walk : (walk sampleFile).toOption.map sampleNames =
    some [("Outer".toList, none, [], [1]), ("Inner".toList, some 0, [0], [])] := by decide +kernel

theorem sample_walk_fields : (walk sampleFile).toOption.map sampleFields =
    some [("inner".toList, 3, false, some 0), ("n".toList, 4, false, some 0), ("other".toList, 1, false, none), ("m".toList, 6, false, none),
      ("kinds".toList, 2, true, none)] := by decide +kernel

theorem sample_acceptable : Acceptable sampleFile := by
  refine Classical.byContradiction fun h => ?_
  have := (C64_load sampleFile sample_parsed).2 h
  have h2 := sample_walk
  rw [this] at h2
  cases h2

end Gen

/-- Non-vacuity of C64. -/
example : Parsed sampleFile ∧ Acceptable sampleFile := ⟨sample_parsed, sample_acceptable⟩

/-! ## C66 -/

/-- C66 (partial): an option statement, wherever it stands, whose value is not one of those that the option can have makes the generator stop with a message.
Missing: options in brackets (see below). -/
theorem C66_statements_partial (p : ProtoNode) (hp : Parsed p) (o : OptionNode) (ho : Written p o)
    (hv : ((o.name = "packed".toList ∨ o.name = "allow_alias".toList) ∧ o.value ≠ some "true".toList ∧ o.value ≠ some "false".toList) ∨
      (o.name = "features.repeated_field_encoding".toList ∧ o.value ≠ some "EXPANDED".toList ∧ o.value ≠ some "PACKED".toList) ∨
      (o.name = "features.field_presence".toList ∧ o.value ≠ some "EXPLICIT".toList ∧ o.value ≠ some "IMPLICIT".toList)) :
    walk p = .error .fatal := by
  refine (C64_load p hp).2 ?_
  rintro ⟨ed, _, _, hg⟩
  have good : GoodOption o := by
    cases ho with
    | file h => exact hg _ h
    | enum h h2 => exact hg _ h _ h2
    | message h h2 => exact hg _ h _ h2
    | nestedEnum h h2 h3 => exact hg _ h _ h2 _ h3
    | oneof h h2 h3 => exact hg _ h _ h2 _ h3
    | service h h2 => exact hg _ h _ h2
    | rpc h h2 h3 => exact hg _ h _ h2 _ h3
  obtain ⟨_, g1, g2, g3⟩ := good
  rcases hv with ⟨h, a, b⟩ | ⟨h, a, b⟩ | ⟨h, a, b⟩
  · rcases g3 h with e | e
    · exact a e
    · exact b e
  · rcases g1 h with e | e
    · exact a e
    · exact b e
  · rcases g2 h with e | e
    · exact a e
    · exact b e

namespace Gen

/-- `message M { enum E { option allow_alias = yes; } }` -/
def badOptionFile : ProtoNode where
  edition := none
  elems := [.message "M".toList [] [.enum { name := "E".toList, elems := [.option ⟨"allow_alias".toList, some "yes".toList⟩] }]]

theorem badOption_parsed : Parsed badOptionFile := by
  refine ⟨?_, ?_, ?_, ?_⟩
  · intro n d es h
    simp only [badOptionFile, List.mem_cons, List.not_mem_nil, or_false] at h
    cases h
    refine (inside_other (by intros; simp)).2 ⟨fun v hv => (by cases hv), fun r hr => (by cases hr)⟩
  · intro e h
    simp [badOptionFile] at h
  · intro n h
    cases h
  · intro n d es h
    simp [badOptionFile] at h

/-- `message M { repeated int32 a = 1 [packed = maybe]; }` -/
def bracketFile : ProtoNode where
  edition := none
  elems := [.message "M".toList [] [.field { label := some .repeated, typ := "int32".toList, name := "a".toList, number := "1".toList,
                                             options := [⟨"packed".toList, some "maybe".toList⟩] }]]

end Gen

/-- Non-vacuity of C66. -/
example : walk badOptionFile = .error .fatal :=
  C66_statements_partial badOptionFile badOption_parsed ⟨"allow_alias".toList, some "yes".toList⟩
    (.nestedEnum (List.mem_singleton.2 rfl) (.here (List.mem_singleton.2 rfl)) (List.mem_singleton.2 rfl)) (.inl ⟨.inr rfl, by decide, by decide⟩)

/-- Violation of C66: `[packed = maybe]` is accepted (and has the effect of `false`). -/
theorem C66_brackets_violated : (walk bracketFile).toOption.map (fun s => s.msgStore.flatMap fun m => m.fields.map fun f => (f.name, f.options)) =
    some [("a".toList, [("packed".toList, "maybe".toList)])] := by decide +kernel

end Verif.Props
