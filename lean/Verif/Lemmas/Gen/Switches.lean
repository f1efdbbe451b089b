import Verif.Spec.Gen.Switches
import Verif.Model.Gen.Code
import Verif.Props.Gen.StructTag
/-!
# Lemmas: the switches of the generator
-/
namespace Verif.Props.Gen
open Verif.Spec Verif.Spec.Gen Verif.Model Verif.Model.Gen

theorem lastSet_iff {oo : List Opt} {n v : String} : optGet oo n.toList = some v.toList ↔ LastSet oo n v := by
  rw [C47_last]
  constructor
  · rintro ⟨a, b, e, h⟩
    exact ⟨a, b, e, fun w hw => h _ hw rfl⟩
  · rintro ⟨a, b, e, h⟩
    exact ⟨a, b, e, fun o ho e' => h o.2 (by rw [← e']; exact ho)⟩

theorem unset_iff {oo : List Opt} {n : String} : optGet oo n.toList = none ↔ Unset oo n := C47_absent oo _

theorem turned_iff {ds : List Str} {d : String} {on : Bool} : dirIsSet ds d.toList = some on ↔ Turned ds d on := by
  rw [C47_switch]
  constructor
  · rintro ⟨a, b, e, h⟩
    exact ⟨a, b, e, fun hd => (h _ hd).1 rfl, fun hd => (h _ hd).2 rfl⟩
  · rintro ⟨a, b, e, h1, h2⟩
    exact ⟨a, b, e, fun x hx => ⟨fun e => h1 (by rw [← e]; exact hx), fun e => h2 (by rw [← e]; exact hx)⟩⟩

theorem untouched_iff {ds : List Str} {d : Str} : dirIsSet ds d = none ↔ d ∉ ds ∧ "no_".toList ++ d ∉ ds := by
  induction ds with
  | nil => exact ⟨fun _ => ⟨List.not_mem_nil, List.not_mem_nil⟩, fun _ => rfl⟩
  | cons s ds ih =>
    unfold dirIsSet
    by_cases h1 : s = d
    · rw [if_pos h1]
      exact ⟨nofun, fun h => absurd (List.mem_cons.2 (.inl h1.symm)) h.1⟩
    · rw [if_neg h1]
      by_cases h2 : s = "no_".toList ++ d
      · rw [if_pos h2]
        exact ⟨nofun, fun h => absurd (List.mem_cons.2 (.inl h2.symm)) h.2⟩
      · rw [if_neg h2, ih]
        simp only [List.mem_cons, not_or]
        exact ⟨fun h => ⟨⟨fun e => h1 e.symm, h.1⟩, fun e => h2 e.symm, h.2⟩, fun h => ⟨h.1.2, h.2.2⟩⟩

/-- What an option and then a weaker choice say. -/
theorem opt_false (o : Option Str) (rest : Bool) :
    (match o with | some v => isFalse v | none => rest) = true ↔ o = some "false".toList ∨ o = none ∧ rest = true := by
  cases o with
  | none => simp
  | some v =>
    show (v == "false".toList) = true ↔ _
    rw [beq_iff_eq, Option.some.injEq]
    exact ⟨.inl, fun h => h.elim id fun h => by cases h.1⟩

theorem opt_true (o : Option Str) (rest : Bool) :
    (match o with | some v => isTrue v | none => rest) = true ↔ o = some "true".toList ∨ o = none ∧ rest = true := by
  cases o with
  | none => simp
  | some v =>
    show (v == "true".toList) = true ↔ _
    rw [beq_iff_eq, Option.some.injEq]
    exact ⟨.inl, fun h => h.elim id fun h => by cases h.1⟩

theorem noPointer_iff {m : MsgDecl} {fd : FieldDecl} : genNoPointer m fd = true ↔ ByValue m fd := by
  unfold genNoPointer ByValue
  by_cases h1 : dirHas fd.directives "no_pointer".toList = true
  · rw [if_pos h1]
    exact ⟨fun _ => .inl (dirHas_iff.1 h1), fun _ => rfl⟩
  · rw [if_neg h1]
    by_cases h2 : dirHas m.directives "no_pointer".toList = true
    · rw [if_pos h2]
      exact ⟨fun _ => .inr (.inl (dirHas_iff.1 h2)), fun _ => rfl⟩
    · rw [if_neg h2]
      refine (opt_false _ _).trans ?_
      rw [lastSet_iff]
      rw [dirHas_iff] at h1 h2
      constructor
      · rintro (h | ⟨_, h⟩)
        · exact .inr (.inr h)
        · cases h
      · rintro (h | h | h)
        · exact absurd h h1
        · exact absurd h h2
        · exact .inl h

theorem keeps_iff {p : FileDecl} {m : MsgDecl} : genUnknownFields p m = true ↔ Keeps p m := by
  have ht : ∀ {ds : List Str} {b : Bool}, dirIsSet ds "unknown_fields".toList = some b ↔ Turned ds "unknown_fields" b := turned_iff
  have hu : ∀ {ds : List Str}, dirIsSet ds "unknown_fields".toList = none ↔ Untouched ds "unknown_fields" := untouched_iff
  have key : Keeps p m ↔
      (dirIsSet m.directives "unknown_fields".toList = some true ∨
       dirIsSet m.directives "unknown_fields".toList = none ∧ (dirIsSet p.directives "unknown_fields".toList = some true ∨
       dirIsSet p.directives "unknown_fields".toList = none ∧ (optGet m.options "(gogoproto.goproto_unrecognized)".toList = some "true".toList ∨
       optGet m.options "(gogoproto.goproto_unrecognized)".toList = none ∧
         optGet p.options "(gogoproto.goproto_unrecognized_all)".toList = some "true".toList))) := by
    rw [ht, hu, ht, hu, lastSet_iff, lastSet_iff, unset_iff]
    constructor
    · rintro (h | ⟨h1, h2⟩ | ⟨h1, h2, h3⟩ | ⟨h1, h2, h3, h4⟩)
      · exact .inl h
      · exact .inr ⟨h1, .inl h2⟩
      · exact .inr ⟨h1, .inr ⟨h2, .inl h3⟩⟩
      · exact .inr ⟨h1, .inr ⟨h2, .inr ⟨h3, h4⟩⟩⟩
    · rintro (h | ⟨h1, h2 | ⟨h2, h3 | ⟨h3, h4⟩⟩⟩)
      · exact .message h
      · exact .file h1 h2
      · exact .option h1 h2 h3
      · exact .fileOption h1 h2 h3 h4
  rw [key]
  unfold genUnknownFields
  generalize dirIsSet m.directives "unknown_fields".toList = a
  generalize dirIsSet p.directives "unknown_fields".toList = b
  generalize optGet m.options "(gogoproto.goproto_unrecognized)".toList = c
  generalize optGet p.options "(gogoproto.goproto_unrecognized_all)".toList = d
  cases a with
  | some a => simp
  | none =>
    cases b with
    | some b => simp
    | none =>
      show (match c with | some v => isTrue v | none => match d with | some v => isTrue v | none => false) = true ↔ _
      rw [opt_true, opt_true]
      simp

theorem bare_iff {p : FileDecl} {e : EnumDecl} {v : EnumField} : enumNoPrefix p e v = true ↔ Bare p e v := by
  unfold enumNoPrefix
  by_cases h1 : dirHas v.directives "no_enum_prefix".toList = true
  · rw [if_pos h1]
    exact ⟨fun _ => .value (dirHas_iff.1 h1), fun _ => rfl⟩
  rw [if_neg h1]
  by_cases h2 : dirHas e.directives "no_enum_prefix".toList = true
  · rw [if_pos h2]
    exact ⟨fun _ => .enum (dirHas_iff.1 h2), fun _ => rfl⟩
  rw [if_neg h2]
  by_cases h3 : dirHas p.directives "no_enum_prefix".toList = true
  · rw [if_pos h3]
    exact ⟨fun _ => .file (dirHas_iff.1 h3), fun _ => rfl⟩
  rw [if_neg h3, dirHas_iff] at *
  refine ((opt_false _ _).trans (or_congr Iff.rfl (and_congr Iff.rfl (opt_false _ _)))).trans ?_
  rw [lastSet_iff, lastSet_iff, unset_iff]
  constructor
  · rintro (h | ⟨h, h' | ⟨_, h'⟩⟩)
    · exact .option h
    · exact .fileOption h h'
    · cases h'
  · rintro (h | h | h | h | ⟨h, h'⟩)
    · exact absurd h h1
    · exact absurd h h2
    · exact absurd h h3
    · exact .inl h
    · exact .inr ⟨h, .inl h'⟩

theorem tableless_iff {p : FileDecl} {e : EnumDecl} : enumMapping p e = false ↔ Tableless p e := by
  unfold enumMapping Tableless
  rw [← dirHas_iff, ← dirHas_iff]
  cases dirHas e.directives "no_enum_mapping".toList <;> cases dirHas p.directives "no_enum_mapping".toList <;> simp

end Verif.Props.Gen
