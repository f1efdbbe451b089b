import Verif.Model.Gen.Verify
import Verif.Spec.Gen.Declared
import Verif.Props.Gen.Options
/-!
# C43: verification of numbers
-/
namespace Verif.Props
open Verif.Spec.Gen Verif.Model.Gen

namespace Gen

theorem reservedGo_iff {rr : List Range} {v : Int} : reservedIn.go v rr = true ↔ ∃ r ∈ rr, r.1 ≤ v ∧ v ≤ r.2 := by
  induction rr with
  | nil => simp [reservedIn.go]
  | cons r rr ih =>
    simp only [reservedIn.go]
    by_cases h : v ≥ r.1 ∧ v ≤ r.2
    · rw [if_pos h]; simp only [true_iff]; exact ⟨r, List.mem_cons_self .., h.1, h.2⟩
    · rw [if_neg h, ih]
      constructor
      · rintro ⟨x, hx, h'⟩; exact ⟨x, List.mem_cons_of_mem _ hx, h'⟩
      · rintro ⟨x, hx, h'⟩
        rcases List.mem_cons.1 hx with e | hx
        · subst e; exact absurd h' h
        · exact ⟨x, hx, h'⟩

theorem reservedIn_iff {rr : List Range} {v : Int} : reservedIn rr v = true ↔ Reserved rr v := by
  unfold reservedIn Reserved
  by_cases h : v ≥ 19000 ∧ v ≤ 19999
  · rw [if_pos h]; simp only [true_iff]; exact .inl ⟨h.1, h.2⟩
  · rw [if_neg h]
    rw [reservedGo_iff]
    constructor
    · exact .inr
    · rintro (h' | h')
      · exact absurd h' h
      · exact h'

theorem distinct_nil {α : Type} : Distinct ([] : List α) := fun i j x h => by simp at h

theorem distinct_cons {α : Type} {x : α} {l : List α} : Distinct (x :: l) ↔ x ∉ l ∧ Distinct l := by
  constructor
  · intro h
    refine ⟨?_, ?_⟩
    · intro hm
      obtain ⟨i, hi⟩ := List.mem_iff_getElem?.1 hm
      have := h 0 (i + 1) x rfl hi
      omega
    · intro i j y hi hj
      have := h (i + 1) (j + 1) y hi hj
      omega
  · rintro ⟨hx, h⟩ i j y hi hj
    cases i with
    | zero =>
      cases j with
      | zero => rfl
      | succ j =>
        simp only [List.getElem?_cons_zero, Option.some.injEq] at hi
        subst hi
        exact absurd (List.mem_iff_getElem?.2 ⟨j, hj⟩) hx
    | succ i =>
      cases j with
      | zero =>
        simp only [List.getElem?_cons_zero, Option.some.injEq] at hj
        subst hj
        exact absurd (List.mem_iff_getElem?.2 ⟨i, hi⟩) hx
      | succ j => exact congrArg (· + 1) (h i j y hi hj)

theorem allowAlias_iff {e : EnumDecl} : allowAlias e = true ↔ Aliases e := by
  unfold allowAlias Aliases
  constructor
  · intro h
    cases hg : optGet e.options "allow_alias".toList with
    | none => rw [hg] at h; cases h
    | some v =>
      rw [hg] at h
      have hv : v = "true".toList := by
        dsimp only at h
        unfold Model.Gen.isTrue at h
        exact eq_of_beq h
      rw [hv] at hg
      exact (C47_last _ _ _).1 hg
  · intro h
    rw [(C47_last _ _ _).2 h]
    exact beq_self_eq_true _

theorem enumLoop_iff (e : EnumDecl) : ∀ (fs : List EnumField) (m : List Int), enumVerifyLoop e m fs = [] ↔
    (∀ f ∈ fs, ¬ Reserved e.reserved f.value) ∧ (Aliases e ∨ (Distinct (fs.map EnumField.value) ∧ ∀ f ∈ fs, f.value ∉ m))
  | [], m => by simp [enumVerifyLoop, distinct_nil]
  | f :: fs, m => by
    simp only [enumVerifyLoop, List.append_eq_nil_iff]
    rw [enumLoop_iff e fs (f.value :: m)]
    simp only [List.forall_mem_cons, List.map_cons, distinct_cons]
    rw [← reservedIn_iff, ← allowAlias_iff]
    cases hr : reservedIn e.reserved f.value with
    | true => simp
    | false =>
      cases ha : allowAlias e with
      | true => simp
      | false =>
        by_cases hm : f.value ∈ m
        · simp [hm]
        · simp only [Bool.false_eq_true, if_false, false_or]
          have : m.contains f.value = false := by simpa using hm
          rw [this]
          simp only [Bool.false_and, Bool.false_eq_true, if_false, true_and, not_false_eq_true]
          constructor
          · rintro ⟨h1, h2, h3⟩
            refine ⟨h1, ⟨?_, h2⟩, hm, fun g hg h => h3 g hg (List.mem_cons_of_mem _ h)⟩
            intro hin
            obtain ⟨g, hg, e'⟩ := List.mem_map.1 hin
            exact h3 g hg (e' ▸ List.mem_cons_self ..)
          · rintro ⟨h1, ⟨h4, h2⟩, _, h3⟩
            refine ⟨h1, h2, fun g hg h => ?_⟩
            rcases List.mem_cons.1 h with e' | h
            · exact h4 (List.mem_map.2 ⟨g, hg, e'⟩)
            · exact h3 g hg h

theorem enumVerify_iff (e : EnumDecl) : enumVerify e = [] ↔ GoodEnum e := by
  unfold enumVerify GoodEnum
  rw [enumLoop_iff]
  simp

theorem fieldsLoop_iff (rr : List Range) : ∀ (fs : List FieldDecl) (m : List Int), fieldsVerifyLoop rr m fs = [] ↔
    (∀ f ∈ fs, ¬ Reserved rr f.number) ∧ Distinct (fs.map FieldDecl.number) ∧ ∀ f ∈ fs, f.number ∉ m
  | [], m => by simp [fieldsVerifyLoop, distinct_nil]
  | f :: fs, m => by
    simp only [fieldsVerifyLoop, List.append_eq_nil_iff]
    rw [fieldsLoop_iff rr fs (f.number :: m)]
    simp only [List.forall_mem_cons, List.map_cons, distinct_cons]
    rw [← reservedIn_iff]
    cases hr : reservedIn rr f.number with
    | true => simp
    | false =>
      by_cases hm : f.number ∈ m
      · simp [hm]
      · have : m.contains f.number = false := by simpa using hm
        rw [this]
        simp only [Bool.false_eq_true, if_false, true_and, not_false_eq_true]
        constructor
        · rintro ⟨h1, h2, h3⟩
          refine ⟨h1, ⟨?_, h2⟩, hm, fun g hg h => h3 g hg (List.mem_cons_of_mem _ h)⟩
          intro hin
          obtain ⟨g, hg, e'⟩ := List.mem_map.1 hin
          exact h3 g hg (e' ▸ List.mem_cons_self ..)
        · rintro ⟨h1, ⟨h4, h2⟩, _, h3⟩
          refine ⟨h1, h2, fun g hg h => ?_⟩
          rcases List.mem_cons.1 h with e' | h
          · exact h4 (List.mem_map.2 ⟨g, hg, e'⟩)
          · exact h3 g hg h

theorem enums_iff (es : List EnumDecl) : es.flatMap enumVerify = [] ↔ ∀ e ∈ es, GoodEnum e := by
  rw [List.flatMap_eq_nil_iff]
  exact ⟨fun h e he => (enumVerify_iff e).1 (h e he), fun h e he => (enumVerify_iff e).2 (h e he)⟩

theorem within_nil {m : MsgDecl} : ¬ Within [] m := by
  intro h
  cases h with
  | here h => cases h
  | deeper h _ => cases h

theorem within_cons {m n : MsgDecl} {ms : List MsgDecl} : Within (m :: ms) n ↔ n = m ∨ Within m.messages n ∨ Within ms n := by
  constructor
  · intro h
    cases h with
    | here h =>
      rcases List.mem_cons.1 h with e | h
      · exact .inl e
      · exact .inr (.inr (.here h))
    | deeper h h' =>
      rcases List.mem_cons.1 h with e | h
      · subst e; exact .inr (.inl h')
      · exact .inr (.inr (.deeper h h'))
  · rintro (h | h | h)
    · subst h; exact .here (List.mem_cons_self ..)
    · exact .deeper (List.mem_cons_self ..) h
    · cases h with
      | here h => exact .here (List.mem_cons_of_mem _ h)
      | deeper h h' => exact .deeper (List.mem_cons_of_mem _ h) h'

mutual
theorem msgVerify_iff : ∀ m : MsgDecl, msgVerify m = [] ↔
    (GoodFields m ∧ ∀ e ∈ m.enums, GoodEnum e) ∧ ∀ n, Within m.messages n → GoodFields n ∧ ∀ e ∈ n.enums, GoodEnum e
  | .mk nm es ms fs os ds opts rr => by
    simp only [msgVerify, List.append_eq_nil_iff, enums_iff, msgsVerify_iff ms, fieldsLoop_iff]
    simp only [GoodFields, MsgDecl.fields, MsgDecl.enums, MsgDecl.messages, MsgDecl.reserved]
    constructor
    · rintro ⟨⟨h1, h2⟩, h3, h4, _⟩; exact ⟨⟨⟨h3, h4⟩, h1⟩, h2⟩
    · rintro ⟨⟨⟨h3, h4⟩, h1⟩, h2⟩; exact ⟨⟨h1, h2⟩, h3, h4, by simp⟩
theorem msgsVerify_iff : ∀ ms : List MsgDecl, msgsVerify ms = [] ↔ ∀ n, Within ms n → GoodFields n ∧ ∀ e ∈ n.enums, GoodEnum e
  | [] => by simp [msgsVerify, within_nil]
  | m :: ms => by
    simp only [msgsVerify, List.append_eq_nil_iff, msgVerify_iff m, msgsVerify_iff ms]
    constructor
    · rintro ⟨⟨h1, h2⟩, h3⟩ n hn
      rcases within_cons.1 hn with e | hn | hn
      · subst e; exact h1
      · exact h2 n hn
      · exact h3 n hn
    · intro h
      exact ⟨⟨h m (within_cons.2 (.inl rfl)), fun n hn => h n (within_cons.2 (.inr (.inl hn)))⟩,
        fun n hn => h n (within_cons.2 (.inr (.inr hn)))⟩
end

end Gen

open Gen

/-- C43: a file passes verification exactly when, in every message at any depth, no field number is reserved and no two fields have
the same number, and in every enum no value is reserved and no two are equal unless the last setting of `allow_alias` is
true. -/
theorem C43_partial (p : FileDecl) : fileVerify p = [] ↔ GoodFile p := by
  unfold fileVerify GoodFile
  rw [List.append_eq_nil_iff, enums_iff, msgsVerify_iff]

/-- Non-vacuity: a good file with nested declarations and a reserved range; one with a duplicate two levels down is not. -/
def sampleNested (n : Int) : FileDecl :=
  { edition := .proto3
    messages := [.mk "A".toList [] [.mk "B".toList
      [{ name := "E".toList, fields := [⟨"X".toList, 0, [], []⟩, ⟨"Y".toList, 0, [], []⟩],
         options := [("allow_alias".toList, "true".toList)] }] []
      [{ name := "f".toList, typ := "int32".toList, number := 1 }, { name := "g".toList, typ := "int32".toList, number := n }]
      [] [] [] [(5, 7)]] [] [] [] [] []] }

example : fileVerify (sampleNested 2) = [] := by decide +kernel
example : fileVerify (sampleNested 1) ≠ [] ∧ fileVerify (sampleNested 6) ≠ [] ∧ fileVerify (sampleNested 19500) ≠ [] := by
  refine ⟨?_, ?_, ?_⟩ <;> intro h <;> have := congrArg List.length h <;> revert this <;> decide +kernel

/-- C43: the numbers a `reserved` statement reserves: the bounds are included and `max` is the largest number there is. -/
theorem C43_ranges (rr : List (Int × Option (Option Int))) (n : Int) (hn : n < 2 ^ 31) :
    (∃ r ∈ exitReserved (.ranges rr), r.1 ≤ n ∧ n ≤ r.2) ↔
      ∃ r ∈ rr, match r.2 with
        | none => n = r.1
        | some none => r.1 ≤ n
        | some (some hi) => r.1 ≤ n ∧ n ≤ hi := by
  simp only [exitReserved, List.mem_map]
  constructor
  · rintro ⟨_, ⟨⟨a, b⟩, hm, rfl⟩, h⟩
    refine ⟨(a, b), hm, ?_⟩
    revert h
    rcases b with _ | _ | b <;> dsimp only <;> omega
  · rintro ⟨⟨a, b⟩, hm, h⟩
    refine ⟨_, ⟨(a, b), hm, rfl⟩, ?_⟩
    revert h
    rcases b with _ | _ | b <;> dsimp only <;> omega

example : exitReserved (.ranges [(2, none), (5, some (some 7)), (9, some none)]) = [(2, 2), (5, 7), (9, 2147483647)] := by
  decide +kernel

/-- C43: reserved names are not checked: a message may reserve a name and use it. -/
theorem C43_names_violated : ∃ (names : List Str) (fields : List FieldDecl), (∃ f ∈ fields, f.name ∈ names) ∧
    fileVerify { edition := .proto3, messages := [.mk "A".toList [] [] fields [] [] [] (exitReserved (.names names))] } = [] :=
  ⟨["foo".toList], [{ name := "foo".toList, typ := "int32".toList, number := 1 }],
    ⟨_, List.mem_cons_self .., List.mem_cons_self ..⟩, by decide +kernel⟩

/-- C43: nor are equal names. -/
theorem C43_same_name_violated : ∃ fields : List FieldDecl, ¬ Distinct (fields.map FieldDecl.name) ∧
    fileVerify { edition := .proto3, messages := [.mk "A".toList [] [] fields [] [] [] []] } = [] :=
  ⟨[{ name := "foo".toList, typ := "int32".toList, number := 1 }, { name := "foo".toList, typ := "int32".toList, number := 2 }],
    fun h => by have := h 0 1 "foo".toList rfl rfl; omega, by decide +kernel⟩

/-- C43: nor are the numbers rejected that cannot be field numbers: zero and those above 536870911. -/
theorem C43_zero_violated (n : Int) (hn : n = 0 ∨ 536870911 < n) :
    fileVerify { edition := .proto3, messages := [.mk "A".toList [] [] [{ name := "foo".toList, typ := "int32".toList, number := n }]
      [] [] [] []] } = [] := by
  have : reservedIn [] n = false := by
    unfold reservedIn
    rw [if_neg (by omega)]
    rfl
  simp [fileVerify, msgsVerify, msgVerify, fieldsVerifyLoop, this]

end Verif.Props
