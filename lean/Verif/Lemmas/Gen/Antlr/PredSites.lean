import Verif.Lemmas.Gen.Antlr.PredCode
/-!
# Where rules are called and decisions are made

`At` with the calls that lead to a place: what is executed next, and the states of the calls, begin in one of a few ways that are read off the rule functions.
-/
namespace Verif.Lemmas.Gen.Antlr.Pred
open Verif.Model.Gen Verif.Model.Gen.Antlr Verif.Spec.Gen Verif.Lemmas.Gen.Antlr

/-- The calls and decisions in a statement, with what is executed afterwards. -/
def occ : Code → List Code → List (Code × List Code)
  | .call s r, K => [(.call s r, K)]
  | .choose d, K => [(.choose d, K)]
  | .seq a b, K => occ a (b :: K) ++ occ b K
  | .ifLa _ a b, K => occ a K ++ occ b K
  | .whileLa l a, K => occ a (.whileLa l a :: K)
  | _, _ => []

/-- With the alternatives of the decisions, to the depth `n`. -/
def expand (alts : Nat → List Code) : Nat → List (Code × List Code) → List (Code × List Code)
  | 0, l => l
  | n + 1, l => l ++ expand alts n (l.flatMap fun x =>
    match x.1 with
    | .choose d => (alts d).flatMap fun c => occ c x.2
    | _ => [])

/-- The calls and decisions of a rule. -/
def occR (r : Nat) : List (Code × List Code) := expand altsCode 2 (occ (ruleCode r) [])

theorem expand_sub {alts : Nat → List Code} (n : Nat) (l : List (Code × List Code)) {x : Code × List Code} (h : x ∈ l) : x ∈ expand alts n l := by
  cases n with
  | zero => exact h
  | succ n => exact List.mem_append_left _ h

/-- The alternatives of the decisions of a rule belong to it. -/
def occClosed (r : Nat) : Bool :=
  (occR r).all fun x =>
    match x.1 with
    | .choose d => (altsCode d).all fun c => (occ c x.2).all fun y => (occR r).contains y
    | _ => true

theorem occ_closed : (List.range 53).all occClosed = true := by decide +kernel

theorem occR_none {r : Nat} (h : 53 ≤ r) : occR r = [] := by
  have : ruleCode r = .fail := by
    unfold ruleCode
    split <;> first | omega | rfl
  unfold occR
  rw [this]
  rfl

theorem occR_closed {r d : Nat} {p : List Code} (h : (.choose d, p) ∈ occR r) {c : Code} (hc : c ∈ altsCode d) {y : Code × List Code} (hy : y ∈ occ c p) : y ∈ occR r := by
  by_cases hr : r < 53
  · have h1 := List.all_eq_true.1 occ_closed r (List.mem_range.2 hr)
    have h2 := List.all_eq_true.1 h1 _ h
    have h3 := List.all_eq_true.1 (List.all_eq_true.1 h2 c hc) y hy
    simpa using h3
  · rw [occR_none (by omega)] at h
    cases h

/-- From where a rule is called: not at all, for the rule of the file. -/
def Caller (r : Nat) (ctx : List Nat) (K : List Code) : Prop :=
  (r = 0 ∧ ctx = [] ∧ K = []) ∨ ∃ s ctx', ctx = s :: ctx' ∧ At protoGram codeProto ctx' (.call s r) K

theorem at_site {ctx : List Nat} {c : Code} {K : List Code} (h : At protoGram codeProto ctx c K) :
    ∃ r p K', K = p ++ K' ∧ (∀ x ∈ occ c p, x ∈ occR r) ∧ Caller r ctx K' := by
  induction h with
  | start => exact ⟨0, [], [], rfl, fun x hx => expand_sub _ _ hx, .inl ⟨rfl, rfl, rfl⟩⟩
  | fst _ ih =>
    obtain ⟨r, p, K', rfl, h, hc⟩ := ih
    exact ⟨r, _ :: p, K', rfl, fun x hx => h x (List.mem_append_left _ hx), hc⟩
  | snd _ ih =>
    obtain ⟨r, p, K', rfl, h, hc⟩ := ih
    exact ⟨r, p, K', rfl, fun x hx => h x (List.mem_append_right _ hx), hc⟩
  | ifThen _ ih =>
    obtain ⟨r, p, K', rfl, h, hc⟩ := ih
    exact ⟨r, p, K', rfl, fun x hx => h x (List.mem_append_left _ hx), hc⟩
  | ifElse _ ih =>
    obtain ⟨r, p, K', rfl, h, hc⟩ := ih
    exact ⟨r, p, K', rfl, fun x hx => h x (List.mem_append_right _ hx), hc⟩
  | body _ ih =>
    obtain ⟨r, p, K', rfl, h, hc⟩ := ih
    exact ⟨r, _ :: p, K', rfl, fun x hx => h x hx, hc⟩
  | @call ctx s r K ha _ => exact ⟨r, [], K, rfl, fun x hx => expand_sub _ _ hx, .inr ⟨s, ctx, rfl, ha⟩⟩
  | choose i _ hi ih =>
    obtain ⟨r, p, K', rfl, h, hc⟩ := ih
    exact ⟨r, p, K', rfl, fun x hx => occR_closed (h _ List.mem_cons_self) (List.mem_of_getElem? hi) hx, hc⟩

/-- The calls of a rule: the state, the calling rule, and what is executed afterwards. -/
def callers (r : Nat) : List (Nat × Nat × List Code) :=
  (List.range 53).flatMap fun r' => (occR r').filterMap fun x =>
    match x.1 with
    | .call s q => if q = r then some (s, r', x.2) else none
    | _ => none

theorem mem_callers {r r' s : Nat} {p : List Code} (h : (.call s r, p) ∈ occR r') : (s, r', p) ∈ callers r := by
  have hr : r' < 53 := by
    by_cases hr : r' < 53
    · exact hr
    · rw [occR_none (by omega)] at h
      cases h
  refine List.mem_flatMap.2 ⟨r', List.mem_range.2 hr, List.mem_filterMap.2 ⟨_, h, ?_⟩⟩
  simp

/-- How the calls that lead to a rule begin, as long as the rules are in `E`. -/
def frames (E : List Nat) : Nat → Nat → List (List Nat × List Code)
  | 0, _ => [([], [])]
  | n + 1, r =>
    if E.contains r && r != 0 then (callers r).flatMap fun x => (frames E n x.2.1).map fun y => (x.1 :: y.1, x.2.2 ++ y.2)
    else [([], [])]

theorem frames_spec (E : List Nat) : ∀ (n r : Nat) (ctx : List Nat) (K : List Code), Caller r ctx K →
    ∃ f ∈ frames E n r, ∃ ctx' K', ctx = f.1 ++ ctx' ∧ K = f.2 ++ K'
  | 0, r, ctx, K, _ => ⟨_, List.mem_singleton.2 rfl, ctx, K, rfl, rfl⟩
  | n + 1, r, ctx, K, h => by
    unfold frames
    split
    · next hr =>
      rw [Bool.and_eq_true] at hr
      rcases h with ⟨rfl, -⟩ | ⟨s, ctx', rfl, h⟩
      · exact absurd hr.2 (by decide)
      · obtain ⟨r', p, K', rfl, hx, hc⟩ := at_site h
        obtain ⟨f, hf, c', K'', rfl, rfl⟩ := frames_spec E n r' ctx' K' hc
        refine ⟨(s :: f.1, p ++ f.2), ?_, c', K'', rfl, by rw [List.append_assoc]⟩
        exact List.mem_flatMap.2 ⟨_, mem_callers (hx _ (List.mem_singleton.2 rfl)), List.mem_map.2 ⟨f, hf, rfl⟩⟩
    · exact ⟨_, List.mem_singleton.2 rfl, ctx, K, rfl, rfl⟩

/-- Where a decision is made: how the calls that lead there begin, and how what is executed afterwards begins. -/
def sites (E : List Nat) (d : Nat) : List (List Nat × List Code) :=
  (List.range 53).flatMap fun r => (occR r).flatMap fun x =>
    if x.1 = .choose d then (frames E 5 r).map fun y => (y.1, x.2 ++ y.2) else []

theorem sites_spec (E : List Nat) {ctx : List Nat} {d : Nat} {K : List Code} (h : At protoGram codeProto ctx (.choose d) K) :
    ∃ f ∈ sites E d, ∃ ctx' K', ctx = f.1 ++ ctx' ∧ K = f.2 ++ K' := by
  obtain ⟨r, p, K', rfl, hx, hc⟩ := at_site h
  obtain ⟨f, hf, c', K'', rfl, rfl⟩ := frames_spec E 5 r ctx K' hc
  have hx := hx _ (List.mem_singleton.2 rfl)
  have hr : r < 53 := by
    by_cases hr : r < 53
    · exact hr
    · rw [occR_none (by omega)] at hx
      cases hx
  refine ⟨(f.1, p ++ f.2), ?_, c', K'', rfl, by rw [List.append_assoc]⟩
  refine List.mem_flatMap.2 ⟨r, List.mem_range.2 hr, List.mem_flatMap.2 ⟨_, hx, ?_⟩⟩
  rw [if_pos rfl]
  exact List.mem_map.2 ⟨f, hf, rfl⟩

end Verif.Lemmas.Gen.Antlr.Pred
