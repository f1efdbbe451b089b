import Verif.Model.Gen.Antlr.Predict
import Verif.Lemmas.Gen.Antlr.PredCode
/-!
# The automata that predictions leave behind

`Good`: the states of the automaton of a decision that are no answers are among some sets of configurations, closed under reading a token (`Closed`), and
the edges lead where the simulation leads.  Predictions keep this, and their result does not depend on the automaton.
-/
namespace Verif.Lemmas.Gen.Antlr.Pred
open Verif.Model.Gen Verif.Model.Gen.Antlr.Pred
open Verif.Model.Gen.Antlr hiding DState addCfg

/-- What a state of the automaton says. -/
def outOf (D : DState) : Out PSet := if D.conflict.isSome then .full else if D.unique != 0 then .alt D.unique else .next D.set

/-- The table of the first simulation. -/
def sllStep (N : PNet) (n : Nat) (s : PSet) (t : Nat) : Option (Out PSet) :=
  match reachSet N n false s t with
  | none => none
  | some none => some .err
  | some (some r) => some (outOf (mkDState N r))

def Plain (D : DState) : Prop := D.unique = 0 ∧ D.conflict = none

theorem outOf_plain {D : DState} (h : Plain D) : outOf D = .next D.set := by
  unfold outOf
  rw [h.1, h.2]
  rfl

theorem plain_of_next {D : DState} {s : PSet} (h : outOf D = .next s) : Plain D ∧ D.set = s := by
  unfold outOf at h
  split at h
  · cases h
  · next h1 =>
    split at h
    · cases h
    · next h2 =>
      cases h
      refine ⟨⟨by simpa using h2, ?_⟩, rfl⟩
      cases hc : D.conflict with
      | none => rfl
      | some x => rw [hc] at h1; exact absurd rfl h1

/-- Sets of configurations from which no others are reached. -/
structure Closed (N : PNet) (n : Nat) (rows : List PSet) : Prop where
  step : ∀ r ∈ rows, ∀ t, t ≤ N.max → ∃ o, sllStep N n r t = some o ∧ (t = 0 → o = .err) ∧ ∀ s, o = .next s → s ∈ rows
  same : ∀ r ∈ rows, ∀ s ∈ rows, r.same s = true → r = s

/-- An edge leads where the simulation leads. -/
def Leads (N : PNet) (n : Nat) (A : PDfa) (s : PSet) (t : Nat) : Option Nat → Prop
  | none => sllStep N n s t = some .err
  | some j => ∃ D', A.states[j]? = some D' ∧ sllStep N n s t = some (outOf D')

structure Good (N : PNet) (n : Nat) (s0 : PSet) (rows : List PSet) (A : PDfa) : Prop where
  first : ∀ k, A.s0 = some k → ∃ D, A.states[k]? = some D ∧ outOf D = .next s0
  row : ∀ (k : Nat) D s, A.states[k]? = some D → outOf D = .next s → s ∈ rows
  edge : ∀ (k : Nat) D s t e, A.states[k]? = some D → outOf D = .next s → D.edges.lookup t = some e → Leads N n A s t e

theorem good_cold (N : PNet) (n : Nat) (s0 : PSet) (rows : List PSet) : Good N n s0 rows {} where
  first k h := by cases h
  row k D s h := by simp at h
  edge k D s t e h := by simp at h

section
variable {N : PNet} {n : Nat} {s0 : PSet} {rows : List PSet}

theorem outOf_edges (D : DState) (e : List (Nat × Option Nat)) : outOf { D with edges := e } = outOf D := rfl

theorem same_out (hC : Closed N n rows) {D E : DState} (h : D.same E = true) (hD : ∀ s, outOf D = .next s → s ∈ rows) (hE : ∀ s, outOf E = .next s → s ∈ rows) :
    outOf E = outOf D := by
  unfold DState.same at h
  rw [Bool.and_eq_true, Bool.and_eq_true, beq_iff_eq, beq_iff_eq] at h
  obtain ⟨⟨h1, h2⟩, h3⟩ := h
  unfold outOf at hD hE ⊢
  rw [h1, h2] at hD
  rw [h1, h2]
  split
  · rfl
  · next hc =>
    rw [if_neg hc] at hD hE
    split
    · rfl
    · next hu =>
      rw [if_neg hu] at hD hE
      rw [hC.same _ (hD _ rfl) _ (hE _ rfl) h3]

/-- Adding a state. -/
theorem good_add (hC : Closed N n rows) {A : PDfa} (hA : Good N n s0 rows A) {D : DState} (hD : ∀ s, outOf D = .next s → s ∈ rows) (he : D.edges = []) {B : PDfa} {j : Nat}
    (h : addDState A D = (B, j)) : Good N n s0 rows B ∧ B.s0 = A.s0 ∧ (∃ E, B.states[j]? = some E ∧ outOf E = outOf D) ∧
      ∀ (k : Nat) E, A.states[k]? = some E → B.states[k]? = some E := by
  unfold addDState at h
  split at h
  · next k hk =>
    cases h
    obtain ⟨hl, h1, -⟩ := List.findIdx?_eq_some_iff_getElem.1 hk
    have hg := List.getElem?_eq_getElem hl
    exact ⟨hA, rfl, ⟨_, hg, same_out hC h1 hD fun s hs => hA.row _ _ s hg hs⟩, fun _ _ h => h⟩
  · next hk =>
    cases h
    have old : ∀ (k : Nat) E, A.states[k]? = some E → (A.states ++ [D])[k]? = some E := by
      intro k E h
      rw [List.getElem?_append_left (List.getElem?_eq_some_iff.1 h).1]
      exact h
    have new : ∀ (k : Nat) E, (A.states ++ [D])[k]? = some E → A.states[k]? = some E ∨ E = D := by
      intro k E h
      by_cases hk : k < A.states.length
      · rw [List.getElem?_append_left hk] at h
        exact .inl h
      · rw [List.getElem?_append_right (by omega)] at h
        by_cases h0 : k - A.states.length = 0
        · rw [h0] at h
          exact .inr (Option.some.inj h).symm
        · rw [List.getElem?_eq_none (by simp; omega)] at h
          cases h
    refine ⟨⟨?_, ?_, ?_⟩, rfl, ⟨D, by simp, rfl⟩, old⟩
    · intro k h
      obtain ⟨E, h1, h2⟩ := hA.first k h
      exact ⟨E, old _ _ h1, h2⟩
    · intro k E s h1 h2
      rcases new _ _ h1 with h1 | rfl
      · exact hA.row k E s h1 h2
      · exact hD s h2
    · intro k E s t e h1 h2 h3
      rcases new _ _ h1 with h1 | rfl
      · have := hA.edge k E s t e h1 h2 h3
        cases e with
        | none => exact this
        | some j =>
          obtain ⟨E', h4, h5⟩ := this
          exact ⟨E', old _ _ h4, h5⟩
      · rw [he] at h3
        cases h3

/-- Adding an edge. -/
theorem good_edge {A : PDfa} (hA : Good N n s0 rows A) {k t : Nat} {e : Option Nat} {D : DState} {s : PSet} (hk : A.states[k]? = some D) (hs : outOf D = .next s)
    (he : Leads N n A s t e) :
    Good N n s0 rows (setEdge N A k t e) ∧ ∀ (j : Nat) E, A.states[j]? = some E → ∃ E', (setEdge N A k t e).states[j]? = some E' ∧ outOf E' = outOf E ∧ E'.set = E.set := by
  unfold setEdge
  split
  · exact ⟨hA, fun _ E h => ⟨E, h, rfl, rfl⟩⟩
  · have get : ∀ j : Nat, (A.states.modify k fun D => { D with edges := (t, e) :: D.edges })[j]? =
        (A.states[j]?).map fun D => if k = j then { D with edges := (t, e) :: D.edges } else D := by
      intro j
      rw [List.getElem?_modify]
      split <;> rfl
    have old : ∀ (j : Nat) E, A.states[j]? = some E → ∃ E', (A.states.modify k fun D => { D with edges := (t, e) :: D.edges })[j]? = some E' ∧ outOf E' = outOf E ∧
        E'.set = E.set := by
      intro j E h
      rw [get, h]
      refine ⟨_, rfl, ?_, ?_⟩ <;> split <;> rfl
    have new : ∀ (j : Nat) E', (A.states.modify k fun D => { D with edges := (t, e) :: D.edges })[j]? = some E' → ∃ E, A.states[j]? = some E ∧ outOf E' = outOf E ∧
        ∀ t' e', E'.edges.lookup t' = some e' → E.edges.lookup t' = some e' ∨ (j = k ∧ t' = t ∧ e' = e) := by
      intro j E' h
      rw [get] at h
      cases hj : A.states[j]? with
      | none => rw [hj] at h; cases h
      | some E =>
        rw [hj] at h
        cases h
        refine ⟨E, rfl, by split <;> rfl, ?_⟩
        intro t' e' h
        split at h
        · next hkj =>
          simp only [List.lookup_cons] at h
          split at h
          · next ht =>
            cases h
            exact .inr ⟨hkj.symm, by simpa using ht, rfl⟩
          · exact .inl h
        · exact .inl h
    refine ⟨⟨?_, ?_, ?_⟩, old⟩
    · intro j h
      obtain ⟨E, h1, h2⟩ := hA.first j h
      obtain ⟨E', h3, h4, -⟩ := old _ _ h1
      exact ⟨E', h3, h4.trans h2⟩
    · intro j E' x h1 h2
      obtain ⟨E, h3, h4, -⟩ := new _ _ h1
      exact hA.row j E x h3 (h4 ▸ h2)
    · intro j E' x t' e' h1 h2 h3
      obtain ⟨E, h4, h5, h6⟩ := new _ _ h1
      rw [h5] at h2
      have hh : Leads N n A x t' e' := by
        rcases h6 _ _ h3 with h7 | ⟨rfl, rfl, rfl⟩
        · exact hA.edge j E x t' e' h4 h2 h7
        · rw [hk] at h4
          cases h4
          rw [hs] at h2
          cases h2
          exact he
      cases e' with
      | none => exact hh
      | some i =>
        obtain ⟨F, h7, h8⟩ := hh
        obtain ⟨F', h9, h10, -⟩ := old _ _ h7
        exact ⟨F', h9, h8.trans (by rw [h10])⟩

theorem mkDState_edges (r : PSet) : (mkDState N r).edges = [] := by
  unfold mkDState
  split
  · rfl
  · split <;> rfl

/-- The state behind a token. -/
theorem target_good (hC : Closed N n rows) {A : PDfa} (hA : Good N n s0 rows A) {k t : Nat} {D : DState} {s : PSet} (hk : A.states[k]? = some D)
    (hs : outOf D = .next s) (ht : t ≤ N.max) :
    ∃ B e, target N n A k t = some (B, e) ∧ Good N n s0 rows B ∧ (∃ D', B.states[k]? = some D' ∧ outOf D' = .next s) ∧ Leads N n B s t e := by
  unfold target
  rw [hk]
  dsimp only
  cases he : D.edges.lookup t with
  | some e => exact ⟨A, e, rfl, hA, ⟨D, hk, hs⟩, hA.edge k D s t e hk hs he⟩
  | none =>
    dsimp only
    obtain ⟨-, hset⟩ := plain_of_next hs
    rw [hset]
    have hr := hA.row k D s hk hs
    obtain ⟨o, ho, -, hn⟩ := hC.step s hr t ht
    have ho' := ho
    unfold sllStep at ho
    cases hx : reachSet N n false s t with
    | none => rw [hx] at ho; cases ho
    | some x =>
      rw [hx] at ho
      cases x with
      | none =>
        cases ho
        obtain ⟨h1, h2⟩ := good_edge (N := N) hA (t := t) (e := none) hk hs ho'
        obtain ⟨E, h3, h4, -⟩ := h2 _ _ hk
        exact ⟨_, none, rfl, h1, ⟨E, h3, h4.trans hs⟩, ho'⟩
      | some r =>
        cases ho
        dsimp only
        cases hadd : addDState A (mkDState N r) with
        | mk B j =>
          obtain ⟨h1, h2, ⟨E, h3, h4⟩, h5⟩ := good_add hC hA hn (mkDState_edges r) hadd
          have hk' := h5 _ _ hk
          obtain ⟨g1, g2⟩ := good_edge (N := N) h1 (t := t) (e := some j) hk' hs ⟨E, h3, by rw [h4]; exact ho'⟩
          obtain ⟨F, g3, g4, -⟩ := g2 _ _ hk'
          obtain ⟨F', g5, g6, -⟩ := g2 _ _ h3
          exact ⟨_, some j, rfl, g1, ⟨F, g3, g4.trans hs⟩, F', g5, by rw [g6, h4]; exact ho'⟩

/-- What the first simulation finds, without an automaton. -/
def sllRun (N : PNet) (n : Nat) : PSet → List PTok → Sim
  | s, [] => .alt (finishedAlt N s.cfgs)
  | s, x :: w =>
    match sllStep N n s x.typ with
    | some (.next r) => sllRun N n r w
    | some .full => .full
    | some (.alt i) => .alt i
    | _ => .alt (finishedAlt N s.cfgs)

theorem sllRun_walk : ∀ (w : List PTok) (s : PSet) (o : Out PSet), walk (sllStep N n) s w = some o →
    (o = .full → sllRun N n s w = .full) ∧ ∀ i, o = .alt i → sllRun N n s w = .alt i
  | [], s, o, h => by
    unfold walk at h
    cases h
  | x :: w, s, o, h => by
    unfold walk at h
    unfold sllRun
    split at h
    · next r hr =>
      rw [hr]
      exact sllRun_walk w r o h
    · next hr =>
      rw [h]
      constructor
      · rintro rfl
        rfl
      · rintro i rfl
        rfl

theorem outOf_cases (D : DState) : (D.conflict.isSome = true ∧ outOf D = .full) ∨ (D.conflict.isSome = false ∧ (D.unique != 0) = true ∧ outOf D = .alt D.unique) ∨
    (D.conflict.isSome = false ∧ (D.unique != 0) = false ∧ outOf D = .next D.set) := by
  unfold outOf
  cases h1 : D.conflict.isSome <;> cases h2 : D.unique != 0 <;> simp

theorem execSll_good (hC : Closed N n rows) : ∀ (m : Nat) (A : PDfa) (k : Nat) (w : List PTok) (D : DState) (s : PSet), Good N n s0 rows A → A.states[k]? = some D →
    outOf D = .next s → (∀ x ∈ w, 0 < x.typ ∧ x.typ ≤ N.max) → w.length < m → ∃ B, execSll N n m A k w = some (B, sllRun N n s w) ∧ Good N n s0 rows B
  | 0, _, _, _, _, _, _, _, _, _, h => by omega
  | m + 1, A, k, w, D, s, hA, hk, hs, ht, hm => by
    have hla : la w ≤ N.max := by
      cases w with
      | nil => exact Nat.zero_le _
      | cons x w => exact (ht x List.mem_cons_self).2
    obtain ⟨B, e, h1, h2, ⟨D', h3, h4⟩, h5⟩ := target_good hC hA hk hs hla
    obtain ⟨o, ho, hz, -⟩ := hC.step s (hA.row k D s hk hs) (la w) hla
    unfold execSll
    rw [h1]
    have hset := (plain_of_next h4).2
    cases e with
    | none =>
      simp only [h3]
      refine ⟨B, ?_, h2⟩
      rw [hset]
      cases w with
      | nil => rfl
      | cons x w =>
        unfold sllRun
        rw [show sllStep N n s x.typ = some .err from h5]
    | some j =>
      obtain ⟨E, h6, h7⟩ := h5
      simp only [h6]
      cases w with
      | nil =>
        rw [hz rfl] at ho
        rw [ho] at h7
        have h8 := Option.some.inj h7
        rcases outOf_cases E with ⟨-, h⟩ | ⟨-, -, h⟩ | ⟨-, -, h⟩ <;> rw [h] at h8 <;> cases h8
      | cons x w =>
        unfold sllRun
        rw [show sllStep N n s x.typ = some (outOf E) from h7]
        rcases outOf_cases E with ⟨g1, g2⟩ | ⟨g1, g2, g3⟩ | ⟨g1, g2, g3⟩
        · rw [if_pos g1, g2]
          exact ⟨B, rfl, h2⟩
        · rw [if_neg (by rw [g1]; simp), if_pos g2, g3]
          exact ⟨B, rfl, h2⟩
        · rw [if_neg (by rw [g1]; simp), if_neg (by rw [g2]; simp), g3]
          exact execSll_good hC m B j w E E.set h2 h6 g3 (fun y hy => ht y (List.mem_cons_of_mem _ hy)) (by simp only [List.length_cons] at hm; omega)

theorem learn_good {d : Nat} (hC : Closed N n rows) (h0 : startSet N n false d .empty = some s0) (hr : s0 ∈ rows) {A : PDfa} (hA : Good N n s0 rows A) {w : List PTok}
    (ht : ∀ x ∈ w, 0 < x.typ ∧ x.typ ≤ N.max) : ∃ B, learn N n d A w = some (B, sllRun N n s0 w) ∧ Good N n s0 rows B := by
  have hf : ∃ B k D, firstState N n d A = some (B, k) ∧ Good N n s0 rows B ∧ B.states[k]? = some D ∧ outOf D = .next s0 := by
    unfold firstState
    cases hs : A.s0 with
    | some k =>
      obtain ⟨D, h1, h2⟩ := hA.first k hs
      exact ⟨A, k, D, rfl, hA, h1, h2⟩
    | none =>
      simp only [h0]
      cases hadd : addDState A { set := s0 } with
      | mk B k =>
        obtain ⟨h1, h2, ⟨E, h3, h4⟩, h5⟩ := good_add hC hA (D := { set := s0 }) (fun s h => by
          rw [outOf_plain ⟨rfl, rfl⟩] at h
          cases h
          exact hr) rfl hadd
        have h6 : outOf E = .next s0 := h4.trans (outOf_plain ⟨rfl, rfl⟩)
        refine ⟨_, k, E, rfl, ⟨?_, h1.row, h1.edge⟩, h3, h6⟩
        intro k' hk'
        cases hk'
        exact ⟨E, h3, h6⟩
  obtain ⟨B, k, D, h1, h2, h3, h4⟩ := hf
  unfold learn
  rw [h1]
  exact execSll_good hC _ B k w D s0 h2 h3 h4 ht (by omega)

end

end Verif.Lemmas.Gen.Antlr.Pred
