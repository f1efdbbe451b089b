import Verif.Model.Gen.Loader
import Verif.Spec.Gen.Graph
/-!
# C44: loading and sorting files
-/
namespace Verif.Props
open Verif.Spec.Gen Verif.Model.Gen

namespace Gen
variable {F : Type} [DecidableEq F]

theorem nodup_length_le : ∀ {l m : List F}, l.Nodup → (∀ x ∈ l, x ∈ m) → l.length ≤ m.length
  | [], _, _, _ => by simp
  | x :: l, m, hn, hs => by
    have hx := hs x (List.mem_cons_self ..)
    obtain ⟨hxl, hl⟩ := List.nodup_cons.1 hn
    have := nodup_length_le hl (m := m.erase x) (fun y hy => by
      have hne : y ≠ x := fun e => hxl (e ▸ hy)
      exact (List.mem_erase_of_ne hne).2 (hs y (List.mem_cons_of_mem _ hy)))
    rw [List.length_erase_of_mem hx] at this
    have hpos : 0 < m.length := List.length_pos_of_mem hx
    simp only [List.length_cons]
    omega

/-- A list without repetitions inside another of the same length has all its elements. -/
theorem nodup_full {l m : List F} (hn : l.Nodup) (hs : ∀ x ∈ l, x ∈ m) (hlen : m.length ≤ l.length) {x : F} (hx : x ∈ m) : x ∈ l := by
  refine Classical.byContradiction fun hxl => ?_
  have := nodup_length_le (l := x :: l) (m := m) (List.nodup_cons.2 ⟨hxl, hn⟩) (fun y hy => by
    rcases List.mem_cons.1 hy with e | h
    · exact e ▸ hx
    · exact hs y h)
  simp at this
  omega

/-- The loop over the imports of one file. -/
theorem relax_spec : ∀ (ds : List F) (deg : F → Int) (queue : List F), (∀ x, (ds.count x : Int) ≤ deg x) →
    (∀ x, (relax deg queue ds).1 x = deg x - ds.count x) ∧
    ∃ L, (relax deg queue ds).2 = queue ++ L ∧ L.Nodup ∧ ∀ x, x ∈ L ↔ x ∈ ds ∧ deg x = ds.count x
  | [], deg, queue, _ => ⟨by simp [relax], [], by simp [relax], by simp, by simp⟩
  | d :: ds, deg, queue, hle => by
    simp only [relax, if_true]
    have hle' : ∀ x, (ds.count x : Int) ≤ (if x = d then deg x - 1 else deg x) := by
      intro x
      have := hle x
      by_cases h : x = d
      · subst h; simp only [List.count_cons_self] at this; simp only [if_true]; omega
      · rw [List.count_cons_of_ne (Ne.symm h)] at this; simp only [h, if_false]; exact this
    obtain ⟨h1, L, h2, h3, h4⟩ := relax_spec ds (fun x => if x = d then deg x - 1 else deg x)
      (if deg d - 1 = 0 then queue ++ [d] else queue) hle'
    refine ⟨?_, ?_⟩
    · intro x
      rw [h1]
      by_cases h : x = d
      · subst h; simp only [List.count_cons_self, if_true]; omega
      · rw [List.count_cons_of_ne (Ne.symm h)]; simp only [h, if_false]
    · rw [h2]
      by_cases hd : deg d - 1 = 0
      · have hcd : ds.count d = 0 := by
          have := hle d
          simp only [List.count_cons_self] at this
          omega
        have hdn : d ∉ ds := List.count_eq_zero.1 hcd
        refine ⟨d :: L, by simp [hd], List.nodup_cons.2 ⟨fun hm => hdn ((h4 d).1 hm).1, h3⟩, ?_⟩
        intro x
        rw [List.mem_cons, h4]
        by_cases h : x = d
        · subst h
          simp only [true_or, true_iff, List.mem_cons, List.count_cons_self, true_and]
          omega
        · simp only [h, false_or, List.mem_cons, if_false]
          rw [List.count_cons_of_ne (Ne.symm h)]
      · refine ⟨L, by simp [hd], h3, ?_⟩
        intro x
        rw [h4]
        by_cases h : x = d
        · subst h
          simp only [List.mem_cons, true_or, true_and, if_true, List.count_cons_self]
          constructor
          · intro ⟨_, e⟩; omega
          · intro e
            refine ⟨?_, by omega⟩
            refine List.count_pos_iff.1 ?_
            omega
        · simp only [List.mem_cons, h, false_or, if_false]
          rw [List.count_cons_of_ne (Ne.symm h)]

/-- How many import statements name `x`, in the files that are not in `ret`. -/
def degOut (imports : F → List F) (pp ret : List F) (x : F) : Int :=
  ((pp.filter fun p => p ∉ ret).flatMap imports).count x

theorem count_flatMap_erase (imports : F → List F) (x : F) : ∀ {l : List F} {p : F}, p ∈ l →
    (l.flatMap imports).count x = (imports p).count x + ((l.erase p).flatMap imports).count x
  | [], p, h => by cases h
  | q :: l, p, h => by
    by_cases e : q = p
    · subst e; simp [List.flatMap_cons, List.count_append]
    · rw [List.erase_cons_tail (by simpa using e)]
      rcases List.mem_cons.1 h with h | h
      · exact absurd h.symm e
      · simp only [List.flatMap_cons, List.count_append]
        rw [count_flatMap_erase imports x h]
        omega

theorem filter_snoc {pp ret : List F} {p : F} (hpp : pp.Nodup) :
    (pp.filter fun q => q ∉ ret ++ [p]) = (pp.filter fun q => q ∉ ret).erase p := by
  have hn : (pp.filter fun q => q ∉ ret).Nodup := hpp.filter _
  rw [hn.erase_eq_filter, List.filter_filter]
  congr 1
  funext q
  by_cases h1 : q ∈ ret <;> by_cases h2 : q = p <;> simp [h1, h2]

/-- The invariant of Kahn's algorithm. -/
structure KInv (imports : F → List F) (pp : List F) (deg : F → Int) (queue ret : List F) : Prop where
  deg_eq : ∀ x, deg x = degOut imports pp ret x
  nodup : (ret ++ queue).Nodup
  mem : ∀ x, x ∈ ret ++ queue ↔ x ∈ pp ∧ deg x = 0
  order : ∀ p q, p ∈ pp → q ∈ imports p → q ∈ ret → Before ret p q

theorem mem_degOut {imports : F → List F} {pp ret : List F} {x : F} :
    degOut imports pp ret x = 0 ↔ ∀ p ∈ pp, x ∈ imports p → p ∈ ret := by
  unfold degOut
  constructor
  · intro h p hp hx
    refine Classical.byContradiction fun hr => ?_
    have : 0 < ((pp.filter fun p => p ∉ ret).flatMap imports).count x := by
      rw [List.count_pos_iff]
      exact List.mem_flatMap.2 ⟨p, List.mem_filter.2 ⟨hp, by simpa using hr⟩, hx⟩
    omega
  · intro h
    have : ((pp.filter fun p => p ∉ ret).flatMap imports).count x = 0 := by
      rw [List.count_eq_zero]
      intro hm
      obtain ⟨p, hp, hx⟩ := List.mem_flatMap.1 hm
      obtain ⟨hp, hr⟩ := List.mem_filter.1 hp
      simp at hr
      exact hr (h p hp hx)
    omega

theorem before_snoc {l : List F} {p q x : F} (h : Before l p q) : Before (l ++ [x]) p q := by
  obtain ⟨a, b, c, e⟩ := h
  exact ⟨a, b, c ++ [x], by simp [e]⟩

theorem before_last {l : List F} {p x : F} (h : p ∈ l) : Before (l ++ [x]) p x := by
  obtain ⟨a, b, e⟩ := List.append_of_mem h
  exact ⟨a, b, [], by simp [e]⟩

theorem kinv_step {imports : F → List F} {pp : List F} (hpp : pp.Nodup) (hcl : ∀ p ∈ pp, ∀ q ∈ imports p, q ∈ pp)
    {deg : F → Int} {p : F} {queue ret : List F} (h : KInv imports pp deg (p :: queue) ret) :
    KInv imports pp (relax deg queue (imports p)).1 (relax deg queue (imports p)).2 (ret ++ [p]) := by
  have hnod := h.nodup
  have hpr : p ∉ ret := by
    rw [List.nodup_append] at hnod
    exact fun hr => hnod.2.2 p hr p (List.mem_cons_self ..) rfl
  obtain ⟨hpm, hp0⟩ := (h.mem p).1 (by simp)
  have hpf : p ∈ pp.filter fun q => q ∉ ret := List.mem_filter.2 ⟨hpm, by simpa using hpr⟩
  have hdeg : ∀ x, deg x = (imports p).count x + degOut imports pp (ret ++ [p]) x := by
    intro x
    rw [h.deg_eq, degOut, degOut, filter_snoc hpp, count_flatMap_erase imports x hpf]
    simp
  have hpos : ∀ x, 0 ≤ degOut imports pp (ret ++ [p]) x := fun x => by unfold degOut; omega
  obtain ⟨r1, L, r2, r3, r4⟩ := relax_spec (imports p) deg queue (fun x => by have := hdeg x; have := hpos x; omega)
  have hdeg' : ∀ x, (relax deg queue (imports p)).1 x = degOut imports pp (ret ++ [p]) x := by
    intro x; rw [r1, hdeg]; omega
  have hLmem : ∀ x, x ∈ L ↔ x ∈ imports p ∧ degOut imports pp (ret ++ [p]) x = 0 := by
    intro x
    rw [r4, hdeg x]
    constructor
    · rintro ⟨h1, h2⟩; exact ⟨h1, by omega⟩
    · rintro ⟨h1, h2⟩; exact ⟨h1, by omega⟩
  have hold : ∀ x ∈ ret ++ p :: queue, deg x = 0 := fun x hx => ((h.mem x).1 hx).2
  have hLnew : ∀ x ∈ L, x ∉ ret ++ p :: queue := by
    intro x hx hin
    have h0 := hold x hin
    obtain ⟨h1, h2⟩ := (hLmem x).1 hx
    have := hdeg x
    have : 0 < (imports p).count x := List.count_pos_iff.2 h1
    omega
  refine ⟨hdeg', ?_, ?_, ?_⟩
  · rw [r2]
    have e : ret ++ [p] ++ (queue ++ L) = (ret ++ p :: queue) ++ L := by simp
    rw [e, List.nodup_append]
    exact ⟨hnod, r3, fun x hx y hy e => hLnew y hy (e ▸ hx)⟩
  · intro x
    rw [hdeg', r2]
    have e : ret ++ [p] ++ (queue ++ L) = (ret ++ p :: queue) ++ L := by simp
    rw [e, List.mem_append]
    constructor
    · rintro (hx | hx)
      · obtain ⟨h1, h2⟩ := (h.mem x).1 hx
        exact ⟨h1, by have := hdeg x; have := hpos x; omega⟩
      · obtain ⟨h1, h2⟩ := (hLmem x).1 hx
        exact ⟨hcl p hpm x h1, h2⟩
    · rintro ⟨hx, h0⟩
      by_cases hi : x ∈ imports p
      · exact .inr ((hLmem x).2 ⟨hi, h0⟩)
      · left
        refine (h.mem x).2 ⟨hx, ?_⟩
        have := hdeg x
        have : (imports p).count x = 0 := List.count_eq_zero.2 hi
        omega
  · intro a b ha hb hbr
    rcases List.mem_append.1 hbr with hbr | hbr
    · exact before_snoc (h.order a b ha hb hbr)
    · have e := List.mem_singleton.1 hbr
      subst e
      have h0 : degOut imports pp ret b = 0 := by rw [← h.deg_eq]; exact hp0
      exact before_last (mem_degOut.1 h0 a ha hb)

theorem kahn_spec {imports : F → List F} {pp : List F} (hpp : pp.Nodup) (hcl : ∀ p ∈ pp, ∀ q ∈ imports p, q ∈ pp) :
    ∀ (n : Nat) (deg : F → Int) (queue ret : List F), KInv imports pp deg queue ret → pp.length < n + ret.length →
      ∃ deg', KInv imports pp deg' [] (kahn imports n deg queue ret) ∧ ∃ t, kahn imports n deg queue ret = ret ++ t ∧
        (∀ x q, queue = x :: q → ∃ t', t = x :: t')
  | 0, deg, queue, ret, h, hlen => by
    exfalso
    have := nodup_length_le h.nodup (fun x hx => ((h.mem x).1 hx).1)
    simp at this
    omega
  | n + 1, deg, [], ret, h, hlen => ⟨deg, by simpa [kahn] using h, [], by simp [kahn], by simp⟩
  | n + 1, deg, p :: queue, ret, h, hlen => by
    obtain ⟨deg', k1, t, k2, _⟩ := kahn_spec hpp hcl n _ _ _ (kinv_step hpp hcl h) (by simp; omega)
    refine ⟨deg', by simpa [kahn] using k1, p :: t, by simp only [kahn]; rw [k2]; simp, ?_⟩
    intro x q e
    cases e
    exact ⟨t, rfl⟩

theorem kinv_init {imports : F → List F} {pp : List F} (hpp : pp.Nodup) :
    KInv imports pp (inDegree imports pp) (pp.filter fun p => inDegree imports pp p == 0) [] := by
  refine ⟨?_, by rw [List.nil_append]; exact hpp.filter _, ?_, by simp⟩
  · intro x
    have : (pp.filter fun p => p ∉ ([] : List F)) = pp := List.filter_eq_self.2 (by simp)
    unfold inDegree degOut
    rw [this]
  · intro x
    simp [List.mem_filter]

theorem imports_trans {imports : F → List F} {x y z : F} (h : Imports imports x y) (h' : Imports imports y z) : Imports imports x z := by
  induction h with
  | one h => exact .more h h'
  | more h _ ih => exact .more h (ih h')

/-- In a finite set in which everything is imported by something there is a cycle. -/
theorem cycle_of {imports : F → List F} {S : List F} (hne : S ≠ []) (h : ∀ x ∈ S, ∃ y ∈ S, x ∈ imports y) :
    ∃ x ∈ S, Imports imports x x := by
  -- a chain of importers that is as long as we want
  have chain : ∀ n : Nat, ∃ c : List F, c.length = n + 1 ∧ (∀ x ∈ c, x ∈ S) ∧
      (∀ a x b y d, c = a ++ x :: (b ++ y :: d) → Imports imports x y) := by
    intro n
    induction n with
    | zero =>
      cases S with
      | nil => exact absurd rfl hne
      | cons s S =>
        refine ⟨[s], rfl, by simp, ?_⟩
        intro a x b y d e
        have := congrArg List.length e
        simp at this
        omega
    | succ n ih =>
      obtain ⟨c, hlen, hS, hord⟩ := ih
      cases c with
      | nil => simp at hlen
      | cons z c =>
        obtain ⟨y, hy, hz⟩ := h z (hS z (List.mem_cons_self ..))
        refine ⟨y :: z :: c, by simpa using hlen, ?_, ?_⟩
        · intro x hx
          rcases List.mem_cons.1 hx with e | hx
          · exact e ▸ hy
          · exact hS x hx
        · intro a x b w d e
          cases a with
          | nil =>
            simp only [List.nil_append, List.cons.injEq] at e
            obtain ⟨e1, e2⟩ := e
            subst e1
            cases b with
            | nil =>
              simp only [List.nil_append, List.cons.injEq] at e2
              exact .one (e2.1 ▸ hz)
            | cons v b =>
              simp only [List.cons_append, List.cons.injEq] at e2
              exact .more hz (hord [] z b w d (by rw [e2.2]; rfl))
          | cons v a =>
            simp only [List.cons_append, List.cons.injEq] at e
            exact hord a x b w d e.2
  obtain ⟨c, hlen, hS, hord⟩ := chain S.length
  by_cases hn : c.Nodup
  · have := nodup_length_le hn hS
    omega
  · -- a repetition
    have rep : ∀ l : List F, ¬ l.Nodup → ∃ a x b d, l = a ++ x :: (b ++ x :: d) := by
      intro l
      induction l with
      | nil => intro h; exact absurd List.nodup_nil h
      | cons x l ih =>
        intro h
        by_cases hx : x ∈ l
        · obtain ⟨b, d, e⟩ := List.append_of_mem hx
          exact ⟨[], x, b, d, by simp [e]⟩
        · obtain ⟨a, y, b, d, e⟩ := ih (fun hl => h (List.nodup_cons.2 ⟨hx, hl⟩))
          exact ⟨x :: a, y, b, d, by simp [e]⟩
    obtain ⟨a, x, b, d, e⟩ := rep c hn
    exact ⟨x, hS x (by rw [e]; simp), hord a x b x d e⟩

theorem perm_of {l m : List F} (hl : l.Nodup) (hm : m.Nodup) (h : ∀ x, x ∈ l ↔ x ∈ m) : l.Perm m :=
  (List.perm_ext_iff_of_nodup hl hm).2 h

end Gen

open Gen

/-- C44: for every acyclic import graph the files are returned in an order in which every file comes before the files it imports (and
is resolved after them, as files are resolved from the last to the first), none is lost and none repeated. -/
theorem C44_sorted {F : Type} [DecidableEq F] (imports : F → List F) (pp : List F) (hnodup : pp.Nodup)
    (hclosed : ∀ p ∈ pp, ∀ q ∈ imports p, q ∈ pp) (hacyclic : ∀ x ∈ pp, ¬ Imports imports x x) :
    (sortProtoFiles imports pp).Perm pp ∧ ∀ p ∈ pp, ∀ q ∈ imports p, Before (sortProtoFiles imports pp) p q := by
  obtain ⟨deg, hk, -⟩ := kahn_spec hnodup hclosed (pp.length + 1) _ _ [] (kinv_init hnodup) (by simp)
  have hmem : ∀ x, x ∈ kahn imports (pp.length + 1) (inDegree imports pp)
      (pp.filter fun p => inDegree imports pp p == 0) [] ↔ x ∈ pp ∧ deg x = 0 := by
    intro x; rw [← hk.mem]; simp
  have hdeg := hk.deg_eq
  have hnd : (kahn imports (pp.length + 1) (inDegree imports pp) (pp.filter fun p => inDegree imports pp p == 0) []).Nodup := by
    have := hk.nodup
    simpa using this
  have hord := hk.order
  unfold sortProtoFiles
  generalize kahn imports (pp.length + 1) (inDegree imports pp) (pp.filter fun p => inDegree imports pp p == 0) [] = ret at *
  -- everything is there
  have hall : ∀ x ∈ pp, x ∈ ret := by
    refine Classical.byContradiction fun hnot => ?_
    have hex : ∃ x ∈ pp, x ∉ ret := by
      refine Classical.byContradiction fun h => hnot fun x hx => Classical.byContradiction fun hr => h ⟨x, hx, hr⟩
    obtain ⟨x0, hx0, hr0⟩ := hex
    obtain ⟨x, hx, hc⟩ := cycle_of (imports := imports) (S := pp.filter fun p => p ∉ ret)
      (fun e => by
        have : x0 ∈ pp.filter fun p => p ∉ ret := List.mem_filter.2 ⟨hx0, by simpa using hr0⟩
        rw [e] at this; cases this)
      (fun x hx => by
        obtain ⟨hxp, hxr⟩ := List.mem_filter.1 hx
        simp at hxr
        have h0 : degOut imports pp ret x ≠ 0 := fun h0 => hxr ((hmem x).2 ⟨hxp, by rw [hdeg]; exact h0⟩)
        refine Classical.byContradiction fun hno => h0 (mem_degOut.2 fun p hp hxi => ?_)
        refine Classical.byContradiction fun hpr => hno ⟨p, List.mem_filter.2 ⟨hp, by simpa using hpr⟩, hxi⟩)
    exact hacyclic x (List.mem_filter.1 hx).1 hc
  have hperm : ret.Perm pp := perm_of hnd hnodup fun x => ⟨fun h => ((hmem x).1 h).1, hall x⟩
  rw [if_pos hperm.length_eq]
  exact ⟨hperm, fun p hp q hq => hord p q hp hq (hall q (hclosed p hp q hq))⟩

/-- C44: when everything is reached from one file, as after loading it, that file is the first. -/
theorem C44_root_first {F : Type} [DecidableEq F] (imports : F → List F) (pp : List F) (r : F) (hr : r ∈ pp) (hnodup : pp.Nodup)
    (hclosed : ∀ p ∈ pp, ∀ q ∈ imports p, q ∈ pp) (hacyclic : ∀ x ∈ pp, ¬ Imports imports x x)
    (hreach : ∀ x ∈ pp, x = r ∨ Imports imports r x) : (sortProtoFiles imports pp).head? = some r := by
  obtain ⟨hperm, hord⟩ := C44_sorted imports pp hnodup hclosed hacyclic
  generalize sortProtoFiles imports pp = ret at *
  cases ret with
  | nil => exact absurd (hperm.mem_iff.2 hr) (by simp)
  | cons x l =>
    have hx : x ∈ pp := hperm.mem_iff.1 (List.mem_cons_self ..)
    rcases hreach x hx with e | h
    · rw [e]; rfl
    · exfalso
      -- an importer of `x`, which would have to come before it
      have himp : ∀ {a b : F}, a ∈ pp → Imports imports a b → ∃ p ∈ pp, b ∈ imports p := by
        intro a b ha hab
        induction hab with
        | one h => exact ⟨_, ha, h⟩
        | more h _ ih => exact ih (hclosed _ ha _ h)
      obtain ⟨p, hp, hxp⟩ := himp hr h
      obtain ⟨a, b, c, e⟩ := hord p hp x hxp
      have hn : (x :: l).Nodup := hperm.nodup_iff.2 hnodup
      cases a with
      | nil =>
        simp only [List.nil_append, List.cons.injEq] at e
        rw [e.2] at hn
        simp at hn
      | cons y a =>
        simp only [List.cons_append, List.cons.injEq] at e
        rw [e.2] at hn
        simp at hn


namespace Gen
variable {F : Type} [DecidableEq F]

/-- The imports of a file, none when it cannot be read. -/
def imps (imports : F → Option (List F)) (x : F) : List F := (imports x).getD []

/-- The invariant of loading: everything that is not being loaded is complete and not part of a cycle. -/
structure LInv (imports : F → Option (List F)) (stack protos : List F) : Prop where
  nodup : protos.Nodup
  onStack : ∀ x ∈ stack, x ∈ protos
  done : ∀ x ∈ protos, x ∉ stack → imports x ≠ none ∧ (∀ q ∈ imps imports x, q ∈ protos ∧ q ∉ stack) ∧
    Acc (fun a b => a ∈ imps imports b) x

/-- What is true of the result of loading from `f` (or from the files `from_`). -/
def LOk (imports : F → Option (List F)) (stack protos from_ : List F) (r : Loaded F) : Prop :=
  match r with
  | .ok protos' => LInv imports stack protos' ∧ (∃ new, protos' = protos ++ new ∧
      ∀ g ∈ new, ∃ f ∈ from_, g = f ∨ Imports (imps imports) f g) ∧ ∀ f ∈ from_, f ∈ protos' ∧ f ∉ stack
  | .cyclic => ∃ f ∈ from_, ∃ x, (x = f ∨ Imports (imps imports) f x) ∧ Imports (imps imports) x x
  | .missing => ∃ f ∈ from_, ∃ x, (x = f ∨ Imports (imps imports) f x) ∧ imports x = none
  | .fuel => False

theorem load_spec (imports : F → Option (List F)) (U : List F) (hU : ∀ x ∈ U, ∀ y ∈ imps imports x, y ∈ U) :
    ∀ n : Nat,
    (∀ (stack protos : List F) (f : F), stack.Nodup → (∀ x ∈ stack, x ∈ U) → f ∈ U → U.length < n + stack.length →
      (∀ g ∈ stack, Imports (imps imports) g f) → LInv imports stack protos →
      LOk imports stack protos [f] (loadProto imports n stack protos f)) ∧
    (∀ (is stack protos : List F), stack.Nodup → (∀ x ∈ stack, x ∈ U) → (∀ i ∈ is, i ∈ U) → U.length < n + stack.length →
      (∀ g ∈ stack, ∀ i ∈ is, Imports (imps imports) g i) → LInv imports stack protos →
      LOk imports stack protos is (loadImports (loadProto imports n stack) protos is)) := by
  intro n
  induction n with
  | zero =>
    refine ⟨?_, ?_⟩
    · intro stack protos f hn hs _ hlen
      have := nodup_length_le hn hs
      omega
    · intro is stack protos hn hs _ hlen
      have := nodup_length_le hn hs
      omega
  | succ n ih =>
    have hproto : ∀ (stack protos : List F) (f : F), stack.Nodup → (∀ x ∈ stack, x ∈ U) → f ∈ U → U.length < n + 1 + stack.length →
        (∀ g ∈ stack, Imports (imps imports) g f) → LInv imports stack protos →
        LOk imports stack protos [f] (loadProto imports (n + 1) stack protos f) := by
      intro stack protos f hn hs hf hlen hreach hinv
      rw [loadProto]
      by_cases h1 : f ∈ stack
      · rw [if_pos h1]
        exact ⟨f, List.mem_singleton.2 rfl, f, .inl rfl, hreach f h1⟩
      · rw [if_neg h1]
        by_cases h2 : f ∈ protos
        · rw [if_pos h2]
          refine ⟨hinv, ⟨[], by simp, by simp⟩, ?_⟩
          intro g hg
          rw [List.mem_singleton.1 hg]
          exact ⟨h2, h1⟩
        · rw [if_neg h2]
          cases himp : imports f with
          | none => exact ⟨f, List.mem_singleton.2 rfl, f, .inl rfl, himp⟩
          | some is =>
            have hisd : imps imports f = is := by simp [imps, himp]
            have hinv1 : LInv imports (stack ++ [f]) (protos ++ [f]) := by
              refine ⟨?_, ?_, ?_⟩
              · rw [List.nodup_append]
                exact ⟨hinv.nodup, by simp, fun a ha b hb e => h2 (by rw [← List.mem_singleton.1 hb, ← e]; exact ha)⟩
              · intro x hx
                rcases List.mem_append.1 hx with h | h
                · exact List.mem_append_left _ (hinv.onStack x h)
                · exact List.mem_append_right _ h
              · intro x hx hxs
                have hxs' : x ∉ stack ∧ x ≠ f := by simpa using hxs
                rcases List.mem_append.1 hx with h | h
                · obtain ⟨d1, d2, d3⟩ := hinv.done x h hxs'.1
                  refine ⟨d1, fun q hq => ?_, d3⟩
                  obtain ⟨e1, e2⟩ := d2 q hq
                  refine ⟨List.mem_append_left _ e1, ?_⟩
                  intro hqs
                  rcases List.mem_append.1 hqs with h' | h'
                  · exact e2 h'
                  · exact h2 (List.mem_singleton.1 h' ▸ e1)
                · exact absurd (List.mem_singleton.1 h) hxs'.2
            have hsub := ih.2 is (stack ++ [f]) (protos ++ [f])
              (by rw [List.nodup_append]; exact ⟨hn, by simp, fun a ha b hb e => h1 (by rw [← List.mem_singleton.1 hb, ← e]; exact ha)⟩)
              (by
                intro x hx
                rcases List.mem_append.1 hx with h | h
                · exact hs x h
                · rw [List.mem_singleton.1 h]; exact hf)
              (fun i hi => hU f hf i (hisd ▸ hi)) (by simp; omega)
              (by
                intro g hg i hi
                have hfi : Imports (imps imports) f i := .one (hisd ▸ hi)
                rcases List.mem_append.1 hg with h | h
                · exact imports_trans (hreach g h) hfi
                · rw [List.mem_singleton.1 h]; exact hfi)
              hinv1
            dsimp only
            generalize loadImports (loadProto imports n (stack ++ [f])) (protos ++ [f]) is = r at hsub
            have lift : ∀ {x : F}, (∃ i ∈ is, x = i ∨ Imports (imps imports) i x) → Imports (imps imports) f x := by
              rintro x ⟨i, hi, h | h⟩
              · subst h; exact .one (hisd ▸ hi)
              · exact .more (hisd ▸ hi) h
            cases r with
            | fuel => exact hsub
            | cyclic =>
              obtain ⟨i, hi, x, hx, hc⟩ := hsub
              exact ⟨f, List.mem_singleton.2 rfl, x, .inr (lift ⟨i, hi, hx⟩), hc⟩
            | missing =>
              obtain ⟨i, hi, x, hx, hc⟩ := hsub
              exact ⟨f, List.mem_singleton.2 rfl, x, .inr (lift ⟨i, hi, hx⟩), hc⟩
            | ok protos' =>
              obtain ⟨hinv', ⟨new, e, hnew⟩, hall⟩ := hsub
              have hfp : f ∈ protos' := by rw [e]; simp
              refine ⟨⟨hinv'.nodup, ?_, ?_⟩, ⟨f :: new, by rw [e]; simp, ?_⟩, ?_⟩
              · exact fun x hx => hinv'.onStack x (List.mem_append_left _ hx)
              · intro x hx hxs
                by_cases hxf : x = f
                · subst hxf
                  refine ⟨by rw [himp]; simp, ?_, ?_⟩
                  · intro q hq
                    obtain ⟨a1, a2⟩ := hall q (hisd ▸ hq)
                    exact ⟨a1, fun h => a2 (List.mem_append_left _ h)⟩
                  · refine Acc.intro _ fun q hq => ?_
                    obtain ⟨a1, a2⟩ := hall q (hisd ▸ hq)
                    exact (hinv'.done q a1 a2).2.2
                · obtain ⟨d1, d2, d3⟩ := hinv'.done x hx (by simp [hxs, hxf])
                  exact ⟨d1, fun q hq => ⟨(d2 q hq).1, fun h => (d2 q hq).2 (List.mem_append_left _ h)⟩, d3⟩
              · intro g hg
                refine ⟨f, List.mem_singleton.2 rfl, ?_⟩
                rcases List.mem_cons.1 hg with h | h
                · exact .inl h
                · exact .inr (lift (hnew g h))
              · intro g hg
                rw [List.mem_singleton.1 hg]
                exact ⟨hfp, h1⟩
    refine ⟨hproto, ?_⟩
    intro is
    induction is with
    | nil =>
      intro stack protos _ _ _ _ _ hinv
      rw [loadImports]
      exact ⟨hinv, ⟨[], by simp, by simp⟩, by simp⟩
    | cons i is ihl =>
      intro stack protos hn hs hi hlen hreach hinv
      rw [loadImports]
      have h1 := hproto stack protos i hn hs (hi i (List.mem_cons_self ..)) hlen (fun g hg => hreach g hg i (List.mem_cons_self ..)) hinv
      generalize loadProto imports (n + 1) stack protos i = r at h1
      have lift1 : ∀ {P : F → Prop}, (∃ f ∈ [i], P f) → ∃ f ∈ i :: is, P f := by
        rintro P ⟨f, hf, h⟩
        exact ⟨f, by rw [List.mem_singleton.1 hf]; exact List.mem_cons_self .., h⟩
      cases r with
      | fuel => exact h1
      | cyclic => exact lift1 h1
      | missing => exact lift1 h1
      | ok protos1 =>
        obtain ⟨hinv1, ⟨new1, e1, hnew1⟩, hall1⟩ := h1
        have h2 := ihl stack protos1 hn hs (fun j hj => hi j (List.mem_cons_of_mem _ hj)) hlen
          (fun g hg j hj => hreach g hg j (List.mem_cons_of_mem _ hj)) hinv1
        dsimp only
        generalize loadImports (loadProto imports (n + 1) stack) protos1 is = r at h2
        have lift2 : ∀ {P : F → Prop}, (∃ f ∈ is, P f) → ∃ f ∈ i :: is, P f := by
          rintro P ⟨f, hf, h⟩
          exact ⟨f, List.mem_cons_of_mem _ hf, h⟩
        cases r with
        | fuel => exact h2
        | cyclic => exact lift2 h2
        | missing => exact lift2 h2
        | ok protos2 =>
          obtain ⟨hinv2, ⟨new2, e2, hnew2⟩, hall2⟩ := h2
          refine ⟨hinv2, ⟨new1 ++ new2, by rw [e2, e1]; simp, ?_⟩, ?_⟩
          · intro g hg
            rcases List.mem_append.1 hg with h | h
            · exact lift1 (hnew1 g h)
            · exact lift2 (hnew2 g h)
          · intro g hg
            rcases List.mem_cons.1 hg with h | h
            · subst h
              obtain ⟨a1, a2⟩ := hall1 g (List.mem_singleton.2 rfl)
              exact ⟨by rw [e2]; exact List.mem_append_left _ a1, a2⟩
            · exact hall2 g h

theorem acc_irrefl {imports : F → List F} {x : F} (h : Acc (fun a b => a ∈ imports b) x) : ¬ Imports imports x x := by
  induction h with
  | intro x _ ih =>
    intro hc
    cases hc with
    | one h => exact ih x h (.one h)
    | more h h' => exact ih _ h (imports_trans h' (.one h))

end Gen

/-- C44: loading a file ends (there are finitely many files), and it succeeds exactly when every file that is imported, directly or
not, can be read and none imports itself, directly or not. -/
theorem C44_load_iff {F : Type} [DecidableEq F] (imports : F → Option (List F)) (U : List F) (r : F) (hr : r ∈ U)
    (hU : ∀ x ∈ U, ∀ y ∈ (imports x).getD [], y ∈ U) (fuel : Nat) (hfuel : U.length < fuel) :
    (∃ files, loadAll imports fuel r = .ok files) ↔
      ∀ x, x = r ∨ Imports (fun y => (imports y).getD []) r x → imports x ≠ none ∧ ¬ Imports (fun y => (imports y).getD []) x x := by
  have h := (load_spec imports U hU fuel).1 [] [] r List.nodup_nil (by simp) hr (by simpa using hfuel) (by simp)
    ⟨List.nodup_nil, by simp, by simp⟩
  unfold loadAll
  generalize loadProto imports fuel [] [] r = res at h
  constructor
  · rintro ⟨files, e⟩ x hx
    cases res with
    | cyclic => cases e
    | missing => cases e
    | fuel => cases e
    | ok protos =>
      obtain ⟨hinv, -, hall⟩ := h
      have hmem : x ∈ protos := by
        have step : ∀ {a b : F}, a ∈ protos → Imports (fun y => (imports y).getD []) a b → b ∈ protos := by
          intro a b ha hab
          induction hab with
          | one h => exact ((hinv.done _ ha (by simp)).2.1 _ h).1
          | more h _ ih => exact ih ((hinv.done _ ha (by simp)).2.1 _ h).1
        rcases hx with e | hx
        · rw [e]; exact (hall r (by simp)).1
        · exact step (hall r (by simp)).1 hx
      obtain ⟨d1, _, d3⟩ := hinv.done x hmem (by simp)
      exact ⟨d1, acc_irrefl d3⟩
  · intro hgood
    cases res with
    | ok protos => exact ⟨_, rfl⟩
    | fuel => exact absurd h (by intro h; exact h)
    | cyclic =>
      obtain ⟨f, hf, x, hx, hc⟩ := h
      rw [List.mem_singleton.1 hf] at hx
      exact absurd hc (hgood x hx).2
    | missing =>
      obtain ⟨f, hf, x, hx, hc⟩ := h
      rw [List.mem_singleton.1 hf] at hx
      exact absurd hc (hgood x hx).1

/-- C44: what is returned is the requested file, first, and every file it needs, each once, each before the files it imports. -/
theorem C44_load {F : Type} [DecidableEq F] (imports : F → Option (List F)) (U : List F) (r : F) (hr : r ∈ U)
    (hU : ∀ x ∈ U, ∀ y ∈ (imports x).getD [], y ∈ U) (fuel : Nat) (hfuel : U.length < fuel) (files : List F)
    (hload : loadAll imports fuel r = .ok files) :
    files.Nodup ∧ files.head? = some r ∧ (∀ x, x ∈ files ↔ x = r ∨ Imports (fun y => (imports y).getD []) r x) ∧
      ∀ p ∈ files, ∀ q ∈ (imports p).getD [], Before files p q := by
  have h := (load_spec imports U hU fuel).1 [] [] r List.nodup_nil (by simp) hr (by simpa using hfuel) (by simp)
    ⟨List.nodup_nil, by simp, by simp⟩
  unfold loadAll at hload
  generalize loadProto imports fuel [] [] r = res at h hload
  cases res with
  | cyclic => cases hload
  | missing => cases hload
  | fuel => cases hload
  | ok protos =>
    cases hload
    obtain ⟨hinv, ⟨new, e, hnew⟩, hall⟩ := h
    have hrp := (hall r (by simp)).1
    have hcl : ∀ p ∈ protos, ∀ q ∈ (imports p).getD [], q ∈ protos :=
      fun p hp q hq => ((hinv.done p hp (by simp)).2.1 q hq).1
    have hac : ∀ x ∈ protos, ¬ Imports (fun y => (imports y).getD []) x x :=
      fun x hx => acc_irrefl (hinv.done x hx (by simp)).2.2
    have hre : ∀ x ∈ protos, x = r ∨ Imports (fun y => (imports y).getD []) r x := by
      intro x hx
      rw [e] at hx
      obtain ⟨f, hf, h⟩ := hnew x (by simpa using hx)
      rw [List.mem_singleton.1 hf] at h
      exact h
    obtain ⟨hperm, hord⟩ := C44_sorted (fun y => (imports y).getD []) protos hinv.nodup hcl hac
    refine ⟨hperm.nodup_iff.2 hinv.nodup, C44_root_first _ protos r hrp hinv.nodup hcl hac hre, ?_, ?_⟩
    · intro x
      rw [hperm.mem_iff]
      refine ⟨hre x, ?_⟩
      have step : ∀ {a b : F}, a ∈ protos → Imports (fun y => (imports y).getD []) a b → b ∈ protos := by
        intro a b ha hab
        induction hab with
        | one h => exact hcl _ ha _ h
        | more h _ ih => exact ih (hcl _ ha _ h)
      rintro (e | h)
      · rw [e]; exact hrp
      · exact step hrp h
    · exact fun p hp q hq => hord p (hperm.mem_iff.1 hp) q hq

/-- Non-vacuity: a diamond with a file that is imported twice by the same file; the requested file comes first although it is loaded first
and the shared one comes last. -/
def diamond : Nat → Option (List Nat)
  | 0 => some [1, 2, 2]
  | 1 => some [3]
  | 2 => some [1, 3]
  | 3 => some []
  | _ => none

example : loadAll diamond 6 0 = .ok [0, 2, 1, 3] := by decide +kernel
example : (loadAll (fun x : Nat => if x = 3 then some [2] else diamond x) 6 0) = .cyclic := by decide +kernel

end Verif.Props
