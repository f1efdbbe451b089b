import Verif.Spec.Concurrent
import Verif.Lemmas.Mem.Prog
/-!
# Programs that keep to their memory do not disturb each other
-/
namespace Verif.Lemmas.Mem
open Verif.Model Verif.Model.Mem Verif.Spec

variable {α β : Type} {W R : Blocks}

/-- The number of steps of a program. -/
def stepsOf : Prog α → Store → Nat
  | .done _, _ => 0
  | .read a k, h => stepsOf (k (h.mem a)) h + 1
  | .write a b k, h => stepsOf k (h.set a b) + 1
  | .alloc b k, h => stepsOf (k h.next) { h.set h.next b with next := h.after h.next } + 1
  | .slack n k, h => stepsOf (k (h.slack n)) h + 1

/-- Goroutine `i` is in the state after `n` steps of running alone, as far as its memory goes. -/
def Alone (W R : Blocks) (p0 : Prog Unit) (h0 : Store) (m : Machine) (i n : Nat) : Prop :=
  ∃ g : Store, (m.procs i).next = g.next ∧ (m.procs i).slack = g.slack ∧ (m.procs i).skip = g.skip ∧
    (∀ x, W x ∨ R x → m.mem x = g.mem x) ∧ KeepsTo W R (m.procs i).prog g ∧
    (m.procs i).prog.run g = p0.run h0 ∧ stepsOf (m.procs i).prog g = stepsOf p0 h0 - n

theorem alone_start {m : Machine} {i : Nat} (hk : KeepsTo W R (m.procs i).prog (m.store i)) :
    Alone W R (m.procs i).prog (m.store i) m i 0 :=
  ⟨m.store i, rfl, rfl, rfl, fun _ _ => rfl, hk, rfl, rfl⟩

theorem step_mem (m : Machine) (j : Nat) : (m.step j).mem = ((m.procs j).prog.step (m.store j)).2.mem := rfl

/-- A step of the goroutine itself. -/
theorem alone_self {p0 : Prog Unit} {h0 : Store} {m : Machine} {i n : Nat} (ha : Alone W R p0 h0 m i n) :
    Alone W R p0 h0 (m.step i) i (n + 1) := by
  obtain ⟨g, h1, h2, h3, h4, h5, h6, h7⟩ := ha
  unfold Machine.step Machine.store
  cases hq : m.procs i with
  | mk p nx sl sk =>
    rw [hq] at h1 h2 h3 h5 h6 h7
    dsimp only at h1 h2 h3 h5 h6 h7
    subst h1 h2 h3
    cases p with
    | done r =>
      refine ⟨g, ?_⟩
      simp only [Prog.step, if_pos]
      exact ⟨trivial, trivial, trivial, h4, h5, h6, by rw [← Nat.sub_sub, ← h7]; rfl⟩
    | read a k =>
      refine ⟨g, ?_⟩
      simp only [Prog.step, if_pos]
      have hm : m.mem a = g.mem a := h4 a (.inr h5.1)
      rw [hm]
      refine ⟨trivial, trivial, trivial, h4, h5.2, h6, ?_⟩
      rw [← Nat.sub_sub, ← h7]
      rfl
    | write a b k =>
      refine ⟨g.set a b, ?_⟩
      simp only [Prog.step, if_pos]
      refine ⟨rfl, rfl, rfl, fun x hx => ?_, h5.2, h6, ?_⟩
      · show (if x = a then b else m.mem x) = if x = a then b else g.mem x
        rw [h4 x hx]
      · rw [← Nat.sub_sub, ← h7]
        rfl
    | alloc b k =>
      refine ⟨{ g.set g.next b with next := g.after g.next }, ?_⟩
      simp only [Prog.step, if_pos]
      refine ⟨rfl, rfl, rfl, fun x hx => ?_, h5.2, h6, ?_⟩
      · show (if x = g.next then b else m.mem x) = if x = g.next then b else g.mem x
        rw [h4 x hx]
      · rw [← Nat.sub_sub, ← h7]
        rfl
    | slack k f =>
      refine ⟨g, ?_⟩
      simp only [Prog.step, if_pos]
      refine ⟨trivial, trivial, trivial, h4, h5, h6, ?_⟩
      rw [← Nat.sub_sub, ← h7]
      rfl

/-- What a step of another goroutine changes. -/
theorem alone_frame {p0 : Prog Unit} {h0 : Store} {m : Machine} {i n : Nat} (ha : Alone W R p0 h0 m i n)
    {x : Nat} (hx : ¬ W x) : (m.step i).mem x = m.mem x := by
  obtain ⟨g, h1, h2, h3, h4, h5, h6, h7⟩ := ha
  unfold Machine.step Machine.store
  cases hq : m.procs i with
  | mk p nx sl sk =>
    rw [hq] at h1 h2 h3 h5
    dsimp only at h1 h2 h3 h5
    subst h1
    cases p with
    | done r => rfl
    | read a k => rfl
    | write a b k => exact if_neg (fun (he : x = a) => hx (he ▸ h5.1))
    | alloc b k => exact if_neg (fun (he : x = g.next) => hx (he ▸ h5.1))
    | slack k f => rfl

theorem step_procs_ne (m : Machine) {i j : Nat} (h : i ≠ j) : (m.step j).procs i = m.procs i := if_neg h

/-- A step of another goroutine. -/
theorem alone_other {p0 p1 : Prog Unit} {h0 h1 : Store} {W' R' : Blocks} {m : Machine} {i j n n' : Nat}
    (ha : Alone W R p0 h0 m i n) (hb : Alone W' R' p1 h1 m j n') (hij : i ≠ j)
    (hd : ∀ x, W' x → ¬ W x ∧ ¬ R x) : Alone W R p0 h0 (m.step j) i n := by
  obtain ⟨g, k1, k2, k3, k4, k5, k6, k7⟩ := ha
  refine ⟨g, ?_⟩
  rw [step_procs_ne m hij]
  refine ⟨k1, k2, k3, fun x hx => ?_, k5, k6, k7⟩
  rw [alone_frame hb (fun hw => hx.elim (hd x hw).1 (hd x hw).2)]
  exact k4 x hx

theorem alone_exec {W R : Nat → Blocks} {p : Nat → Prog Unit} {h : Nat → Store}
    (hd : ∀ i j, i ≠ j → ∀ x, W i x → ¬ W j x ∧ ¬ R j x) :
    ∀ (s : List Nat) (m : Machine) (n : Nat → Nat), (∀ i, Alone (W i) (R i) (p i) (h i) m i (n i)) →
      (∀ i, Alone (W i) (R i) (p i) (h i) (m.exec s) i (n i + s.count i)) ∧
      ∀ x, (∀ i, ¬ W i x) → (m.exec s).mem x = m.mem x
  | [], m, n, ha => ⟨ha, fun _ _ => rfl⟩
  | j :: s, m, n, ha => by
    have hs : ∀ i, Alone (W i) (R i) (p i) (h i) (m.step j) i (n i + if i = j then 1 else 0) := by
      intro i
      by_cases hij : i = j
      · subst hij
        rw [if_pos rfl]
        exact alone_self (ha i)
      · rw [if_neg hij]
        exact alone_other (ha i) (ha j) hij (hd j i (Ne.symm hij))
    obtain ⟨k1, k2⟩ := alone_exec hd s (m.step j) _ hs
    refine ⟨fun i => ?_, fun x hx => (k2 x hx).trans (alone_frame (ha j) (hx j))⟩
    have := k1 i
    rw [List.count_cons]
    have he : (n i + if i = j then 1 else 0) + s.count i = n i + (s.count i + if (j == i) = true then 1 else 0) := by
      by_cases hij : i = j
      · subst hij; simp; omega
      · have : ¬ j = i := Ne.symm hij
        simp [hij, this]
    rw [← he]
    exact this

/-- All goroutines keep to their own memory: each is in the state of running alone. -/
theorem alone_of_keeps {m : Machine} {W R : Nat → Blocks}
    (hk : ∀ i, KeepsTo (W i) (R i) (m.procs i).prog (m.store i))
    (hd : ∀ i j, i ≠ j → ∀ x, W i x → ¬ W j x ∧ ¬ R j x) (s : List Nat) :
    (∀ i, Alone (W i) (R i) (m.procs i).prog (m.store i) (m.exec s) i (s.count i)) ∧
    ∀ x, (∀ i, ¬ W i x) → (m.exec s).mem x = m.mem x := by
  obtain ⟨k1, k2⟩ := alone_exec hd s m (fun _ => 0) (fun i => alone_start (hk i))
  exact ⟨fun i => Nat.zero_add (s.count i) ▸ k1 i, k2⟩

theorem alone_done {p0 : Prog Unit} {h0 : Store} {m : Machine} {i n : Nat} {r : Res Unit}
    (ha : Alone W R p0 h0 m i n) (hr : Returned m i r) :
    (p0.run h0).1 = r ∧ ∀ x, W x ∨ R x → m.mem x = (p0.run h0).2.mem x := by
  obtain ⟨g, -, -, -, h4, -, h6, -⟩ := ha
  unfold Returned at hr
  rw [hr] at h6
  rw [← h6]
  exact ⟨rfl, h4⟩

theorem steps_zero : ∀ (p : Prog α) (h : Store), stepsOf p h = 0 → ∃ r, p = .done r
  | .done r, _, _ => ⟨r, rfl⟩
  | .read _ _, _, h => by cases h
  | .write _ _ _, _, h => by cases h
  | .alloc _ _, _, h => by cases h
  | .slack _ _, _, h => by cases h

theorem alone_returns {p0 : Prog Unit} {h0 : Store} {m : Machine} {i n : Nat}
    (ha : Alone W R p0 h0 m i n) (hn : stepsOf p0 h0 ≤ n) : ∃ r, Returned m i r := by
  obtain ⟨g, -, -, -, -, -, -, h7⟩ := ha
  exact steps_zero _ g (by omega)

theorem alone_writes {p0 : Prog Unit} {h0 : Store} {m : Machine} {i n x : Nat}
    (ha : Alone W R p0 h0 m i n) (hx : Writes m i x) : W x := by
  obtain ⟨g, h1, -, -, -, h5, -, -⟩ := ha
  rcases hx with ⟨b, k, hp⟩ | ⟨b, k, hp, rfl⟩
  · rw [hp] at h5; exact h5.1
  · rw [hp] at h5; rw [h1]; exact h5.1

theorem alone_reads {p0 : Prog Unit} {h0 : Store} {m : Machine} {i n x : Nat}
    (ha : Alone W R p0 h0 m i n) (hx : Reads m i x) : R x := by
  obtain ⟨g, h1, -, -, -, h5, -, -⟩ := ha
  obtain ⟨k, hp⟩ := hx
  rw [hp] at h5
  exact h5.1

theorem keepsTo_mono {W' R' : Blocks} (hw : ∀ x, W x → W' x) (hr : ∀ x, R x → R' x) :
    ∀ (p : Prog α) (h : Store), KeepsTo W R p h → KeepsTo W' R' p h
  | .done _, _, _ => trivial
  | .read _ _, _, hk => ⟨hr _ hk.1, keepsTo_mono hw hr _ _ hk.2⟩
  | .write _ _ _, _, hk => ⟨hw _ hk.1, keepsTo_mono hw hr _ _ hk.2⟩
  | .alloc _ _, _, hk => ⟨hw _ hk.1, keepsTo_mono hw hr _ _ hk.2⟩
  | .slack _ k, _, hk => keepsTo_mono hw hr (k _) _ hk

theorem keepsTo_andThen {f : Res α → Prog β} : ∀ (p : Prog α) (h : Store), KeepsTo W R p h →
    KeepsTo W R (f (p.run h).1) (p.run h).2 → KeepsTo W R (p.andThen f) h
  | .done _, _, _, hf => hf
  | .read _ _, _, hk, hf => ⟨hk.1, keepsTo_andThen _ _ hk.2 hf⟩
  | .write _ _ _, _, hk, hf => ⟨hk.1, keepsTo_andThen _ _ hk.2 hf⟩
  | .alloc _ _, _, hk, hf => ⟨hk.1, keepsTo_andThen _ _ hk.2 hf⟩
  | .slack _ k, _, hk, hf => keepsTo_andThen (k _) _ hk hf

end Verif.Lemmas.Mem
