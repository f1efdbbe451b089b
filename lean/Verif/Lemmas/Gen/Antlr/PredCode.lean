import Verif.Lemmas.Gen.Antlr.Inv
import Verif.Lemmas.Gen.Antlr.Ll1
/-!
# Reading tokens from stacks of statements

Which stacks of statements are left after a token has been read from a stack (`derive`), if the stack continues with unknown statements.  With this, tables of
predictions can be checked against the grammar (`Product`).
-/
namespace Verif.Lemmas.Gen.Antlr.Pred
open Verif.Model.Gen Verif.Model.Gen.Antlr Verif.Spec.Gen Verif.Lemmas.Gen.Antlr

/-- All results, if all are known. -/
def bindAll {α β : Type} (f : α → Option (List β)) : List α → Option (List β)
  | [] => some []
  | x :: l =>
    match f x with
    | none => none
    | some a =>
      match bindAll f l with
      | none => none
      | some b => some (a ++ b)

theorem bindAll_mem {α β : Type} {f : α → Option (List β)} : ∀ {l : List α} {r : List β}, bindAll f l = some r →
    ∀ y, y ∈ r ↔ ∃ x ∈ l, ∃ a, f x = some a ∧ y ∈ a
  | [], r, h, y => by
    cases h
    simp
  | x :: l, r, h, y => by
    unfold bindAll at h
    split at h
    · cases h
    · next a ha =>
      split at h
      · cases h
      · next b hb =>
        cases h
        rw [List.mem_append, bindAll_mem hb y]
        constructor
        · rintro (h | ⟨z, hz, h⟩)
          · exact ⟨x, List.mem_cons_self, a, ha, h⟩
          · exact ⟨z, List.mem_cons_of_mem _ hz, h⟩
        · rintro ⟨z, hz, c, hc, h⟩
          rcases List.mem_cons.1 hz with rfl | hz
          · rw [ha] at hc
            cases hc
            exact .inl h
          · exact .inr ⟨z, hz, c, hc, h⟩

theorem bindAll_some {α β : Type} {f : α → Option (List β)} : ∀ {l : List α} {r : List β}, bindAll f l = some r → ∀ x ∈ l, ∃ a, f x = some a
  | [], _, _, x, hx => by cases hx
  | y :: l, r, h, x, hx => by
    unfold bindAll at h
    split at h
    · cases h
    · next a ha =>
      split at h
      · cases h
      · next b hb =>
        rcases List.mem_cons.1 hx with rfl | hx
        · exact ⟨a, ha⟩
        · exact bindAll_some hb x hx

/-- The stacks that begin with a token, or are known no further. -/
def norm (G : Gram) : Nat → List Code → Option (List (List Code))
  | _, [] => some [[]]
  | 0, _ :: _ => none
  | n + 1, c :: q =>
    match c with
    | .done | .sync _ | .eof => norm G n q
    | .fail => some []
    | .tok t => some [.tok t :: q]
    | .set l => some [.set l :: q]
    | .call _ r => norm G n (G.rule r :: q)
    | .seq a b => norm G n (a :: b :: q)
    | .ifLa _ a b =>
      match norm G n (a :: q) with
      | none => none
      | some x =>
        match norm G n (b :: q) with
        | none => none
        | some y => some (x ++ y)
    | .whileLa l a =>
      match norm G n (a :: .whileLa l a :: q) with
      | none => none
      | some x =>
        match norm G n q with
        | none => none
        | some y => some (x ++ y)
    | .choose d => bindAll (fun a => norm G n (a :: q)) (G.alts d)

section
variable {G : Gram}

theorem acc_cons {c : Code} {K : List Code} {w : List PTok} : Accepts G (c :: K) w ↔ ∃ ts u v, Derives G c ts u ∧ Accepts G K v ∧ w = u ++ v :=
  ⟨fun h => by cases h with | cons h g => exact ⟨_, _, _, h, g, rfl⟩, fun ⟨_, _, _, h, g, e⟩ => by subst e; exact .cons h g⟩

theorem acc_empty {c : Code} (hc : ∀ ts u, Derives G c ts u ↔ ts = [] ∧ u = []) {K : List Code} {w : List PTok} : Accepts G (c :: K) w ↔ Accepts G K w := by
  rw [acc_cons]
  constructor
  · rintro ⟨ts, u, v, h, g, rfl⟩
    obtain ⟨-, rfl⟩ := (hc _ _).1 h
    exact g
  · intro h
    exact ⟨[], [], w, (hc _ _).2 ⟨rfl, rfl⟩, h, rfl⟩

theorem acc_fail {K : List Code} {w : List PTok} : ¬ Accepts G (.fail :: K) w := by
  rw [acc_cons]
  rintro ⟨_, _, _, h, -⟩
  cases h

theorem acc_call {s r : Nat} {K : List Code} {w : List PTok} : Accepts G (.call s r :: K) w ↔ Accepts G (G.rule r :: K) w := by
  rw [acc_cons, acc_cons]
  constructor
  · rintro ⟨ts, u, v, h, g, e⟩
    obtain ⟨us, h, -⟩ := d_call.1 h
    exact ⟨us, u, v, h, g, e⟩
  · rintro ⟨ts, u, v, h, g, e⟩
    exact ⟨_, u, v, d_call.2 ⟨ts, h, rfl⟩, g, e⟩

theorem acc_seq {a b : Code} {K : List Code} {w : List PTok} : Accepts G (.seq a b :: K) w ↔ Accepts G (a :: b :: K) w := by
  constructor
  · intro h
    obtain ⟨ts, u, v, h', g, rfl⟩ := acc_cons.1 h
    obtain ⟨t₁, u₁, h₁, t₂, u₂, h₂, -, rfl⟩ := d_seq.1 h'
    rw [List.append_assoc]
    exact .cons h₁ (.cons h₂ g)
  · intro h
    obtain ⟨t₁, u₁, v₁, h₁, g₁, rfl⟩ := acc_cons.1 h
    obtain ⟨t₂, u₂, v₂, h₂, g₂, rfl⟩ := acc_cons.1 g₁
    rw [← List.append_assoc]
    exact .cons (.seq h₁ h₂) g₂

theorem acc_if {l : List Nat} {a b : Code} {K : List Code} {w : List PTok} : Accepts G (.ifLa l a b :: K) w ↔ Accepts G (a :: K) w ∨ Accepts G (b :: K) w := by
  rw [acc_cons, acc_cons, acc_cons]
  constructor
  · rintro ⟨ts, u, v, h, g, e⟩
    exact (d_if.1 h).imp (fun h => ⟨ts, u, v, h, g, e⟩) fun h => ⟨ts, u, v, h, g, e⟩
  · rintro (⟨ts, u, v, h, g, e⟩ | ⟨ts, u, v, h, g, e⟩)
    · exact ⟨ts, u, v, d_if.2 (.inl h), g, e⟩
    · exact ⟨ts, u, v, d_if.2 (.inr h), g, e⟩

theorem acc_while {l : List Nat} {a : Code} {K : List Code} {w : List PTok} :
    Accepts G (.whileLa l a :: K) w ↔ Accepts G (a :: .whileLa l a :: K) w ∨ Accepts G K w := by
  constructor
  · intro h
    obtain ⟨ts, u, v, h', g, rfl⟩ := acc_cons.1 h
    cases h' with
    | stop => exact .inr g
    | again h₁ h₂ =>
      rw [List.append_assoc]
      exact .inl (.cons h₁ (.cons h₂ g))
  · rintro (h | h)
    · obtain ⟨t₁, u₁, v₁, h₁, g₁, rfl⟩ := acc_cons.1 h
      obtain ⟨t₂, u₂, v₂, h₂, g₂, rfl⟩ := acc_cons.1 g₁
      rw [← List.append_assoc]
      exact .cons (.again h₁ h₂) g₂
    · exact .cons (u := []) (.stop l a) h

theorem acc_choose {d : Nat} {K : List Code} {w : List PTok} : Accepts G (.choose d :: K) w ↔ ∃ a ∈ G.alts d, Accepts G (a :: K) w := by
  constructor
  · intro h
    obtain ⟨ts, u, v, h', g, rfl⟩ := acc_cons.1 h
    obtain ⟨a, ha, h'⟩ := d_choose.1 h'
    exact ⟨a, ha, .cons h' g⟩
  · rintro ⟨a, ha, h⟩
    obtain ⟨ts, u, v, h', g, rfl⟩ := acc_cons.1 h
    exact .cons (d_choose.2 ⟨a, ha, h'⟩) g

theorem norm_spec (K : List Code) (w : List PTok) : ∀ (n : Nat) (q : List Code) (L : List (List Code)), norm G n q = some L →
    (Accepts G (q ++ K) w ↔ ∃ p ∈ L, Accepts G (p ++ K) w)
  | n, [], L, h => by
    unfold norm at h
    cases h
    simp
  | 0, c :: q, L, h => by cases h
  | n + 1, c :: q, L, h => by
    have ih := norm_spec K w n
    cases c with
    | done => exact (acc_empty (fun _ _ => d_done)).trans (ih q L h)
    | sync s => exact (acc_empty (fun _ _ => d_sync)).trans (ih q L h)
    | eof => exact (acc_empty (fun _ _ => d_eof)).trans (ih q L h)
    | fail =>
      cases h
      simp only [List.not_mem_nil, false_and, exists_false, iff_false]
      exact acc_fail
    | tok t =>
      cases h
      simp
    | set l =>
      cases h
      simp
    | call s r => exact acc_call.trans (ih (G.rule r :: q) L h)
    | seq a b => exact acc_seq.trans (ih (a :: b :: q) L h)
    | ifLa l a b =>
      simp only [norm] at h
      split at h
      · cases h
      · next x hx =>
        split at h
        · cases h
        · next y hy =>
          cases h
          refine acc_if.trans ((or_congr (ih (a :: q) x hx) (ih (b :: q) y hy)).trans ?_)
          simp only [List.mem_append, or_and_right, exists_or]
    | whileLa l a =>
      simp only [norm] at h
      split at h
      · cases h
      · next x hx =>
        split at h
        · cases h
        · next y hy =>
          cases h
          refine acc_while.trans ((or_congr (ih (a :: .whileLa l a :: q) x hx) (ih q y hy)).trans ?_)
          simp only [List.mem_append, or_and_right, exists_or]
    | choose d =>
      simp only [norm] at h
      refine acc_choose.trans ?_
      constructor
      · rintro ⟨a, ha, hw⟩
        obtain ⟨x, hx⟩ := bindAll_some h a ha
        obtain ⟨p, hp, hw⟩ := (ih (a :: q) x hx).1 hw
        exact ⟨p, (bindAll_mem h p).2 ⟨a, ha, x, hx, hp⟩, hw⟩
      · rintro ⟨p, hp, hw⟩
        obtain ⟨a, ha, x, hx, hp⟩ := (bindAll_mem h p).1 hp
        exact ⟨a, ha, (ih (a :: q) x hx).2 ⟨p, hp, hw⟩⟩

/-- Reading a token from a stack that begins with one. -/
def stepTok (t : Nat) : List Code → Option (List (List Code))
  | .tok u :: q => some (if u = t then [q] else [])
  | .set l :: q => some (if l.contains t then [q] else [])
  | _ => none

theorem stepTok_spec {x : PTok} {q : List Code} {L : List (List Code)} (h : stepTok x.typ q = some L) (K : List Code) (w : List PTok) :
    Accepts G (q ++ K) (x :: w) ↔ ∃ p ∈ L, Accepts G (p ++ K) w := by
  cases q with
  | nil => cases h
  | cons c q =>
    cases c with
    | tok t =>
      cases h
      refine acc_cons.trans ?_
      constructor
      · rintro ⟨ts, u, v, h, g, e⟩
        obtain ⟨y, rfl, -, rfl⟩ := d_tok.1 h
        cases e
        exact ⟨q, by simp, g⟩
      · rintro ⟨p, hp, g⟩
        split at hp
        · next e =>
          rw [List.mem_singleton.1 hp] at g
          exact ⟨_, [x], w, d_tok.2 ⟨x, e.symm, rfl, rfl⟩, g, rfl⟩
        · cases hp
    | set l =>
      cases h
      refine acc_cons.trans ?_
      constructor
      · rintro ⟨ts, u, v, h, g, e⟩
        obtain ⟨y, hy, -, rfl⟩ := d_set.1 h
        cases e
        exact ⟨q, by rw [if_pos (by simpa using hy)]; simp, g⟩
      · rintro ⟨p, hp, g⟩
        split at hp
        · next e =>
          rw [List.mem_singleton.1 hp] at g
          exact ⟨_, [x], w, d_set.2 ⟨x, by simpa using e, rfl, rfl⟩, g, rfl⟩
        · cases hp
    | _ => cases h

/-- A stack of several that derives the tokens. -/
def Some (G : Gram) (qs : List (List Code)) (K : List Code) (w : List PTok) : Prop := ∃ q ∈ qs, Accepts G (q ++ K) w

theorem bindAll_some_iff {f : List Code → Option (List (List Code))} {K K' : List Code} {w w' : List PTok}
    (hf : ∀ q L, f q = some L → (Accepts G (q ++ K) w ↔ ∃ p ∈ L, Accepts G (p ++ K') w')) {qs L : List (List Code)} (h : bindAll f qs = some L) :
    Some G qs K w ↔ Some G L K' w' := by
  constructor
  · rintro ⟨q, hq, hw⟩
    obtain ⟨x, hx⟩ := bindAll_some h q hq
    obtain ⟨p, hp, hw⟩ := (hf q x hx).1 hw
    exact ⟨p, (bindAll_mem h p).2 ⟨q, hq, x, hx, hp⟩, hw⟩
  · rintro ⟨p, hp, hw⟩
    obtain ⟨q, hq, x, hx, hp⟩ := (bindAll_mem h p).1 hp
    exact ⟨q, hq, (hf q x hx).2 ⟨p, hp, hw⟩⟩

theorem norms_spec {n : Nat} {qs L : List (List Code)} (h : bindAll (norm G n) qs = some L) (K : List Code) (w : List PTok) : Some G qs K w ↔ Some G L K w :=
  bindAll_some_iff (norm_spec K w n) h

theorem steps_spec {x : PTok} {qs L : List (List Code)} (h : bindAll (stepTok x.typ) qs = some L) (K : List Code) (w : List PTok) :
    Some G qs K (x :: w) ↔ Some G L K w :=
  bindAll_some_iff (fun _ _ h => stepTok_spec h K w) h

/-- Whether a statement reads a token in any case. -/
def eats (G : Gram) : Nat → Code → Bool
  | 0, _ => false
  | n + 1, c =>
    match c with
    | .tok _ | .set _ | .fail => true
    | .done | .sync _ | .eof | .whileLa _ _ => false
    | .call _ r => eats G n (G.rule r)
    | .seq a b => eats G n a || eats G n b
    | .ifLa _ a b => eats G n a && eats G n b
    | .choose d => (G.alts d).all fun a => eats G n a

theorem eats_spec : ∀ (n : Nat) (c : Code) (ts : List PTree), eats G n c = true → ¬ Derives G c ts []
  | 0, c, ts, h, _ => by cases h
  | n + 1, c, ts, h, hd => by
    have ih := eats_spec n
    cases c with
    | done | sync _ | eof | whileLa _ _ => cases h
    | fail => exact d_fail.1 hd
    | tok t =>
      obtain ⟨x, -, -, e⟩ := d_tok.1 hd
      cases e
    | set t =>
      obtain ⟨x, -, -, e⟩ := d_set.1 hd
      cases e
    | call s r =>
      obtain ⟨us, hd, -⟩ := d_call.1 hd
      exact ih _ _ h hd
    | seq a b =>
      obtain ⟨t₁, u₁, h₁, t₂, u₂, h₂, -, e⟩ := d_seq.1 hd
      obtain ⟨rfl, rfl⟩ := List.append_eq_nil_iff.1 e.symm
      simp only [eats, Bool.or_eq_true] at h
      rcases h with h | h
      · exact ih _ _ h h₁
      · exact ih _ _ h h₂
    | ifLa l a b =>
      simp only [eats, Bool.and_eq_true] at h
      rcases d_if.1 hd with hd | hd
      · exact ih _ _ h.1 hd
      · exact ih _ _ h.2 hd
    | choose d =>
      simp only [eats, List.all_eq_true] at h
      obtain ⟨a, ha, hd⟩ := d_choose.1 hd
      exact ih _ _ (h a ha) hd

theorem eats_acc {n : Nat} : ∀ {q : List Code} {K : List Code}, q.any (eats G n) = true → ¬ Accepts G (q ++ K) []
  | [], _, h, _ => by cases h
  | c :: q, K, h, ha => by
    obtain ⟨ts, u, v, hd, ha, e⟩ := acc_cons.1 ha
    obtain ⟨rfl, rfl⟩ := List.append_eq_nil_iff.1 e.symm
    simp only [List.any_cons, Bool.or_eq_true] at h
    rcases h with h | h
    · exact eats_spec _ _ _ h hd
    · exact eats_acc h ha

end

/-! ## Tables of predictions -/

/-- What a table says about a token: an error, that another table is needed, an alternative (beginning with 1), or how to go on. -/
inductive Out (S : Type) where
  | err
  | full
  | alt (i : Nat)
  | next (s : S)

/-- Following a table. -/
def walk {S : Type} (step : S → Nat → Option (Out S)) : S → List PTok → Option (Out S)
  | _, [] => none
  | s, x :: w =>
    match step s x.typ with
    | some (.next s) => walk step s w
    | r => r

/-- Whether the first list of stacks is contained in the second, possibly after `norm`. -/
def within (G : Gram) (n : Nat) (a b : List (List Code)) : Bool :=
  a.all (fun q => b.contains q) ||
    match bindAll (norm G n) a with
    | none => false
    | some a =>
      match bindAll (norm G n) b with
      | none => false
      | some b => a.all fun q => b.contains q

theorem within_spec {G : Gram} {n : Nat} {a b : List (List Code)} (h : within G n a b = true) {K : List Code} {w : List PTok} (hw : Some G a K w) : Some G b K w := by
  unfold within at h
  rw [Bool.or_eq_true] at h
  rcases h with h | h
  · obtain ⟨q, hq, hw⟩ := hw
    exact ⟨q, by simpa using List.all_eq_true.1 h q hq, hw⟩
  · split at h
    · cases h
    · next a' ha =>
      split at h
      · cases h
      · next b' hb =>
        obtain ⟨q, hq, hw⟩ := (norms_spec ha K w).1 hw
        exact (norms_spec hb K w).2 ⟨q, by simpa using List.all_eq_true.1 h q hq, hw⟩

/-- Whether alternative number `i` (beginning with `j`) is the first of those with stacks, and can do what the others can. -/
def best (G : Gram) (n i : Nat) (a : List (List Code)) : Nat → List (List (List Code)) → Bool
  | _, [] => true
  | j, b :: bs => (if j < i then b.isEmpty else if j = i then true else within G n b a) && best G n i a (j + 1) bs

theorem best_spec {G : Gram} {n i : Nat} {a : List (List Code)} {K : List Code} {w : List PTok} : ∀ {j : Nat} {bs : List (List (List Code))}, best G n i a j bs = true →
    (bs[i - j]? = some a ∨ i < j) → ∀ k b, bs[k]? = some b → Some G b K w → i ≤ j + k ∧ Some G a K w
  | j, [], _, _, k, b, hk, _ => by simp at hk
  | j, b₀ :: bs, h, hi, k, b, hk, hw => by
    unfold best at h
    rw [Bool.and_eq_true] at h
    cases k with
    | zero =>
      cases hk
      by_cases h1 : j < i
      · rw [if_pos h1] at h
        obtain ⟨q, hq, -⟩ := hw
        rw [List.isEmpty_iff.1 h.1] at hq
        cases hq
      · rw [if_neg h1] at h
        by_cases h2 : j = i
        · subst h2
          refine ⟨by omega, ?_⟩
          rcases hi with hi | hi
          · rw [Nat.sub_self] at hi
            cases hi
            exact hw
          · omega
        · rw [if_neg h2] at h
          exact ⟨by omega, within_spec h.1 hw⟩
    | succ k =>
      have hi' : bs[i - (j + 1)]? = some a ∨ i < j + 1 := by
        by_cases h1 : i < j + 1
        · exact .inr h1
        · left
          rcases hi with hi | hi
          · rw [show i - j = (i - (j + 1)) + 1 by omega] at hi
            exact hi
          · omega
      obtain ⟨h1, h2⟩ := best_spec h.2 hi' k b hk hw
      exact ⟨by omega, h2⟩

/-- The same stacks. -/
def sameStacks : List (List (List Code)) → List (List (List Code)) → Bool
  | [], [] => true
  | a :: as, b :: bs => a.all (fun q => b.contains q) && b.all (fun q => a.contains q) && sameStacks as bs
  | _, _ => false

theorem sameStacks_spec {G : Gram} {K : List Code} {w : List PTok} : ∀ {as bs : List (List (List Code))}, sameStacks as bs = true →
    as.length = bs.length ∧ ∀ (j : Nat) (a b : List (List Code)), as[j]? = some a → bs[j]? = some b → (Some G a K w ↔ Some G b K w)
  | [], [], _ => ⟨rfl, fun _ _ _ h => by simp at h⟩
  | [], _ :: _, h => by cases h
  | _ :: _, [], h => by cases h
  | a :: as, b :: bs, h => by
    simp only [sameStacks, Bool.and_eq_true, List.all_eq_true] at h
    obtain ⟨hl, ih⟩ := sameStacks_spec (G := G) (K := K) (w := w) h.2
    refine ⟨by simp [hl], fun j x y hx hy => ?_⟩
    cases j with
    | zero =>
      cases hx
      cases hy
      constructor
      · rintro ⟨q, hq, hw⟩
        exact ⟨q, by simpa using h.1.1 q hq, hw⟩
      · rintro ⟨q, hq, hw⟩
        exact ⟨q, by simpa using h.1.2 q hq, hw⟩
    | succ j => exact ih j x y hx hy

/-- All results in order. -/
def mapAll {α β : Type} (f : α → Option β) : List α → Option (List β)
  | [] => some []
  | x :: l =>
    match f x with
    | none => none
    | some a =>
      match mapAll f l with
      | none => none
      | some b => some (a :: b)

theorem mapAll_get {α β : Type} {f : α → Option β} : ∀ {l : List α} {r : List β}, mapAll f l = some r →
    l.length = r.length ∧ ∀ (j : Nat) (x : α) (y : β), l[j]? = some x → r[j]? = some y → f x = some y
  | [], r, h => by
    cases h
    exact ⟨rfl, fun _ _ _ h => by simp at h⟩
  | x :: l, r, h => by
    unfold mapAll at h
    split at h
    · cases h
    · next a ha =>
      split at h
      · cases h
      · next b hb =>
        cases h
        obtain ⟨hl, ih⟩ := mapAll_get hb
        refine ⟨by simp [hl], fun j u v hu hv => ?_⟩
        cases j with
        | zero =>
          cases hu
          cases hv
          exact ha
        | succ j => exact ih j u v hu hv

/-- A state of the table and the stacks of the alternatives. -/
structure Pair (S : Type) where
  s : S
  alts : List (List (List Code))

/-- Whether what the table says about a token is right, given the stacks that are left after it. -/
def outOk {S : Type} [DecidableEq S] (G : Gram) (n : Nat) (R : List (Pair S)) (o : Out S) (as : List (List (List Code))) : Bool :=
  match o with
  | .err => as.all List.isEmpty
  | .full => true
  | .alt i =>
    match as[i - 1]? with
    | none => false
    | some a => decide (0 < i) && best G n i a 1 as
  | .next s => R.any fun p => decide (p.s = s) && sameStacks as p.alts

/-- Whether a table is right about the tokens up to the type `max`. -/
def pairOk {S : Type} [DecidableEq S] (G : Gram) (n max : Nat) (step : S → Nat → Option (Out S)) (R : List (Pair S)) (p : Pair S) : Bool :=
  p.alts.all (fun a => a.all fun q => q.any (eats G n)) &&
  match mapAll (bindAll (norm G n)) p.alts with
  | none => false
  | some ns =>
    (List.range max).all fun t =>
      match step p.s (t + 1) with
      | none => false
      | some o =>
        match mapAll (bindAll (stepTok (t + 1))) ns with
        | none => false
        | some as => outOk G n R o as

/-- A table that is right: whenever an alternative can derive the tokens, the first one that can is found, or that another table is needed. -/
theorem walk_right {S : Type} [DecidableEq S] {G : Gram} {n max : Nat} {step : S → Nat → Option (Out S)} {R : List (Pair S)}
    (hR : R.all (pairOk G n max step R) = true) (K : List Code) :
    ∀ (w : List PTok), (∀ x ∈ w, 0 < x.typ ∧ x.typ ≤ max) → ∀ p ∈ R, ∀ j a, p.alts[j]? = some a → Some G a K w →
      walk step p.s w = some .full ∨ ∃ i a, walk step p.s w = some (.alt (i + 1)) ∧ i ≤ j ∧ p.alts[i]? = some a ∧ Some G a K w
  | [], _, p, hp, j, a, hj, hw => by
    have h := List.all_eq_true.1 hR p hp
    unfold pairOk at h
    rw [Bool.and_eq_true] at h
    obtain ⟨q, hq, hw⟩ := hw
    exact absurd hw (eats_acc (List.all_eq_true.1 (List.all_eq_true.1 h.1 a (List.mem_of_getElem? hj)) q hq))
  | x :: w, ht, p, hp, j, a, hj, hw => by
    have h := List.all_eq_true.1 hR p hp
    unfold pairOk at h
    rw [Bool.and_eq_true] at h
    replace h := h.2
    split at h
    · cases h
    · next ns hns =>
      obtain ⟨hx, hm⟩ := ht x List.mem_cons_self
      have h := List.all_eq_true.1 h (x.typ - 1) (by rw [List.mem_range]; omega)
      rw [show x.typ - 1 + 1 = x.typ by omega] at h
      split at h
      · cases h
      · next o ho =>
        split at h
        · cases h
        · next as has =>
          obtain ⟨hl1, hn⟩ := mapAll_get hns
          obtain ⟨hl2, hs⟩ := mapAll_get has
          -- the stacks of alternative `k` before and after the token
          have key : ∀ (k : Nat) (b : List (List Code)), p.alts[k]? = some b → ∃ c, as[k]? = some c ∧ (Some G b K (x :: w) ↔ Some G c K w) := by
            intro k b hb
            have hk : k < p.alts.length := (List.getElem?_eq_some_iff.1 hb).1
            have h1 := List.getElem?_eq_getElem (l := ns) (i := k) (by omega)
            have h2 := List.getElem?_eq_getElem (l := as) (i := k) (by omega)
            exact ⟨_, h2, (norms_spec (hn k _ _ hb h1) K (x :: w)).trans (steps_spec (hs k _ _ h1 h2) K w)⟩
          obtain ⟨c, hc, hiff⟩ := key j a hj
          have hw' := hiff.1 hw
          unfold walk
          rw [ho]
          cases o with
          | err =>
            obtain ⟨q, hq, -⟩ := hw'
            rw [List.isEmpty_iff.1 (List.all_eq_true.1 h c (List.mem_of_getElem? hc))] at hq
            cases hq
          | full => exact .inl rfl
          | alt i =>
            simp only [outOk] at h
            split at h
            · cases h
            · next b hb =>
              rw [Bool.and_eq_true, decide_eq_true_eq] at h
              obtain ⟨i, rfl⟩ : ∃ i', i = i' + 1 := ⟨i - 1, by omega⟩
              obtain ⟨h1, h2⟩ := best_spec h.2 (.inl (by exact hb)) j c hc hw'
              have hi : i < as.length := (List.getElem?_eq_some_iff.1 (by exact hb)).1
              have h3 := List.getElem?_eq_getElem (l := p.alts) (i := i) (by omega)
              obtain ⟨b', hb', hiff'⟩ := key i _ h3
              have : b' = b := by
                rw [show as[i + 1 - 1]? = as[i]? from rfl, hb'] at hb
                exact Option.some.inj hb
              subst this
              exact .inr ⟨i, _, rfl, by omega, h3, hiff'.2 h2⟩
          | next s =>
            simp only [outOk, List.any_eq_true, Bool.and_eq_true, decide_eq_true_eq] at h
            obtain ⟨p', hp', rfl, h⟩ := h
            obtain ⟨hl3, hss⟩ := sameStacks_spec (G := G) (K := K) (w := w) h
            have h4 := List.getElem?_eq_getElem (l := p'.alts) (i := j) (by have := (List.getElem?_eq_some_iff.1 hc).1; omega)
            rcases walk_right hR K w (fun y hy => ht y (List.mem_cons_of_mem _ hy)) p' hp' j _ h4 ((hss j _ _ hc h4).1 hw') with h5 | ⟨i, b, h5, h6, h7, h8⟩
            · exact .inl h5
            · have h9 := List.getElem?_eq_getElem (l := p.alts) (i := i) (by
                have := (List.getElem?_eq_some_iff.1 h7).1
                omega)
              obtain ⟨c', hc', hiff'⟩ := key i _ h9
              exact .inr ⟨i, _, h5, h6, h9, hiff'.2 ((hss i _ _ hc' h7).2 h8)⟩

end Verif.Lemmas.Gen.Antlr.Pred
