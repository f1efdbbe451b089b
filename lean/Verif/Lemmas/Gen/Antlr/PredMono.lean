import Verif.Lemmas.Gen.Antlr.PredCache
/-!
# More steps do not change a prediction
-/
namespace Verif.Lemmas.Gen.Antlr.Pred
open Verif.Model.Gen Verif.Model.Gen.Antlr.Pred
open Verif.Model.Gen.Antlr hiding DState addCfg

section
variable {N : PNet} {n m : Nat}

theorem closure_mono {full eof : Bool} : ∀ (n m : Nat) (todo : List (Via × PCfg)) (busy : List PCfg) (s : PSet) (x : List PCfg × PSet), n ≤ m →
    closure N full eof n todo busy s = some x → closure N full eof m todo busy s = some x
  | n, m, [], busy, s, x, _, h => by
    unfold closure at h ⊢
    exact h
  | 0, _, _ :: _, _, _, _, _, h => by cases h
  | n + 1, 0, _ :: _, _, _, _, hm, _ => by omega
  | n + 1, m + 1, (v, c) :: todo, busy, s, x, hm, h => by
    have hm : n ≤ m := by omega
    unfold closure at h ⊢
    split at h
    · next hb =>
      rw [if_pos hb]
      exact closure_mono n m _ _ _ _ hm h
    · next hb =>
      rw [if_neg hb]
      dsimp only at h ⊢
      cases hq : N.states c.state with
      | none => rw [hq] at h; cases h
      | some q =>
        rw [hq] at h
        dsimp only at h ⊢
        split at h
        · next h1 => rw [if_pos h1]; exact closure_mono n m _ _ _ _ hm h
        · next h1 =>
          rw [if_neg h1]
          split at h
          · next h2 => rw [if_pos h2]; exact closure_mono n m _ _ _ _ hm h
          · next h2 => rw [if_neg h2]; exact closure_mono n m _ _ _ _ hm h

theorem startAlts_mono (hm : n ≤ m) {full : Bool} {ctx : PCtx} : ∀ (l : List Trans) (i : Nat) (s r : PSet),
    startAlts N n full ctx i l s = some r → startAlts N m full ctx i l s = some r
  | [], i, s, r, h => h
  | t :: ts, i, s, r, h => by
    unfold startAlts at h ⊢
    cases hc : closure N full false n [(.plain, ⟨t.target, i, ctx, 0⟩)] [] s with
    | none => rw [hc] at h; cases h
    | some x =>
      rw [closure_mono n m _ _ _ _ hm hc]
      rw [hc] at h
      exact startAlts_mono hm ts _ _ _ h

theorem startSet_mono (hm : n ≤ m) {full : Bool} {d : Nat} {ctx : PCtx} {s : PSet} (h : startSet N n full d ctx = some s) : startSet N m full d ctx = some s := by
  unfold startSet at h ⊢
  cases hx : N.decision d with
  | none => rw [hx] at h; cases h
  | some x =>
    rw [hx] at h
    dsimp only at h ⊢
    cases hq : N.states x with
    | none => rw [hq] at h; cases h
    | some q =>
      rw [hq] at h
      exact startAlts_mono hm _ _ _ _ h

theorem closureAll_mono (hm : n ≤ m) {full eof : Bool} : ∀ (l busy : List PCfg) (s r : PSet),
    closureAll N n full eof l busy s = some r → closureAll N m full eof l busy s = some r
  | [], busy, s, r, h => h
  | c :: cs, busy, s, r, h => by
    unfold closureAll at h ⊢
    cases hc : closure N full eof n [(.plain, c)] busy s with
    | none => rw [hc] at h; cases h
    | some x =>
      rw [closure_mono n m _ _ _ _ hm hc]
      rw [hc] at h
      exact closureAll_mono hm cs _ _ _ h

theorem reachSet_mono (hm : n ≤ m) {full : Bool} {s : PSet} {t : Nat} {x : Option PSet} (h : reachSet N n full s t = some x) : reachSet N m full s t = some x := by
  unfold reachSet at h ⊢
  cases hx : moved N full t s.cfgs {} [] with
  | none => rw [hx] at h; cases h
  | some p =>
    rw [hx] at h
    dsimp only at h ⊢
    split at h
    · cases h
    · next r hr =>
      have : (if (p.2.isEmpty && t != 0 && (p.1.cfgs.length == 1 || uniqueAlt p.1.cfgs != 0)) = true then some p.1 else closureAll N m full (t == 0) p.1.cfgs [] {}) = some r := by
        split at hr
        · next hc => rw [if_pos hc]; exact hr
        · next hc => rw [if_neg hc]; exact closureAll_mono hm _ _ _ _ hr
      rw [this]
      exact h

theorem sllStep_mono (hm : n ≤ m) {s : PSet} {t : Nat} {o : Out PSet} (h : sllStep N n s t = some o) : sllStep N m s t = some o := by
  unfold sllStep at h ⊢
  cases hr : reachSet N n false s t with
  | none => rw [hr] at h; cases h
  | some x =>
    rw [reachSet_mono hm hr]
    rw [hr] at h
    exact h

theorem closed_mono (hm : n ≤ m) {rows : List PSet} (h : Closed N n rows) : Closed N m rows where
  step r hr t ht := by
    obtain ⟨o, h1, h2⟩ := h.step r hr t ht
    exact ⟨o, sllStep_mono hm h1, h2⟩
  same := h.same

theorem sllRun_mono (hm : n ≤ m) {rows : List PSet} (h : Closed N n rows) : ∀ (w : List PTok) (s : PSet), s ∈ rows → (∀ x ∈ w, x.typ ≤ N.max) →
    sllRun N m s w = sllRun N n s w
  | [], s, hs, ht => rfl
  | x :: w, s, hs, ht => by
    obtain ⟨o, h1, -, h2⟩ := h.step s hs x.typ (ht x List.mem_cons_self)
    unfold sllRun
    rw [h1, sllStep_mono hm h1]
    cases o with
    | next r => exact sllRun_mono hm h w r (h2 r rfl) fun y hy => ht y (List.mem_cons_of_mem _ hy)
    | _ => rfl

theorem execLl_mono (hm : n ≤ m) : ∀ (k : Nat) (s : PSet) (w : List PTok) (i : Nat), execLl N n k s w = some i → execLl N m k s w = some i
  | 0, _, _, _, h => by cases h
  | k + 1, s, w, i, h => by
    unfold execLl at h ⊢
    cases hr : reachSet N n true s (la w) with
    | none => rw [hr] at h; cases h
    | some x =>
      rw [reachSet_mono hm hr]
      rw [hr] at h
      cases x with
      | none => exact h
      | some r =>
        dsimp only at h ⊢
        split at h
        · next hu => rw [if_pos hu]; exact h
        · next hu =>
          rw [if_neg hu]
          cases hv : singleViable ((altSubsets r.cfgs).map Prod.snd) with
          | zero =>
            rw [hv] at h
            exact execLl_mono hm k r w.tail i h
          | succ j =>
            rw [hv] at h
            exact h

theorem predictLl_mono (hm : n ≤ m) {d : Nat} {ctx : List Nat} {w : List PTok} {i : Nat} (h : predictLl N n d ctx w = some i) : predictLl N m d ctx w = some i := by
  unfold predictLl at h ⊢
  cases hc : fromRules N.states ctx with
  | none => rw [hc] at h; cases h
  | some c =>
    rw [hc] at h
    dsimp only at h ⊢
    cases hs : startSet N n true d c with
    | none => rw [hs] at h; cases h
    | some s =>
      rw [startSet_mono hm hs]
      rw [hs] at h
      exact execLl_mono hm _ _ _ _ h

end

end Verif.Lemmas.Gen.Antlr.Pred
