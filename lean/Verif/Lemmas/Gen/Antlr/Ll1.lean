import Verif.Spec.Gen.Derives
/-!
# A parser whose choices can be made by looking at the next token accepts what its rules derive

`run_sound`: what is accepted is derived.  `run_total`: what can be derived is accepted, if the sets of first and following tokens pass a check
(`Checked`) and predictions are right.
-/
namespace Verif.Lemmas.Gen.Antlr
open Verif.Model.Gen Verif.Model.Gen.Antlr Verif.Spec.Gen

theorem matchTok_some {ok : Nat → Bool} {w : List PTok} {ts : List PTree} {v : List PTok} (h : matchTok ok w = some (ts, v)) :
    ∃ x, w = x :: v ∧ ts = [.leaf x] ∧ ok x.typ = true := by
  cases w with
  | nil => cases h
  | cons x w =>
    simp only [matchTok] at h
    split at h
    · rename_i hx
      simp only [Option.some.injEq, Prod.mk.injEq] at h
      exact ⟨x, by rw [h.2], h.1.symm, hx⟩
    · cases h

/-- What is accepted is derived, whatever is predicted. -/
theorem run_sound (G : Gram) (predict : Predict) : ∀ (n : Nat) (ctx : List Nat) (K : List Code) (c : Code) (w : List PTok) (ts : List PTree) (v : List PTok),
    run G predict n ctx K c w = some (ts, v) → ∃ u, w = u ++ v ∧ Derives G c ts u := by
  intro n
  induction n with
  | zero => intro ctx K c w ts v h; cases h
  | succ n ih =>
    intro ctx K c w ts v h
    cases c with
    | done =>
      simp only [run, Option.some.injEq, Prod.mk.injEq] at h
      exact ⟨[], by rw [h.2]; rfl, h.1 ▸ .done⟩
    | fail => simp [run] at h
    | sync s =>
      simp only [run] at h
      split at h
      · simp only [Option.some.injEq, Prod.mk.injEq] at h
        exact ⟨[], by rw [h.2]; rfl, h.1 ▸ .sync s⟩
      · cases h
    | tok t =>
      simp only [run] at h
      obtain ⟨x, h1, h2, h3⟩ := matchTok_some h
      have h3 : x.typ = t := by simpa using h3
      subst h3 h1 h2
      exact ⟨[x], rfl, .tok x⟩
    | eof =>
      simp only [run] at h
      split at h
      · rename_i hw
        simp only [Option.some.injEq, Prod.mk.injEq] at h
        have hw : w = [] := by simpa using hw
        exact ⟨[], by rw [hw, ← h.2]; rfl, h.1 ▸ .eof⟩
      · cases h
    | set l =>
      simp only [run] at h
      obtain ⟨x, h1, h2, h3⟩ := matchTok_some h
      subst h1 h2
      exact ⟨[x], rfl, .set l x (by simpa using h3)⟩
    | call s r =>
      simp only [run] at h
      split at h
      · cases h
      · rename_i us w' hr
        simp only [Option.some.injEq, Prod.mk.injEq] at h
        obtain ⟨u, hu, hd⟩ := ih _ _ _ _ _ _ hr
        exact ⟨u, by rw [hu, h.2], h.1 ▸ .call s r hd⟩
    | seq a b =>
      simp only [run] at h
      split at h
      · cases h
      · rename_i us w' hr
        split at h
        · cases h
        · rename_i vs w'' hr'
          simp only [Option.some.injEq, Prod.mk.injEq] at h
          obtain ⟨u, hu, hd⟩ := ih _ _ _ _ _ _ hr
          obtain ⟨u', hu', hd'⟩ := ih _ _ _ _ _ _ hr'
          exact ⟨u ++ u', by rw [hu, hu', h.2, List.append_assoc], h.1 ▸ .seq hd hd'⟩
    | ifLa l a b =>
      simp only [run] at h
      split at h
      · obtain ⟨u, hu, hd⟩ := ih _ _ _ _ _ _ h
        exact ⟨u, hu, .ifThen l b hd⟩
      · obtain ⟨u, hu, hd⟩ := ih _ _ _ _ _ _ h
        exact ⟨u, hu, .ifElse l a hd⟩
    | whileLa l a =>
      simp only [run] at h
      split at h
      · split at h
        · cases h
        · rename_i us w' hr
          split at h
          · cases h
          · rename_i vs w'' hr'
            simp only [Option.some.injEq, Prod.mk.injEq] at h
            obtain ⟨u, hu, hd⟩ := ih _ _ _ _ _ _ hr
            obtain ⟨u', hu', hd'⟩ := ih _ _ _ _ _ _ hr'
            exact ⟨u ++ u', by rw [hu, hu', h.2, List.append_assoc], h.1 ▸ .again hd hd'⟩
      · simp only [Option.some.injEq, Prod.mk.injEq] at h
        exact ⟨[], by rw [h.2]; rfl, h.1 ▸ .stop l a⟩
    | choose d =>
      simp only [run] at h
      split at h
      · cases h
      · rename_i i hp
        split at h
        · cases h
        · rename_i a ha
          obtain ⟨u, hu, hd⟩ := ih _ _ _ _ _ _ h
          exact ⟨u, hu, .choose d i ha hd⟩

/-- More steps do not change a result. -/
theorem run_mono (G : Gram) (predict : Predict) : ∀ (n : Nat) (ctx : List Nat) (K : List Code) (c : Code) (w : List PTok) (x : List PTree × List PTok),
    run G predict n ctx K c w = some x → ∀ m, n ≤ m → run G predict m ctx K c w = some x := by
  intro n
  induction n with
  | zero => intro ctx K c w x h; cases h
  | succ n ih =>
    intro ctx K c w x h m hm
    obtain ⟨m, rfl⟩ : ∃ k, m = k + 1 := ⟨m - 1, by omega⟩
    have hm : n ≤ m := by omega
    cases c with
    | done | fail | sync | tok | eof | set => exact h
    | call s r =>
      simp only [run] at h ⊢
      split at h
      · cases h
      · rename_i hr; rw [ih _ _ _ _ _ hr m hm]; exact h
    | seq a b =>
      simp only [run] at h ⊢
      split at h
      · cases h
      · rename_i hr
        rw [ih _ _ _ _ _ hr m hm]
        dsimp only
        split at h
        · cases h
        · rename_i hr'; rw [ih _ _ _ _ _ hr' m hm]; exact h
    | ifLa l a b =>
      simp only [run] at h ⊢
      split at h
      · rename_i hl; rw [if_pos hl]; exact ih _ _ _ _ _ h m hm
      · rename_i hl; rw [if_neg hl]; exact ih _ _ _ _ _ h m hm
    | whileLa l a =>
      simp only [run] at h ⊢
      split at h
      · rename_i hl
        rw [if_pos hl]
        split at h
        · cases h
        · rename_i hr
          rw [ih _ _ _ _ _ hr m hm]
          dsimp only
          split at h
          · cases h
          · rename_i hr'; rw [ih _ _ _ _ _ hr' m hm]; exact h
      · rename_i hl; rw [if_neg hl]; exact h
    | choose d =>
      simp only [run] at h ⊢
      split at h
      · cases h
      · rename_i i hp
        split at h
        · cases h
        · rename_i a ha
          exact ih _ _ _ _ _ h m hm

/-! ## First and following tokens -/

/-- For rules and for decisions: tokens with which they begin, whether they may be empty, tokens that may follow, and a level that decreases
at calls before the first token. -/
structure Sets where
  first : Nat → List Nat
  null : Nat → Bool
  follow : Nat → List Nat
  level : Nat → Nat
  firstD : Nat → List Nat
  nullD : Nat → Bool
  followD : Nat → List Nat
  levelD : Nat → Nat
  top : Nat

def nullC (S : Sets) : Code → Bool
  | .done | .sync _ | .eof | .whileLa _ _ => true
  | .fail | .tok _ | .set _ => false
  | .call _ r => S.null r
  | .seq a b => nullC S a && nullC S b
  | .ifLa _ a b => nullC S a || nullC S b
  | .choose d => S.nullD d

def firstC (S : Sets) : Code → List Nat
  | .done | .sync _ | .eof | .fail => []
  | .tok t => [t]
  | .set l => l
  | .call _ r => S.first r
  | .seq a b => if nullC S a then firstC S a ++ firstC S b else firstC S a
  | .ifLa _ a b => firstC S a ++ firstC S b
  | .whileLa _ a => firstC S a
  | .choose d => S.firstD d

def firstF (S : Sets) (c : Code) (F : List Nat) : List Nat := firstC S c ++ if nullC S c then F else []

def sub (a b : List Nat) : Bool := a.all fun x => b.contains x
def disj (a b : List Nat) : Bool := a.all fun x => !b.contains x

theorem sub_mem {a b : List Nat} (h : sub a b = true) {x : Nat} (hx : x ∈ a) : x ∈ b := by
  simpa using List.all_eq_true.mp h x hx

theorem disj_mem {a b : List Nat} (h : disj a b = true) {x : Nat} (hx : x ∈ a) : x ∉ b := by
  simpa using List.all_eq_true.mp h x hx

/-- The statement looks at the next token only to tell apart what can be told apart. -/
def check (G : Gram) (S : Sets) : Code → List Nat → Bool
  | .sync s, F => F.all (G.next s)
  | .eof, F => F.all fun x => x == 0
  | .call _ r, F => sub F (S.follow r)
  | .seq a b, F => check G S a (firstF S b F) && check G S b F
  | .ifLa l a b, F => check G S a F && check G S b F && sub (firstF S a F) l && disj (firstF S b F) l
  | .whileLa l a, F => !nullC S a && sub (firstC S a) l && disj F l && check G S a (firstC S a ++ F)
  | .choose d, F => sub F (S.followD d)
  | .done, _ | .fail, _ | .tok _, _ | .set _, _ => true

def levelOk (S : Sets) : Code → Nat → Bool
  | .call _ r, n => Nat.blt (S.level r) n
  | .choose d, n => Nat.blt (S.levelD d) n
  | .seq a b, n => levelOk S a n && (!nullC S a || levelOk S b n)
  | .ifLa _ a b, n => levelOk S a n && levelOk S b n
  | .whileLa _ a, n => levelOk S a n
  | .done, _ | .fail, _ | .tok _, _ | .set _, _ | .sync _, _ | .eof, _ => true

def checkRule (G : Gram) (S : Sets) (r : Nat) : Bool :=
  check G S (G.rule r) (S.follow r) && sub (firstC S (G.rule r)) (S.first r) && (!nullC S (G.rule r) || S.null r) &&
    levelOk S (G.rule r) (S.level r) && Nat.blt (S.level r) S.top

def checkAlts (G : Gram) (S : Sets) (d : Nat) : Bool :=
  ((G.alts d).all fun a => check G S a (S.followD d) && sub (firstC S a) (S.firstD d) && (!nullC S a || S.nullD d) && levelOk S a (S.levelD d)) &&
    Nat.blt (S.levelD d) S.top

structure Checked (G : Gram) (S : Sets) : Prop where
  rules : ∀ r, checkRule G S r = true
  alts : ∀ d, checkAlts G S d = true

section
variable {G : Gram} {S : Sets} (hC : Checked G S)
include hC

theorem Checked.rule (r : Nat) : check G S (G.rule r) (S.follow r) = true ∧ sub (firstC S (G.rule r)) (S.first r) = true ∧
    (nullC S (G.rule r) = true → S.null r = true) ∧ levelOk S (G.rule r) (S.level r) = true ∧ S.level r < S.top := by
  have := hC.rules r
  simp only [checkRule, Bool.and_eq_true, Bool.or_eq_true, Bool.not_eq_true', Nat.blt_eq] at this
  obtain ⟨⟨⟨⟨h1, h2⟩, h3⟩, h4⟩, h5⟩ := this
  exact ⟨h1, h2, fun h => h3.resolve_left (by rw [h]; simp), h4, h5⟩

theorem Checked.alt {d i : Nat} {a : Code} (ha : (G.alts d)[i]? = some a) : check G S a (S.followD d) = true ∧ sub (firstC S a) (S.firstD d) = true ∧
    (nullC S a = true → S.nullD d = true) ∧ levelOk S a (S.levelD d) = true := by
  have := hC.alts d
  simp only [checkAlts, Bool.and_eq_true] at this
  have := List.all_eq_true.mp this.1 a (List.mem_of_getElem? ha)
  simp only [Bool.and_eq_true, Bool.or_eq_true, Bool.not_eq_true'] at this
  obtain ⟨⟨⟨h1, h2⟩, h3⟩, h4⟩ := this
  exact ⟨h1, h2, fun h => h3.resolve_left (by rw [h]; simp), h4⟩

theorem Checked.levelD (d : Nat) : S.levelD d < S.top := by
  have := hC.alts d
  simp only [checkAlts, Bool.and_eq_true, Nat.blt_eq] at this
  exact this.2

theorem derives_first {c : Code} {ts : List PTree} {w : List PTok} (h : Derives G c ts w) :
    (w = [] → nullC S c = true) ∧ ∀ x r, w = x :: r → x.typ ∈ firstC S c := by
  induction h with
  | done | sync | eof => exact ⟨fun _ => rfl, fun x r h => by cases h⟩
  | tok x => exact ⟨fun h => by simp at h, fun y r h => by cases h; simp [firstC]⟩
  | set l x hx => exact ⟨fun h => by simp at h, fun y r h => by cases h; exact hx⟩
  | call s r _ ih => exact ⟨fun h => (hC.rule r).2.2.1 (ih.1 h), fun x y h => sub_mem (hC.rule r).2.1 (ih.2 x y h)⟩
  | @seq a b ts us u v _ _ iha ihb =>
    constructor
    · intro h
      obtain ⟨h1, h2⟩ := List.append_eq_nil_iff.mp h
      simp only [nullC, Bool.and_eq_true]
      exact ⟨iha.1 h1, ihb.1 h2⟩
    · intro x r h
      cases u with
      | nil =>
        simp only [firstC]
        rw [if_pos (iha.1 rfl)]
        exact List.mem_append_right _ (ihb.2 x r h)
      | cons y u =>
        have hm := iha.2 y u rfl
        have hxy : y = x := by simpa using congrArg List.head? h
        subst hxy
        simp only [firstC]
        split
        · exact List.mem_append_left _ hm
        · exact hm
  | ifThen l b _ ih => exact ⟨fun h => by simp [nullC, ih.1 h], fun x r h => List.mem_append_left _ (ih.2 x r h)⟩
  | ifElse l a _ ih => exact ⟨fun h => by simp [nullC, ih.1 h], fun x r h => List.mem_append_right _ (ih.2 x r h)⟩
  | stop => exact ⟨fun _ => rfl, fun x r h => by cases h⟩
  | @again l a ts us u v _ _ iha ihb =>
    refine ⟨fun _ => rfl, fun x r h => ?_⟩
    cases u with
    | nil => exact ihb.2 x r h
    | cons y u =>
      have hxy : y = x := by simpa using congrArg List.head? h
      subst hxy
      exact iha.2 y u rfl
  | choose d i ha _ ih => exact ⟨fun h => (hC.alt ha).2.2.1 (ih.1 h), fun x y h => sub_mem (hC.alt ha).2.1 (ih.2 x y h)⟩

omit hC in
theorem levelOk_top (hr : ∀ r, S.level r < S.top) (hd : ∀ d, S.levelD d < S.top) : ∀ c, levelOk S c S.top = true := by
  intro c
  induction c with
  | done | fail | sync | tok | eof | set => rfl
  | call s r => simpa [levelOk, Nat.blt_eq] using hr r
  | choose d => simpa [levelOk, Nat.blt_eq] using hd d
  | seq a b iha ihb => simp [levelOk, iha, ihb]
  | ifLa l a b iha ihb => simp [levelOk, iha, ihb]
  | whileLa l a ih => simpa [levelOk] using ih

/-- The next token of what is accepted. -/
def Heads (G : Gram) (K : List Code) (F : List Nat) : Prop := ∀ v, Accepts G K v → la v ∈ F

theorem heads_cons {c : Code} {K : List Code} {F : List Nat} (h : Heads G K F) : Heads G (c :: K) (firstF S c F) := by
  intro v hv
  cases hv with
  | @cons _ _ ts u v hd hv =>
    have hf := derives_first hC hd
    cases u with
    | nil =>
      simp only [firstF]
      rw [if_pos (hf.1 rfl)]
      exact List.mem_append_right _ (h v hv)
    | cons x u => exact List.mem_append_left _ (hf.2 x u rfl)

theorem heads_while {l : List Nat} {a : Code} {K : List Code} {F : List Nat} (h : Heads G K F) :
    Heads G (.whileLa l a :: K) (firstC S a ++ F) := by
  have := heads_cons hC (c := .whileLa l a) h
  simpa [firstF, firstC, nullC] using this

omit hC in
theorem accepts_inv {c : Code} {K : List Code} {w : List PTok} (h : Accepts G (c :: K) w) :
    ∃ ts u v, w = u ++ v ∧ Derives G c ts u ∧ Accepts G K v := by
  cases h with
  | cons hd hv => exact ⟨_, _, _, rfl, hd, hv⟩

/-- What can be derived is accepted. -/
theorem run_total {start : Code} {predict : Predict} (hP : Right G start predict) :
    ∀ (N L : Nat) (c : Code) (ctx : List Nat) (K : List Code) (F : List Nat) (w : List PTok), w.length = N → At G start ctx c K → Accepts G (c :: K) w →
      Heads G K F → check G S c F = true → levelOk S c L = true → (∀ x ∈ w, x.typ ≠ 0) →
      ∃ n ts v, run G predict n ctx K c w = some (ts, v) ∧ Accepts G K v := by
  intro N
  induction N using Nat.strongRecOn with
  | _ N ihN =>
  intro L
  induction L using Nat.strongRecOn with
  | _ L ihL =>
  intro c
  induction c with
  | done =>
    intro ctx K F w hw hat hacc hF hck hlv h0
    obtain ⟨ts, u, v, hw, hd, hv⟩ := accepts_inv hacc
    cases hd
    exact ⟨1, [], w, rfl, by rw [hw]; exact hv⟩
  | fail =>
    intro ctx K F w hw hat hacc hF hck hlv h0
    obtain ⟨ts, u, v, hw, hd, hv⟩ := accepts_inv hacc
    cases hd
  | sync s =>
    intro ctx K F w hw hat hacc hF hck hlv h0
    obtain ⟨ts, u, v, hw, hd, hv⟩ := accepts_inv hacc
    cases hd
    rw [List.nil_append] at hw
    subst hw
    have := List.all_eq_true.mp hck (la w) (hF w hv)
    exact ⟨1, [], w, by simp [run, this], hv⟩
  | tok t =>
    intro ctx K F w hw hat hacc hF hck hlv h0
    obtain ⟨ts, u, v, hw, hd, hv⟩ := accepts_inv hacc
    cases hd with
    | tok x => subst hw; exact ⟨1, [.leaf x], v, by simp [run, matchTok], hv⟩
  | eof =>
    intro ctx K F w hw hat hacc hF hck hlv h0
    obtain ⟨ts, u, v, hw, hd, hv⟩ := accepts_inv hacc
    cases hd
    rw [List.nil_append] at hw
    subst hw
    have := List.all_eq_true.mp hck (la w) (hF w hv)
    have hw : w = [] := by
      cases w with
      | nil => rfl
      | cons x w => exact absurd (by simpa [la] using this) (h0 x (List.mem_cons_self ..))
    subst hw
    exact ⟨1, [], [], by simp [run], hv⟩
  | set l =>
    intro ctx K F w hw hat hacc hF hck hlv h0
    obtain ⟨ts, u, v, hw, hd, hv⟩ := accepts_inv hacc
    cases hd with
    | set _ x hx => subst hw; exact ⟨1, [.leaf x], v, by simp [run, matchTok, hx], hv⟩
  | call s r =>
    intro ctx K F w hw hat hacc hF hck hlv h0
    obtain ⟨ts, u, v, hw', hd, hv⟩ := accepts_inv hacc
    cases hd with
    | @call _ _ us _ hd =>
      have hl : S.level r < L := by simpa [levelOk, Nat.blt_eq] using hlv
      have hr := hC.rule r
      have hF' : Heads G K (S.follow r) := fun v hv => sub_mem hck (hF v hv)
      obtain ⟨n, ts, v', h1, h2⟩ := ihL (S.level r) hl (G.rule r) (s :: ctx) K (S.follow r) w hw hat.call (hw' ▸ .cons hd hv) hF' hr.1 hr.2.2.2.1 h0
      exact ⟨n + 1, [.node r ts], v', by simp only [run, h1], h2⟩
  | choose d =>
    intro ctx K F w hw hat hacc hF hck hlv h0
    obtain ⟨i, a, hp, ha, hacc'⟩ := hP ctx d K w hat hacc
    have hl : S.levelD d < L := by simpa [levelOk, Nat.blt_eq] using hlv
    have hr := hC.alt ha
    have hF' : Heads G K (S.followD d) := fun v hv => sub_mem hck (hF v hv)
    obtain ⟨n, ts, v', h1, h2⟩ := ihL (S.levelD d) hl a ctx K (S.followD d) w hw (hat.choose i ha) hacc' hF' hr.1 hr.2.2.2 h0
    exact ⟨n + 1, ts, v', by simp only [run, hp, ha, h1], h2⟩
  | ifLa l a b iha ihb =>
    intro ctx K F w hw hat hacc hF hck hlv h0
    obtain ⟨ts, u, v, hw', hd, hv⟩ := accepts_inv hacc
    simp only [check, Bool.and_eq_true] at hck
    simp only [levelOk, Bool.and_eq_true] at hlv
    obtain ⟨⟨⟨hca, hcb⟩, hsa⟩, hdb⟩ := hck
    cases hd with
    | ifThen _ _ hd =>
      have hacc' : Accepts G (a :: K) w := hw' ▸ .cons hd hv
      have hm := sub_mem hsa (heads_cons hC hF w hacc')
      obtain ⟨n, ts, v', h1, h2⟩ := iha ctx K F w hw hat.ifThen hacc' hF hca hlv.1 h0
      exact ⟨n + 1, ts, v', by simp only [run]; rw [if_pos (by simpa using hm)]; exact h1, h2⟩
    | ifElse _ _ hd =>
      have hacc' : Accepts G (b :: K) w := hw' ▸ .cons hd hv
      have hm := disj_mem hdb (heads_cons hC hF w hacc')
      obtain ⟨n, ts, v', h1, h2⟩ := ihb ctx K F w hw hat.ifElse hacc' hF hcb hlv.2 h0
      exact ⟨n + 1, ts, v', by simp only [run]; rw [if_neg (by simpa using hm)]; exact h1, h2⟩
  | seq a b iha ihb =>
    intro ctx K F w hw hat hacc hF hck hlv h0
    obtain ⟨ts, u, v, hw', hd, hv⟩ := accepts_inv hacc
    simp only [check, Bool.and_eq_true] at hck
    simp only [levelOk, Bool.and_eq_true, Bool.or_eq_true, Bool.not_eq_true'] at hlv
    cases hd with
    | @seq _ _ ts us u1 u2 hda hdb =>
      have hacc' : Accepts G (a :: b :: K) w := by
        rw [hw', List.append_assoc]
        exact .cons hda (.cons hdb hv)
      obtain ⟨n, ts, v', h1, h2⟩ := iha ctx (b :: K) (firstF S b F) w hw hat.fst hacc' (heads_cons hC hF) hck.1 hlv.1 h0
      obtain ⟨u', hu', hd'⟩ := run_sound G predict _ _ _ _ _ _ _ h1
      have h0' : ∀ x ∈ v', x.typ ≠ 0 := fun x hx => h0 x (hu' ▸ List.mem_append_right _ hx)
      have hb : ∃ n ts v'', run G predict n ctx K b v' = some (ts, v'') ∧ Accepts G K v'' := by
        cases u' with
        | nil =>
          have hv' : w = v' := by simpa using hu'
          subst hv'
          exact ihb ctx K F w hw hat.snd h2 hF hck.2 (hlv.2.resolve_left (by rw [(derives_first hC hd').1 rfl]; simp)) h0'
        | cons y u' =>
          have hlt : v'.length < N := by rw [← hw, hu']; simp only [List.length_append, List.length_cons]; omega
          exact ihN v'.length hlt S.top b ctx K F v' rfl hat.snd h2 hF hck.2 (levelOk_top (fun r => (hC.rule r).2.2.2.2) hC.levelD b) h0'
      obtain ⟨m, us, v'', h3, h4⟩ := hb
      refine ⟨max n m + 1, ts ++ us, v'', ?_, h4⟩
      simp only [run]
      rw [run_mono G predict n _ _ _ _ _ h1 (max n m) (by omega)]
      dsimp only
      rw [run_mono G predict m _ _ _ _ _ h3 (max n m) (by omega)]
  | whileLa l a iha =>
    intro ctx K F w hw hat hacc hF hck hlv h0
    obtain ⟨ts, u, v, hw', hd, hv⟩ := accepts_inv hacc
    simp only [check, Bool.and_eq_true, Bool.not_eq_true'] at hck
    obtain ⟨⟨⟨hna, hsa⟩, hdF⟩, hca⟩ := hck
    have hlv : levelOk S a L = true := hlv
    cases hd with
    | stop =>
      rw [List.nil_append] at hw'
      subst hw'
      have hm := disj_mem hdF (hF w hv)
      exact ⟨1, [], w, by simp only [run]; rw [if_neg (by simpa using hm)], hv⟩
    | @again _ _ ts us u1 u2 hda hdb =>
      have hacc' : Accepts G (a :: .whileLa l a :: K) w := by
        rw [hw', List.append_assoc]
        exact .cons hda (.cons hdb hv)
      have hf := derives_first hC hda
      cases u1 with
      | nil => rw [hf.1 rfl] at hna; cases hna
      | cons x u1 =>
        have hm : la w ∈ l := sub_mem hsa (by rw [hw']; exact hf.2 x u1 rfl)
        obtain ⟨n, ts, v', h1, h2⟩ := iha ctx (.whileLa l a :: K) (firstC S a ++ F) w hw hat.body hacc' (heads_while hC hF) hca hlv h0
        obtain ⟨u', hu', hd'⟩ := run_sound G predict _ _ _ _ _ _ _ h1
        have h0' : ∀ x ∈ v', x.typ ≠ 0 := fun x hx => h0 x (hu' ▸ List.mem_append_right _ hx)
        cases u' with
        | nil => rw [(derives_first hC hd').1 rfl] at hna; cases hna
        | cons y u' =>
          have hlt : v'.length < N := by rw [← hw, hu']; simp only [List.length_append, List.length_cons]; omega
          obtain ⟨m, us, v'', h3, h4⟩ := ihN v'.length hlt S.top (.whileLa l a) ctx K F v' rfl hat h2 hF
            (by simp only [check, Bool.and_eq_true, Bool.not_eq_true']; exact ⟨⟨⟨hna, hsa⟩, hdF⟩, hca⟩)
            (levelOk_top (fun r => (hC.rule r).2.2.2.2) hC.levelD _) h0'
          refine ⟨max n m + 1, ts ++ us, v'', ?_, h4⟩
          simp only [run]
          rw [if_pos (by simpa using hm), run_mono G predict n _ _ _ _ _ h1 (max n m) (by omega)]
          dsimp only
          rw [run_mono G predict m _ _ _ _ _ h3 (max n m) (by omega)]
end

end Verif.Lemmas.Gen.Antlr
