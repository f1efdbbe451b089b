import Verif.Lemmas.Gen.Antlr.TreeDefs
import Verif.Lemmas.Gen.Antlr.Ll1
/-!
# Trees of a parser that takes the first alternative that leads to the end

`FirstD` is a derivation in which no alternative before the chosen one accepts the rest of the input.  The trees of such derivations are those that are
not written like another one (`ProperProto`).
-/
namespace Verif.Lemmas.Gen.Antlr
open Verif.Model.Gen Verif.Model.Gen.Antlr Verif.Spec.Gen

/-- The statement derives the trees `ts` from the first of two lists of tokens, before the statements `K` and the second list, by first choices. -/
inductive FirstD (G : Gram) : List Code → Code → List PTree → List PTok → List PTok → Prop
  | done {K v} : FirstD G K .done [] [] v
  | sync {K v} (s : Nat) : FirstD G K (.sync s) [] [] v
  | tok {K v} (x : PTok) : FirstD G K (.tok x.typ) [.leaf x] [x] v
  | eof {K v} : FirstD G K .eof [] [] v
  | set {K v} (l : List Nat) (x : PTok) : x.typ ∈ l → FirstD G K (.set l) [.leaf x] [x] v
  | call {K v} (s r : Nat) {ts : List PTree} {u : List PTok} : FirstD G K (G.rule r) ts u v → FirstD G K (.call s r) [.node r ts] u v
  | seq {K w} {a b : Code} {ts us : List PTree} {u v : List PTok} : FirstD G (b :: K) a ts u (v ++ w) → FirstD G K b us v w →
      FirstD G K (.seq a b) (ts ++ us) (u ++ v) w
  | ifThen {K v} (l : List Nat) {a : Code} (b : Code) {ts : List PTree} {u : List PTok} : FirstD G K a ts u v → FirstD G K (.ifLa l a b) ts u v
  | ifElse {K v} (l : List Nat) (a : Code) {b : Code} {ts : List PTree} {u : List PTok} : FirstD G K b ts u v → FirstD G K (.ifLa l a b) ts u v
  | stop {K v} (l : List Nat) (a : Code) : FirstD G K (.whileLa l a) [] [] v
  | again {K w} {l : List Nat} {a : Code} {ts us : List PTree} {u v : List PTok} : FirstD G (.whileLa l a :: K) a ts u (v ++ w) →
      FirstD G K (.whileLa l a) us v w → FirstD G K (.whileLa l a) (ts ++ us) (u ++ v) w
  | choose {K v} (d i : Nat) {a : Code} {ts : List PTree} {u : List PTok} : (G.alts d)[i]? = some a → FirstD G K a ts u v →
      (∀ j < i, ∀ b, (G.alts d)[j]? = some b → ¬ Accepts G (b :: K) (u ++ v)) → FirstD G K (.choose d) ts u v

theorem FirstD.derives {G : Gram} {K : List Code} {c : Code} {ts : List PTree} {u v : List PTok} (h : FirstD G K c ts u v) : Derives G c ts u := by
  induction h with
  | done => exact .done
  | sync s => exact .sync s
  | tok x => exact .tok x
  | eof => exact .eof
  | set l x h => exact .set l x h
  | call s r _ ih => exact .call s r ih
  | seq _ _ i1 i2 => exact .seq i1 i2
  | ifThen l b _ ih => exact .ifThen l b ih
  | ifElse l a _ ih => exact .ifElse l a ih
  | stop l a => exact .stop l a
  | again _ _ i1 i2 => exact .again i1 i2
  | choose d i ha _ _ ih => exact .choose d i ha ih

/-- A parser that takes first choices. -/
theorem run_first (G : Gram) (start : Code) (predict : Predict) (hF : First G start predict) :
    ∀ (n : Nat) (ctx : List Nat) (K : List Code) (c : Code) (w : List PTok) (ts : List PTree) (v : List PTok), At G start ctx c K →
      Verif.Model.Gen.Antlr.run G predict n ctx K c w = some (ts, v) → ∃ u, w = u ++ v ∧ FirstD G K c ts u v := by
  intro n
  induction n with
  | zero => intro ctx K c w ts v _ h; cases h
  | succ n ih =>
    intro ctx K c w ts v hA h
    cases c with
    | done =>
      simp only [Verif.Model.Gen.Antlr.run, Option.some.injEq, Prod.mk.injEq] at h
      exact ⟨[], by rw [h.2]; rfl, h.1 ▸ .done⟩
    | fail => simp [Verif.Model.Gen.Antlr.run] at h
    | sync s =>
      simp only [Verif.Model.Gen.Antlr.run] at h
      split at h
      · simp only [Option.some.injEq, Prod.mk.injEq] at h
        exact ⟨[], by rw [h.2]; rfl, h.1 ▸ .sync s⟩
      · cases h
    | tok t =>
      simp only [Verif.Model.Gen.Antlr.run] at h
      obtain ⟨x, h1, h2, h3⟩ := matchTok_some h
      have h3 : x.typ = t := by simpa using h3
      subst h3 h1 h2
      exact ⟨[x], rfl, .tok x⟩
    | eof =>
      simp only [Verif.Model.Gen.Antlr.run] at h
      split at h
      · rename_i hw
        simp only [Option.some.injEq, Prod.mk.injEq] at h
        have hw : w = [] := by simpa using hw
        exact ⟨[], by rw [hw, ← h.2]; rfl, h.1 ▸ .eof⟩
      · cases h
    | set l =>
      simp only [Verif.Model.Gen.Antlr.run] at h
      obtain ⟨x, h1, h2, h3⟩ := matchTok_some h
      subst h1 h2
      exact ⟨[x], rfl, .set l x (by simpa using h3)⟩
    | call s r =>
      simp only [Verif.Model.Gen.Antlr.run] at h
      split at h
      · cases h
      · rename_i us w' hr
        simp only [Option.some.injEq, Prod.mk.injEq] at h
        obtain ⟨u, hu, hd⟩ := ih _ _ _ _ _ _ hA.call hr
        exact ⟨u, by rw [hu, h.2], h.1 ▸ h.2 ▸ .call s r hd⟩
    | seq a b =>
      simp only [Verif.Model.Gen.Antlr.run] at h
      split at h
      · cases h
      · rename_i us w' hr
        split at h
        · cases h
        · rename_i vs w'' hr'
          simp only [Option.some.injEq, Prod.mk.injEq] at h
          obtain ⟨u, hu, hd⟩ := ih _ _ _ _ _ _ hA.fst hr
          obtain ⟨u', hu', hd'⟩ := ih _ _ _ _ _ _ hA.snd hr'
          subst hu'
          exact ⟨u ++ u', by rw [hu, h.2, List.append_assoc], h.1 ▸ h.2 ▸ .seq hd hd'⟩
    | ifLa l a b =>
      simp only [Verif.Model.Gen.Antlr.run] at h
      split at h
      · obtain ⟨u, hu, hd⟩ := ih _ _ _ _ _ _ hA.ifThen h
        exact ⟨u, hu, .ifThen l b hd⟩
      · obtain ⟨u, hu, hd⟩ := ih _ _ _ _ _ _ hA.ifElse h
        exact ⟨u, hu, .ifElse l a hd⟩
    | whileLa l a =>
      simp only [Verif.Model.Gen.Antlr.run] at h
      split at h
      · split at h
        · cases h
        · rename_i us w' hr
          split at h
          · cases h
          · rename_i vs w'' hr'
            simp only [Option.some.injEq, Prod.mk.injEq] at h
            obtain ⟨u, hu, hd⟩ := ih _ _ _ _ _ _ hA.body hr
            obtain ⟨u', hu', hd'⟩ := ih _ _ _ _ _ _ hA hr'
            subst hu'
            exact ⟨u ++ u', by rw [hu, h.2, List.append_assoc], h.1 ▸ h.2 ▸ .again hd hd'⟩
      · simp only [Option.some.injEq, Prod.mk.injEq] at h
        exact ⟨[], by rw [h.2]; rfl, h.1 ▸ .stop l a⟩
    | choose d =>
      simp only [Verif.Model.Gen.Antlr.run] at h
      split at h
      · cases h
      · rename_i i hp
        split at h
        · cases h
        · rename_i a ha
          obtain ⟨u, hu, hd⟩ := ih _ _ _ _ _ _ (hA.choose i ha) h
          refine ⟨u, hu, .choose d i ha hd fun j hj b hb hacc => ?_⟩
          rw [← hu] at hacc
          have := hF ctx d K w hA j b hb hacc
          rw [hp] at this
          omega

/-! ## Where a tree comes from -/

/-- The statement was executed before something that accepts the rest. -/
def Ran (K : List Code) (c : Code) (ts : List PTree) (u v : List PTok) : Prop := FirstD protoGram K c ts u v ∧ Accepts protoGram K v ∧ TypedL u

variable {K : List Code} {ts : List PTree} {u v : List PTok} {a b : Code} {t : PTree}

theorem ran_seq (h : Ran K (a ;; b) ts u v) : ∃ t₁ u₁ t₂ u₂, ts = t₁ ++ t₂ ∧ u = u₁ ++ u₂ ∧ Ran (b :: K) a t₁ u₁ (u₂ ++ v) ∧ Ran K b t₂ u₂ v := by
  obtain ⟨h, hA, ht⟩ := h
  cases h with
  | seq h1 h2 =>
    simp only [typedL_append] at ht
    exact ⟨_, _, _, _, rfl, rfl, ⟨h1, .cons h2.derives hA, ht.1⟩, ⟨h2, hA, ht.2⟩⟩

theorem ran_choose {d : Nat} (h : Ran K (.choose d) ts u v) : ∃ (i : Nat) (a : Code), (altsCode d)[i]? = some a ∧ Ran K a ts u v ∧
    ∀ j < i, ∀ b, (altsCode d)[j]? = some b → ¬ Accepts protoGram (b :: K) (u ++ v) := by
  obtain ⟨h, hA, ht⟩ := h
  cases h with
  | choose d i ha h1 h2 => exact ⟨i, _, ha, ⟨h1, hA, ht⟩, h2⟩

/-- A tree among those of a statement. -/
def From (t : PTree) (c : Code) : Prop := ∃ K ts u v, t ∈ ts ∧ Ran K c ts u v

theorem from_seq (h : From t (a ;; b)) : From t a ∨ From t b := by
  obtain ⟨K, ts, u, v, hm, h⟩ := h
  obtain ⟨t₁, u₁, t₂, u₂, rfl, rfl, h1, h2⟩ := ran_seq h
  rcases List.mem_append.1 hm with hm | hm
  · exact .inl ⟨_, _, _, _, hm, h1⟩
  · exact .inr ⟨_, _, _, _, hm, h2⟩

theorem from_tok {n : Nat} (h : From t (.tok n)) : ∃ x, t = .leaf x := by
  obtain ⟨K, ts, u, v, hm, h, _, _⟩ := h
  cases h with
  | tok x => exact ⟨x, by simpa using hm⟩

theorem from_set {l : List Nat} (h : From t (.set l)) : ∃ x, t = .leaf x := by
  obtain ⟨K, ts, u, v, hm, h, _, _⟩ := h
  cases h with
  | set l x => exact ⟨x, by simpa using hm⟩

theorem from_sync {n : Nat} (h : From t (.sync n)) : False := by
  obtain ⟨K, ts, u, v, hm, h, _, _⟩ := h
  cases h; cases hm

theorem from_eof (h : From t .eof) : False := by
  obtain ⟨K, ts, u, v, hm, h, _, _⟩ := h
  cases h; cases hm

theorem from_done (h : From t .done) : False := by
  obtain ⟨K, ts, u, v, hm, h, _, _⟩ := h
  cases h; cases hm

theorem from_fail (h : From t .fail) : False := by
  obtain ⟨K, ts, u, v, hm, h, _, _⟩ := h
  cases h

theorem from_if {l : List Nat} (h : From t (.ifLa l a b)) : From t a ∨ From t b := by
  obtain ⟨K, ts, u, v, hm, h, hA, ht⟩ := h
  cases h with
  | ifThen _ _ h => exact .inl ⟨_, _, _, _, hm, h, hA, ht⟩
  | ifElse _ _ h => exact .inr ⟨_, _, _, _, hm, h, hA, ht⟩

theorem from_while {l : List Nat} (h : From t (.whileLa l a)) : From t a := by
  obtain ⟨K, ts, u, v, hm, h, hA, ht⟩ := h
  generalize hc : Code.whileLa l a = c at h
  induction h with
  | again h1 h2 i1 i2 =>
    simp only [Code.whileLa.injEq] at hc
    obtain ⟨rfl, rfl⟩ := hc
    simp only [typedL_append] at ht
    rcases List.mem_append.1 hm with hm | hm
    · exact ⟨_, _, _, _, hm, h1, .cons h2.derives hA, ht.1⟩
    · exact i2 hm hA ht.2 rfl
  | stop => cases hm
  | _ => cases hc

/-- The children of a node of the tree. -/
def Good (r : Nat) (us : List PTree) : Prop := ∃ K u v, Ran K (ruleCode r) us u v

theorem from_call {s r : Nat} (h : From t (.call s r)) : ∃ us, t = .node r us ∧ Good r us := by
  obtain ⟨K, ts, u, v, hm, h, hA, ht⟩ := h
  cases h with
  | call _ _ h => exact ⟨_, by simpa using hm, _, _, _, h, hA, ht⟩

theorem Good.kid {r : Nat} {us : List PTree} (h : Good r us) (hm : t ∈ us) : From t (ruleCode r) := by
  obtain ⟨K, u, v, h⟩ := h
  exact ⟨K, us, u, v, hm, h⟩

theorem Good.rule {r : Nat} {us : List PTree} (h : Good r us) : ∃ w, Rule r us w ∧ TypedL w := by
  obtain ⟨K, u, v, h, _, ht⟩ := h
  exact ⟨u, h.derives, ht⟩

/-- A tree from a statement of one of several rules. -/
theorem ran_item {d : Nat} {l : List (Nat × Nat)} (hd : altsCode d = l.map fun p => .call p.1 p.2) (h : Ran K (.choose d) ts u v) : ∃ (i : Nat) (p : Nat × Nat) (us : List PTree), l[i]? = some p ∧
    ts = [.node p.2 us] ∧ Good p.2 us ∧ Rule p.2 us u ∧ Accepts protoGram K v ∧ TypedL u ∧
      ∀ j < i, ∀ q : Nat × Nat, l[j]? = some q → ¬ Lang q.2 u := by
  obtain ⟨i, a, ha, hr, hf⟩ := ran_choose h
  rw [hd, List.getElem?_map] at ha
  obtain ⟨p, hp, rfl⟩ := Option.map_eq_some_iff.1 ha
  obtain ⟨hr, hA, ht⟩ := hr
  cases hr with
  | call _ _ hr =>
    refine ⟨i, p, _, hp, rfl, ⟨K, u, v, hr, hA, ht⟩, hr.derives, hA, ht, fun j hj q hq hl => ?_⟩
    obtain ⟨us, hl⟩ := hl
    exact hf j hj (.call q.1 q.2) (by rw [hd, List.getElem?_map, hq]; rfl) (.cons (.call q.1 q.2 hl) hA)

/-! ## Fields -/

theorem path_tail {n : Str} {r : List Str} (h : TypeToks (n :: r)) (hn : n ≠ ".".toList) (hr : r ≠ []) : TypeToks r := by
  rcases typeToks_iff.1 h with h | ⟨p, e, _⟩
  · cases h with
    | one => exact absurd rfl hr
    | dot _ p _ hp => exact .rooted p hp
  · simp only [List.cons.injEq] at e
    exact absurd e.1 hn

theorem field_proper {us : List PTree} (h : Good 7 us) : ProperField (astField us) := by
  obtain ⟨K, u, v, h⟩ := h
  obtain ⟨_, _, _, _, rfl, rfl, h0, g⟩ := ran_seq (show Ran K codeField us u v from h)
  obtain ⟨rfl, rfl⟩ := d_sync.1 h0.1.derives
  obtain ⟨t₁, u₁, t₂, u₂, rfl, rfl, h1, h2⟩ := ran_seq g
  obtain ⟨i, a, ha, hr, hf⟩ := ran_choose h1
  have hrest := fieldRest_iff.1 h2.1.derives
  have hA := h2.2.1
  have ht := h2.2.2
  match i, ha with
  | 0, ha =>
    obtain rfl := Option.some.inj ha
    obtain ⟨t, hl, rfl⟩ := d_rule.1 hr.1.derives
    obtain ⟨x, hx, rfl, rfl⟩ := rule_label.1 hl
    intro e
    rcases hx with hx | hx | hx <;> simp [astField, astLabel, hx] at e
  | 1, ha =>
    obtain rfl := Option.some.inj ha
    obtain ⟨rfl, rfl⟩ := d_done.1 hr.1.derives
    have hf := hf 0 (by omega) _ rfl
    intro _ n r e hn
    refine Classical.byContradiction fun hr' => hf ?_
    obtain ⟨i1, _, _, i4⟩ := fieldRest_sound hrest ht
    simp only [List.nil_append] at e ⊢
    rw [e] at i4
    obtain ⟨x, u₃, rfl, hx, e2⟩ := texts_eq_cons i4
    simp only [typedL_cons] at ht
    have hty : TypeToks r := path_tail (e ▸ i1.1) (by rcases hn with rfl | rfl <;> decide) hr'
    obtain ⟨ts', hd⟩ := fieldRest_complete (f := { astField t₂ with typ := r }) ⟨hty, i1.2⟩ ht.2 e2
    have hl : Rule 6 [.leaf x] [x] := rule_label.2 ⟨x, by
      rcases hn with rfl | rfl
      · exact .inl ((is8 ht.1).2 hx)
      · exact .inr (.inr ((is10 ht.1).2 hx)), rfl, rfl⟩
    have hd1 : Derives protoGram (.call 155 6) _ [x] := .call 155 6 hl
    have hd2 := (fieldRest_iff (a := 158) (b := 159) (c := 161) (d := 166) (s := 163)).2 hd
    have := Accepts.cons hd1 (.cons hd2 hA)
    simpa using this

/-! ## Oneofs and extensions -/

/-- Trees of statements without choices, down to the calls. -/
macro "trees_of" h:ident : tactic => `(tactic|
  (repeat' (first
    | (refine Or.elim (from_seq $h) ?_ ?_ <;> (clear $h; intro $h:ident))
    | (refine Or.elim (from_if $h) ?_ ?_ <;> (clear $h; intro $h:ident))
    | (replace $h := from_while $h)
    | (exact (from_sync $h).elim)
    | (exact (from_fail $h).elim)
    | (exact (from_done $h).elim)
    | (exact (from_eof $h).elim))))

theorem oneof_proper {us : List PTree} (h : Good 11 us) : ∀ x ∈ us.flatMap astOneofElem, ProperOneofElem x := by
  intro x hx
  obtain ⟨t, hm, hx⟩ := List.mem_flatMap.1 hx
  have hk : From t codeOneof := h.kid hm
  unfold codeOneof at hk
  trees_of hk
  · obtain ⟨y, rfl⟩ := from_tok hk; simp [astOneofElem] at hx
  · obtain ⟨ts, rfl, _⟩ := from_call hk; simp [astOneofElem] at hx
  · obtain ⟨y, rfl⟩ := from_tok hk; simp [astOneofElem] at hx
  · obtain ⟨K, ts, u, v, hm, hr⟩ := hk
    obtain ⟨i, p, us, hp, rfl, hg, hrule, hA, ht, hf⟩ := ran_item (d := 9) (l := [(187, 4), (188, 12), (189, 37)]) rfl hr
    simp only [List.mem_singleton] at hm
    subst hm
    match i, hp with
    | 0, hp => obtain rfl := Option.some.inj hp; simp [astOneofElem] at hx; subst hx; trivial
    | 1, hp =>
      obtain rfl := Option.some.inj hp
      simp [astOneofElem] at hx
      subst hx
      rintro ⟨e1, e2⟩
      refine hf 0 (by omega) _ rfl ?_
      obtain ⟨i1, i2⟩ := oneofField_sound hrule ht
      obtain ⟨hw, hk, hl⟩ := i1
      refine optionStmt_complete (o := ⟨[(astField us).name], [(astField us).number]⟩) ⟨.plain _ (.one _ hw.2.1), .num _ (.inl hw.2.2.1)⟩ ht ?_
      rw [i2, spellField, hl, hk, e1, e2]
      rfl
    | 2, hp => obtain rfl := Option.some.inj hp; simp [astOneofElem] at hx; subst hx; trivial
  · obtain ⟨y, rfl⟩ := from_tok hk; simp [astOneofElem] at hx

theorem extend_proper {us : List PTree} (h : Good 31 us) : ProperExtend (us.flatMap astExtendElem) := by
  intro x hx
  obtain ⟨t, hm, hx⟩ := List.mem_flatMap.1 hx
  have hk : From t codeExtendDef := h.kid hm
  unfold codeExtendDef at hk
  trees_of hk
  · obtain ⟨y, rfl⟩ := from_tok hk; simp [astExtendElem] at hx
  · obtain ⟨ts, rfl, _⟩ := from_call hk; simp [astExtendElem] at hx
  · obtain ⟨y, rfl⟩ := from_tok hk; simp [astExtendElem] at hx
  · obtain ⟨ts, rfl, hg⟩ := from_call hk; simp [astExtendElem] at hx; subst hx; exact field_proper hg
  · obtain ⟨ts, rfl, _⟩ := from_call hk; simp [astExtendElem] at hx
  · obtain ⟨y, rfl⟩ := from_tok hk; simp [astExtendElem] at hx

/-! ## Messages -/

theorem mem_astElems {e : RawElem} : ∀ {l : List PTree}, e ∈ astElems l → ∃ us, PTree.node 30 us ∈ l ∧ e = astElem us
  | [], h => by simp [astElems] at h
  | t :: l, h => by
    by_cases hn : ∃ ts, t = .node 30 ts
    · obtain ⟨ts, rfl⟩ := hn
      simp only [astElems, List.mem_cons] at h
      rcases h with rfl | h
      · exact ⟨ts, by simp, rfl⟩
      · obtain ⟨us, h1, h2⟩ := mem_astElems h
        exact ⟨us, List.mem_cons_of_mem _ h1, h2⟩
    · rw [astElems] at h
      · obtain ⟨us, h1, h2⟩ := mem_astElems h
        exact ⟨us, List.mem_cons_of_mem _ h1, h2⟩
      · intro ts e
        exact hn ⟨ts, e⟩

theorem mem_astBody {e : RawElem} : ∀ {l : List PTree}, e ∈ astBody l → ∃ us, PTree.node 29 us ∈ l ∧ e ∈ astElems us
  | [], h => by simp [astBody] at h
  | t :: l, h => by
    by_cases hn : ∃ ts, t = .node 29 ts
    · obtain ⟨ts, rfl⟩ := hn
      simp only [astBody] at h
      exact ⟨ts, by simp, h⟩
    · rw [astBody] at h
      · obtain ⟨us, h1, h2⟩ := mem_astBody h
        exact ⟨us, List.mem_cons_of_mem _ h1, h2⟩
      · intro ts e
        exact hn ⟨ts, e⟩

theorem good_body {us ts : List PTree} (h : Good 28 ts) (hm : PTree.node 29 us ∈ ts) : Good 29 us := by
  have hk : From (.node 29 us) codeMessageDef := h.kid hm
  unfold codeMessageDef at hk
  trees_of hk
  · obtain ⟨y, e⟩ := from_tok hk; cases e
  · obtain ⟨_, e, _⟩ := from_call hk; cases e
  · obtain ⟨_, e, hg⟩ := from_call hk; cases e; exact hg

theorem good_elem {us ts : List PTree} (h : Good 29 ts) (hm : PTree.node 30 us ∈ ts) : Good 30 us := by
  have hk : From (.node 30 us) codeMessageBody := h.kid hm
  unfold codeMessageBody at hk
  trees_of hk
  · obtain ⟨y, e⟩ := from_tok hk; cases e
  · obtain ⟨_, e, hg⟩ := from_call hk; cases e; exact hg
  · obtain ⟨y, e⟩ := from_tok hk; cases e

theorem optName_one {m : Str} {l : List Str} (h : OptNameToks l) (e : l = [m] := by rfl) : NameTok m := by
  cases h with
  | plain _ h =>
    cases h with
    | one _ h => simp only [List.cons.injEq, and_true] at e; exact e ▸ h
    | dot _ _ _ _ => simp at e
  | _ => simp at e

theorem elem_proper : ∀ (n : Nat) {us : List PTree}, sizeOf us ≤ n → Good 30 us → ProperElem (astElem us)
  | n, us, hn, h => by
    obtain ⟨K, u, v, h⟩ := h
    obtain ⟨_, _, _, _, rfl, rfl, h0, g⟩ := ran_seq (show Ran K codeMessageElement us u v from h)
    obtain ⟨rfl, rfl⟩ := d_sync.1 h0.1.derives
    obtain ⟨i, p, ts, hp, rfl, hg, hrule, hA, ht, hf⟩ := ran_item (d := 27)
      (l := [(352, 7), (353, 22), (354, 28), (355, 31), (356, 4), (357, 11), (358, 13), (359, 16), (360, 17), (361, 37)]) rfl g
    match i, hp with
    | 0, hp => obtain rfl := Option.some.inj hp; simpa [astElem, ProperElem] using field_proper hg
    | 1, hp => obtain rfl := Option.some.inj hp; simp [astElem, ProperElem]
    | 2, hp =>
      obtain rfl := Option.some.inj hp
      simp only [List.nil_append, astElem, ProperElem]
      rw [properElems_iff]
      intro e he
      obtain ⟨us1, hm1, he⟩ := mem_astBody he
      obtain ⟨us2, hm2, rfl⟩ := mem_astElems he
      have s1 := List.sizeOf_lt_of_mem hm1
      have s2 := List.sizeOf_lt_of_mem hm2
      simp at hn s1 s2
      match n with
      | 0 => omega
      | n + 1 => exact elem_proper n (by omega) (good_elem (good_body hg hm1) hm2)
    | 3, hp => obtain rfl := Option.some.inj hp; simpa [astElem, ProperElem] using extend_proper hg
    | 4, hp =>
      obtain rfl := Option.some.inj hp
      simp only [List.nil_append, astElem, ProperElem]
      rintro ⟨m, k, e1, e2, hk⟩
      obtain ⟨i1, i2⟩ := optionStmt_sound hrule ht
      rw [spellOptionStmt, spellOption, e1, e2] at i2
      have hm : NameTok m := by
        have ho := i1.1
        rw [e1] at ho
        exact optName_one ho
      refine hf 0 (by omega) _ rfl (field_complete (f := ⟨none, none, ["option".toList], m, k, []⟩) ⟨⟨.plain _ (.one _ ?_), hm, hk, by simp⟩, rfl⟩ ht i2)
      exact name_of (by decide +kernel)
    | 5, hp => obtain rfl := Option.some.inj hp; simpa only [List.nil_append, astElem, ProperElem] using oneof_proper hg
    | 6, hp => obtain rfl := Option.some.inj hp; simp [astElem, ProperElem]
    | 7, hp =>
      obtain rfl := Option.some.inj hp
      simp only [List.nil_append, astElem]
      split <;> simp [ProperElem]
    | 8, hp => obtain rfl := Option.some.inj hp; simp [astElem, ProperElem]
    | 9, hp => obtain rfl := Option.some.inj hp; simp [astElem, ProperElem]

theorem message_proper {us : List PTree} (h : Good 28 us) : ProperElems (astBody us) := by
  rw [properElems_iff]
  intro e he
  obtain ⟨us1, hm1, he⟩ := mem_astBody he
  obtain ⟨us2, hm2, rfl⟩ := mem_astElems he
  exact elem_proper _ (Nat.le_refl _) (good_elem (good_body h hm1) hm2)

/-! ## Services -/

/-- Without `stream`, the type does not begin with `stream.`. -/
theorem stream_proper {d s : Nat} {c : Code} (hd : altsCode d = [.tok 37, .done]) (h : Ran K (.choose d ;; .call s 46 ;; c) ts u v) :
    ∃ ta ua t2 u2 t' u', ts = ta ++ .node 46 t2 :: t' ∧ u = ua ++ (u2 ++ u') ∧ Stream ta ua ∧ Rule 46 t2 u2 ∧ Ran K c t' u' v ∧
      ProperRpcType (hasTok 37 ta) (leavesL t2) := by
  obtain ⟨ta, ua, tr, ur, rfl, rfl, h1, h2⟩ := ran_seq h
  obtain ⟨i, a, ha, hr, hf⟩ := ran_choose h1
  have hA := h2.2.1
  have ht := h2.2.2
  obtain ⟨tt, u2, t', u', rfl, rfl, h3, h4⟩ := ran_seq h2
  obtain ⟨t2, hrule, rfl⟩ := d_rule.1 h3.1.derives
  simp only [typedL_append] at ht
  refine ⟨ta, ua, t2, u2, t', u', rfl, rfl, (stream_iff hd).1 h1.1.derives, hrule, h4, ?_⟩
  rw [hd] at ha hf
  match i, ha with
  | 0, ha =>
    obtain rfl := Option.some.inj ha
    obtain ⟨x, hx, rfl, rfl⟩ := d_tok.1 hr.1.derives
    intro e
    simp [hx] at e
  | 1, ha =>
    obtain rfl := Option.some.inj ha
    obtain ⟨rfl, rfl⟩ := d_done.1 hr.1.derives
    have hf := hf 0 (by omega) _ rfl
    intro _ r e
    refine Classical.byContradiction fun hr' => hf ?_
    obtain ⟨i1, i2⟩ := type_text hrule ht.1
    rw [e] at i2
    rw [← i2] at i1
    obtain ⟨x, u3, rfl, hx, e2⟩ := texts_eq_cons i2.symm
    simp only [typedL_cons] at ht
    have hty : TypeToks r := path_tail i1 (by decide) hr'
    obtain ⟨t3, hl⟩ := (messageType_texts ht.1.2).2 (e2 ▸ hty)
    have h37 : x.typ = 37 := (is37 ht.1.1).2 hx
    have hd1 : Derives protoGram (.tok 37) [.leaf x] [x] := d_tok.2 ⟨x, h37, rfl, rfl⟩
    have hd2 : Derives protoGram (.call s 46 ;; c) _ (u3 ++ u') := .seq (.call s 46 hl) h4.1.derives
    have := Accepts.cons hd1 (.cons hd2 hA)
    simpa using this

theorem rpc_proper {us : List PTree} (h : Good 34 us) : ProperServiceElem (.rpc (astRpc us)) := by
  obtain ⟨K, u, v, h⟩ := h
  obtain ⟨_, _, _, _, rfl, rfl, h1, g0⟩ := ran_seq (show Ran K codeRpc us u v from h)
  obtain ⟨x1, e1, rfl, rfl⟩ := d_tok.1 h1.1.derives
  obtain ⟨_, _, _, _, rfl, rfl, h2, g1⟩ := ran_seq g0
  obtain ⟨t1, r1, rfl⟩ := d_rule.1 h2.1.derives
  obtain ⟨_, _, _, _, rfl, rfl, h3, g2⟩ := ran_seq g1
  obtain ⟨x2, e2, rfl, rfl⟩ := d_tok.1 h3.1.derives
  obtain ⟨_, _, _, _, rfl, rfl, h4, g3⟩ := ran_seq g2
  obtain ⟨rfl, rfl⟩ := d_sync.1 h4.1.derives
  obtain ⟨ta, ua, t2, u2, _, _, rfl, rfl, sa, r2, g4, pa⟩ := stream_proper rfl g3
  obtain ⟨_, _, _, _, rfl, rfl, h5, g5⟩ := ran_seq g4
  obtain ⟨x3, e3, rfl, rfl⟩ := d_tok.1 h5.1.derives
  obtain ⟨_, _, _, _, rfl, rfl, h6, g6⟩ := ran_seq g5
  obtain ⟨x4, e4, rfl, rfl⟩ := d_tok.1 h6.1.derives
  obtain ⟨_, _, _, _, rfl, rfl, h7, g7⟩ := ran_seq g6
  obtain ⟨x5, e5, rfl, rfl⟩ := d_tok.1 h7.1.derives
  obtain ⟨_, _, _, _, rfl, rfl, h8, g8⟩ := ran_seq g7
  obtain ⟨rfl, rfl⟩ := d_sync.1 h8.1.derives
  obtain ⟨tb, ub, t3, u3, _, _, rfl, rfl, sb, r3, g9, pb⟩ := stream_proper rfl g8
  obtain ⟨_, _, te, _, rfl, rfl, h9, g10⟩ := ran_seq g9
  obtain ⟨x6, e6, rfl, rfl⟩ := d_tok.1 h9.1.derives
  have e := rpc_ast (t1 := t1) (t2 := t2) (t3 := t3) (te := te) e1 e2 sa e3 e4 e5 sb e6
  simp only [List.cons_append, List.nil_append]
  rw [e]
  exact ⟨pa, pb⟩

theorem service_proper {us : List PTree} (h : Good 32 us) : ∀ x ∈ (kids 33 us).map astServiceElem, ProperServiceElem x := by
  intro x hx
  obtain ⟨ts, hm, rfl⟩ := List.mem_map.1 hx
  have hm : PTree.node 33 ts ∈ us := by
    clear hx h
    induction us with
    | nil => cases hm
    | cons t us ih =>
      cases t with
      | leaf y => exact List.mem_cons_of_mem _ (ih (by simpa using hm))
      | node r vs =>
        by_cases hr : r = 33
        · subst hr
          simp only [kids_node, reduceIte, List.mem_cons] at hm
          rcases hm with rfl | hm
          · simp
          · exact List.mem_cons_of_mem _ (ih hm)
        · exact List.mem_cons_of_mem _ (ih (by simpa [hr] using hm))
  have hk : From (.node 33 ts) codeServiceDef := h.kid hm
  unfold codeServiceDef at hk
  have hg : Good 33 ts := by
    trees_of hk
    · obtain ⟨y, e⟩ := from_tok hk; cases e
    · obtain ⟨_, e, _⟩ := from_call hk; cases e
    · obtain ⟨y, e⟩ := from_tok hk; cases e
    · obtain ⟨_, e, hg⟩ := from_call hk; cases e; exact hg
    · obtain ⟨y, e⟩ := from_tok hk; cases e
  obtain ⟨w, hrule, ht⟩ := hg.rule
  obtain ⟨r, vs, hr, _, rfl⟩ := serviceElem_iff.1 hrule
  simp only [List.mem_cons, List.not_mem_nil, or_false] at hr
  rcases hr with rfl | rfl | rfl
  · trivial
  · have hk : From (.node 34 vs) codeServiceElement := hg.kid (by simp)
    unfold codeServiceElement at hk
    refine rpc_proper ?_
    trees_of hk
    · obtain ⟨_, e, _⟩ := from_call hk; cases e
    · obtain ⟨_, e, hg⟩ := from_call hk; cases e; exact hg
    · obtain ⟨_, e, _⟩ := from_call hk; cases e
  · trivial

/-! ## Files -/

theorem def_proper {us : List PTree} (h : Good 21 us) : ProperTop (astDef us) := by
  obtain ⟨w, hrule, ht⟩ := h.rule
  obtain ⟨r, vs, hr, _, rfl⟩ := def_iff.1 hrule
  have hk : From (.node r vs) codeTopLevelDef := h.kid (by simp)
  unfold codeTopLevelDef at hk
  trees_of hk
  · obtain ⟨_, e, hg⟩ := from_call hk; cases e; exact message_proper hg
  · obtain ⟨_, e, hg⟩ := from_call hk; cases e; trivial
  · obtain ⟨_, e, hg⟩ := from_call hk; cases e; exact extend_proper hg
  · obtain ⟨_, e, hg⟩ := from_call hk; cases e; exact service_proper hg

theorem proto_proper {us : List PTree} (h : Good 0 us) : ProperProto (astProto us) := by
  intro x hx
  obtain ⟨t, hm, hx⟩ := List.mem_flatMap.1 (show x ∈ us.flatMap astTop from hx)
  have hk : From t codeProto := h.kid hm
  unfold codeProto at hk
  trees_of hk
  · obtain ⟨_, rfl, hg⟩ := from_call hk; simp [astTop] at hx
  · obtain ⟨_, rfl, hg⟩ := from_call hk; simp [astTop] at hx; subst hx; trivial
  · obtain ⟨_, rfl, hg⟩ := from_call hk; simp [astTop] at hx; subst hx; trivial
  · obtain ⟨_, rfl, hg⟩ := from_call hk; simp [astTop] at hx; subst hx; trivial
  · obtain ⟨_, rfl, hg⟩ := from_call hk; simp [astTop] at hx; subst hx; exact def_proper hg
  · obtain ⟨_, rfl, hg⟩ := from_call hk; simp [astTop] at hx; subst hx; trivial

end Verif.Lemmas.Gen.Antlr
