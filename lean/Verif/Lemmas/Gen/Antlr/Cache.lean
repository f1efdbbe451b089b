import Verif.Lemmas.Gen.Antlr.Rows
/-!
# The simulator follows the table, whatever the DFA contains already
-/
namespace Verif.Lemmas.Gen.Antlr
open Verif.Model.Gen Verif.Model.Gen.Antlr

attribute [local irreducible] table lexerNet setHash

/-! ## Characters of the same class -/

/-- The characters `c` and `d` are on the same side of every bound. -/
def SameSide (bs : List Nat) (c d : Nat) : Prop := ∀ b ∈ bs, b ≤ c ↔ b ≤ d

theorem ivs_same : ∀ (ivs : List (Nat × Nat)) (c d : Nat), SameSide (ivs.flatMap fun i => [i.1, i.2]) c d →
    (ivs.any fun i => Nat.ble i.1 c && Nat.blt c i.2) = ivs.any fun i => Nat.ble i.1 d && Nat.blt d i.2
  | [], _, _, _ => rfl
  | i :: is, c, d, h => by
    have h1 : i.1 ≤ c ↔ i.1 ≤ d := h _ (by simp)
    have h2 : i.2 ≤ c ↔ i.2 ≤ d := h _ (by simp)
    have hr := ivs_same is c d (fun b hb => h b (by simp only [List.flatMap_cons, List.mem_append]; exact Or.inr hb))
    simp only [List.any_cons, hr]
    congr 1
    rw [Bool.eq_iff_iff]
    simp only [Bool.and_eq_true, Nat.ble_eq, Nat.blt_eq]
    omega

theorem zero_ble (n : Nat) : Nat.ble 0 n = true := Nat.ble_eq.mpr (Nat.zero_le n)

theorem matches_same (tr : Trans) (c d : Nat) (h : SameSide (transBounds tr) c d) (hc : c ≤ maxChar) (hd : d ≤ maxChar) :
    tr.matches 0 maxChar (some c) = tr.matches 0 maxChar (some d) := by
  have hcm : Nat.ble c maxChar = true := Nat.ble_eq.mpr hc
  have hdm : Nat.ble d maxChar = true := Nat.ble_eq.mpr hd
  cases tr with
  | atom t l =>
    cases l with
    | none => simp [Trans.matches]
    | some l =>
      have h1 : l ≤ c ↔ l ≤ d := h _ (by simp [transBounds])
      have h2 : l + 1 ≤ c ↔ l + 1 ≤ d := h _ (by simp [transBounds])
      simp only [Trans.matches, Option.some.injEq]
      congr 1
      exact propext (by omega)
  | range t a b =>
    have h1 : a ≤ c ↔ a ≤ d := h _ (by simp [transBounds])
    have h2 : b + 1 ≤ c ↔ b + 1 ≤ d := h _ (by simp [transBounds])
    simp only [Trans.matches]
    rw [Bool.eq_iff_iff]
    simp only [Bool.and_eq_true, Nat.ble_eq]
    omega
  | set t s => exact ivs_same _ _ _ h
  | notSet t s =>
    simp only [Trans.matches, hcm, hdm, ISet.contains, ivs_same s.ivs c d h, zero_ble]
  | wildcard t => simp only [Trans.matches, hcm, hdm, zero_ble]
  | _ => rfl

theorem reachTrans_same (A : Net) (c d : Nat) (cf : Cfg) (acc : Bool) : ∀ (ts : List Trans) (cs : List Cfg) (skip : Nat),
    (∀ tr ∈ ts, tr.matches 0 maxChar (some c) = tr.matches 0 maxChar (some d)) →
    A.reachTrans (some c) cf acc ts cs skip = A.reachTrans (some d) cf acc ts cs skip
  | [], _, _, _ => rfl
  | tr :: ts, cs, skip, h => by
    have h1 := h tr (by simp)
    have hr := fun cs skip => reachTrans_same A c d cf acc ts cs skip (fun t ht => h t (by simp [ht]))
    simp only [Net.reachTrans, h1, Option.isNone_some]
    split
    · split
      · rfl
      · split
        · rfl
        · exact hr _ _
    · exact hr _ _

theorem reachLoop_same (A : Net) (c d : Nat) (hc : c ≤ maxChar) (hd : d ≤ maxChar) : ∀ (cfs cs : List Cfg) (skip : Nat),
    SameSide (cfgsBounds A cfs) c d → A.reachLoop (some c) cfs cs skip = A.reachLoop (some d) cfs cs skip
  | [], _, _, _ => rfl
  | cf :: cfs, cs, skip, h => by
    have hr := fun cs skip => reachLoop_same A c d hc hd cfs cs skip (fun b hb => h b (by
      simp only [cfgsBounds, List.flatMap_cons, List.mem_append]
      exact Or.inr hb))
    simp only [Net.reachLoop]
    split
    · exact hr _ _
    · split
      · rfl
      · rename_i st hst
        have ht := reachTrans_same A c d cf (cf.alt == skip) st.trans cs skip (fun tr htr =>
          matches_same tr c d (fun b hb => h b (by
            simp only [cfgsBounds, List.flatMap_cons, List.mem_append, hst]
            exact Or.inl (List.mem_flatMap.mpr ⟨tr, htr, hb⟩))) hc hd)
        rw [ht]
        split
        · rfl
        · exact hr _ _

/-! ## What the checks of the table say -/

theorem edgesOk_spec (A : Net) (tab : Tree Row) (cs : List Cfg) : ∀ (es : List (Nat × Option Nat)) (lo : Nat),
    edgesOk A tab cs (cfgsBounds A cs) lo es = true → ∀ c, lo ≤ c → c ≤ maxChar → A.reach cs (some c) = cfgsOf tab (nextIn es c)
  | [], lo, h, c, h1, h2 => by
    have : lo = 0x110000 := Nat.eq_of_beq_eq_true h
    simp only [maxChar] at h2
    omega
  | (hi, t) :: es, lo, h, c, h1, h2 => by
    simp only [edgesOk, Bool.and_eq_true, decide_eq_true_eq, List.all_eq_true, Bool.or_eq_true, Nat.ble_eq] at h
    obtain ⟨⟨⟨hb, _⟩, hr⟩, hrest⟩ := h
    simp only [nextIn]
    by_cases hlt : c < hi
    · rw [show Nat.blt c hi = true from Nat.blt_eq.mpr hlt]
      simp only [cond_true]
      rw [← hr]
      exact reachLoop_same A c lo h2 (by omega) cs [] 0 (fun b hbm => by have := hb b hbm; omega)
    · rw [blt_false (by omega)]
      simp only [cond_false]
      exact edgesOk_spec A tab cs es hi hrest c (by omega) h2

theorem edgesOk_some (A : Net) (tab : Tree Row) (cs : List Cfg) (bs : List Nat) : ∀ (es : List (Nat × Option Nat)) (lo : Nat),
    edgesOk A tab cs bs lo es = true → ∀ c, (cfgsOf tab (nextIn es c)).isSome = true
  | [], _, _, _ => rfl
  | (hi, t) :: es, lo, h, c => by
    simp only [edgesOk, Bool.and_eq_true] at h
    simp only [nextIn]
    cases Nat.blt c hi with
    | true => exact h.1.1.2
    | false => exact edgesOk_some A tab cs bs es hi h.2 c

theorem table_get (i : Nat) : table.get i = table.toList[i]? := by
  have := (Tree.upTo_spec _ _ _ table_upTo).2 i
  simpa using this

theorem table_row {i : Nat} {r : Row} (h : table.get i = some r) : rowOk lexerNet table r = true := by
  rw [table_get] at h
  exact List.all_eq_true.mp table_all r (List.mem_of_getElem? h)

theorem row_accept {i : Nat} {r : Row} (h : table.get i = some r) : lexerNet.acceptOf r.cfgs = some r.acc := by
  have := table_row h
  simp only [rowOk, Bool.and_eq_true, decide_eq_true_eq] at this
  exact this.1.1.1

theorem row_ne {i : Nat} {r : Row} (h : table.get i = some r) : r.cfgs ≠ [] := by
  have := table_row h
  simp only [rowOk, Bool.and_eq_true, decide_eq_true_eq, Bool.not_eq_true', List.isEmpty_eq_false_iff] at this
  exact this.1.1.2

theorem row_eof {i : Nat} {r : Row} (h : table.get i = some r) : lexerNet.reach r.cfgs none = some [] := by
  have := table_row h
  simp only [rowOk, Bool.and_eq_true, decide_eq_true_eq] at this
  exact this.1.2

theorem row_reach {i : Nat} {r : Row} (h : table.get i = some r) (c : Nat) (hc : c ≤ maxChar) :
    lexerNet.reach r.cfgs (some c) = cfgsOf table (nextIn r.edges c) := by
  have := table_row h
  simp only [rowOk, Bool.and_eq_true] at this
  exact edgesOk_spec _ _ _ _ 0 this.2 c (Nat.zero_le _) hc

theorem row_target {i : Nat} {r : Row} (h : table.get i = some r) (c j : Nat) (hj : nextIn r.edges c = some j) : ∃ q, table.get j = some q := by
  have := table_row h
  simp only [rowOk, Bool.and_eq_true] at this
  have := edgesOk_some _ _ _ _ _ 0 this.2 c
  rw [hj] at this
  simp only [cfgsOf, Option.isSome_map] at this
  exact Option.isSome_iff_exists.mp this

theorem row_unique {i j : Nat} {r q : Row} (hi : table.get i = some r) (hj : table.get j = some q) (h : setHash r.cfgs = setHash q.cfgs) : i = j := by
  rw [table_get] at hi hj
  have hn := tableHashes_nodup
  rw [← table_hashes] at hn
  have h1 : (table.toList.map fun r => setHash r.cfgs)[i]? = some (setHash r.cfgs) := by rw [List.getElem?_map, hi]; rfl
  have h2 : (table.toList.map fun r => setHash r.cfgs)[j]? = some (setHash r.cfgs) := by rw [List.getElem?_map, hj, h]; rfl
  have hl : i < (table.toList.map fun r => setHash r.cfgs).length := (List.getElem?_eq_some_iff.mp h1).1
  exact List.getElem?_inj hl hn |>.mp (h1.trans h2.symm)

/-! ## The DFA that is filled -/

/-- The target of a symbol in the table. -/
def nextOf (r : Row) : Option Nat → Option Nat
  | none => none
  | some c => nextIn r.edges c

/-- The DFA holds the state number `i` of the table at the position `k`. -/
def Holds (D : Dfa) (k i : Nat) : Prop := ∃ s r, D.states[k]? = some s ∧ table.get i = some r ∧ s.configs = r.cfgs

def Agree (D : Dfa) : Option Nat → Option Nat → Prop
  | none, none => True
  | some k, some i => Holds D k i
  | _, _ => False

/-- Every state of the DFA is one of the table, with what is accepted and with targets that agree with the table. -/
def StateOk (D : Dfa) (s : DState) : Prop :=
  ∃ i r, table.get i = some r ∧ s.configs = r.cfgs ∧ s.accept = r.acc ∧ ∀ c t, s.edges.lookup c = some t → Agree D t (nextIn r.edges c)

structure DfaOk (D : Dfa) : Prop where
  states : ∀ (k : Nat) (s : DState), D.states[k]? = some s → StateOk D s
  start : ∀ k : Nat, D.s0 = some k → Holds D k 0
  nodup : (D.states.map DState.configs).Nodup

/-- What one DFA holds, the other holds. -/
def Grows (D E : Dfa) : Prop := ∀ k i, Holds D k i → Holds E k i

theorem Grows.refl (D : Dfa) : Grows D D := fun _ _ h => h
theorem Grows.trans {D E F : Dfa} (h : Grows D E) (g : Grows E F) : Grows D F := fun k i x => g k i (h k i x)

theorem Agree.grows {D E : Dfa} (h : Grows D E) : ∀ {a b : Option Nat}, Agree D a b → Agree E a b
  | none, none, _ => trivial
  | some _, some _, x => h _ _ x
  | none, some _, x => x
  | some _, none, x => x

theorem StateOk.grows {D E : Dfa} (h : Grows D E) {s : DState} (x : StateOk D s) : StateOk E s := by
  obtain ⟨i, r, h1, h2, h3, h4⟩ := x
  exact ⟨i, r, h1, h2, h3, fun c t hc => (h4 c t hc).grows h⟩

theorem inv_empty : DfaOk Dfa.empty := ⟨(fun k s h => by simp [Dfa.empty] at h), (fun k h => by cases h), List.nodup_nil⟩

theorem setEquals_refl : ∀ cs : List Cfg, setEquals cs cs = true
  | [] => rfl
  | c :: cs => by
    rw [setEquals, setEquals_refl cs, Cfg.equals]
    cases c.exec <;> simp

theorem holds_unique {D : Dfa} {k i j : Nat} (h : Holds D k i) (g : Holds D k j) : i = j := by
  obtain ⟨s, r, h1, h2, h3⟩ := h
  obtain ⟨s', r', g1, g2, g3⟩ := g
  rw [h1] at g1
  cases g1
  exact row_unique h2 g2 (by rw [← h3, ← g3])

theorem addState_spec {D : Dfa} (hD : DfaOk D) {i : Nat} {r : Row} (hi : table.get i = some r) :
    ∃ E k, lexerNet.addState D r.cfgs = some (E, k) ∧ DfaOk E ∧ Grows D E ∧ Holds E k i ∧ E.s0 = D.s0 := by
  unfold Net.addState
  rw [row_accept hi]
  dsimp only
  match hf : D.states.findIdx? fun s => setHash s.configs == setHash r.cfgs && setEquals r.cfgs s.configs with
  | some k =>
    refine ⟨D, k, by rw [hf], hD, Grows.refl D, ?_, rfl⟩
    obtain ⟨hk, hp, _⟩ := List.findIdx?_eq_some_iff_getElem.mp hf
    simp only [Bool.and_eq_true, beq_iff_eq] at hp
    have hg : D.states[k]? = some D.states[k] := List.getElem?_eq_getElem hk
    obtain ⟨j, q, hj, hq, _⟩ := hD.states _ _ hg
    have : i = j := row_unique hi hj (by rw [← hq, hp.1])
    subst this
    exact ⟨_, q, hg, hj, hq⟩
  | none =>
    let E : Dfa := { D with states := D.states ++ [⟨r.cfgs, r.acc, []⟩] }
    have hg : Grows D E := by
      intro k j ⟨s, q, h1, h2, h3⟩
      refine ⟨s, q, ?_, h2, h3⟩
      show (D.states ++ [_])[k]? = some s
      rw [List.getElem?_append_left (List.getElem?_eq_some_iff.mp h1).1, h1]
    refine ⟨E, D.states.length, by rw [hf], ⟨?_, ?_, ?_⟩, hg, ?_, rfl⟩
    · intro k s hs
      have hs : (D.states ++ [⟨r.cfgs, r.acc, []⟩])[k]? = some s := hs
      by_cases hk : k < D.states.length
      · rw [List.getElem?_append_left hk] at hs
        exact (hD.states k s hs).grows hg
      · rw [List.getElem?_append_right (by omega)] at hs
        match hm : k - D.states.length with
        | 0 =>
          rw [hm] at hs
          simp only [List.getElem?_cons_zero, Option.some.injEq] at hs
          subst hs
          exact ⟨i, r, hi, rfl, rfl, fun c t h => by simp at h⟩
        | m + 1 => rw [hm] at hs; simp at hs
    · exact fun k hk => hg _ _ (hD.start k hk)
    · show ((D.states ++ [(⟨r.cfgs, r.acc, []⟩ : DState)]).map DState.configs).Nodup
      rw [List.map_append, List.nodup_append]
      refine ⟨hD.nodup, by simp, fun a ha b hb hab => ?_⟩
      simp only [List.map_cons, List.map_nil, List.mem_singleton] at hb
      obtain ⟨s, hs, rfl⟩ := List.mem_map.mp ha
      have := List.findIdx?_eq_none_iff.mp hf s hs
      rw [hab, hb, setEquals_refl] at this
      simp at this
    · refine ⟨⟨r.cfgs, r.acc, []⟩, r, ?_, hi, rfl⟩
      show (D.states ++ [_])[D.states.length]? = _
      simp

theorem addEdge_get (D : Dfa) (k c : Nat) (to : Option Nat) (hc : c ≤ 127) (j : Nat) :
    (D.addEdge k (some c) to).states[j]? = (D.states[j]?).map fun s => if k = j then { s with edges := (c, to) :: s.edges } else s := by
  simp only [Dfa.addEdge, if_pos hc, List.getElem?_modify]
  by_cases h : k = j
  · simp [h]
  · simp [h]

theorem addEdge_spec {D : Dfa} (hD : DfaOk D) {k i : Nat} {r : Row} (hk : Holds D k i) (hi : table.get i = some r) (t to : Option Nat)
    (ha : Agree D to (nextOf r t)) : DfaOk (D.addEdge k t to) ∧ Grows D (D.addEdge k t to) ∧ (D.addEdge k t to).s0 = D.s0 := by
  match t with
  | none => exact ⟨hD, Grows.refl D, rfl⟩
  | some c =>
    by_cases hc : c ≤ 127
    · have hg : Grows D (D.addEdge k (some c) to) := by
        intro j i ⟨s, r, h1, h2, h3⟩
        refine ⟨_, r, (addEdge_get D k c to hc j).trans (by rw [h1]; rfl), h2, ?_⟩
        split <;> exact h3
      have hs : (D.addEdge k (some c) to).s0 = D.s0 := by simp only [Dfa.addEdge, if_pos hc]
      refine ⟨⟨?_, ?_, ?_⟩, hg, hs⟩
      · intro j s h
        rw [addEdge_get D k c to hc j] at h
        match hj : D.states[j]? with
        | none => rw [hj] at h; cases h
        | some s' =>
          rw [hj] at h
          simp only [Option.map_some, Option.some.injEq] at h
          have ok := hD.states j s' hj
          by_cases hkj : k = j
          · subst hkj
            rw [if_pos rfl] at h
            obtain ⟨i', r', h1, h2, h3, h4⟩ := ok
            have : i = i' := holds_unique hk ⟨s', r', hj, h1, h2⟩
            subst this
            rw [hi] at h1
            cases h1
            subst h
            refine ⟨i, r, hi, h2, h3, ?_⟩
            intro d t hd
            simp only [List.lookup_cons] at hd
            split at hd
            · rename_i e
              have e : d = c := by simpa using e
              subst e
              cases hd
              exact ha.grows hg
            · exact (h4 d t hd).grows hg
          · rw [if_neg hkj] at h
            subst h
            exact ok.grows hg
      · intro j hj
        rw [hs] at hj
        exact hg _ _ (hD.start j hj)
      · have he : (D.addEdge k (some c) to).states.map DState.configs = D.states.map DState.configs := by
          apply List.ext_getElem?
          intro j
          rw [List.getElem?_map, List.getElem?_map, addEdge_get D k c to hc j]
          cases D.states[j]? with
          | none => rfl
          | some s =>
            simp only [Option.map_some]
            split <;> rfl
        rw [he]
        exact hD.nodup
    · have : D.addEdge k (some c) to = D := by simp only [Dfa.addEdge, if_neg hc]
      rw [this]
      exact ⟨hD, Grows.refl D, rfl⟩

/-- The code points of characters, and EOF. -/
def Symbol : Option Nat → Prop
  | none => True
  | some c => c ≤ maxChar

theorem reach_next {i : Nat} {r : Row} (hi : table.get i = some r) (t : Option Nat) (ht : Symbol t) :
    lexerNet.reach r.cfgs t = cfgsOf table (nextOf r t) := by
  match t with
  | none => exact row_eof hi
  | some c => exact row_reach hi c ht

/-- The targets in the table are states of the table. -/
theorem reach_cases {i : Nat} {r : Row} (hi : table.get i = some r) (t : Option Nat) (ht : Symbol t) :
    (nextOf r t = none ∧ lexerNet.reach r.cfgs t = some []) ∨
    ∃ j q, nextOf r t = some j ∧ table.get j = some q ∧ lexerNet.reach r.cfgs t = some q.cfgs := by
  have h := reach_next hi t ht
  match hn : nextOf r t with
  | none => rw [hn] at h; exact Or.inl ⟨rfl, h⟩
  | some j =>
    match t, hn with
    | some c, hn =>
      obtain ⟨q, hq⟩ := row_target hi c j hn
      refine Or.inr ⟨j, q, rfl, hq, ?_⟩
      rw [h]
      have hn : nextOf r (some c) = some j := hn
      rw [hn]
      simp only [cfgsOf, hq, Option.map_some]

theorem computeTarget_spec {D : Dfa} (hD : DfaOk D) {k i : Nat} {r : Row} (hk : Holds D k i) (hi : table.get i = some r) (t : Option Nat) (ht : Symbol t) :
    ∃ E o, lexerNet.computeTarget D k t = some (E, o) ∧ DfaOk E ∧ Grows D E ∧ E.s0 = D.s0 ∧ Agree E o (nextOf r t) := by
  obtain ⟨s, r', h1, h2, h3⟩ := id hk
  rw [hi] at h2
  cases h2
  unfold Net.computeTarget
  rw [h1]
  dsimp only
  rw [h3]
  rcases reach_cases hi t ht with ⟨hn, hr⟩ | ⟨j, q, hn, hq, hr⟩
  · rw [hr]
    obtain ⟨a, b, c⟩ := addEdge_spec hD hk hi t none (by rw [hn]; trivial)
    exact ⟨_, _, rfl, a, b, c, by rw [hn]; trivial⟩
  · rw [hr]
    obtain ⟨E, m, e, hE, hg, hm, hs⟩ := addState_spec hD hq
    match hc : q.cfgs with
    | [] => exact absurd hc (row_ne hq)
    | x :: xs =>
      rw [hc] at e
      dsimp only
      rw [e]
      have ha : Agree E (some m) (nextOf r t) := by rw [hn]; exact hm
      obtain ⟨a, b, c⟩ := addEdge_spec hE (hg _ _ hk) hi t (some m) ha
      exact ⟨_, _, rfl, a, hg.trans b, c.trans hs, ha.grows b⟩

theorem target_spec {D : Dfa} (hD : DfaOk D) {k i : Nat} {r : Row} (hk : Holds D k i) (hi : table.get i = some r) (t : Option Nat) (ht : Symbol t) :
    ∃ E o, lexerNet.target D k t = some (E, o) ∧ DfaOk E ∧ Grows D E ∧ E.s0 = D.s0 ∧ Agree E o (nextOf r t) := by
  unfold Net.target
  match he : D.existing k t with
  | none => exact computeTarget_spec hD hk hi t ht
  | some o =>
    refine ⟨D, o, rfl, hD, Grows.refl D, rfl, ?_⟩
    unfold Dfa.existing at he
    match t, he with
    | some c, he =>
      dsimp only at he
      split at he
      · obtain ⟨s, r', h1, h2, h3⟩ := id hk
        rw [h1] at he
        dsimp only at he
        obtain ⟨i', q, g1, g2, g3, g4⟩ := hD.states k s h1
        have : i = i' := holds_unique hk ⟨s, q, h1, g1, g2⟩
        subst this
        rw [hi] at g1
        cases g1
        exact g4 c o he
      · cases he

/-! ## Runs -/

/-- The target of a character. -/
def next (i : Nat) (c : Char) : Option Nat :=
  match table.get i with
  | none => none
  | some r => nextIn r.edges c.toNat

/-- What is accepted in a state. -/
def accOf (i : Nat) : Option (Nat × Option (List Action)) :=
  match table.get i with
  | none => none
  | some r => r.acc

/-- What is accepted after a step to the state `j`, with the text `s` to come. -/
def accept (j : Nat) (s : Str) (prev : Option Accept) : Option Accept :=
  match accOf j with
  | none => prev
  | some (t, e) => some ⟨s, t, e⟩

/-- A run through the table: what was accepted last, and what is left at the end. -/
def run : Nat → Str → Option Accept → Option Accept × Str
  | _, [], prev => (prev, [])
  | i, c :: s, prev =>
    match next i c with
    | none => (prev, c :: s)
    | some j => run j s (accept j s prev)

theorem char_le (c : Char) : c.toNat ≤ maxChar := by
  have := c.valid
  simp only [UInt32.isValidChar, Nat.isValidChar] at this
  simp only [maxChar]
  show c.val.toNat ≤ _
  omega

theorem holds_state {D : Dfa} (hD : DfaOk D) {k i : Nat} {r : Row} (hk : Holds D k i) (hi : table.get i = some r) :
    ∃ s, D.states[k]? = some s ∧ s.accept = r.acc := by
  obtain ⟨s, r', h1, h2, h3⟩ := id hk
  obtain ⟨i', q, g1, g2, g3, _⟩ := hD.states k s h1
  have : i = i' := holds_unique hk ⟨s, q, h1, g1, g2⟩
  subst this
  rw [hi] at g1
  cases g1
  exact ⟨s, h1, g3⟩

theorem execLoop_spec : ∀ (s : Str) (n : Nat) (D : Dfa) (k i : Nat) (prev : Option Accept), s.length < n → DfaOk D → Holds D k i →
    ∃ E, lexerNet.execLoop n D k s prev = some (E, run i s prev) ∧ DfaOk E ∧ Grows D E ∧ E.s0 = D.s0
  | [], n + 1, D, k, i, prev, _, hD, hk => by
    obtain ⟨_, r, _, hi, _⟩ := id hk
    obtain ⟨E, o, he, hE, hg, hs, ha⟩ := target_spec hD hk hi none trivial
    unfold Net.execLoop
    simp only [List.head?_nil, Option.map_none, he]
    match o, ha with
    | none, _ => exact ⟨E, rfl, hE, hg, hs⟩
  | c :: s, n + 1, D, k, i, prev, hn, hD, hk => by
    obtain ⟨_, r, _, hi, _⟩ := id hk
    obtain ⟨E, o, he, hE, hg, hs, ha⟩ := target_spec hD hk hi (some c.toNat) (char_le c)
    have hnx : next i c = nextOf r (some c.toNat) := by simp only [next, hi, nextOf]
    unfold Net.execLoop
    simp only [List.head?_cons, Option.map_some, he, run, hnx]
    match o, ha, hm : nextOf r (some c.toNat) with
    | none, ha, none => exact ⟨E, rfl, hE, hg, hs⟩
    | some j, ha, some m =>
      rw [hm] at ha
      obtain ⟨_, q, _, hq, _⟩ := id ha
      obtain ⟨ds, hds, hacc⟩ := holds_state hE ha hq
      simp only [hds, hacc, List.tail_cons, List.isEmpty_cons]
      have hac : accOf m = q.acc := by simp only [accOf, hq]
      simp only [List.length_cons] at hn
      match hqa : q.acc with
      | none =>
        obtain ⟨F, hf, hF, hg', hs'⟩ := execLoop_spec s n E j m prev (by omega) hE ha
        refine ⟨F, ?_, hF, hg.trans hg', hs'.trans hs⟩
        simp only [accept, hac, hqa]
        exact hf
      | some (t, e) =>
        obtain ⟨F, hf, hF, hg', hs'⟩ := execLoop_spec s n E j m (some ⟨s, t, e⟩) (by omega) hE ha
        refine ⟨F, ?_, hF, hg.trans hg', hs'.trans hs⟩
        simp only [accept, hac, hqa]
        exact hf
    | none, ha, some m => rw [hm] at ha; exact absurd ha id
    | some j, ha, none => rw [hm] at ha; exact absurd ha id

theorem exec_spec {D : Dfa} {k : Nat} (hD : DfaOk D) (hk : Holds D k 0) (h0 : accOf 0 = none) (s : Str) :
    ∃ E, lexerNet.exec D k s = some (E, run 0 s none) ∧ DfaOk E := by
  obtain ⟨_, r, _, hi, _⟩ := id hk
  obtain ⟨ds, hds, hacc⟩ := holds_state hD hk hi
  obtain ⟨E, he, hE, _, _⟩ := execLoop_spec s (s.length + 2) D k 0 none (by omega) hD hk
  refine ⟨E, ?_, hE⟩
  unfold Net.exec
  have : r.acc = none := by simpa only [accOf, hi] using h0
  rw [hds]
  dsimp only
  rw [hacc, this]
  exact he

end Verif.Lemmas.Gen.Antlr
