import Verif.Lemmas.Gen.Antlr.ParserTree
import Verif.Lemmas.Gen.Antlr.PredSites
import Verif.Lemmas.Gen.Antlr.PredFull
import Verif.Lemmas.Gen.Antlr.PredCache
/-!
# Checks of the predictions of a decision

`sllOk`, `llOk`: the tables of the two simulations are right about a place where the decision is made, checked for sets of configurations that are reached by
some words of tokens.  `rowsOk`: no other sets are reached.
-/
namespace Verif.Lemmas.Gen.Antlr.Pred
open Verif.Model.Gen Verif.Model.Gen.Antlr Verif.Model.Gen.Antlr.Pred Verif.Spec.Gen Verif.Lemmas.Gen.Antlr

/-- The automaton of the parser, with the states in a tree. -/
def predNet : PNet := { pnet parserAtn with states := parserTree.get }

theorem predNet_eq : pnet parserAtn = predNet := by
  unfold predNet pnet
  rw [show (fun i => parserAtn.states[i]?) = parserTree.get from funext parserAtn_get]

/-! ## Rows of the first simulation -/

def rowAt (N : PNet) (n : Nat) (s : PSet) : List Nat → Option PSet
  | [] => some s
  | t :: ts =>
    match sllStep N n s t with
    | some (.next r) => rowAt N n r ts
    | _ => none

def rowsOk (N : PNet) (n : Nat) (rows : List PSet) : Bool :=
  (rows.all fun r => (List.range (N.max + 1)).all fun t =>
    match sllStep N n r t with
    | none => false
    | some o =>
      match o with
      | .err => true
      | .next s => t != 0 && rows.contains s
      | _ => t != 0) &&
  rows.all fun r => rows.all fun s => !r.same s || decide (r = s)

theorem rowsOk_closed {N : PNet} {n : Nat} {rows : List PSet} (h : rowsOk N n rows = true) : Closed N n rows := by
  unfold rowsOk at h
  rw [Bool.and_eq_true] at h
  constructor
  · intro r hr t ht
    have h1 := List.all_eq_true.1 (List.all_eq_true.1 h.1 r hr) t (List.mem_range.2 (by omega))
    split at h1
    · cases h1
    · next o ho =>
      refine ⟨o, ho, ?_, ?_⟩
      · rintro rfl
        cases o <;> first | rfl | cases h1
      · rintro s rfl
        rw [Bool.and_eq_true] at h1
        simpa using h1.2
  · intro r hr s hs he
    have := List.all_eq_true.1 (List.all_eq_true.1 h.2 r hr) s hs
    rw [he] at this
    simpa using this

/-- The first set of a decision, and the sets that the words lead to. -/
def rowsOf (N : PNet) (n d : Nat) (words : List (List Nat)) : Option (PSet × List PSet) :=
  match startSet N n false d .empty with
  | none => none
  | some s => some (s, words.filterMap (rowAt N n s))

def decisionOk (N : PNet) (n d : Nat) (words : List (List Nat)) : Bool :=
  match rowsOf N n d words with
  | none => false
  | some (s, rows) => rows.contains s && rowsOk N n rows

theorem decisionOk_spec {N : PNet} {n d : Nat} {words : List (List Nat)} (h : decisionOk N n d words = true) :
    ∃ s rows, startSet N n false d .empty = some s ∧ s ∈ rows ∧ Closed N n rows := by
  unfold decisionOk rowsOf at h
  cases hs : startSet N n false d .empty with
  | none => rw [hs] at h; cases h
  | some s =>
    rw [hs] at h
    simp only [Bool.and_eq_true] at h
    exact ⟨s, _, rfl, by simpa using h.1, rowsOk_closed h.2⟩

/-! ## Both simulations at a place -/

def pairAt {S : Type} (G : Gram) (n : Nat) (step : S → Nat → Option (Out S)) (p : Pair S) : List Nat → Option (Pair S)
  | [] => some p
  | t :: ts =>
    match step p.s t with
    | some (.next s) =>
      match mapAll (bindAll (norm G n)) p.alts with
      | none => none
      | some ns =>
        match mapAll (bindAll (stepTok t)) ns with
        | none => none
        | some as => pairAt G n step ⟨s, as⟩ ts
    | _ => none

def siteOk {S : Type} [DecidableEq S] (G : Gram) (max d : Nat) (step : S → Nat → Option (Out S)) (s : S) (words : List (List Nat)) (p : List Code) : Bool :=
  let R := words.filterMap (pairAt G 100 step ⟨s, (G.alts d).map fun a => [a :: p]⟩)
  words.contains [] && R.all (pairOk G 100 max step R)

theorem siteOk_spec {S : Type} [DecidableEq S] {G : Gram} {max d : Nat} {step : S → Nat → Option (Out S)} {s : S} {words : List (List Nat)} {p : List Code}
    (h : siteOk G max d step s words p = true) {K : List Code} {w : List PTok} (ht : ∀ x ∈ w, 0 < x.typ ∧ x.typ ≤ max) {j : Nat} {a : Code}
    (hj : (G.alts d)[j]? = some a) (ha : Accepts G (a :: (p ++ K)) w) :
    walk step s w = some .full ∨ ∃ (i : Nat) (b : Code), walk step s w = some (.alt (i + 1)) ∧ i ≤ j ∧ (G.alts d)[i]? = some b ∧ Accepts G (b :: (p ++ K)) w := by
  unfold siteOk at h
  rw [Bool.and_eq_true] at h
  have hmem : (⟨s, (G.alts d).map fun a => [a :: p]⟩ : Pair S) ∈ words.filterMap (pairAt G 100 step ⟨s, (G.alts d).map fun a => [a :: p]⟩) :=
    List.mem_filterMap.2 ⟨[], by simpa using h.1, rfl⟩
  have h1 := walk_right h.2 K w ht _ hmem j [a :: p] (by rw [List.getElem?_map, hj]; rfl) ⟨_, List.mem_singleton.2 rfl, ha⟩
  rcases h1 with h1 | ⟨i, b, h1, h2, h3, q, hq, h4⟩
  · exact .inl h1
  · rw [List.getElem?_map] at h3
    cases hb : (G.alts d)[i]? with
    | none => rw [hb] at h3; cases h3
    | some c =>
      rw [hb] at h3
      cases h3
      rw [List.mem_singleton.1 hq] at h4
      exact .inr ⟨i, c, h1, h2, hb, h4⟩

def sllOk (N : PNet) (n d : Nat) (words : List (List Nat)) (f : List Nat × List Code) : Bool :=
  match startSet N n false d .empty with
  | none => false
  | some s => siteOk protoGram N.max d (sllStep N n) s words f.2

def llOk (N : PNet) (n d : Nat) (words : List (List Nat)) (f : List Nat × List Code) : Bool :=
  match fromRules N.states f.1 with
  | none => false
  | some c =>
    match sStart N n d c with
    | none => false
    | some s => siteOk protoGram N.max d (llStep N n) s words f.2

/-! ## Contexts -/

def callOk (N : PNet) (s : Nat) : Bool :=
  match N.states s with
  | none => false
  | some q =>
    match q.trans with
    | .rule _ _ _ _ :: _ => true
    | _ => false

def callsOk (N : PNet) : Bool :=
  (List.range 53).all fun r => (occR r).all fun x =>
    match x.1 with
    | .call s _ => callOk N s
    | _ => true

theorem context_ok {N : PNet} (h : callsOk N = true) : ∀ {ctx : List Nat} {c : Code} {K : List Code}, At protoGram codeProto ctx c K → ∃ T, fromRules N.states ctx = some T
  | [], _, _, _ => ⟨.empty, rfl⟩
  | s :: ctx, c, K, hat => by
    obtain ⟨r, p, K', -, -, hc⟩ := at_site hat
    rcases hc with ⟨-, h0, -⟩ | ⟨s', ctx', he, hc⟩
    · cases h0
    · cases he
      obtain ⟨T, hT⟩ := context_ok h hc
      obtain ⟨r', p', K'', -, hx, -⟩ := at_site hc
      have hx := hx _ (List.mem_singleton.2 rfl)
      have hr : r' < 53 := by
        by_cases hr : r' < 53
        · exact hr
        · rw [occR_none (by omega)] at hx
          cases hx
      have h1 := List.all_eq_true.1 (List.all_eq_true.1 h r' (List.mem_range.2 hr)) _ hx
      simp only [callOk] at h1
      unfold fromRules
      rw [hT]
      split at h1
      · cases h1
      · next q hq =>
        simp only [hq]
        split at h1
        · next b f x y l ht => exact ⟨.cons f T .empty, by simp only [ht]⟩
        · cases h1

/-- Predictions at the places where a decision is made. -/
theorem predict_best {N : PNet} {n d : Nat} (hN : callsOk N = true) {E : List Nat} {words llWords : List (List Nat)}
    (h1 : (sites E d).all (sllOk N n d words) = true) (h2 : (sites E d).all (llOk N n d llWords) = true)
    {ctx : List Nat} {K : List Code} (hat : At protoGram codeProto ctx (.choose d) K)
    {w : List PTok} (ht : ∀ x ∈ w, 0 < x.typ ∧ x.typ ≤ N.max) {j : Nat} {a : Code} (hj : (altsCode d)[j]? = some a) (ha : Accepts protoGram (a :: K) w) :
    ∃ s, startSet N n false d .empty = some s ∧ ∃ (i : Nat) (b : Code), i ≤ j ∧ (altsCode d)[i]? = some b ∧ Accepts protoGram (b :: K) w ∧
      (sllRun N n s w = .alt (i + 1) ∨ (sllRun N n s w = .full ∧ predictLl N n d ctx w = some (i + 1))) := by
  obtain ⟨f, hf, ctx', K', rfl, rfl⟩ := sites_spec E hat
  have g1 := List.all_eq_true.1 h1 f hf
  unfold sllOk at g1
  cases hs : startSet N n false d .empty with
  | none => rw [hs] at g1; cases g1
  | some s =>
    rw [hs] at g1
    refine ⟨s, rfl, ?_⟩
    rcases siteOk_spec g1 ht hj ha with hw | ⟨i, b, hw, h3, h4, h5⟩
    · have hfull := (sllRun_walk w s _ hw).1 rfl
      have g2 := List.all_eq_true.1 h2 f hf
      unfold llOk at g2
      split at g2
      · cases g2
      · next c hc =>
        split at g2
        · cases g2
        · next s' hs' =>
          rcases siteOk_spec g2 ht hj ha with hw' | ⟨i, b, hw', h3, h4, h5⟩
          · exact absurd hw' (walk_ll_full w s')
          · refine ⟨i, b, h3, h4, h5, .inr ⟨hfull, ?_⟩⟩
            obtain ⟨T, hT⟩ := context_ok hN hat
            have hT' : ∃ T, fromRules N.states ctx' = some T := by
              clear hat g1 g2 hc hf
              generalize f.1 = cs at hT
              induction cs generalizing T with
              | nil => exact ⟨T, hT⟩
              | cons x cs ih =>
                rw [List.cons_append] at hT
                unfold fromRules at hT
                split at hT
                · cases hT
                · next p hp => exact ih p hp
            obtain ⟨T', hT'⟩ := hT'
            unfold predictLl
            rw [fromRules_append hc hT']
            simp only [sStart_spec T' hs']
            exact execLl_walk T' _ w s' (fun x hx => by have := ht x hx; omega) (by omega) hw'
    · exact ⟨i, b, h3, h4, h5, .inl ((sllRun_walk w s _ hw).2 _ rfl)⟩

end Verif.Lemmas.Gen.Antlr.Pred
