import Verif.Model.Gen.Antlr.Predict
import Verif.Lemmas.Gen.Antlr.PredCode
/-!
# The simulation with context, below which nothing is known

The second simulation of a prediction is repeated with contexts whose empty stack stands for an unknown one; it fails where it would depend on that
(`sReach`).  If it does not fail, then the simulation does the same with any stack in this place.
-/
namespace Verif.Lemmas.Gen.Antlr.Pred
open Verif.Model.Gen Verif.Model.Gen.Antlr Verif.Model.Gen.Antlr.Pred Verif.Spec.Gen Verif.Lemmas.Gen.Antlr

/-! ## A stack in place of the empty one -/

/-- In the place of the alternatives after the first one, `empty` is the end of the list. -/
def subM (T : PCtx) : PCtx → PCtx
  | .empty => .empty
  | .cons r p m => .cons r (if p = .empty then T else subM T p) (subM T m)

def sub (T p : PCtx) : PCtx := if p = .empty then T else subM T p

theorem sub_empty (T : PCtx) : sub T .empty = T := if_pos rfl

theorem sub_cons (T : PCtx) (r : Nat) (p m : PCtx) : sub T (.cons r p m) = .cons r (sub T p) (subM T m) := by
  unfold sub
  rw [if_neg (by simp)]
  rfl

theorem subM_cons (T : PCtx) (r : Nat) (p m : PCtx) : subM T (.cons r p m) = .cons r (sub T p) (subM T m) := rfl

def size : PCtx → Nat
  | .empty => 0
  | .cons _ p m => size p + size m + 1

theorem size_sub (T : PCtx) : ∀ p, size T ≤ size (sub T p)
  | .empty => by rw [sub_empty]; exact Nat.le_refl _
  | .cons r p m => by
    rw [sub_cons]
    have := size_sub T p
    simp only [size]
    omega

theorem sub_ne (T : PCtx) (r : Nat) (p m : PCtx) : T ≠ sub T (.cons r p m) := by
  intro h
  have h1 := congrArg size h
  rw [sub_cons] at h1
  have := size_sub T p
  simp only [size] at h1
  omega

mutual
theorem sub_inj (T : PCtx) : ∀ a b, sub T a = sub T b → a = b
  | .empty, .empty, _ => rfl
  | .empty, .cons r p m, h => by
    rw [sub_empty] at h
    exact absurd h (sub_ne T r p m)
  | .cons r p m, .empty, h => by
    rw [sub_empty] at h
    exact absurd h.symm (sub_ne T r p m)
  | .cons r p m, .cons s q n, h => by
    rw [sub_cons, sub_cons] at h
    injection h with h1 h2 h3
    rw [h1, sub_inj T p q h2, subM_inj T m n h3]
theorem subM_inj (T : PCtx) : ∀ a b, subM T a = subM T b → a = b
  | .empty, .empty, _ => rfl
  | .empty, .cons r p m, h => by cases h
  | .cons r p m, .empty, h => by cases h
  | .cons r p m, .cons s q n, h => by
    rw [subM_cons, subM_cons] at h
    injection h with h1 h2 h3
    rw [h1, sub_inj T p q h2, subM_inj T m n h3]
end

theorem sub_iff (T a b : PCtx) : sub T a = sub T b ↔ a = b := ⟨sub_inj T a b, fun h => by rw [h]⟩

theorem sub_of_ne {T a : PCtx} (h : a.isEmpty = false) : sub T a = subM T a := by
  cases a with
  | empty => cases h
  | cons r p m => rw [sub_cons, subM_cons]

theorem sub_isEmpty {T a : PCtx} (h : a.isEmpty = false) : (sub T a).isEmpty = false := by
  cases a with
  | empty => cases h
  | cons r p m => rw [sub_cons]; rfl

/-! ## Merging -/

def sMergeRow (ra : Nat) (pa : PCtx) (fp fm : PCtx → Option PCtx) (a : PCtx) : PCtx → Option PCtx
  | .empty => some a
  | .cons rb pb mb =>
    if ra = rb then
      match (if pa = pb then some pa else if pa.isEmpty || pb.isEmpty then none else fp pb) with
      | none => none
      | some p =>
        match fm mb with
        | none => none
        | some m => some (.cons ra p m)
    else if ra < rb then
      match fm (.cons rb pb mb) with
      | none => none
      | some m => some (.cons ra pa m)
    else
      match sMergeRow ra pa fp fm a mb with
      | none => none
      | some m => some (.cons rb pb m)

def sMergeArrays : PCtx → PCtx → Option PCtx
  | .empty => fun b => some b
  | .cons ra pa ma => sMergeRow ra pa (sMergeArrays pa) (sMergeArrays ma) (.cons ra pa ma)

def sMerge (a b : PCtx) : Option PCtx := if a = b then some a else if a.isEmpty || b.isEmpty then none else sMergeArrays a b

theorem sMergeRow_spec (T : PCtx) {ra : Nat} {pa : PCtx} {fp fm : PCtx → Option PCtx} {gp gm : PCtx → PCtx} {a : PCtx}
    (hp : pa.isEmpty = false → ∀ b c, fp b = some c → gp (subM T b) = sub T c)
    (hm : ∀ b c, fm b = some c → gm (subM T b) = subM T c) : ∀ b c, sMergeRow ra pa fp fm a b = some c →
    mergeRow false ra (sub T pa) gp gm (subM T a) (subM T b) = subM T c
  | .empty, c, h => by
    cases h
    rfl
  | .cons rb pb mb, c, h => by
    rw [subM_cons]
    unfold sMergeRow at h
    unfold mergeRow
    split at h
    · next hr =>
      rw [if_pos hr]
      split at h
      · cases h
      · next p hpq =>
        split at h
        · cases h
        · next m hmm =>
          cases h
          rw [subM_cons, hm _ _ hmm]
          congr 1
          split at hpq
          · next e =>
            cases hpq
            rw [if_pos (by rw [e])]
          · next e =>
            rw [if_neg (fun h => e ((sub_iff T _ _).1 h))]
            split at hpq
            · cases hpq
            · next e2 =>
              simp only [Bool.or_eq_true, not_or, Bool.not_eq_true] at e2
              rw [if_neg (by simp), sub_of_ne e2.2]
              exact hp e2.1 _ _ hpq
    · next hr =>
      rw [if_neg hr]
      split at h
      · next hl =>
        rw [if_pos hl]
        split at h
        · cases h
        · next m hmm =>
          cases h
          rw [subM_cons, ← subM_cons T rb pb mb, hm _ _ hmm]
      · next hl =>
        rw [if_neg hl]
        split at h
        · cases h
        · next m hmm =>
          cases h
          rw [subM_cons, sMergeRow_spec T hp hm mb m hmm]

theorem sMergeRow_ne {ra : Nat} {pa : PCtx} {fp fm : PCtx → Option PCtx} {a : PCtx} (ha : a.isEmpty = false) : ∀ b c, sMergeRow ra pa fp fm a b = some c → c.isEmpty = false
  | .empty, c, h => by
    cases h
    exact ha
  | .cons rb pb mb, c, h => by
    unfold sMergeRow at h
    split at h
    · split at h
      · cases h
      · split at h <;> cases h
        rfl
    · split at h
      · split at h <;> cases h
        rfl
      · split at h <;> cases h
        rfl

theorem sMergeArrays_spec (T : PCtx) : ∀ a b c, sMergeArrays a b = some c → mergeArrays false (subM T a) (subM T b) = subM T c
  | .empty, b, c, h => by
    cases h
    rfl
  | .cons ra pa ma, b, c, h => by
    rw [subM_cons]
    refine sMergeRow_spec T (fun he b c h => ?_) (fun b c h => sMergeArrays_spec T ma b c h) b c h
    rw [sub_of_ne he, sMergeArrays_spec T pa b c h]
    refine (sub_of_ne ?_).symm
    cases pa with
    | empty => cases he
    | cons => exact sMergeRow_ne rfl b c h

theorem sMerge_spec (T : PCtx) {a b c : PCtx} (h : sMerge a b = some c) : mergeCtx false (sub T a) (sub T b) = sub T c := by
  unfold sMerge at h
  unfold mergeCtx
  split at h
  · next e =>
    cases h
    rw [if_pos (by rw [e])]
  · next e =>
    rw [if_neg (fun h => e ((sub_iff T _ _).1 h)), if_neg (by simp)]
    split at h
    · cases h
    · next e2 =>
      simp only [Bool.or_eq_true, not_or, Bool.not_eq_true] at e2
      rw [sub_of_ne e2.1, sub_of_ne e2.2, sMergeArrays_spec T a b c h]
      refine (sub_of_ne ?_).symm
      cases a with
      | empty => cases e2.1
      | cons => exact sMergeRow_ne rfl b c h

/-! ## Sets of configurations -/

def subC (T : PCtx) (c : PCfg) : PCfg := { c with ctx := sub T c.ctx }

def subS (T : PCtx) (s : PSet) : PSet := { s with cfgs := s.cfgs.map (subC T) }

def sAddCfg (c : PCfg) : List PCfg → Option (List PCfg)
  | [] => some [c]
  | e :: r =>
    if e.state = c.state ∧ e.alt = c.alt then
      match sMerge e.ctx c.ctx with
      | none => none
      | some x => some ({ e with ctx := x, up := max e.up c.up } :: r)
    else
      match sAddCfg c r with
      | none => none
      | some r => some (e :: r)

def sAdd (s : PSet) (c : PCfg) : Option PSet :=
  match sAddCfg c s.cfgs with
  | none => none
  | some l => some ⟨l, s.dips || decide (0 < c.up)⟩

theorem sAddCfg_spec (T : PCtx) (c : PCfg) : ∀ l l', sAddCfg c l = some l' → Pred.addCfg true (subC T c) (l.map (subC T)) = l'.map (subC T)
  | [], l', h => by
    cases h
    rfl
  | e :: r, l', h => by
    unfold sAddCfg at h
    rw [List.map_cons]
    unfold Pred.addCfg
    split at h
    · next he =>
      rw [if_pos (by exact he)]
      split at h
      · cases h
      · next x hx =>
        cases h
        rw [List.map_cons]
        have := sMerge_spec T hx
        simp only [subC, Bool.not_true, this]
    · next he =>
      rw [if_neg (by exact he)]
      split at h
      · cases h
      · next r' hr =>
        cases h
        rw [List.map_cons, sAddCfg_spec T c r r' hr]

theorem sAdd_spec (T : PCtx) {s s' : PSet} {c : PCfg} (h : sAdd s c = some s') : (subS T s).add true (subC T c) = subS T s' := by
  unfold sAdd at h
  split at h
  · cases h
  · next l hl =>
    cases h
    simp only [PSet.add, subS, sAddCfg_spec T c _ _ hl]
    rfl

/-! ## Closure -/

def sClosure (N : PNet) : Nat → List (Via × PCfg) → PSet → Option PSet
  | _, [], s => some s
  | 0, _ :: _, _ => none
  | n + 1, (v, c) :: todo, s =>
    if v ≠ .plain then none
    else
      match N.states c.state with
      | none => none
      | some q =>
        if q.isStop then if c.ctx.isEmpty then none else sClosure N n (returns c c.ctx todo) s
        else if q.epsOnly then sClosure N n (q.trans.filterMap (epsTarget false false c) ++ todo) s
        else
          match sAdd s c with
          | none => none
          | some s => sClosure N n (q.trans.filterMap (epsTarget false false c) ++ todo) s

def subV (T : PCtx) (x : Via × PCfg) : Via × PCfg := (x.1, subC T x.2)

theorem returns_sub (T : PCtx) (c : PCfg) : ∀ (p : PCtx) (todo : List (Via × PCfg)), returns (subC T c) (subM T p) (todo.map (subV T)) = (returns c p todo).map (subV T)
  | .empty, todo => rfl
  | .cons r p m, todo => by
    rw [subM_cons]
    unfold returns
    exact returns_sub T c m ((.plain, ⟨r, c.alt, p, c.up⟩) :: todo)

theorem eps_sub (T : PCtx) (c : PCfg) (t : Trans) : epsTarget false false (subC T c) t = (epsTarget false false c t).map (subV T) := by
  cases t with
  | rule b f _ _ =>
    simp only [epsTarget, Option.map_some, subV, subC, sub_cons]
    rfl
  | _ =>
    simp only [epsTarget]
    split
    · rfl
    · simp

theorem epss_sub (T : PCtx) (c : PCfg) (l : List Trans) : l.filterMap (epsTarget false false (subC T c)) = (l.filterMap (epsTarget false false c)).map (subV T) := by
  rw [List.map_filterMap]
  exact congrArg (fun f => List.filterMap f l) (funext (eps_sub T c))

theorem closure_plain (N : PNet) (n : Nat) (c : PCfg) (todo : List (Via × PCfg)) (busy : List PCfg) (s : PSet) {q : State} (hq : N.states c.state = some q) :
    closure N true false (n + 1) ((.plain, c) :: todo) busy s =
      if q.isStop && !c.ctx.isEmpty then closure N true false n (returns c c.ctx todo) busy s
      else if q.isStop && true then closure N true false n todo busy (s.add true c)
      else closure N true false n (q.trans.filterMap (epsTarget false q.isStop c) ++ todo) busy (if q.epsOnly then s else s.add true c) := by
  rw [closure, if_neg (by simp)]
  simp only [hq]
  rfl

theorem sClosure_spec (N : PNet) (T : PCtx) : ∀ (n : Nat) (todo : List (Via × PCfg)) (s s' : PSet), sClosure N n todo s = some s' →
    closure N true false n (todo.map (subV T)) [] (subS T s) = some ([], subS T s')
  | n, [], s, s', h => by
    unfold sClosure at h
    cases h
    unfold closure
    rfl
  | 0, _ :: _, s, s', h => by cases h
  | n + 1, (v, c) :: todo, s, s', h => by
    unfold sClosure at h
    split at h
    · cases h
    · next hv =>
      rw [Decidable.not_not] at hv
      subst hv
      rw [List.map_cons]
      split at h
      · cases h
      · next q hq =>
        refine (closure_plain N n (subC T c) (todo.map (subV T)) [] (subS T s) hq).trans ?_
        split at h
        · next hs =>
          split at h
          · cases h
          · next he =>
            rw [Bool.not_eq_true] at he
            have : (subC T c).ctx.isEmpty = false := sub_isEmpty he
            rw [if_pos (by rw [hs, this]; rfl)]
            have h1 : returns (subC T c) (subC T c).ctx (todo.map (subV T)) = (returns c c.ctx todo).map (subV T) := by
              rw [show (subC T c).ctx = subM T c.ctx from sub_of_ne he]
              exact returns_sub T c c.ctx todo
            have := sClosure_spec N T n _ _ _ h
            rw [← h1] at this
            exact this
        · next hs =>
          rw [Bool.not_eq_true] at hs
          rw [if_neg (by rw [hs]; simp), if_neg (by rw [hs]; simp), hs]
          have h1 := epss_sub T c q.trans
          split at h
          · next he =>
            rw [if_pos he]
            have := sClosure_spec N T n _ _ _ h
            rw [List.map_append, ← h1] at this
            exact this
          · next he =>
            rw [if_neg he]
            split at h
            · cases h
            · next s₂ hs₂ =>
              rw [sAdd_spec T hs₂]
              have := sClosure_spec N T n _ _ _ h
              rw [List.map_append, ← h1] at this
              exact this

def sStartAlts (N : PNet) (n : Nat) (ctx : PCtx) : Nat → List Trans → PSet → Option PSet
  | _, [], s => some s
  | i, t :: ts, s =>
    match sClosure N n [(.plain, ⟨t.target, i, ctx, 0⟩)] s with
    | none => none
    | some s => sStartAlts N n ctx (i + 1) ts s

theorem sStartAlts_spec (N : PNet) (n : Nat) (T ctx : PCtx) : ∀ (i : Nat) (l : List Trans) (s s' : PSet), sStartAlts N n ctx i l s = some s' →
    startAlts N n true (sub T ctx) i l (subS T s) = some (subS T s')
  | i, [], s, s', h => by
    cases h
    rfl
  | i, t :: ts, s, s', h => by
    unfold sStartAlts at h
    split at h
    · cases h
    · next s₂ hs =>
      unfold startAlts
      have := sClosure_spec N T n _ _ _ hs
      rw [show ([(.plain, ⟨t.target, i, ctx, 0⟩)] : List (Via × PCfg)).map (subV T) = [(.plain, ⟨t.target, i, sub T ctx, 0⟩)] from rfl] at this
      rw [this]
      exact sStartAlts_spec N n T ctx _ ts _ _ h

def sStart (N : PNet) (n d : Nat) (ctx : PCtx) : Option PSet :=
  match N.decision d with
  | none => none
  | some s =>
    match N.states s with
    | none => none
    | some q => sStartAlts N n ctx 1 q.trans {}

theorem sStart_spec {N : PNet} {n d : Nat} (T : PCtx) {ctx : PCtx} {s : PSet} (h : sStart N n d ctx = some s) : startSet N n true d (sub T ctx) = some (subS T s) := by
  unfold sStart at h
  unfold startSet
  split at h
  · cases h
  · next x hx =>
    split at h
    · cases h
    · next q hq =>
      simp only [hx, hq]
      exact sStartAlts_spec N n T ctx 1 q.trans {} s h

/-! ## Reading a token -/

def sMoveOne (max t : Nat) (c : PCfg) : List Trans → PSet → Option PSet
  | [], s => some s
  | x :: l, s =>
    if x.matches 0 max (sym t) then
      match sAdd s { c with state := x.target } with
      | none => none
      | some s => sMoveOne max t c l s
    else sMoveOne max t c l s

def sMoved (N : PNet) (t : Nat) : List PCfg → PSet → Option PSet
  | [], s => some s
  | c :: cs, s =>
    match N.states c.state with
    | none => none
    | some q =>
      if q.isStop then none
      else
        match sMoveOne N.max t c q.trans s with
        | none => none
        | some s => sMoved N t cs s

theorem sMoveOne_spec (T : PCtx) {max t : Nat} {c : PCfg} : ∀ (l : List Trans) (s s' : PSet), sMoveOne max t c l s = some s' →
    l.foldl (fun s x => if x.matches 0 max (sym t) then s.add true { subC T c with state := x.target } else s) (subS T s) = subS T s'
  | [], s, s', h => by
    cases h
    rfl
  | x :: l, s, s', h => by
    unfold sMoveOne at h
    rw [List.foldl_cons]
    split at h
    · next hx =>
      rw [if_pos hx]
      split at h
      · cases h
      · next s₂ hs =>
        have := sAdd_spec T hs
        rw [show ({ subC T c with state := x.target } : PCfg) = subC T { c with state := x.target } from rfl, this]
        exact sMoveOne_spec T l _ _ h
    · next hx =>
      rw [if_neg hx]
      exact sMoveOne_spec T l _ _ h

theorem sMoved_spec (T : PCtx) {N : PNet} {t : Nat} : ∀ (cs : List PCfg) (s s' : PSet), sMoved N t cs s = some s' →
    moved N true t (cs.map (subC T)) (subS T s) [] = some (subS T s', [])
  | [], s, s', h => by
    cases h
    rfl
  | c :: cs, s, s', h => by
    unfold sMoved at h
    rw [List.map_cons]
    unfold moved
    simp only [show (subC T c).state = c.state from rfl]
    split at h
    · cases h
    · next q hq =>
      simp only [hq]
      split at h
      · cases h
      · next hs =>
        rw [if_neg hs]
        split at h
        · cases h
        · next s₂ hs₂ =>
          rw [sMoveOne_spec T _ _ _ hs₂]
          exact sMoved_spec T cs _ _ h

def sClosureAll (N : PNet) (n : Nat) : List PCfg → PSet → Option PSet
  | [], s => some s
  | c :: cs, s =>
    match sClosure N n [(.plain, c)] s with
    | none => none
    | some s => sClosureAll N n cs s

theorem sClosureAll_spec (T : PCtx) {N : PNet} {n : Nat} : ∀ (cs : List PCfg) (s s' : PSet), sClosureAll N n cs s = some s' →
    closureAll N n true false (cs.map (subC T)) [] (subS T s) = some (subS T s')
  | [], s, s', h => by
    cases h
    rfl
  | c :: cs, s, s', h => by
    unfold sClosureAll at h
    split at h
    · cases h
    · next s₂ hs =>
      rw [List.map_cons]
      unfold closureAll
      have := sClosure_spec N T n _ _ _ hs
      rw [show ([(.plain, c)] : List (Via × PCfg)).map (subV T) = [(.plain, subC T c)] from rfl] at this
      rw [this]
      exact sClosureAll_spec T cs _ _ h

theorem uniqueAlt_sub (T : PCtx) (cs : List PCfg) : uniqueAlt (cs.map (subC T)) = uniqueAlt cs := by
  cases cs with
  | nil => rfl
  | cons c cs =>
    unfold uniqueAlt
    rw [List.map_cons]
    simp only [List.all_map]
    rfl

def sReach (N : PNet) (n : Nat) (s : PSet) (t : Nat) : Option PSet :=
  match sMoved N t s.cfgs {} with
  | none => none
  | some inter => if inter.cfgs.length == 1 || uniqueAlt inter.cfgs != 0 then some inter else sClosureAll N n inter.cfgs {}

theorem sReach_spec (T : PCtx) {N : PNet} {n : Nat} {s r : PSet} {t : Nat} (ht : t ≠ 0) (h : sReach N n s t = some r) :
    reachSet N n true (subS T s) t = some (if r.cfgs.isEmpty then none else some (subS T r)) := by
  unfold sReach at h
  unfold reachSet
  split at h
  · cases h
  · next inter hi =>
    have h0 := sMoved_spec T _ _ _ hi
    rw [show (subS T s).cfgs = s.cfgs.map (subC T) from rfl, show (({} : PSet)) = subS T {} from rfl, h0]
    have ht' : (t == 0) = false := by simpa using ht
    have hlen : (subS T inter).cfgs.length = inter.cfgs.length := by simp [subS]
    have hu : uniqueAlt (subS T inter).cfgs = uniqueAlt inter.cfgs := uniqueAlt_sub T _
    simp only [List.isEmpty_nil, Bool.true_and, bne, ht', Bool.not_false, hlen, hu, if_neg ht, Bool.not_true, Bool.false_and]
    have fin : ∀ x : PSet, (some (if (subS T x).cfgs.isEmpty then none else some (subS T x)) : Option (Option PSet)) =
        some (if x.cfgs.isEmpty then none else some (subS T x)) := by
      intro x
      rw [show (subS T x).cfgs.isEmpty = x.cfgs.isEmpty by simp [subS]]
    split at h
    · next hc =>
      cases h
      rw [if_pos (by simpa [bne] using hc)]
      exact fin _
    · next hc =>
      rw [if_neg (by simpa [bne] using hc)]
      have := sClosureAll_spec T _ _ _ h
      rw [show (subS T inter).cfgs = inter.cfgs.map (subC T) from rfl, this]
      exact fin _

theorem addAlt_map {κ μ : Type} [DecidableEq κ] [DecidableEq μ] {f : κ → μ} (hf : ∀ a b, f a = f b → a = b) (k : κ) (i : Nat) : ∀ l : List (κ × List Nat),
    addAlt (f k) i (l.map fun p => (f p.1, p.2)) = (addAlt k i l).map fun p => (f p.1, p.2)
  | [] => rfl
  | (k', l') :: r => by
    rw [List.map_cons]
    unfold addAlt
    by_cases h : k = k'
    · subst h
      rw [if_pos rfl, if_pos rfl]
      rfl
    · rw [if_neg h, if_neg fun e => h (hf _ _ e), List.map_cons, addAlt_map hf k i r]

theorem altSubsets_sub (T : PCtx) (cs : List PCfg) : (altSubsets (cs.map (subC T))).map Prod.snd = (altSubsets cs).map Prod.snd := by
  have key : ∀ (cs : List PCfg) (m : List ((Nat × PCtx) × List Nat)),
      (cs.map (subC T)).foldl (fun m c => addAlt (c.state, c.ctx) c.alt m) (m.map fun p => ((p.1.1, sub T p.1.2), p.2)) =
      (cs.foldl (fun m c => addAlt (c.state, c.ctx) c.alt m) m).map fun p => ((p.1.1, sub T p.1.2), p.2) := by
    intro cs
    induction cs with
    | nil => intro m; rfl
    | cons c cs ih =>
      intro m
      rw [List.map_cons, List.foldl_cons, List.foldl_cons, ← ih]
      congr 1
      refine addAlt_map (f := fun p : Nat × PCtx => (p.1, sub T p.2)) ?_ (c.state, c.ctx) c.alt m
      intro a b h
      injection h with h1 h2
      exact Prod.ext h1 (sub_inj T _ _ h2)
  unfold altSubsets
  rw [show ([] : List ((Nat × PCtx) × List Nat)) = ([] : List ((Nat × PCtx) × List Nat)).map fun p => ((p.1.1, sub T p.1.2), p.2) from rfl, key,
    List.map_map]
  rfl

/-- The table of the second simulation. -/
def llStep (N : PNet) (n : Nat) (s : PSet) (t : Nat) : Option (Out PSet) :=
  match sReach N n s t with
  | none => none
  | some r =>
    if r.cfgs.isEmpty then some .err
    else if uniqueAlt r.cfgs != 0 then some (.alt (uniqueAlt r.cfgs))
    else
      match singleViable ((altSubsets r.cfgs).map Prod.snd) with
      | 0 => some (.next r)
      | i + 1 => some (.alt (i + 1))

theorem llStep_full {N : PNet} {n : Nat} {s : PSet} {t : Nat} : llStep N n s t ≠ some .full := by
  unfold llStep
  split
  · simp
  · split
    · simp
    · split
      · simp
      · split <;> simp

theorem walk_ll_full {N : PNet} {n : Nat} : ∀ (w : List PTok) (s : PSet), walk (llStep N n) s w ≠ some .full
  | [], s => by simp [walk]
  | x :: w, s => by
    unfold walk
    split
    · exact walk_ll_full w _
    · exact llStep_full

theorem execLl_walk {N : PNet} {n : Nat} (T : PCtx) {i : Nat} : ∀ (m : Nat) (w : List PTok) (s : PSet), (∀ x ∈ w, x.typ ≠ 0) → w.length < m →
    walk (llStep N n) s w = some (.alt i) → execLl N n m (subS T s) w = some i
  | 0, _, _, _, h, _ => by omega
  | m + 1, [], s, _, _, h => by cases h
  | m + 1, x :: w, s, ht, hm, h => by
    unfold walk at h
    unfold execLl
    rw [show la (x :: w) = x.typ from rfl]
    have hx := ht x List.mem_cons_self
    cases hr : sReach N n s x.typ with
    | none =>
      simp only [llStep, hr] at h
      cases h
    | some r =>
      rw [sReach_spec T hx hr]
      simp only [llStep, hr] at h
      by_cases he : r.cfgs.isEmpty
      · rw [if_pos he] at h
        cases h
      · rw [if_neg he]
        rw [if_neg he] at h
        simp only [show (subS T r).cfgs = r.cfgs.map (subC T) from rfl, uniqueAlt_sub, altSubsets_sub]
        by_cases hu : uniqueAlt r.cfgs != 0
        · rw [if_pos hu]
          rw [if_pos hu] at h
          cases h
          rfl
        · rw [if_neg hu]
          rw [if_neg hu] at h
          cases hv : singleViable ((altSubsets r.cfgs).map Prod.snd) with
          | zero =>
            simp only [hv] at h
            exact execLl_walk T m w r (fun y hy => ht y (List.mem_cons_of_mem _ hy)) (by simp only [List.length_cons] at hm; omega) h
          | succ k =>
            simp only [hv] at h
            cases h
            rfl

/-- The stack of the calls of a place, above an unknown one. -/
theorem fromRules_append {states : Nat → Option State} {T : PCtx} : ∀ {cs ctx : List Nat} {c : PCtx}, fromRules states cs = some c → fromRules states ctx = some T →
    fromRules states (cs ++ ctx) = some (sub T c)
  | [], ctx, c, h, hT => by
    cases h
    rw [sub_empty]
    exact hT
  | s :: cs, ctx, c, h, hT => by
    unfold fromRules at h
    rw [List.cons_append]
    unfold fromRules
    cases hp : fromRules states cs with
    | none =>
      rw [hp] at h
      cases h
    | some p =>
      rw [fromRules_append hp hT]
      rw [hp] at h
      cases hq : states s with
      | none =>
        simp only [hq] at h
        cases h
      | some q =>
        simp only [hq] at h ⊢
        split at h
        · next b f x y l ht =>
          cases h
          simp only [ht, sub_cons]
          rfl
        · cases h

end Verif.Lemmas.Gen.Antlr.Pred
