import Verif.Lemmas.Finalize
/-! # The recursion of the two passes ends -/
namespace Verif.Lemmas
open Verif.Spec Verif.Model Verif.Model.TypeCache

/-- A type and the types it is built from. -/
def subtypes : GoType → List GoType
  | .map k v => .map k v :: (subtypes k ++ subtypes v)
  | .slice t => .slice t :: subtypes t
  | .ptr t => .ptr t :: subtypes t
  | t => [t]

theorem subtypes_self (t : GoType) : t ∈ subtypes t := by cases t <;> simp [subtypes]

theorem subtypes_kids {env : GoEnv} : ∀ {t u w : GoType}, u ∈ subtypes t → (∀ i, u ≠ .struct i) → w ∈ kids env u → w ∈ subtypes t
  | .map k v, u, w, hu, hs, hw => by
    simp only [subtypes, List.mem_cons, List.mem_append] at hu ⊢
    rcases hu with rfl | hu | hu
    · simp only [kids, List.mem_cons, List.not_mem_nil, or_false] at hw
      rcases hw with rfl | rfl
      · exact .inr (.inl (subtypes_self _))
      · exact .inr (.inr (subtypes_self _))
    · exact .inr (.inl (subtypes_kids hu hs hw))
    · exact .inr (.inr (subtypes_kids hu hs hw))
  | .slice t, u, w, hu, hs, hw => by
    simp only [subtypes, List.mem_cons] at hu ⊢
    rcases hu with rfl | hu
    · simp only [kids, List.mem_cons, List.not_mem_nil, or_false] at hw
      subst hw
      exact .inr (subtypes_self _)
    · exact .inr (subtypes_kids hu hs hw)
  | .ptr t, u, w, hu, hs, hw => by
    simp only [subtypes, List.mem_cons] at hu ⊢
    rcases hu with rfl | hu
    · simp only [kids, List.mem_cons, List.not_mem_nil, or_false] at hw
      subst hw
      exact .inr (subtypes_self _)
    · exact .inr (subtypes_kids hu hs hw)
  | .struct i, u, w, hu, hs, hw => by
    simp only [subtypes, List.mem_cons, List.not_mem_nil, or_false] at hu
    exact absurd hu (hs i)
  | .bool, u, w, hu, hs, hw => by simp only [subtypes, List.mem_cons, List.not_mem_nil, or_false] at hu; subst hu; cases hw
  | .int32, u, w, hu, hs, hw => by simp only [subtypes, List.mem_cons, List.not_mem_nil, or_false] at hu; subst hu; cases hw
  | .int64, u, w, hu, hs, hw => by simp only [subtypes, List.mem_cons, List.not_mem_nil, or_false] at hu; subst hu; cases hw
  | .uint32, u, w, hu, hs, hw => by simp only [subtypes, List.mem_cons, List.not_mem_nil, or_false] at hu; subst hu; cases hw
  | .uint64, u, w, hu, hs, hw => by simp only [subtypes, List.mem_cons, List.not_mem_nil, or_false] at hu; subst hu; cases hw
  | .float32, u, w, hu, hs, hw => by simp only [subtypes, List.mem_cons, List.not_mem_nil, or_false] at hu; subst hu; cases hw
  | .float64, u, w, hu, hs, hw => by simp only [subtypes, List.mem_cons, List.not_mem_nil, or_false] at hu; subst hu; cases hw
  | .string, u, w, hu, hs, hw => by simp only [subtypes, List.mem_cons, List.not_mem_nil, or_false] at hu; subst hu; cases hw
  | .bytes, u, w, hu, hs, hw => by simp only [subtypes, List.mem_cons, List.not_mem_nil, or_false] at hu; subst hu; cases hw
  | .iface, u, w, hu, hs, hw => by simp only [subtypes, List.mem_cons, List.not_mem_nil, or_false] at hu; subst hu; cases hw
  | .other _, u, w, hu, hs, hw => by simp only [subtypes, List.mem_cons, List.not_mem_nil, or_false] at hu; subst hu; cases hw

/-- All types that occur in the struct types. -/
def fieldTypes (env : GoEnv) : List GoType :=
  env.structs.flatMap (fun s => ((todo s).filterMap todoType).flatMap subtypes)

theorem kids_fieldTypes {env : GoEnv} {i : Nat} {t : GoType} (h : t ∈ kids env (.struct i)) : t ∈ fieldTypes env := by
  simp only [kids, decl] at h
  cases hs : env.structs[i]? with
  | none =>
    rw [List.getD_eq_getElem?_getD, hs, Option.getD_none] at h
    cases h
  | some s =>
    rw [List.getD_eq_getElem?_getD, hs, Option.getD_some] at h
    exact List.mem_flatMap.2 ⟨s, List.mem_of_getElem? hs, List.mem_flatMap.2 ⟨t, h, subtypes_self t⟩⟩

/-- The types that may be met from struct type `i`. -/
def typeUniverse (env : GoEnv) (i : Nat) : List GoType := .struct i :: fieldTypes env

theorem typeUniverse_kids {env : GoEnv} {i : Nat} {t u : GoType} (ht : t ∈ typeUniverse env i) (hu : u ∈ kids env t) : u ∈ typeUniverse env i := by
  rcases List.mem_cons.1 ht with rfl | ht
  · exact List.mem_cons_of_mem _ (kids_fieldTypes hu)
  · cases t with
    | struct j => exact List.mem_cons_of_mem _ (kids_fieldTypes hu)
    | _ =>
      obtain ⟨s, hs, ht⟩ := List.mem_flatMap.1 ht
      obtain ⟨w, hw, ht⟩ := List.mem_flatMap.1 ht
      exact List.mem_cons_of_mem _ (List.mem_flatMap.2 ⟨s, hs, List.mem_flatMap.2 ⟨w, hw, subtypes_kids ht (fun i h => by cases h) hu⟩⟩)

/-- How many have the property. -/
def cnt {α : Type} (p : α → Bool) (l : List α) : Nat := (l.filter p).length

theorem cnt_mono {α : Type} {p q : α → Bool} (h : ∀ x, q x = true → p x = true) : ∀ l, cnt q l ≤ cnt p l
  | [] => Nat.le_refl _
  | x :: l => by
    have ih := cnt_mono h l
    unfold cnt at *
    simp only [List.filter_cons]
    by_cases hq : q x = true
    · rw [if_pos hq, if_pos (h x hq)]
      exact Nat.succ_le_succ ih
    · rw [if_neg hq]
      split
      · exact Nat.le_succ_of_le ih
      · exact ih

theorem cnt_lt {α : Type} {p q : α → Bool} (h : ∀ x, q x = true → p x = true) {y : α} (hp : p y = true) (hq : q y = false) : ∀ {l : List α}, y ∈ l → cnt q l < cnt p l
  | x :: l, hy => by
    have hle := cnt_mono h l
    unfold cnt at *
    simp only [List.filter_cons]
    rcases List.mem_cons.1 hy with rfl | hy
    · rw [if_pos hp, if_neg (by rw [hq]; exact Bool.false_ne_true)]
      exact Nat.lt_succ_of_le hle
    · have ih : (List.filter q l).length < (List.filter p l).length := cnt_lt h hp hq hy
      by_cases hqx : q x = true
      · rw [if_pos hqx, if_pos (h x hqx)]
        exact Nat.succ_lt_succ ih
      · rw [if_neg hqx]
        split
        · exact Nat.lt_succ_of_lt ih
        · exact ih

theorem cnt_le_length {α : Type} (p : α → Bool) (l : List α) : cnt p l ≤ l.length := List.length_filter_le _ _

/-! ## the first pass -/

/-- Types not cached. -/
def uncached (σ : CState) (U : List GoType) : Nat := cnt (fun t => (σ.cache t).isNone) U

theorem uncached_ext {σ σ' : CState} (h : Ext σ σ') (U : List GoType) : uncached σ' U ≤ uncached σ U := by
  refine cnt_mono (fun t ht => ?_) U
  cases hc : σ.cache t with
  | none => rfl
  | some a => rw [h.cache t a hc] at ht; cases ht

theorem uncached_alloc {σ : CState} {t : GoType} (hn : σ.cache t = none) {U : List GoType} (ht : t ∈ U) : uncached (σ.alloc t) U < uncached σ U := by
  refine cnt_lt (y := t) (fun u hu => ?_) (by simp [hn]) ?_ ht
  · cases hc : σ.cache u with
    | none => rfl
    | some a => rw [(alloc_ext σ hn).cache u a hc] at hu; cases hu
  · show (if t = t then some σ.next else σ.cache t).isNone = false
    rw [if_pos rfl]
    rfl

/-- Enough fuel for the first pass. -/
abbrev Ends (env : GoEnv) (U : List GoType) (n : Nat) (rec : CState → GoType → Out Nat × CState) : Prop :=
  ∀ σ stk t, PInv env σ stk → t ∈ U → uncached σ U < n → (rec σ t).1 ≠ .fuel

theorem andThen_fuel {α β : Type} {r : Out α × CState} {f : α → CState → Out β × CState} (h : r.1 ≠ .fuel) (hf : ∀ a, r.1 = .ok a → (f a r.2).1 ≠ .fuel) :
    (andThen r f).1 ≠ .fuel := by
  obtain ⟨o, σ⟩ := r
  cases o with
  | ok a => exact hf a rfl
  | err => exact fun h => by cases h
  | panic => exact fun h => by cases h
  | fuel => exact absurd rfl h

theorem onErr_fuel {α : Type} {c : CState → CState} {r : Out α × CState} (h : r.1 ≠ .fuel) : (onErr c r).1 ≠ .fuel := by
  obtain ⟨o, σ⟩ := r
  cases o with
  | fuel => exact absurd rfl h
  | _ => exact fun h => by cases h

theorem parseTodo_ends {env : GoEnv} {U : List GoType} {n : Nat} {rec : CState → GoType → Out Nat × CState} (hs : ParseSpec env rec) (he : Ends env U n rec) :
    ∀ (ts : List Todo) (σ : CState) (stk : List GoType), PInv env σ stk → (∀ t ∈ ts.filterMap todoType, t ∈ U) → uncached σ U < n → (parseTodo rec σ ts).1 ≠ .fuel
  | [], σ, stk, hi, _, _ => fun h => by cases h
  | .bad :: _, σ, stk, hi, _, _ => fun h => by cases h
  | .noTag :: _, σ, stk, hi, _, _ => fun h => by cases h
  | .field gf slot oneof :: ts, σ, stk, hi, hU, hn => by
    simp only [parseTodo]
    split
    · exact fun h => by cases h
    · have hp := hs σ stk gf.type hi
      refine andThen_fuel (he σ stk gf.type hi (hU _ (by simp [todoType])) hn) (fun a ha => ?_)
      obtain ⟨h1, _⟩ := hp.ok a ha
      refine andThen_fuel (parseTodo_ends hs he ts _ stk h1 (fun t ht => hU t ?_) (Nat.lt_of_le_of_lt (uncached_ext hp.ext U) hn)) (fun fs _ h => by cases h)
      simp only [List.filterMap_cons, todoType]
      exact List.mem_cons_of_mem _ ht

theorem tablesOk_fuel (fs : List FieldInit) : tablesOk fs ≠ .fuel := by
  unfold tablesOk
  dsimp only
  split
  · exact fun h => by cases h
  · split <;> exact fun h => by cases h

theorem parseType_ends {env : GoEnv} {U : List GoType} (hU : ∀ t ∈ U, ∀ u ∈ kids env t, u ∈ U) : ∀ n, Ends env U n (parseType env n)
  | 0, σ, stk, t, _, _, hn => absurd hn (Nat.not_lt_zero _)
  | n + 1, σ, stk, t, hi, ht, hn => by
    have ih := parseType_ends hU n
    have hs := parseType_spec env n
    unfold parseType
    cases hc : σ.cache t with
    | some a => exact fun h => by cases h
    | none =>
      dsimp only
      have hi2 := alloc_inv hc hi
      have hn2 : uncached (σ.alloc t) U < n := Nat.lt_of_lt_of_le (uncached_alloc hc ht) (Nat.le_of_lt_succ hn)
      apply onErr_fuel
      cases t with
      | map k v =>
        have hp := hs _ _ k hi2
        refine andThen_fuel (ih _ _ k hi2 (hU _ ht _ (by simp [kids])) hn2) (fun a ha => ?_)
        obtain ⟨h1, _⟩ := hp.ok a ha
        exact andThen_fuel (ih _ _ v h1 (hU _ ht _ (by simp [kids])) (Nat.lt_of_le_of_lt (uncached_ext hp.ext U) hn2)) (fun fs _ h => by cases h)
      | struct i =>
        refine andThen_fuel ?_ (fun fs _ h => by cases h)
        unfold parseStructS
        refine andThen_fuel (parseTodo_ends hs ih _ _ _ hi2 (fun u hu => hU _ ht _ hu) hn2) (fun fs _ => ?_)
        dsimp only
        split
        · exact fun h => by cases h
        · exact fun h => by cases h
        · exact fun h => by cases h
        · rename_i h
          exact absurd h (tablesOk_fuel _)
      | slice u => exact andThen_fuel (ih _ _ u hi2 (hU _ ht _ (by simp [kids])) hn2) (fun fs _ h => by cases h)
      | ptr u =>
        refine andThen_fuel (ih _ _ u hi2 (hU _ ht _ (by simp [kids])) hn2) (fun fs _ => ?_)
        split <;> exact fun h => by cases h
      | _ => exact fun h => by cases h

/-! ## the second pass -/

/-- The flag of a visit. -/
def vflag (σ : CState) : Visit → Bool
  | .type t => match σ.cache t with
    | some a => σ.flag (.type a)
    | none => false
  | .fields i => match σ.cache (.struct i) with
    | some a => σ.flag (.struct a)
    | none => false

theorem vflag_at {σ : CState} {x : Node} {v : Visit} (h : At σ x v) : vflag σ v = σ.flag x := by
  cases x <;> cases v <;> simp only [At] at h <;> simp only [vflag, h]

/-- Visits not flagged. -/
def unflagged (σ : CState) (V : List Visit) : Nat := cnt (fun v => !vflag σ v) V

theorem vflag_mono {σ σ' : CState} (hs : SameShape σ σ') (hf : ∀ y, σ.flag y = true → σ'.flag y = true) (v : Visit) (h : vflag σ v = true) : vflag σ' v = true := by
  cases v with
  | type t =>
    simp only [vflag] at h ⊢
    rw [hs.cache]
    split at h
    · exact hf _ h
    · cases h
  | fields i =>
    simp only [vflag] at h ⊢
    rw [hs.cache]
    split at h
    · exact hf _ h
    · cases h

theorem unflagged_mono {σ σ' : CState} (hs : SameShape σ σ') (hf : ∀ y, σ.flag y = true → σ'.flag y = true) (V : List Visit) : unflagged σ' V ≤ unflagged σ V := by
  refine cnt_mono (fun v hv => ?_) V
  cases h : vflag σ v with
  | false => rfl
  | true => rw [vflag_mono hs hf v h] at hv; cases hv

/-- Enough fuel for the second pass. -/
abbrev FEnds (env : GoEnv) (V : List Visit) (n : Nat) (rec : CState → Node → Out Unit × CState) : Prop :=
  ∀ σ stk x v, Parsing0 env σ → FInv σ stk → At σ x v → v ∈ V → unflagged σ V < n → (rec σ x).1 ≠ .fuel

theorem finalizeField_fuel (σ : CState) (a j : Nat) : (finalizeField σ a j).1 ≠ .fuel := by
  unfold finalizeField
  split
  · exact fun h => by cases h
  · split
    · exact fun h => by cases h
    · split
      · split <;> exact fun h => by cases h
      · exact fun h => by cases h

theorem doWork_ends {env : GoEnv} {V : List Visit} {n : Nat} {rec : CState → Node → Out Unit × CState} (hrec : FinSpec env rec) (he : FEnds env V n rec) {v : Visit} :
    ∀ (ws : List Work) (σ : CState) (stk : List Node), Parsing0 env σ → FInv σ stk → (∀ w ∈ visits env v, w ∈ V) →
      (∀ y, .node y ∈ ws → ∃ w ∈ visits env v, At σ y w) →
      (∀ b l, .field b l ∈ ws → ∃ i so f, v = .fields i ∧ At σ (.struct b) (.fields i) ∧ (σ.heap b).s = some so ∧ so.fields[l]? = some f) →
      unflagged σ V < n → (doWork rec σ ws).1 ≠ .fuel
  | [], σ, stk, hi, hf, _, _, _, _ => fun h => by cases h
  | .node x :: ws, σ, stk, hi, hf, hV, hn, hfi, hlt => by
    obtain ⟨w, h1, h2⟩ := hn x List.mem_cons_self
    simp only [doWork]
    have hp := hrec σ stk x w hi hf h2
    refine andThen_fuel (he σ stk x w hi hf h2 (hV w h1) hlt) (fun u hu => ?_)
    have hs := hp.shape
    refine doWork_ends hrec he ws _ stk (hi.shape hs) (hp.ok hu).1 hV
        (fun y hy => by obtain ⟨w, h3, h4⟩ := hn y (List.mem_cons_of_mem _ hy); exact ⟨w, h3, h4.shape hs⟩)
        (fun b l hb => by
          obtain ⟨i, so, f, h3, h4, h5, h6⟩ := hfi b l (List.mem_cons_of_mem _ hb)
          obtain ⟨so', h7, h8⟩ := hs.struct h5
          have : so'.fields[l]?.isSome := by
            have h9 := congrArg (fun L => L[l]?) h8
            simp only [shapeOf, List.getElem?_map, h6, Option.map_some] at h9
            cases h10 : so'.fields[l]? with
            | none => rw [h10] at h9; cases h9
            | some g => rfl
          obtain ⟨g, hg⟩ := Option.isSome_iff_exists.1 this
          exact ⟨i, so', g, h3, h4.shape hs, h7, hg⟩) (Nat.lt_of_le_of_lt (unflagged_mono hs hp.flags V) hlt)
  | .field a j :: ws, σ, stk, hi, hf, hV, hn, hfi, hlt => by
    obtain ⟨i, so, f, h1, h2, h3, h4⟩ := hfi a j List.mem_cons_self
    simp only [doWork]
    have hp := finalizeField_spec hi hf h2 h3 h4
    refine andThen_fuel (finalizeField_fuel σ a j) (fun u hu => ?_)
    have hs := hp.shape
    refine doWork_ends hrec he ws _ stk (hi.shape hs) (hp.ok hu).1 hV
        (fun y hy => by obtain ⟨w, h3, h4⟩ := hn y (List.mem_cons_of_mem _ hy); exact ⟨w, h3, h4.shape hs⟩)
        (fun b l hb => by
          obtain ⟨i, so, f, h3, h4, h5, h6⟩ := hfi b l (List.mem_cons_of_mem _ hb)
          obtain ⟨so', h7, h8⟩ := hs.struct h5
          have : so'.fields[l]?.isSome := by
            have h9 := congrArg (fun L => L[l]?) h8
            simp only [shapeOf, List.getElem?_map, h6, Option.map_some] at h9
            cases h10 : so'.fields[l]? with
            | none => rw [h10] at h9; cases h9
            | some g => rfl
          obtain ⟨g, hg⟩ := Option.isSome_iff_exists.1 this
          exact ⟨i, so', g, h3, h4.shape hs, h7, hg⟩) (Nat.lt_of_le_of_lt (unflagged_mono hs hp.flags V) hlt)

theorem finalize_ends {env : GoEnv} {V : List Visit} (hV : ∀ v ∈ V, ∀ w ∈ visits env v, w ∈ V) : ∀ n, FEnds env V n (finalize n)
  | 0, σ, stk, x, v, _, _, _, _, hn => absurd hn (Nat.not_lt_zero _)
  | n + 1, σ, stk, x, v, hi, hf, hx, hv, hn => by
    have ih := finalize_ends hV n
    unfold finalize
    split
    · exact fun h => by cases h
    · rename_i hfl
      have hfl' : σ.flag x = false := by simpa using hfl
      have hsh := setFlag_shape σ x true
      have hi1 : Parsing0 env (σ.setFlag x true) := hi.shape hsh
      have hx1 : At (σ.setFlag x true) x v := hx.shape hsh
      have hmono : ∀ y, σ.flag y = true → (σ.setFlag x true).flag y = true := by
        intro y hy
        by_cases e : y = x
        · subst e
          exact setFlag_same hi hx true
        · exact (setFlag_other e).trans hy
      have hf1 : FInv (σ.setFlag x true) (x :: stk) := by
        intro y w hy hyf
        by_cases e : y = x
        · exact .inl (by rw [e]; exact List.mem_cons_self)
        · rw [setFlag_other e] at hyf
          rcases hf y w (hy.unshape hsh) hyf with h1 | h1
          · exact .inl (List.mem_cons_of_mem _ h1)
          · refine .inr (fun w' hw' => ?_)
            rw [work_shape hsh] at hw'
            have := h1 w' hw'
            cases w' with
            | field a j => exact setFlag_done.2 this
            | node z => exact hmono z this
      have hwn := work_nodes hi1 hx1
      rw [work_shape hsh] at hwn
      apply onErr_fuel
      refine doWork_ends (finalize_spec env n) ih (v := v) (work σ x) (σ.setFlag x true) (x :: stk) hi1 hf1 (hV v hv) hwn.1 (fun b l hb => ?_) ?_
      · obtain ⟨i, so, f, h1, h2, h3, h4⟩ := hwn.2.2.1 b l hb
        subst h2
        rw [h1] at hx1
        exact ⟨i, so, f, h1, hx1, h3, h4⟩
      · refine Nat.lt_of_lt_of_le ?_ (Nat.le_of_lt_succ hn)
        refine cnt_lt (y := v) (fun w hw => ?_) ?_ ?_ hv
        · cases h : vflag σ w with
          | false => rfl
          | true => rw [vflag_mono hsh hmono w h] at hw; cases hw
        · rw [vflag_at hx, hfl']; rfl
        · rw [vflag_at hx1, setFlag_same hi hx]; rfl

/-- The visits that may be met from struct type `i`. -/
def visitUniverse (env : GoEnv) (i : Nat) : List Visit :=
  (typeUniverse env i).flatMap (fun t => [.type t, match t with
    | .struct j => .fields j
    | t => .type t])

theorem visitUniverse_type {env : GoEnv} {i : Nat} {t : GoType} : Visit.type t ∈ visitUniverse env i ↔ t ∈ typeUniverse env i := by
  constructor
  · intro h
    obtain ⟨u, h1, h2⟩ := List.mem_flatMap.1 h
    simp only [List.mem_cons, List.not_mem_nil, or_false] at h2
    rcases h2 with h2 | h2
    · cases h2; exact h1
    · split at h2
      · cases h2
      · cases h2; exact h1
  · intro h
    exact List.mem_flatMap.2 ⟨t, h, List.mem_cons_self⟩

theorem visitUniverse_fields {env : GoEnv} {i j : Nat} : Visit.fields j ∈ visitUniverse env i ↔ .struct j ∈ typeUniverse env i := by
  constructor
  · intro h
    obtain ⟨u, h1, h2⟩ := List.mem_flatMap.1 h
    simp only [List.mem_cons, List.not_mem_nil, or_false] at h2
    rcases h2 with h2 | h2
    · cases h2
    · split at h2
      · cases h2; exact h1
      · cases h2
  · intro h
    exact List.mem_flatMap.2 ⟨_, h, List.mem_cons_of_mem _ List.mem_cons_self⟩

theorem visitUniverse_closed {env : GoEnv} {i : Nat} : ∀ v ∈ visitUniverse env i, ∀ w ∈ visits env v, w ∈ visitUniverse env i := by
  intro v hv w hw
  cases v with
  | type t =>
    rw [visitUniverse_type] at hv
    cases t with
    | struct j =>
      simp only [visits, List.mem_cons, List.not_mem_nil, or_false] at hw
      subst hw
      exact visitUniverse_fields.2 hv
    | map k v =>
      simp only [visits, List.mem_cons, List.not_mem_nil, or_false] at hw
      subst hw
      exact visitUniverse_type.2 (typeUniverse_kids hv (by simp [kids]))
    | slice u =>
      simp only [visits, List.mem_cons, List.not_mem_nil, or_false] at hw
      subst hw
      exact visitUniverse_type.2 (typeUniverse_kids hv (by simp [kids]))
    | ptr u =>
      simp only [visits, List.mem_cons, List.not_mem_nil, or_false] at hw
      subst hw
      exact visitUniverse_type.2 (typeUniverse_kids hv (by simp [kids]))
    | _ => cases hw
  | fields j =>
    rw [visitUniverse_fields] at hv
    simp only [visits] at hw
    obtain ⟨f, hf, hw⟩ := List.mem_flatMap.1 hw
    cases hfs : fieldsOf env j with
    | none => rw [hfs] at hf; cases hf
    | some fs =>
      rw [hfs, Option.getD_some] at hf
      have hk := typeUniverse_kids hv (fieldsOf_types hfs hf)
      unfold fieldVisits at hw
      rcases List.mem_cons.1 hw with rfl | hw
      · exact visitUniverse_type.2 hk
      · generalize f.gf.type = t at *
        cases t with
        | map k v =>
          simp only [List.mem_cons, List.not_mem_nil, or_false] at hw
          rcases hw with rfl | rfl <;> exact visitUniverse_type.2 (typeUniverse_kids hk (by simp [kids]))
        | slice u =>
          simp only [List.mem_cons, List.not_mem_nil, or_false] at hw
          subst hw
          exact visitUniverse_type.2 (typeUniverse_kids hk (by simp [kids]))
        | ptr u =>
          simp only [List.mem_cons, List.not_mem_nil, or_false] at hw
          subst hw
          exact visitUniverse_type.2 (typeUniverse_kids hk (by simp [kids]))
        | _ => cases hw

/-- Enough fuel for an environment. -/
def enoughFuel (env : GoEnv) : Nat := 2 * (fieldTypes env).length + 3

theorem uncached_enough (env : GoEnv) (i : Nat) (σ : CState) : uncached σ (typeUniverse env i) < enoughFuel env := by
  have := cnt_le_length (fun t => (σ.cache t).isNone) (typeUniverse env i)
  unfold uncached enoughFuel
  simp only [typeUniverse, List.length_cons] at this ⊢
  omega

theorem unflagged_enough (env : GoEnv) (i : Nat) (σ : CState) : unflagged σ (visitUniverse env i) < enoughFuel env := by
  have := cnt_le_length (fun v => !vflag σ v) (visitUniverse env i)
  have hl : (visitUniverse env i).length = 2 * (typeUniverse env i).length := by
    unfold visitUniverse
    induction typeUniverse env i with
    | nil => rfl
    | cons t l ih => rw [List.flatMap_cons, List.length_append, ih, List.length_cons]; simp only [List.length_cons, List.length_nil]; omega
  rw [hl] at this
  unfold unflagged enoughFuel
  simp only [typeUniverse, List.length_cons] at this ⊢
  omega

end Verif.Lemmas
