import Verif.Model.DescMap
/-!
# C32: the type cache
-/
namespace Verif.Props
open Verif.Model Verif.Model.DescMap

variable {D : Type} [DecidableEq D]

/-! ## without concurrency -/

theorem scan_append (k : TypeKey) (es : Bucket D) (k' : TypeKey) (d : D) :
    scan k (es ++ [(k', d)]) = match scan k es with
      | some x => some x
      | none => if k' = k then some d else none := by
  induction es with
  | nil => rfl
  | cons e es ih =>
    obtain ⟨ke, de⟩ := e
    simp only [List.cons_append, scan]
    split
    · rfl
    · exact ih

theorem replace_none {k : TypeKey} {d : D} : ∀ {es : Bucket D}, replace k d es = none → scan k es = none
  | [], _ => rfl
  | (k', d') :: es, h => by
    simp only [replace] at h
    split at h
    · cases h
    · rename_i hne
      simp only [scan, if_neg hne]
      exact replace_none (Option.map_eq_none_iff.1 h)

theorem replace_scan {k : TypeKey} {d : D} : ∀ {es es' : Bucket D}, replace k d es = some es' → ∀ k', scan k' es' = if k = k' then some d else scan k' es
  | (ke, de) :: es, es', h, k' => by
    simp only [replace] at h
    split at h
    · rename_i he
      cases h
      simp only [scan, he]
      split <;> rfl
    · rename_i hne
      obtain ⟨es2, h1, rfl⟩ := Option.map_eq_some_iff.1 h
      simp only [scan, replace_scan h1 k']
      split
      · rename_i he
        split
        · rename_i he2
          exact absurd (he.trans he2.symm) hne
        · rfl
      · rfl

theorem newBucket_scan (old : Option (Bucket D)) (k k' : TypeKey) (d : D) :
    scan k' (newBucket old k d) = if k = k' then some d else scan k' (old.getD []) := by
  unfold newBucket
  split
  · rename_i es h
    exact replace_scan h k'
  · rename_i h
    rw [scan_append]
    split
    · rename_i x hx
      split
      · rename_i he
        rw [← he, replace_none h] at hx
        cases hx
      · exact hx.symm
    · rename_i hx
      split
      · rfl
      · exact hx.symm

theorem get_getD (m : Buckets D) (k : TypeKey) : get m k = scan k ((m (bucketOf k)).getD []) := by
  unfold DescMap.get
  cases m (bucketOf k) <;> rfl

theorem store_get (m : Buckets D) (k k' : TypeKey) (d : D) :
    get (store m (bucketOf k) (newBucket (m (bucketOf k)) k d)) k' = if k = k' then some d else get m k' := by
  rw [get_getD, get_getD]
  unfold store
  split
  · rename_i h
    rw [Option.getD_some, newBucket_scan, h]
  · rename_i h
    rw [if_neg (fun e => h (by rw [e]))]

/-- Setting an entry and looking one up, without concurrency: the cache is a map, also when types share a bucket. -/
theorem C32_map (m : Buckets D) (k k' : TypeKey) (d : D) : get (set m k d) k' = if k = k' then some d else get m k' := by
  unfold Verif.Model.DescMap.set
  split
  · rename_i h
    split
    · rename_i he
      rw [← he, h]
    · rfl
  · exact store_get m k k' d

/-- Two types in the same bucket. -/
example : bucketOf 0x10042#64 = bucketOf 0x20042#64 ∧
    get (set (set (fun _ => none) 0x10042#64 1) 0x20042#64 2) 0x10042#64 = some 1 ∧
    get (set (set (fun _ => none) 0x10042#64 1) 0x20042#64 2) 0x20042#64 = some 2 ∧
    get (set (set (fun _ => none) 0x10042#64 1) 0x20042#64 2) 0x30042#64 = (none : Option Nat) := by decide

/-! ## concurrent calls -/

/-- `a` comes before `b` in the history. -/
def Before (h : List (Event D)) (a b : Event D) : Prop := ∃ x y z, h = x ++ a :: y ++ b :: z

/-- Calls that hold the lock. -/
def Pc.holds : Pc D → Prop
  | .get2 _ | .parse _ | .setGet _ _ | .setLoad _ _ | .setStore _ _ _ | .unlock _ _ => True
  | _ => False

/-- What holds in every state. -/
structure CacheInv (h : List (Event D)) (s : State D) : Prop where
  lock : ∀ t, Pc.holds (s.pc t) → s.lock = some t
  parsed : ∀ k d, get s.mem k = some d → .parsed k d ∈ h
  parse : ∀ t k, s.pc t = .parse k → get s.mem k = none
  setGet : ∀ t k d, s.pc t = .setGet k d → get s.mem k = none ∧ .parsed k d ∈ h
  setLoad : ∀ t k d, s.pc t = .setLoad k d → get s.mem k = none ∧ .parsed k d ∈ h
  setStore : ∀ t k d es, s.pc t = .setStore k d es →
    get s.mem k = none ∧ .parsed k d ∈ h ∧ es = newBucket (s.mem (bucketOf k)) k d
  unlock : ∀ t k d, s.pc t = .unlock k (some d) → get s.mem k = some d
  idle : ∀ t, s.pc t = .idle → ∀ e ∈ h, (∀ k, e ≠ .start t k) ∧ ∀ k r, e ≠ .ret t k r
  running : ∀ t k r, .ret t k r ∈ h → s.pc t = .done k r
  ret : ∀ t k d, .ret t k (some d) ∈ h → get s.mem k = some d
  late : ∀ t t' k d, Before h (.ret t k (some d)) (.start t' k) → (∃ op, s.pc t' = .get1 op k) ∨ s.pc t' = .done k (some d)

omit [DecidableEq D] in
theorem before_append {h es : List (Event D)} {a b : Event D} (hb : Before (h ++ es) a b) :
    Before h a b ∨ b ∈ es := by
  obtain ⟨x, y, z, e⟩ := hb
  rcases List.append_eq_append_iff.1 e with ⟨w, h1, h2⟩ | ⟨w, h1, h2⟩
  · -- h is a prefix of x ++ a :: y
    right
    rw [h2]
    simp
  · cases w with
    | nil =>
      right
      rw [List.nil_append] at h2
      rw [← h2]
      simp
    | cons c w =>
      rw [List.cons_append, List.cons.injEq] at h2
      obtain ⟨rfl, _⟩ := h2
      exact .inl ⟨x, y, w, by rw [h1, List.append_assoc]⟩

omit [DecidableEq D] in
theorem before_left {h : List (Event D)} {a b : Event D} (hb : Before h a b) : a ∈ h := by
  obtain ⟨x, y, z, rfl⟩ := hb
  simp

omit [DecidableEq D] in
theorem goto_same (s : State D) (t : Nat) (p : Pc D) : (s.goto t p).pc t = p := by simp [State.goto]
omit [DecidableEq D] in
theorem goto_other (s : State D) {t t' : Nat} (p : Pc D) (h : t' ≠ t) : (s.goto t p).pc t' = s.pc t' := by simp [State.goto, h]

/-- Memory only gains entries. -/
theorem step_mono {h es : List (Event D)} {s s' : State D} (hi : CacheInv h s) (hs : Step s es s') {k : TypeKey} {d : D}
    (hg : get s.mem k = some d) : get s'.mem k = some d := by
  cases hs with
  | setStore t k' d' es' hp =>
    obtain ⟨h1, h2, h3⟩ := hi.setStore _ _ _ _ hp
    show get (store s.mem (bucketOf k') es') k = some d
    rw [h3, store_get]
    split
    · rename_i e
      rw [e, hg] at h1
      cases h1
    · exact hg
  | _ => exact hg

/-- A step of one call, the memory being unchanged. -/
theorem CacheInv.quiet {h : List (Event D)} {s : State D} (hi : CacheInv h s) {t : Nat} {p : Pc D} {lk : Option Nat} {es : List (Event D)}
    (hl : Pc.holds p → lk = some t) (hl' : ∀ t', t' ≠ t → Pc.holds (s.pc t') → lk = some t')
    (he : ∀ e ∈ es, (∃ k, e = .start t k ∧ s.pc t = .idle ∧ ∃ op, p = .get1 op k) ∨ (∃ k d, e = .parsed k d) ∨
      (∃ k r, e = .ret t k r ∧ p = .done k r ∧ ∀ d, r = some d → get s.mem k = some d))
    (hidle : p ≠ .idle) (hdone : ∀ k r, s.pc t ≠ .done k r)
    (h1 : ∀ k, p = .parse k → get s.mem k = none)
    (h2 : ∀ k d, p = .setGet k d → get s.mem k = none ∧ .parsed k d ∈ h ++ es)
    (h3 : ∀ k d, p = .setLoad k d → get s.mem k = none ∧ .parsed k d ∈ h ++ es)
    (h4 : ∀ k d b, p = .setStore k d b → get s.mem k = none ∧ .parsed k d ∈ h ++ es ∧ b = newBucket (s.mem (bucketOf k)) k d)
    (h5 : ∀ k d, p = .unlock k (some d) → get s.mem k = some d)
    (h6 : ∀ op k d, s.pc t = .get1 op k → get s.mem k = some d → p = .done k (some d)) :
    CacheInv (h ++ es) ({ s with lock := lk }.goto t p) := by
  have hpc : ∀ t', ({ s with lock := lk }.goto t p).pc t' = if t' = t then p else s.pc t' := fun _ => rfl
  have hmem : ({ s with lock := lk }.goto t p).mem = s.mem := rfl
  constructor
  · intro t' ht'
    rw [hpc] at ht'
    split at ht'
    · rename_i e; subst e; exact hl ht'
    · rename_i e; exact hl' t' e ht'
  · intro k d hk
    exact List.mem_append_left _ (hi.parsed k d hk)
  · intro t' k hk
    rw [hpc] at hk
    split at hk
    · exact h1 k hk
    · exact hi.parse t' k hk
  · intro t' k d hk
    rw [hpc] at hk
    split at hk
    · exact h2 k d hk
    · have := hi.setGet t' k d hk
      exact ⟨this.1, List.mem_append_left _ this.2⟩
  · intro t' k d hk
    rw [hpc] at hk
    split at hk
    · exact h3 k d hk
    · have := hi.setLoad t' k d hk
      exact ⟨this.1, List.mem_append_left _ this.2⟩
  · intro t' k d b hk
    rw [hpc] at hk
    split at hk
    · exact h4 k d b hk
    · have := hi.setStore t' k d b hk
      exact ⟨this.1, List.mem_append_left _ this.2.1, this.2.2⟩
  · intro t' k d hk
    rw [hpc] at hk
    split at hk
    · exact h5 k d hk
    · exact hi.unlock t' k d hk
  · intro t' ht' e hm
    rw [hpc] at ht'
    split at ht'
    · exact absurd ht' hidle
    · rename_i hne
      rcases List.mem_append.1 hm with hm | hm
      · exact hi.idle t' ht' e hm
      · rcases he e hm with ⟨k, rfl, _⟩ | ⟨k, d, rfl⟩ | ⟨k, r, rfl, _⟩
        · exact ⟨fun k' hk' => (by cases hk'; exact hne rfl), fun k' r' hk' => (by cases hk')⟩
        · exact ⟨fun k' hk' => (by cases hk'), fun k' r' hk' => (by cases hk')⟩
        · exact ⟨fun k' hk' => (by cases hk'), fun k' r' hk' => (by cases hk'; exact hne rfl)⟩
  · intro t' k r hm
    rw [hpc]
    rcases List.mem_append.1 hm with hm | hm
    · have := hi.running t' k r hm
      split
      · rename_i e; subst e; exact absurd this (hdone k r)
      · exact this
    · rcases he _ hm with ⟨k', e, _⟩ | ⟨k', d, e⟩ | ⟨k', r', e, e2, _⟩
      · cases e
      · cases e
      · cases e
        rw [if_pos rfl]
        exact e2
  · intro t' k d hm
    rw [hmem]
    rcases List.mem_append.1 hm with hm | hm
    · exact hi.ret t' k d hm
    · rcases he _ hm with ⟨k', e, _⟩ | ⟨k', d', e⟩ | ⟨k', r', e, _, e3⟩
      · cases e
      · cases e
      · cases e
        exact e3 d rfl
  · intro t1 t' k d hb
    rw [hpc]
    rcases before_append hb with hb' | hb'
    · have := hi.late t1 t' k d hb'
      split
      · rename_i e
        subst e
        rcases this with ⟨op, h'⟩ | h'
        · exact .inr (h6 op k d h' (hi.ret t1 k d (before_left hb')))
        · exact absurd h' (hdone _ _)
      · exact this
    · rcases he _ hb' with ⟨k', e, e1, op, e2⟩ | ⟨k', d', e⟩ | ⟨k', r', e, _⟩
      · cases e
        rw [if_pos rfl]
        exact .inl ⟨op, e2⟩
      · cases e
      · cases e

theorem step_inv {h es : List (Event D)} {s s' : State D} (hi : CacheInv h s) (hs : Step s es s') : CacheInv (h ++ es) s' := by
  have hmono := fun k d => step_mono (k := k) (d := d) hi hs
  -- the lock of the other calls when this one holds it
  have hex : ∀ t, Pc.holds (s.pc t) → ∀ t', t' ≠ t → Pc.holds (s.pc t') → (s.lock) = some t' := fun t ht t' hne ht' => hi.lock t' ht'
  cases hs with
  | start t op k hp =>
    exact hi.quiet (lk := s.lock) (by intro h; cases h) (fun t' _ => hi.lock t')
      (by intro e he; cases List.mem_singleton.1 he; exact .inl ⟨k, rfl, hp, op, rfl⟩) nofun (by intro k r e; rw [hp] at e; cases e)
      nofun nofun nofun nofun nofun (by intro op k d e; rw [hp] at e; cases e)
  | hit1 t op k d hp hg =>
    exact hi.quiet (lk := s.lock) (by intro h; cases h) (fun t' _ => hi.lock t')
      (by intro e he; cases List.mem_singleton.1 he; exact .inr (.inr ⟨k, _, rfl, rfl, fun d' e => by cases e; exact hg⟩)) nofun
      (by intro k r e; rw [hp] at e; cases e)
      nofun nofun nofun nofun nofun (by intro op k d e e'; rw [hp] at e; cases e; rw [hg] at e'; cases e'; rfl)
  | missGet t k hp hg =>
    exact hi.quiet (lk := s.lock) (by intro h; cases h) (fun t' _ => hi.lock t')
      (by intro e he; cases List.mem_singleton.1 he; exact .inr (.inr ⟨k, _, rfl, rfl, fun d' e => by cases e⟩)) nofun
      (by intro k r e; rw [hp] at e; cases e)
      nofun nofun nofun nofun nofun (by intro op k d e e'; rw [hp] at e; cases e; rw [hg] at e'; cases e')
  | missParse t k hp hg =>
    exact hi.quiet (lk := s.lock) (by intro h; cases h) (fun t' _ => hi.lock t') (by intro e he; cases he) nofun
      (by intro k r e; rw [hp] at e; cases e)
      nofun nofun nofun nofun nofun (by intro op k d e e'; rw [hp] at e; cases e; rw [hg] at e'; cases e')
  | lock t k hp hl =>
    exact hi.quiet (lk := some t) (by intro _; rfl) (fun t' _ h' => by have := hi.lock t' h'; rw [hl] at this; cases this)
      (by intro e he; cases he) nofun (by intro k r e; rw [hp] at e; cases e)
      nofun nofun nofun nofun nofun (by intro op k d e; rw [hp] at e; cases e)
  | hit2 t k d hp hg =>
    exact hi.quiet (lk := s.lock) (fun _ => hi.lock t (by rw [hp]; trivial)) (fun t' _ => hi.lock t') (by intro e he; cases he) nofun
      (by intro k r e; rw [hp] at e; cases e)
      nofun nofun nofun nofun (by intro k d e; cases e; exact hg) (by intro op k d e; rw [hp] at e; cases e)
  | miss2 t k hp hg =>
    exact hi.quiet (lk := s.lock) (fun _ => hi.lock t (by rw [hp]; trivial)) (fun t' _ => hi.lock t') (by intro e he; cases he) nofun
      (by intro k r e; rw [hp] at e; cases e)
      (by intro k e; cases e; exact hg) nofun nofun nofun nofun (by intro op k d e; rw [hp] at e; cases e)
  | parseErr t k hp =>
    exact hi.quiet (lk := s.lock) (fun _ => hi.lock t (by rw [hp]; trivial)) (fun t' _ => hi.lock t') (by intro e he; cases he) nofun
      (by intro k r e; rw [hp] at e; cases e)
      nofun nofun nofun nofun nofun (by intro op k d e; rw [hp] at e; cases e)
  | parseOk t k d hp =>
    exact hi.quiet (lk := s.lock) (fun _ => hi.lock t (by rw [hp]; trivial)) (fun t' _ => hi.lock t')
      (by intro e he; cases List.mem_singleton.1 he; exact .inr (.inl ⟨k, d, rfl⟩)) nofun
      (by intro k r e; rw [hp] at e; cases e)
      nofun (by intro k d e; cases e; exact ⟨hi.parse t _ hp, by simp⟩) nofun nofun nofun (by intro op k d e; rw [hp] at e; cases e)
  | setSame t k d hp hg =>
    exact hi.quiet (lk := s.lock) (fun _ => hi.lock t (by rw [hp]; trivial)) (fun t' _ => hi.lock t') (by intro e he; cases he) nofun
      (by intro k r e; rw [hp] at e; cases e)
      nofun nofun nofun nofun (by intro k d e; cases e; exact hg) (by intro op k d e; rw [hp] at e; cases e)
  | setGo t k d hp hg =>
    have := hi.setGet t k d hp
    exact hi.quiet (lk := s.lock) (fun _ => hi.lock t (by rw [hp]; trivial)) (fun t' _ => hi.lock t') (by intro e he; cases he) nofun
      (by intro k r e; rw [hp] at e; cases e)
      nofun nofun (by intro k d e; cases e; exact ⟨this.1, by simpa using this.2⟩) nofun nofun (by intro op k d e; rw [hp] at e; cases e)
  | setLoad t k d hp =>
    have := hi.setLoad t k d hp
    exact hi.quiet (lk := s.lock) (fun _ => hi.lock t (by rw [hp]; trivial)) (fun t' _ => hi.lock t') (by intro e he; cases he) nofun
      (by intro k r e; rw [hp] at e; cases e)
      nofun nofun nofun (by intro k d b e; cases e; exact ⟨this.1, by simpa using this.2, rfl⟩) nofun
      (by intro op k d e; rw [hp] at e; cases e)
  | unlock t k r hp =>
    have hl := hi.lock t (by rw [hp]; trivial)
    exact hi.quiet (lk := none) (by intro h; cases h)
      (fun t' hne h' => by have := hi.lock t' h'; rw [hl] at this; cases this; exact absurd rfl hne)
      (by intro e he; cases List.mem_singleton.1 he; exact .inr (.inr ⟨k, r, rfl, rfl, fun d e => by subst e; exact hi.unlock t k d hp⟩)) nofun
      (by intro k r e; rw [hp] at e; cases e)
      nofun nofun nofun nofun nofun (by intro op k d e; rw [hp] at e; cases e)
  | setStore t k d b hp =>
    obtain ⟨g1, g2, rfl⟩ := hi.setStore t k d b hp
    have hl := hi.lock t (by rw [hp]; trivial)
    have honly : ∀ t', t' ≠ t → ¬ Pc.holds (s.pc t') := by
      intro t' hne h'
      have := hi.lock t' h'
      rw [hl] at this
      cases this
      exact hne rfl
    have hpc : ∀ t', ({ s with mem := store s.mem (bucketOf k) (newBucket (s.mem (bucketOf k)) k d) }.goto t (.unlock k (some d))).pc t' =
        if t' = t then .unlock k (some d) else s.pc t' := fun _ => rfl
    rw [List.append_nil]
    constructor
    · intro t' ht'
      rw [hpc] at ht'
      split at ht'
      · rename_i e; subst e; exact hl
      · rename_i e; exact absurd ht' (honly t' e)
    · intro k' d' hk'
      have hk2 : DescMap.get (store s.mem (bucketOf k) (newBucket (s.mem (bucketOf k)) k d)) k' = some d' := hk'
      rw [store_get] at hk2
      split at hk2
      · rename_i e; subst e; cases hk2; exact g2
      · exact hi.parsed k' d' hk2
    · intro t' k' hk'
      rw [hpc] at hk'
      split at hk'
      · cases hk'
      · rename_i e; exact absurd (by rw [hk']; trivial) (honly t' e)
    · intro t' k' d' hk'
      rw [hpc] at hk'
      split at hk'
      · cases hk'
      · rename_i e; exact absurd (by rw [hk']; trivial) (honly t' e)
    · intro t' k' d' hk'
      rw [hpc] at hk'
      split at hk'
      · cases hk'
      · rename_i e; exact absurd (by rw [hk']; trivial) (honly t' e)
    · intro t' k' d' es' hk'
      rw [hpc] at hk'
      split at hk'
      · cases hk'
      · rename_i e; exact absurd (by rw [hk']; trivial) (honly t' e)
    · intro t' k' d' hk'
      rw [hpc] at hk'
      split at hk'
      · cases hk'
        show get (store _ _ _) _ = _
        rw [store_get, if_pos rfl]
      · rename_i e; exact absurd (by rw [hk']; trivial) (honly t' e)
    · intro t' ht'
      rw [hpc] at ht'
      split at ht'
      · cases ht'
      · exact hi.idle t' ht'
    · intro t' k' r hm
      have := hi.running t' k' r hm
      rw [hpc]
      split
      · rename_i e; subst e; rw [hp] at this; cases this
      · exact this
    · intro t' k' d' hm
      exact hmono _ _ (hi.ret t' k' d' hm)
    · intro t1 t' k' d' hb
      have := hi.late t1 t' k' d' hb
      rw [hpc]
      split
      · rename_i e
        subst e
        rw [hp] at this
        rcases this with ⟨op, h'⟩ | h' <;> cases h'
      · exact this

theorem exec_inv {h : List (Event D)} {s : State D} (he : Exec h s) : CacheInv h s := by
  induction he with
  | init =>
    refine ⟨fun t ht => (by cases ht), fun k d hk => (by cases hk), nofun, nofun, nofun, nofun, nofun, fun t _ e he => (by cases he),
      fun t k r hm => (by cases hm), fun t k d hm => (by cases hm), fun t t' k d hb => ?_⟩
    cases before_left hb
  | step h s es s' _ hs ih => exact step_inv ih hs

/-- Any number of concurrent calls of `CacheGet` and `GetOrParse` for any types, interleaved in any way: a call never returns
something that was not the result of parsing the type asked for; all calls that return a descriptor for a type
return the same one; and a call that starts after some call for this type has returned a descriptor returns that one. -/
theorem C32_concurrent {h : List (Event D)} {s : State D} (he : Exec h s) :
    (∀ t k d, .ret t k (some d) ∈ h → .parsed k d ∈ h) ∧
    (∀ t t' k d d', .ret t k (some d) ∈ h → .ret t' k (some d') ∈ h → d = d') ∧
    (∀ t t' k d r, Before h (.ret t k (some d)) (.start t' k) → .ret t' k r ∈ h → r = some d) := by
  have hi := exec_inv he
  refine ⟨fun t k d hm => hi.parsed k d (hi.ret t k d hm), fun t t' k d d' h1 h2 => ?_, fun t t' k d r hb hr => ?_⟩
  · have e1 := hi.ret t k d h1
    rw [hi.ret t' k d' h2] at e1
    cases e1
    rfl
  · have e := hi.running t' k r hr
    rcases hi.late t t' k d hb with ⟨op, h'⟩ | h'
    · rw [h'] at e; cases e
    · rw [h'] at e; cases e; rfl

/-- Once a descriptor has been returned for a type, no descriptor is parsed for it again (by a call that had not begun parsing). -/
theorem C32_lookup_total {h : List (Event D)} {s : State D} (he : Exec h s) (t : Nat) (k : TypeKey) (d : D) (hr : .ret t k (some d) ∈ h)
    (t' : Nat) : s.pc t' ≠ .parse k ∧ ∀ d', s.pc t' ≠ .setGet k d' ∧ s.pc t' ≠ .setLoad k d' := by
  have hi := exec_inv he
  have hg := hi.ret t k d hr
  refine ⟨fun e => ?_, fun d' => ⟨fun e => ?_, fun e => ?_⟩⟩
  · rw [hi.parse t' k e] at hg; cases hg
  · rw [(hi.setGet t' k d' e).1] at hg; cases hg
  · rw [(hi.setLoad t' k d' e).1] at hg; cases hg

/-- Two calls for the same type, both missing at first; the second waits for the lock and finds the entry;
then a `CacheGet` and one for another type in the same bucket. -/
example : ∃ s : State Nat, Exec ([.start 0 0x10042#64, .start 1 0x10042#64, .parsed 0x10042#64 7, .ret 0 0x10042#64 (some 7), .ret 1 0x10042#64 (some 7),
    .start 2 0x10042#64, .start 3 0x20042#64, .ret 3 0x20042#64 none, .ret 2 0x10042#64 (some 7)] : List (Event Nat)) s := by
  have e0 := Exec.init (D := Nat)
  have e1 := e0.step _ _ _ _ (.start _ 0 .getOrParse 0x10042#64 rfl)
  have e2 := e1.step _ _ _ _ (.start _ 1 .getOrParse 0x10042#64 rfl)
  have e3 := e2.step _ _ _ _ (.missParse _ 0 _ rfl rfl)
  have e4 := e3.step _ _ _ _ (.missParse _ 1 _ rfl rfl)
  have e5 := e4.step _ _ _ _ (.lock _ 0 _ rfl rfl)
  have e6 := e5.step _ _ _ _ (.miss2 _ 0 _ rfl rfl)
  have e7 := e6.step _ _ _ _ (.parseOk _ 0 _ 7 rfl)
  have e8 := e7.step _ _ _ _ (.setGo _ 0 _ _ rfl (by decide))
  have e9 := e8.step _ _ _ _ (.setLoad _ 0 _ _ rfl)
  have e10 := e9.step _ _ _ _ (.setStore _ 0 _ _ _ rfl)
  have e11 := e10.step _ _ _ _ (.unlock _ 0 _ _ rfl)
  have e12 := e11.step _ _ _ _ (.lock _ 1 _ rfl rfl)
  have e13 := e12.step _ _ _ _ (.hit2 _ 1 _ 7 rfl (by rfl))
  have e14 := e13.step _ _ _ _ (.unlock _ 1 _ _ rfl)
  have e15 := e14.step _ _ _ _ (.start _ 2 .cacheGet 0x10042#64 rfl)
  have e16 := e15.step _ _ _ _ (.start _ 3 .cacheGet 0x20042#64 rfl)
  have e17 := e16.step _ _ _ _ (.missGet _ 3 _ rfl (by rfl))
  have e18 := e17.step _ _ _ _ (.hit1 _ 2 _ _ 7 rfl (by rfl))
  exact ⟨_, e18⟩

end Verif.Props
