import Verif.Spec.Accept
/-! # Parsing with the cache of types -/
namespace Verif.Lemmas
open Verif.Spec Verif.Model Verif.Model.TypeCache

theorem Reaches.trans {env : GoEnv} {t u v : GoType} (h : Reaches env t u) (h' : Reaches env u v) : Reaches env t v := by
  induction h with
  | refl => exact h'
  | step t u' v' hk _ ih => exact .step t u' v hk (ih h')

/-- The object at `a` has been filled in. -/
def Filled (env : GoEnv) (σ : CState) (a : Nat) : GoType → Prop
  | .map k v => ∃ ka va, (σ.heap a).k = some ka ∧ (σ.heap a).v = some va ∧ (σ.heap a).s = none ∧ σ.cache k = some ka ∧ σ.cache v = some va
  | .slice t => ∃ va, (σ.heap a).k = none ∧ (σ.heap a).v = some va ∧ (σ.heap a).s = none ∧ σ.cache t = some va
  | .ptr t => t.isPointer = false ∧ ∃ va, (σ.heap a).k = none ∧ (σ.heap a).v = some va ∧ (σ.heap a).s = none ∧ σ.cache t = some va
  | .struct i => (σ.heap a).k = none ∧ (σ.heap a).v = none ∧ ∃ so, (σ.heap a).s = some so ∧
      fieldsOf env i = some (so.fields.map (·.init)) ∧ tablesOk (so.fields.map (·.init)) = .ok () ∧
      ∀ f ∈ so.fields, σ.cache f.init.gf.type = some f.t
  | _ => (σ.heap a).k = none ∧ (σ.heap a).v = none ∧ (σ.heap a).s = none

/-- Not finalized. -/
def Unflagged (σ : CState) (a : Nat) : Prop := (σ.heap a).finalized = false ∧ ∀ so, (σ.heap a).s = some so → so.finalized = false

/-- Every cached object is there, is for its type, and is filled in unless it is being parsed. -/
def PInv (env : GoEnv) (σ : CState) (stk : List GoType) : Prop :=
  ∀ t a, σ.cache t = some a → a < σ.next ∧ (σ.heap a).rt = t ∧ (t ∈ stk ∨ Filled env σ a t)

/-- Parsing adds objects. -/
structure Ext (σ σ' : CState) : Prop where
  next : σ.next ≤ σ'.next
  cache : ∀ t a, σ.cache t = some a → σ'.cache t = some a
  heap : ∀ a, a < σ.next → σ'.heap a = σ.heap a
  final : σ'.final = σ.final

theorem Ext.rfl {σ : CState} : Ext σ σ := ⟨Nat.le_refl _, fun _ _ h => h, fun _ _ => Eq.refl _, Eq.refl _⟩

theorem Ext.trans {σ σ1 σ2 : CState} (h : Ext σ σ1) (h' : Ext σ1 σ2) : Ext σ σ2 :=
  ⟨Nat.le_trans h.next h'.next, fun t a ha => h'.cache t a (h.cache t a ha),
    fun a ha => (h'.heap a (Nat.lt_of_lt_of_le ha h.next)).trans (h.heap a ha), h'.final.trans h.final⟩

/-- What is new in the cache satisfies `P` and is not finalized. -/
def News (σ σ' : CState) (P : GoType → Prop) : Prop :=
  ∀ t a, σ'.cache t = some a → σ.cache t = some a ∨ (P t ∧ σ.next ≤ a ∧ Unflagged σ' a)

theorem Filled.mono {env : GoEnv} {σ σ' : CState} {a : Nat} (hh : σ'.heap a = σ.heap a) {t : GoType}
    (hc : ∀ u b, u ∈ kids env t → σ.cache u = some b → σ'.cache u = some b)
    (hk : ∀ (i : Nat) (so : StructObj), t = .struct i → (σ.heap a).s = some so → ∀ f ∈ so.fields, f.init.gf.type ∈ kids env t)
    (h : Filled env σ a t) : Filled env σ' a t := by
  cases t with
  | map k v =>
    obtain ⟨ka, va, h1, h2, h3, h4, h5⟩ := h
    exact ⟨ka, va, by rw [hh]; exact h1, by rw [hh]; exact h2, by rw [hh]; exact h3, hc _ _ (by simp [kids]) h4, hc _ _ (by simp [kids]) h5⟩
  | slice t =>
    obtain ⟨va, h1, h2, h3, h4⟩ := h
    exact ⟨va, by rw [hh]; exact h1, by rw [hh]; exact h2, by rw [hh]; exact h3, hc _ _ (by simp [kids]) h4⟩
  | ptr t =>
    obtain ⟨h0, va, h1, h2, h3, h4⟩ := h
    exact ⟨h0, va, by rw [hh]; exact h1, by rw [hh]; exact h2, by rw [hh]; exact h3, hc _ _ (by simp [kids]) h4⟩
  | struct i =>
    obtain ⟨h0, h1, so, h2, h3, h4, h5⟩ := h
    exact ⟨by rw [hh]; exact h0, by rw [hh]; exact h1, so, by rw [hh]; exact h2, h3, h4, fun f hf => hc _ _ (hk i so rfl h2 f hf) (h5 f hf)⟩
  | _ => exact ⟨by rw [hh]; exact h.1, by rw [hh]; exact h.2.1, by rw [hh]; exact h.2.2⟩

theorem insertOn_perm {α : Type} (key : α → Int) (a : α) : ∀ L, (insertOn key a L).Perm (a :: L)
  | [] => .refl _
  | g :: gs => by
    simp only [insertOn]
    split
    · exact .refl _
    · exact ((insertOn_perm key a gs).cons g).trans (.swap a g gs)

theorem sortOn_perm {α : Type} (key : α → Int) : ∀ L, (sortOn key L).Perm L
  | [] => .refl _
  | f :: fs => (insertOn_perm key f _).trans ((sortOn_perm key fs).cons f)

theorem insertOn_map {α β : Type} (key : β → Int) (g : α → β) (a : α) : ∀ L : List α,
    (insertOn (fun x => key (g x)) a L).map g = insertOn key (g a) (L.map g)
  | [] => rfl
  | b :: L => by
    simp only [insertOn, List.map_cons]
    split
    · rfl
    · rw [List.map_cons, insertOn_map key g a L]

theorem sortOn_map {α β : Type} (key : β → Int) (g : α → β) : ∀ L : List α, (sortOn (fun x => key (g x)) L).map g = sortOn key (L.map g)
  | [] => rfl
  | a :: L => by rw [sortOn, insertOn_map key g, sortOn_map key g L]; rfl

theorem initsOf_types : ∀ {ts : List Todo} {fs : List FieldInit}, initsOf ts = some fs → ∀ f ∈ fs, f.gf.type ∈ ts.filterMap todoType
  | [], fs, h, f, hf => by cases h; cases hf
  | .bad :: _, fs, h, f, hf => by cases h
  | .noTag :: _, fs, h, f, hf => by cases h
  | .field gf slot oneof :: ts, fs, h, f, hf => by
    simp only [initsOf] at h
    split at h
    · rename_i p tt fs' h1 h2
      cases h
      rcases List.mem_cons.1 hf with rfl | hf
      · simp [todoType]
      · have := initsOf_types h2 f hf
        simp only [List.filterMap_cons, todoType]
        exact List.mem_cons_of_mem _ this
    · cases h

theorem fieldsOf_types {env : GoEnv} {i : Nat} {fs : List FieldInit} (h : fieldsOf env i = some fs) {f : FieldInit} (hf : f ∈ fs) :
    f.gf.type ∈ kids env (.struct i) := by
  obtain ⟨fs', h1, rfl⟩ := Option.map_eq_some_iff.1 h
  exact initsOf_types h1 f ((sortOn_perm _ _).mem_iff.1 hf)

theorem Filled.kid {env : GoEnv} {σ : CState} {a : Nat} {t : GoType} (h : Filled env σ a t) (i : Nat) (so : StructObj)
    (ht : t = .struct i) (hs : (σ.heap a).s = some so) (f : FieldObj) (hf : f ∈ so.fields) : f.init.gf.type ∈ kids env t := by
  subst ht
  obtain ⟨_, _, so', h2, h3, _, _⟩ := h
  rw [hs] at h2
  cases h2
  exact fieldsOf_types h3 (List.mem_map_of_mem hf)

theorem filterMap_mem_of_inits {ts : List Todo} : ∀ {fs : List FieldInit}, initsOf ts = some fs → ∀ t ∈ ts.filterMap todoType, ∃ f ∈ fs, f.gf.type = t := by
  induction ts with
  | nil => intro fs _ t ht; cases ht
  | cons d ts ih =>
    intro fs h t ht
    cases d with
    | bad => cases h
    | noTag => cases h
    | field gf slot oneof =>
      simp only [initsOf] at h
      split at h
      · rename_i p tt fs' h1 h2
        cases h
        simp only [List.filterMap_cons, todoType] at ht
        rcases List.mem_cons.1 ht with rfl | ht
        · exact ⟨_, List.mem_cons_self, rfl⟩
        · obtain ⟨f, hf, he⟩ := ih h2 t ht
          exact ⟨f, List.mem_cons_of_mem _ hf, he⟩
      · cases h

/-- The kids of a filled object are cached. -/
theorem Filled.cached {env : GoEnv} {σ : CState} {a : Nat} {t : GoType} (h : Filled env σ a t) : ∀ u ∈ kids env t, ∃ b, σ.cache u = some b := by
  cases t with
  | map k v =>
    obtain ⟨ka, va, h1, h2, h3, h4, h5⟩ := h
    intro u hu
    simp only [kids, List.mem_cons, List.not_mem_nil, or_false] at hu
    rcases hu with rfl | rfl
    · exact ⟨_, h4⟩
    · exact ⟨_, h5⟩
  | slice t =>
    obtain ⟨va, h1, h2, h3, h4⟩ := h
    intro u hu
    simp only [kids, List.mem_cons, List.not_mem_nil, or_false] at hu
    subst hu
    exact ⟨_, h4⟩
  | ptr t =>
    obtain ⟨h0, va, h1, h2, h3, h4⟩ := h
    intro u hu
    simp only [kids, List.mem_cons, List.not_mem_nil, or_false] at hu
    subst hu
    exact ⟨_, h4⟩
  | struct i =>
    obtain ⟨h0, h1, so, h2, h3, h4, h5⟩ := h
    intro u hu
    obtain ⟨fs, hf, he⟩ := Option.map_eq_some_iff.1 h3
    obtain ⟨f, hf1, hf2⟩ := filterMap_mem_of_inits hf u hu
    have : f ∈ so.fields.map (·.init) := by rw [← he]; exact (sortOn_perm _ _).mem_iff.2 hf1
    obtain ⟨g, hg, rfl⟩ := List.mem_map.1 this
    exact ⟨_, hf2 ▸ h5 g hg⟩
  | _ => intro u hu; cases hu

theorem Filled.localOK {env : GoEnv} {σ : CState} {a : Nat} {t : GoType} (h : Filled env σ a t) : LocalOK env t := by
  cases t with
  | ptr t => exact h.1
  | struct i =>
    obtain ⟨h0, h1, so, h2, h3, h4, h5⟩ := h
    exact ⟨_, h3, h4⟩
  | _ => trivial

/-- Something that is referred to is not well formed. -/
def Bad (env : GoEnv) (t : GoType) : Prop := ∃ u, Reaches env t u ∧ ¬ LocalOK env u

/-- What a call of `parseType` or of one of its parts does. -/
structure Parsed {α : Type} (env : GoEnv) (σ : CState) (stk : List GoType) (P : GoType → Prop) (bad : Prop) (Q : α → CState → Prop)
    (r : Out α × CState) : Prop where
  ext : Ext σ r.2
  news : News σ r.2 P
  ok : ∀ a, r.1 = .ok a → PInv env r.2 stk ∧ Q a r.2
  fail : r.1 = .err ∨ r.1 = .panic → bad
  err : r.1 = .err → Acyclic env → PInv env r.2 stk

theorem News.rfl {σ : CState} {P : GoType → Prop} : News σ σ P := fun _ _ h => .inl h

theorem News.trans {σ σ1 σ2 : CState} {P Q : GoType → Prop} (he : Ext σ σ1) (he2 : Ext σ1 σ2) (hp : ∀ t a, σ1.cache t = some a → a < σ1.next)
    (h : News σ σ1 P) (h' : News σ1 σ2 Q) : News σ σ2 (fun t => P t ∨ Q t) := by
  intro t a ht
  rcases h' t a ht with h1 | ⟨h1, h2, h3⟩
  · rcases h t a h1 with h4 | ⟨h4, h5, h6⟩
    · exact .inl h4
    · refine .inr ⟨.inl h4, h5, ?_⟩
      unfold Unflagged at h6 ⊢
      rw [he2.heap a (hp t a h1)]
      exact h6
  · exact .inr ⟨.inr h1, Nat.le_trans he.next h2, h3⟩

theorem News.weaken {σ σ1 : CState} {P Q : GoType → Prop} (h : News σ σ1 P) (hi : ∀ t, P t → Q t) : News σ σ1 Q := by
  intro t a ht
  rcases h t a ht with h1 | ⟨h1, h2⟩
  · exact .inl h1
  · exact .inr ⟨hi _ h1, h2⟩

theorem PInv.lt {env : GoEnv} {σ : CState} {stk : List GoType} (h : PInv env σ stk) : ∀ t a, σ.cache t = some a → a < σ.next :=
  fun t a ha => (h t a ha).1

/-- A call followed by another. -/
theorem Parsed.andThen {α β : Type} {env : GoEnv} {σ : CState} {stk : List GoType} {P1 P2 P : GoType → Prop} {bad1 bad2 bad : Prop}
    {Q1 : α → CState → Prop} {Q2 : α → β → CState → Prop} {Q : β → CState → Prop} {r : Out α × CState} {f : α → CState → Out β × CState}
    (h : Parsed env σ stk P1 bad1 Q1 r) (hf : ∀ a σ1, Ext σ σ1 → PInv env σ1 stk → Q1 a σ1 → Parsed env σ1 stk P2 bad2 (Q2 a) (f a σ1))
    (hP1 : ∀ t, P1 t → P t) (hP2 : ∀ t, P2 t → P t) (hb1 : bad1 → bad) (hb2 : bad2 → bad)
    (hQ : ∀ a b σ1 σ2, Ext σ1 σ2 → Q1 a σ1 → Q2 a b σ2 → Q b σ2) :
    Parsed env σ stk P bad Q (andThen r f) := by
  obtain ⟨o, σ1⟩ := r
  cases o with
  | ok a =>
    obtain ⟨hi, hq⟩ := h.ok a rfl
    have h2 := hf a σ1 h.ext hi hq
    refine ⟨h.ext.trans h2.ext, ?_, ?_, ?_, ?_⟩
    · exact (News.trans h.ext h2.ext hi.lt h.news h2.news).weaken (fun t ht => ht.elim (hP1 t) (hP2 t))
    · intro b hb
      have := h2.ok b hb
      exact ⟨this.1, hQ a b σ1 _ h2.ext hq this.2⟩
    · intro hb
      exact hb2 (h2.fail hb)
    · exact h2.err
  | err => exact ⟨h.ext, h.news.weaken hP1, fun b hb => (by cases hb), fun _ => hb1 (h.fail (.inl rfl)), fun _ => h.err rfl⟩
  | panic => exact ⟨h.ext, h.news.weaken hP1, fun b hb => (by cases hb), fun _ => hb1 (h.fail (.inr rfl)), fun hb => (by cases hb)⟩
  | fuel => exact ⟨h.ext, h.news.weaken hP1, fun b hb => (by cases hb), fun hb => (by rcases hb with hb | hb <;> cases hb), fun hb => (by cases hb)⟩

/-- Returning. -/
theorem Parsed.pure {α : Type} {env : GoEnv} {σ : CState} {stk : List GoType} {P : GoType → Prop} {bad : Prop} {Q : α → CState → Prop}
    (hi : PInv env σ stk) {a : α} (hq : Q a σ) : Parsed env σ stk P bad Q (.ok a, σ) :=
  ⟨Ext.rfl, News.rfl, fun b hb => (by cases hb; exact ⟨hi, hq⟩), fun hb => (by rcases hb with hb | hb <;> cases hb), fun hb => (by cases hb)⟩

theorem Parsed.throw {α : Type} {env : GoEnv} {σ : CState} {stk : List GoType} {P : GoType → Prop} {bad : Prop} {Q : α → CState → Prop}
    (hi : PInv env σ stk) (hb : bad) : Parsed env σ stk P bad Q (.err, σ) :=
  ⟨Ext.rfl, News.rfl, fun b hb => (by cases hb), fun _ => hb, fun _ _ => hi⟩

theorem Parsed.panic {α : Type} {env : GoEnv} {σ : CState} {stk : List GoType} {P : GoType → Prop} {bad : Prop} {Q : α → CState → Prop}
    (hb : bad) : Parsed env σ stk P bad Q (.panic, σ) :=
  ⟨Ext.rfl, News.rfl, fun b hb => (by cases hb), fun _ => hb, fun hb => (by cases hb)⟩

theorem Parsed.fuel {α : Type} {env : GoEnv} {σ : CState} {stk : List GoType} {P : GoType → Prop} {bad : Prop} {Q : α → CState → Prop} :
    Parsed env σ stk P bad Q (.fuel, σ) :=
  ⟨Ext.rfl, News.rfl, fun b hb => (by cases hb), fun hb => (by rcases hb with hb | hb <;> cases hb), fun hb => (by cases hb)⟩

/-- The specification of `parseType`. -/
abbrev ParseSpec (env : GoEnv) (rec : CState → GoType → Out Nat × CState) : Prop :=
  ∀ σ stk t, PInv env σ stk → Parsed env σ stk (Reaches env t) (Bad env t) (fun a σ' => σ'.cache t = some a) (rec σ t)

theorem parseTodo_spec {env : GoEnv} {rec : CState → GoType → Out Nat × CState} (hrec : ParseSpec env rec) :
    ∀ (ts : List Todo) (σ : CState) (stk : List GoType), PInv env σ stk →
      Parsed env σ stk (fun u => ∃ t ∈ ts.filterMap todoType, Reaches env t u)
        (initsOf ts = none ∨ ∃ t ∈ ts.filterMap todoType, Bad env t)
        (fun fs σ' => initsOf ts = some (fs.map (·.init)) ∧ ∀ f ∈ fs, σ'.cache f.init.gf.type = some f.t) (parseTodo rec σ ts)
  | [], σ, stk, hi => Parsed.pure hi ⟨rfl, fun f hf => (by cases hf)⟩
  | .bad :: _, σ, stk, hi => Parsed.throw hi (.inl rfl)
  | .noTag :: _, σ, stk, hi => Parsed.panic (.inl rfl)
  | .field gf slot oneof :: ts, σ, stk, hi => by
    simp only [parseTodo]
    split
    · rename_i e he
      exact Parsed.throw hi (.inl (by simp [initsOf, he]))
    · rename_i p tt he
      refine Parsed.andThen (Q2 := fun a fs σ' => ∃ fs', fs = ⟨⟨gf, slot, oneof, p, tt⟩, a, none⟩ :: fs' ∧ initsOf ts = some (fs'.map (·.init)) ∧
          ∀ f ∈ fs', σ'.cache f.init.gf.type = some f.t) (hrec σ stk gf.type hi) (fun a σ1 _ h1 hq => ?_) ?_ ?_ ?_ ?_ ?_
        (P2 := fun u => ∃ t ∈ ts.filterMap todoType, Reaches env t u) (bad2 := initsOf ts = none ∨ ∃ t ∈ ts.filterMap todoType, Bad env t)
      · refine Parsed.andThen (P2 := fun _ => False) (bad2 := False) (Q2 := fun fs' fs σ' => fs = ⟨⟨gf, slot, oneof, p, tt⟩, a, none⟩ :: fs')
          (parseTodo_spec hrec ts σ1 stk h1) (fun fs σ2 _ h2 hq2 => ?_) ?_ ?_ ?_ ?_ ?_
        · exact Parsed.pure h2 rfl
        · exact fun t ht => ht
        · exact fun t ht => ht.elim
        · exact fun h => h
        · exact fun h => h.elim
        · rintro fs' fs σ2 σ3 hx ⟨h3, h4⟩ h5
          exact ⟨fs', h5, h3, fun f hf => hx.cache _ _ (h4 f hf)⟩
      · exact fun u hu => ⟨gf.type, by simp [todoType], hu⟩
      · rintro u ⟨t, ht, hu⟩
        exact ⟨t, by simp only [List.filterMap_cons, todoType]; exact List.mem_cons_of_mem _ ht, hu⟩
      · exact fun h => .inr ⟨gf.type, by simp [todoType], h⟩
      · rintro (h | ⟨t, ht, hb⟩)
        · exact .inl (by simp [initsOf, he, h])
        · exact .inr ⟨t, by simp only [List.filterMap_cons, todoType]; exact List.mem_cons_of_mem _ ht, hb⟩
      · rintro a fs σ1 σ2 hx h1 ⟨fs', rfl, h3, h4⟩
        refine ⟨by simp [initsOf, he, h3], fun f hf => ?_⟩
        rcases List.mem_cons.1 hf with rfl | hf
        · exact hx.cache _ _ h1
        · exact h4 f hf

theorem parseStructS_spec {env : GoEnv} {rec : CState → GoType → Out Nat × CState} (hrec : ParseSpec env rec) (σ : CState) (stk : List GoType)
    (i : Nat) (hi : PInv env σ stk) :
    Parsed env σ stk (fun u => ∃ t ∈ kids env (.struct i), Reaches env t u) (Bad env (.struct i))
      (fun so σ' => so.finalized = false ∧ fieldsOf env i = some (so.fields.map (·.init)) ∧ tablesOk (so.fields.map (·.init)) = .ok () ∧
        ∀ f ∈ so.fields, σ'.cache f.init.gf.type = some f.t) (parseStructS env rec σ i) := by
  unfold parseStructS
  have hsort : ∀ fs : List FieldObj, initsOf (todo (decl env i)) = some (fs.map (·.init)) →
      fieldsOf env i = some ((sortOn (fun f : FieldObj => f.init.p.id.toInt) fs).map (·.init)) := by
    intro fs h
    unfold fieldsOf
    rw [h, Option.map_some, ← sortOn_map]
    rfl
  refine Parsed.andThen (P2 := fun _ => False) (bad2 := Bad env (.struct i)) (Q2 := fun _ so σ' => so.finalized = false ∧ fieldsOf env i = some (so.fields.map (·.init)) ∧
      tablesOk (so.fields.map (·.init)) = .ok () ∧ ∀ f ∈ so.fields, σ'.cache f.init.gf.type = some f.t)
    (parseTodo_spec hrec (todo (decl env i)) σ stk hi) (fun fs σ1 _ h1 hq => ?_) (fun t h => h) (fun t h => h.elim) ?_ (fun h => h) ?_
  · obtain ⟨hq1, hq2⟩ := hq
    have hs := hsort fs hq1
    have hbad : tablesOk ((sortOn (fun f : FieldObj => f.init.p.id.toInt) fs).map (·.init)) ≠ .ok () → Bad env (.struct i) := by
      intro hne
      refine ⟨_, .refl _, ?_⟩
      rintro ⟨fs', h3, h4⟩
      rw [hs] at h3
      cases h3
      exact hne h4
    dsimp only
    split
    · rename_i ht
      exact Parsed.pure h1 ⟨rfl, hs, ht, fun f hf => hq2 f ((sortOn_perm _ _).mem_iff.1 hf)⟩
    · rename_i ht
      exact Parsed.throw h1 (hbad (by rw [ht]; exact fun h => by cases h))
    · rename_i ht
      exact Parsed.panic (hbad (by rw [ht]; exact fun h => by cases h))
    · exact Parsed.fuel
  · rintro (h | ⟨t, ht, u, h1, h2⟩)
    · refine ⟨_, .refl _, ?_⟩
      rintro ⟨fs', h3, h4⟩
      rw [fieldsOf, h] at h3
      cases h3
    · exact ⟨u, .step _ t _ ht h1, h2⟩
  · exact fun a b σ1 σ2 _ _ h => h

theorem alloc_ext (σ : CState) {t : GoType} (hn : σ.cache t = none) : Ext σ (σ.alloc t) :=
  ⟨Nat.le_succ _, fun u a ha => by
    show (if u = t then some σ.next else σ.cache u) = some a
    rw [if_neg (fun e => by rw [e, hn] at ha; cases ha)]
    exact ha, fun a ha => if_neg (Nat.ne_of_lt ha), rfl⟩

theorem alloc_inv {env : GoEnv} {σ : CState} {stk : List GoType} {t : GoType} (hn : σ.cache t = none) (hi : PInv env σ stk) : PInv env (σ.alloc t) (t :: stk) := by
  have he := alloc_ext σ hn
  intro u a hu
  have hu' : (if u = t then some σ.next else σ.cache u) = some a := hu
  split at hu'
  · rename_i e
    cases hu'
    exact ⟨Nat.lt_succ_self _, by show (if σ.next = σ.next then _ else _ : TypeObj).rt = u; rw [if_pos rfl, e], .inl (by rw [e]; exact List.mem_cons_self)⟩
  · obtain ⟨h1, h2, h3⟩ := hi u a hu'
    refine ⟨Nat.lt_succ_of_lt h1, by rw [he.heap a h1]; exact h2, ?_⟩
    rcases h3 with h3 | h3
    · exact .inl (List.mem_cons_of_mem _ h3)
    · exact .inr (h3.mono (he.heap a h1) (fun u b _ hb => he.cache u b hb) h3.kid)

/-- Filling in the object. -/
theorem finish {env : GoEnv} {σ σ1 : CState} {stk : List GoType} {t : GoType} (hi : PInv env σ stk) (hn : σ.cache t = none) (he : Ext (σ.alloc t) σ1) (h1 : PInv env σ1 (t :: stk))
    {o : TypeObj} (ho : o.rt = t) (hf : Filled env (σ1.upd σ.next o) σ.next t) : PInv env (σ1.upd σ.next o) stk := by
  have hmine : σ1.cache t = some σ.next := he.cache t σ.next (by show (if t = t then _ else _) = _; rw [if_pos rfl])
  intro u a hu
  have hu' : σ1.cache u = some a := hu
  obtain ⟨g1, g2, g3⟩ := h1 u a hu'
  refine ⟨g1, ?_, ?_⟩
  · show (if a = σ.next then o else σ1.heap a).rt = u
    split
    · rename_i e
      subst e
      rw [← g2, ho]
      exact (h1 t _ hmine).2.1.symm
    · exact g2
  · by_cases e : a = σ.next
    · subst e
      have : u = t := by rw [← g2]; exact (h1 t _ hmine).2.1
      rw [this]
      exact .inr hf
    · rcases g3 with g3 | g3
      · rcases List.mem_cons.1 g3 with rfl | g3
        · rw [hmine] at hu'
          cases hu'
          exact absurd rfl e
        · exact .inl g3
      · exact .inr (Filled.mono (σ := σ1) (σ' := σ1.upd σ.next o) (if_neg e) (fun u b _ hb => hb) g3.kid g3)

/-- Dropping the object after an error. -/
theorem drop_inv {env : GoEnv} {σ σ1 : CState} {stk : List GoType} {t : GoType} (hac : Acyclic env) (hi : PInv env σ stk) (hn : σ.cache t = none)
    (he : Ext σ σ1) (hnew : News σ σ1 (Reaches env t)) (h1 : PInv env σ1 (t :: stk)) : PInv env (σ1.uncache t) stk := by
  obtain ⟨rank, hrank⟩ := hac
  have hle : ∀ {u v}, Reaches env u v → rank v ≤ rank u := by
    intro u v h
    induction h with
    | refl => exact Nat.le_refl _
    | step t u v hk _ ih => exact Nat.le_trans ih (Nat.le_of_lt (hrank t u hk))
  intro u a hu
  have hu' : (if u = t then none else σ1.cache u) = some a := hu
  split at hu'
  · cases hu'
  · rename_i hne
    obtain ⟨g1, g2, g3⟩ := h1 u a hu'
    refine ⟨g1, g2, ?_⟩
    rcases g3 with g3 | g3
    · rcases List.mem_cons.1 g3 with rfl | g3
      · exact absurd rfl hne
      · exact .inl g3
    · have key : ∀ w, w ∈ kids env u → w ≠ t ∨ u ∈ stk := by
        intro w hw
        by_cases e : w = t
        · subst e
          rcases hnew u a hu' with h2 | ⟨h2, _⟩
          · rcases (hi u a h2).2.2 with h3 | h3
            · exact .inr h3
            · obtain ⟨b, hb⟩ := h3.cached _ hw
              rw [hn] at hb
              cases hb
          · exact absurd (Nat.lt_of_lt_of_le (hrank u w hw) (hle h2)) (Nat.lt_irrefl _)
        · exact .inl e
      by_cases hs : u ∈ stk
      · exact .inl hs
      · refine .inr (Filled.mono (σ := σ1) (σ' := σ1.uncache t) rfl (fun w b hw hb => ?_) g3.kid g3)
        show (if w = t then none else σ1.cache w) = some b
        rw [if_neg ((key w hw).resolve_right hs)]
        exact hb

/-- A new object: from the specification of what is done between entering it in the cache and filling it in. -/
theorem parse_new {env : GoEnv} {σ : CState} {stk : List GoType} {t : GoType} (hi : PInv env σ stk) (hn : σ.cache t = none)
    {r : Out Nat × CState}
    (h : Ext (σ.alloc t) r.2 ∨ ∃ σ1 o, r = (.ok σ.next, σ1.upd σ.next o) ∧ Ext (σ.alloc t) σ1 ∧ News (σ.alloc t) σ1 (Reaches env t) ∧ PInv env σ1 (t :: stk) ∧
      o.rt = t ∧ o.finalized = false ∧ (∀ so, o.s = some so → so.finalized = false) ∧ Filled env (σ1.upd σ.next o) σ.next t)
    (hnews : (∀ a, r.1 ≠ .ok a) → News (σ.alloc t) r.2 (Reaches env t))
    (hok : (∃ a, r.1 = .ok a) → ∃ σ1 o, r = (.ok σ.next, σ1.upd σ.next o) ∧ Ext (σ.alloc t) σ1 ∧ News (σ.alloc t) σ1 (Reaches env t) ∧ PInv env σ1 (t :: stk) ∧
      o.rt = t ∧ o.finalized = false ∧ (∀ so, o.s = some so → so.finalized = false) ∧ Filled env (σ1.upd σ.next o) σ.next t)
    (hfail : r.1 = .err ∨ r.1 = .panic → Bad env t) (herr : r.1 = .err → Acyclic env → PInv env r.2 (t :: stk)) :
    Parsed env σ stk (Reaches env t) (Bad env t) (fun a σ' => σ'.cache t = some a) (onErr (·.uncache t) r) := by
  have hae := alloc_ext σ hn
  have halloc : News σ (σ.alloc t) (Reaches env t) := by
    intro u a hu
    have hu' : (if u = t then some σ.next else σ.cache u) = some a := hu
    split at hu'
    · rename_i e
      cases hu'
      refine .inr ⟨by rw [e]; exact .refl _, Nat.le_refl _, ?_⟩
      unfold Unflagged
      rw [show (σ.alloc t).heap σ.next = ⟨t, none, none, none, false⟩ from if_pos rfl]
      exact ⟨rfl, fun so hs => by cases hs⟩
    · exact .inl hu'
  obtain ⟨o, σ'⟩ := r
  have hfailcase : (∀ a, o ≠ .ok a) → Ext (σ.alloc t) σ' := by
    intro hno
    rcases h with h | ⟨σ1, o', h1, _⟩
    · exact h
    · cases h1
      exact absurd rfl (hno _)
  have hnewsF : (∀ a, o ≠ .ok a) → News σ σ' (Reaches env t) := by
    intro hno
    exact (News.trans hae (hfailcase hno) (alloc_inv hn hi).lt halloc (hnews hno)).weaken (fun _ h => h.elim id id)
  cases o with
  | ok a =>
    obtain ⟨σ1, o, he, h1, h2, h3, h4, h5, h6, h7⟩ := hok ⟨a, rfl⟩
    cases he
    have hmine : σ1.cache t = some σ.next := h1.cache t σ.next (by show (if t = t then _ else _) = _; rw [if_pos rfl])
    refine ⟨⟨Nat.le_trans hae.next h1.next, fun u b hb => h1.cache u b (hae.cache u b hb), fun b hb => ?_, h1.final⟩, ?_, ?_, ?_, ?_⟩
    · show (if b = σ.next then o else σ1.heap b) = σ.heap b
      rw [if_neg (Nat.ne_of_lt hb)]
      exact (hae.trans h1).heap b hb
    · have := (News.trans hae h1 (alloc_inv hn hi).lt halloc h2).weaken (Q := Reaches env t) (fun _ h => h.elim id id)
      intro u b hu
      rcases this u b hu with h8 | ⟨h8, h9, h10⟩
      · exact .inl h8
      · refine .inr ⟨h8, h9, ?_⟩
        unfold Unflagged
        show (if b = σ.next then o else σ1.heap b).finalized = false ∧ ∀ so, (if b = σ.next then o else σ1.heap b).s = some so → _
        split
        · exact ⟨h5, h6⟩
        · exact h10
    · intro b hb
      cases hb
      exact ⟨finish hi hn h1 h3 h4 h7, hmine⟩
    · intro hb; rcases hb with hb | hb <;> cases hb
    · intro hb; cases hb
  | err =>
    have hf := hfailcase (fun a h => by cases h)
    have hN := hnewsF (fun a h => by cases h)
    have hcache : ∀ u a, (σ'.uncache t).cache u = some a → σ'.cache u = some a := by
      intro u a hu
      have hu' : (if u = t then none else σ'.cache u) = some a := hu
      split at hu'
      · cases hu'
      · exact hu'
    refine ⟨⟨Nat.le_trans hae.next hf.next, fun u b hb => ?_, fun b hb => (hae.trans hf).heap b hb, hf.final⟩, ?_, ?_, ?_, ?_⟩
    · show (if u = t then none else σ'.cache u) = some b
      rw [if_neg (fun e => by rw [e, hn] at hb; cases hb)]
      exact (hae.trans hf).cache u b hb
    · intro u b hu
      exact hN u b (hcache u b hu)
    · intro b hb; cases hb
    · intro _; exact hfail (.inl rfl)
    · intro _ hac
      exact drop_inv hac hi hn (hae.trans hf) hN (herr rfl hac)
  | panic =>
    exact ⟨hae.trans (hfailcase (fun a h => by cases h)), hnewsF (fun a h => by cases h), fun b hb => (by cases hb), fun _ => hfail (.inr rfl), fun hb => (by cases hb)⟩
  | fuel =>
    exact ⟨hae.trans (hfailcase (fun a h => by cases h)), hnewsF (fun a h => by cases h), fun b hb => (by cases hb),
      fun hb => (by rcases hb with hb | hb <;> cases hb), fun hb => (by cases hb)⟩

/-- As `parse_new`, when the last thing that happens is filling in the object. -/
theorem parse_fill {α : Type} {env : GoEnv} {σ : CState} {stk : List GoType} {t : GoType} (hi : PInv env σ stk) (hn : σ.cache t = none)
    {Q : α → CState → Prop} {r : Out α × CState} {obj : α → TypeObj}
    (h : Parsed env (σ.alloc t) (t :: stk) (Reaches env t) (Bad env t) Q r)
    (hobj : ∀ a, (obj a).rt = t ∧ (obj a).finalized = false)
    (hfill : ∀ a σ1, Q a σ1 → (∀ so, (obj a).s = some so → so.finalized = false) ∧ Filled env (σ1.upd σ.next (obj a)) σ.next t) :
    Parsed env σ stk (Reaches env t) (Bad env t) (fun a σ' => σ'.cache t = some a)
      (onErr (·.uncache t) (andThen r fun a σ1 => (.ok σ.next, σ1.upd σ.next (obj a)))) := by
  obtain ⟨o, σ1⟩ := r
  cases o with
  | ok a =>
    obtain ⟨h1, h2⟩ := h.ok a rfl
    obtain ⟨h3, h4⟩ := hfill a σ1 h2
    have := (⟨σ1, obj a, rfl, h.ext, h.news, h1, (hobj a).1, (hobj a).2, h3, h4⟩ :
      ∃ σ2 o, ((.ok σ.next, σ1.upd σ.next (obj a)) : Out Nat × CState) = (.ok σ.next, σ2.upd σ.next o) ∧ Ext (σ.alloc t) σ2 ∧
        News (σ.alloc t) σ2 (Reaches env t) ∧ PInv env σ2 (t :: stk) ∧
      o.rt = t ∧ o.finalized = false ∧ (∀ so, o.s = some so → so.finalized = false) ∧ Filled env (σ2.upd σ.next o) σ.next t)
    refine parse_new hi hn (.inr this) (fun hno => absurd rfl (hno _)) (fun _ => this) (fun hb => ?_) (fun hb => ?_)
    · rcases hb with hb | hb <;> cases hb
    · cases hb
  | err => exact parse_new (r := (.err, σ1)) hi hn (.inl h.ext) (fun _ => h.news) (fun hb => (by obtain ⟨a, hb⟩ := hb; cases hb)) (fun _ => h.fail (.inl rfl)) (fun _ => h.err rfl)
  | panic => exact parse_new (r := (.panic, σ1)) hi hn (.inl h.ext) (fun _ => h.news) (fun hb => (by obtain ⟨a, hb⟩ := hb; cases hb)) (fun _ => h.fail (.inr rfl)) (fun hb => (by cases hb))
  | fuel => exact parse_new (r := (.fuel, σ1)) hi hn (.inl h.ext) (fun _ => h.news) (fun hb => (by obtain ⟨a, hb⟩ := hb; cases hb)) (fun hb => (by rcases hb with hb | hb <;> cases hb)) (fun hb => (by cases hb))

theorem upd_same (σ : CState) (a : Nat) (o : TypeObj) : (σ.upd a o).heap a = o := if_pos rfl

theorem reaches_kid {env : GoEnv} {t u : GoType} (h : u ∈ kids env t) {v : GoType} (hv : Reaches env u v) : Reaches env t v := .step t u v h hv
theorem Bad.kid {env : GoEnv} {t u : GoType} (h : u ∈ kids env t) (hb : Bad env u) : Bad env t := by
  obtain ⟨v, h1, h2⟩ := hb
  exact ⟨v, .step t u v h h1, h2⟩

theorem Parsed.weaken {α : Type} {env : GoEnv} {σ : CState} {stk : List GoType} {P P' : GoType → Prop} {bad bad' : Prop} {Q Q' : α → CState → Prop}
    {r : Out α × CState} (h : Parsed env σ stk P bad Q r) (hP : ∀ t, P t → P' t) (hb : bad → bad') (hQ : ∀ a σ', Q a σ' → Q' a σ') :
    Parsed env σ stk P' bad' Q' r :=
  ⟨h.ext, h.news.weaken hP, fun a ha => ⟨(h.ok a ha).1, hQ _ _ (h.ok a ha).2⟩, fun hh => hb (h.fail hh), h.err⟩

theorem andThen_assoc {α β γ : Type} (r : Out α × CState) (f : α → CState → Out β × CState) (g : β → CState → Out γ × CState) :
    andThen (andThen r f) g = andThen r (fun a σ => andThen (f a σ) g) := by
  obtain ⟨o, σ⟩ := r
  cases o <;> rfl

theorem parseType_spec (env : GoEnv) : ∀ n, ParseSpec env (parseType env n)
  | 0, σ, stk, t, _ => Parsed.fuel
  | n + 1, σ, stk, t, hi => by
    have ih := parseType_spec env n
    unfold parseType
    cases hc : σ.cache t with
    | some a => exact Parsed.pure hi hc
    | none =>
      dsimp only
      have hi2 := alloc_inv hc hi
      have leaf : ∀ (hk : ∀ (σ1 : CState) (a : Nat), (σ1.heap a).k = none ∧ (σ1.heap a).v = none ∧ (σ1.heap a).s = none → Filled env σ1 a t),
          Parsed env σ stk (Reaches env t) (Bad env t) (fun a σ' => σ'.cache t = some a) (onErr (·.uncache t) (.ok σ.next, σ.alloc t)) := by
        intro hk
        have he : ((.ok σ.next, σ.alloc t) : Out Nat × CState) = andThen ((.ok (), σ.alloc t) : Out Unit × CState)
            (fun _ σ1 => (.ok σ.next, σ1.upd σ.next ⟨t, none, none, none, false⟩)) := by
          show _ = ((.ok σ.next, (σ.alloc t).upd σ.next ⟨t, none, none, none, false⟩) : Out Nat × CState)
          congr 1
          unfold CState.upd CState.alloc
          congr 1
          funext b
          dsimp only
          split <;> rfl
        rw [he]
        exact parse_fill (Q := fun _ _ => True) (obj := fun _ => ⟨t, none, none, none, false⟩) hi hc (Parsed.pure hi2 trivial) (fun _ => ⟨rfl, rfl⟩)
          (fun _ σ1 _ => ⟨fun so hs => (by cases hs), hk _ _ (by rw [upd_same]; exact ⟨rfl, rfl, rfl⟩)⟩)
      cases t with
      | map k v =>
        have := parse_fill (α := Nat × Nat) (Q := fun a σ1 => σ1.cache k = some a.1 ∧ σ1.cache v = some a.2)
          (obj := fun a => ⟨.map k v, some a.1, some a.2, none, false⟩) hi hc
          (r := andThen (parseType env n (σ.alloc (.map k v)) k) fun ka σ => andThen (parseType env n σ v) fun va σ => (.ok (ka, va), σ))
          (Parsed.andThen (Q2 := fun ka a σ1 => a.1 = ka ∧ σ1.cache v = some a.2) (ih _ _ k hi2)
            (fun ka σ1 _ h1 hq1 => Parsed.andThen (P2 := fun _ => False) (bad2 := False) (Q2 := fun va a _ => a = (ka, va)) (ih _ _ v h1)
              (fun va σ2 _ h2 hq2 => Parsed.pure h2 rfl) (fun _ h => h) (fun _ h => h.elim) (fun h => h) (fun h => h.elim)
              (fun va a σ1 σ2 hx h1 h2 => by subst h2; exact ⟨rfl, hx.cache _ _ h1⟩))
            (fun u hu => reaches_kid (by simp [kids]) hu) (fun u hu => reaches_kid (by simp [kids]) hu) (Bad.kid (by simp [kids])) (Bad.kid (by simp [kids]))
            (fun ka a σ1 σ2 hx h1 h2 => ⟨by rw [h2.1]; exact hx.cache _ _ h1, h2.2⟩))
          (fun _ => ⟨rfl, rfl⟩)
          (fun a σ1 hq => ⟨fun so hs => (by cases hs), a.1, a.2, by rw [upd_same], by rw [upd_same], by rw [upd_same], hq.1, hq.2⟩)
        rw [andThen_assoc] at this
        simp only [andThen_assoc] at this
        exact this
      | struct i =>
        exact parse_fill (obj := fun s => ⟨.struct i, none, none, some s, false⟩) hi hc
          ((parseStructS_spec ih _ _ i hi2).weaken (fun u ⟨t, ht, hu⟩ => reaches_kid ht hu) (fun h => h) (fun _ _ h => h)) (fun _ => ⟨rfl, rfl⟩)
          (fun so σ1 hq => ⟨fun so' hs => (by cases hs; exact hq.1), by rw [upd_same], by rw [upd_same], so, by rw [upd_same], hq.2.1, hq.2.2.1, hq.2.2.2⟩)
      | slice u =>
        exact parse_fill (obj := fun va => ⟨.slice u, none, some va, none, false⟩) hi hc
          ((ih _ _ u hi2).weaken (fun w hw => reaches_kid (by simp [kids]) hw) (Bad.kid (by simp [kids])) (fun _ _ h => h)) (fun _ => ⟨rfl, rfl⟩)
          (fun va σ1 hq => ⟨fun so' hs => (by cases hs), va, by rw [upd_same], by rw [upd_same], by rw [upd_same], hq⟩)
      | ptr u =>
        by_cases hp : u.isPointer = true
        · have := parse_fill (α := Nat) (Q := fun _ _ => False) (obj := fun va => ⟨.ptr u, none, some va, none, false⟩) hi hc
            (r := andThen (parseType env n (σ.alloc (.ptr u)) u) fun va σ => (.err, σ))
            (Parsed.andThen (P2 := fun _ => False) (bad2 := Bad env (.ptr u)) (Q2 := fun _ _ _ => False) (ih _ _ u hi2)
              (fun va σ1 _ h1 hq => Parsed.throw h1 ⟨_, .refl _, fun h => by simp only [LocalOK] at h; rw [hp] at h; cases h⟩)
              (fun w hw => reaches_kid (by simp [kids]) hw) (fun _ h => h.elim) (Bad.kid (by simp [kids])) (fun h => h) (fun _ _ _ _ _ _ h => h))
            (fun _ => ⟨rfl, rfl⟩) (fun va σ1 hq => hq.elim)
          rw [andThen_assoc] at this
          simp only [hp, if_true]
          exact this
        · have hp' : u.isPointer = false := by simpa using hp
          have := parse_fill (obj := fun va => ⟨.ptr u, none, some va, none, false⟩) hi hc
            ((ih _ _ u hi2).weaken (fun w hw => reaches_kid (by simp [kids]) hw) (Bad.kid (by simp [kids])) (fun _ _ h => h)) (fun _ => ⟨rfl, rfl⟩)
            (fun va σ1 hq => ⟨fun so' hs => (by cases hs), hp', va, by rw [upd_same], by rw [upd_same], by rw [upd_same], hq⟩)
          simp only [hp', Bool.false_eq_true, if_false]
          exact this
      | _ => exact leaf (fun σ1 a h => h)

end Verif.Lemmas
