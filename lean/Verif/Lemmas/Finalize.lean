import Verif.Lemmas.TypeCache
/-! # The second pass, with its flags -/
namespace Verif.Lemmas
open Verif.Spec Verif.Model Verif.Model.TypeCache

/-- What stays of a struct. -/
def shapeOf (so : StructObj) : List (FieldInit × Nat) := so.fields.map (fun f => (f.init, f.t))

/-- The second pass changes flags and field descriptors only. -/
structure SameShape (σ σ' : CState) : Prop where
  next : σ'.next = σ.next
  cache : σ'.cache = σ.cache
  final : σ'.final = σ.final
  rt : ∀ a, (σ'.heap a).rt = (σ.heap a).rt
  k : ∀ a, (σ'.heap a).k = (σ.heap a).k
  v : ∀ a, (σ'.heap a).v = (σ.heap a).v
  s : ∀ a, (σ'.heap a).s.map shapeOf = (σ.heap a).s.map shapeOf

theorem SameShape.rfl {σ : CState} : SameShape σ σ := ⟨Eq.refl _, Eq.refl _, Eq.refl _, fun _ => Eq.refl _, fun _ => Eq.refl _, fun _ => Eq.refl _, fun _ => Eq.refl _⟩

theorem SameShape.trans {σ σ1 σ2 : CState} (h : SameShape σ σ1) (h' : SameShape σ1 σ2) : SameShape σ σ2 :=
  ⟨h'.next.trans h.next, h'.cache.trans h.cache, h'.final.trans h.final, fun a => (h'.rt a).trans (h.rt a), fun a => (h'.k a).trans (h.k a),
    fun a => (h'.v a).trans (h.v a), fun a => (h'.s a).trans (h.s a)⟩

theorem SameShape.struct {σ σ' : CState} (h : SameShape σ σ') {a : Nat} {so : StructObj} (hs : (σ.heap a).s = some so) :
    ∃ so', (σ'.heap a).s = some so' ∧ shapeOf so' = shapeOf so := by
  have := h.s a
  rw [hs, Option.map_some] at this
  obtain ⟨so', h1, h2⟩ := Option.map_eq_some_iff.1 this
  exact ⟨so', h1, h2⟩

theorem SameShape.none {σ σ' : CState} (h : SameShape σ σ') {a : Nat} (hs : (σ.heap a).s = none) : (σ'.heap a).s = none := by
  have := h.s a
  rw [hs, Option.map_none] at this
  exact Option.map_eq_none_iff.1 this

theorem shape_inits {so so' : StructObj} (h : shapeOf so' = shapeOf so) : so'.fields.map (·.init) = so.fields.map (·.init) := by
  have := congrArg (List.map Prod.fst) h
  simpa only [shapeOf, List.map_map, Function.comp_def] using this

theorem shape_mem {so so' : StructObj} (h : shapeOf so' = shapeOf so) {f : FieldObj} (hf : f ∈ so'.fields) : ∃ g ∈ so.fields, g.init = f.init ∧ g.t = f.t := by
  have : (f.init, f.t) ∈ shapeOf so := by rw [← h]; exact List.mem_map_of_mem hf
  obtain ⟨g, hg, he⟩ := List.mem_map.1 this
  exact ⟨g, hg, congrArg Prod.fst he, congrArg Prod.snd he⟩

theorem PInv.shape {env : GoEnv} {σ σ' : CState} {stk : List GoType} (hi : PInv env σ stk) (h : SameShape σ σ') : PInv env σ' stk := by
  intro t a ha
  rw [h.cache] at ha
  obtain ⟨h1, h2, h3⟩ := hi t a ha
  refine ⟨by rw [h.next]; exact h1, by rw [h.rt]; exact h2, h3.imp id (fun hf => ?_)⟩
  cases t with
  | map k v =>
    obtain ⟨ka, va, h1, h2, h3, h4, h5⟩ := hf
    exact ⟨ka, va, by rw [h.k]; exact h1, by rw [h.v]; exact h2, h.none h3, by rw [h.cache]; exact h4, by rw [h.cache]; exact h5⟩
  | slice t =>
    obtain ⟨va, h1, h2, h3, h4⟩ := hf
    exact ⟨va, by rw [h.k]; exact h1, by rw [h.v]; exact h2, h.none h3, by rw [h.cache]; exact h4⟩
  | ptr t =>
    obtain ⟨h0, va, h1, h2, h3, h4⟩ := hf
    exact ⟨h0, va, by rw [h.k]; exact h1, by rw [h.v]; exact h2, h.none h3, by rw [h.cache]; exact h4⟩
  | struct i =>
    obtain ⟨h0, h1, so, h2, h3, h4, h5⟩ := hf
    obtain ⟨so', g1, g2⟩ := h.struct h2
    refine ⟨by rw [h.k]; exact h0, by rw [h.v]; exact h1, so', g1, by rw [shape_inits g2]; exact h3, by rw [shape_inits g2]; exact h4, fun f hf => ?_⟩
    obtain ⟨g, hg, e1, e2⟩ := shape_mem g2 hf
    rw [h.cache, ← e1, ← e2]
    exact h5 g hg
  | _ => exact ⟨by rw [h.k]; exact hf.1, by rw [h.v]; exact hf.2.1, h.none hf.2.2⟩

/-- Nothing being parsed. -/
abbrev Parsing0 (env : GoEnv) (σ : CState) : Prop := PInv env σ []

theorem Parsing0.filled {env : GoEnv} {σ : CState} (hi : Parsing0 env σ) {t : GoType} {a : Nat} (h : σ.cache t = some a) : Filled env σ a t :=
  (hi t a h).2.2.resolve_left (fun h => by cases h)

theorem chainOk_of {env : GoEnv} {σ : CState} (hi : Parsing0 env σ) : ∀ (t : GoType) (a : Nat), σ.cache t = some a → chainOk σ t a = true
  | .ptr t, a, h => by
    obtain ⟨_, va, _, h2, _, h4⟩ := hi.filled h
    simp only [chainOk, h2]
    exact chainOk_of hi t va h4
  | .slice t, a, h => by
    obtain ⟨va, _, h2, _, h4⟩ := hi.filled h
    simp only [chainOk, h2]
    exact chainOk_of hi t va h4
  | .map k v, a, h => by
    obtain ⟨ka, va, h1, h2, _, h4, h5⟩ := hi.filled h
    simp only [chainOk, h1, h2, chainOk_of hi k ka h4, chainOk_of hi v va h5, Bool.and_self]
  | .bool, _, _ => rfl | .int32, _, _ => rfl | .int64, _, _ => rfl | .uint32, _, _ => rfl | .uint64, _, _ => rfl | .float32, _, _ => rfl
  | .float64, _, _ => rfl | .string, _, _ => rfl | .bytes, _, _ => rfl | .struct _, _, _ => rfl | .iface, _, _ => rfl | .other _, _, _ => rfl

/-- Which object is for which visit. -/
def At (σ : CState) : Node → Visit → Prop
  | .type a, .type t => σ.cache t = some a
  | .struct a, .fields i => σ.cache (.struct i) = some a
  | _, _ => False

theorem At.fun {env : GoEnv} {σ : CState} (hi : Parsing0 env σ) {x : Node} {v w : Visit} (hv : At σ x v) (hw : At σ x w) : v = w := by
  cases x <;> cases v <;> cases w <;> simp only [At] at hv hw
  · rw [← (hi _ _ hv).2.1, (hi _ _ hw).2.1]
  · have := (hi _ _ hv).2.1.symm.trans (hi _ _ hw).2.1
    cases this
    rfl

theorem At.shape {σ σ' : CState} (h : SameShape σ σ') {x : Node} {v : Visit} (hv : At σ x v) : At σ' x v := by
  cases x <;> cases v <;> simp only [At] at hv ⊢ <;> rw [h.cache] <;> exact hv

theorem At.unshape {σ σ' : CState} (h : SameShape σ σ') {x : Node} {v : Visit} (hv : At σ' x v) : At σ x v := by
  cases x <;> cases v <;> simp only [At] at hv ⊢ <;> rw [h.cache] at hv <;> exact hv

theorem At.structObj {env : GoEnv} {σ : CState} (hi : Parsing0 env σ) {a i : Nat} (h : At σ (.struct a) (.fields i)) :
    ∃ so, (σ.heap a).s = some so ∧ fieldsOf env i = some (so.fields.map (·.init)) ∧ ∀ f ∈ so.fields, σ.cache f.init.gf.type = some f.t := by
  obtain ⟨_, _, so, h2, h3, _, h5⟩ := Parsing0.filled hi (t := .struct i) h
  exact ⟨so, h2, h3, h5⟩

/-- A field has been finalized. -/
def Done (σ : CState) (a j : Nat) : Prop :=
  ∃ so f d, (σ.heap a).s = some so ∧ so.fields[j]? = some f ∧ f.init.final = .ok d ∧ f.desc = some d

/-- Work has been done. -/
def WDone (σ : CState) : Work → Prop
  | .field a j => Done σ a j
  | .node x => σ.flag x = true

/-- Whatever has a flag has been dealt with, or is being dealt with. -/
def FInv (σ : CState) (stk : List Node) : Prop :=
  ∀ x v, At σ x v → σ.flag x = true → x ∈ stk ∨ ∀ w ∈ work σ x, WDone σ w

theorem fieldsWork_shape {σ σ' : CState} (h : SameShape σ σ') (a : Nat) : ∀ (j : Nat) (fs fs' : List FieldObj),
    fs'.map (fun f => (f.init, f.t)) = fs.map (fun f => (f.init, f.t)) → fieldsWork σ' a j fs' = fieldsWork σ a j fs
  | _, [], [], _ => rfl
  | _, [], _ :: _, e => by cases e
  | _, _ :: _, [], e => by cases e
  | j, f :: fs, f' :: fs', e => by
    simp only [List.map_cons, List.cons.injEq, Prod.mk.injEq] at e
    simp only [fieldsWork, fieldsWork_shape h a (j + 1) fs fs' e.2]
    unfold fieldWork
    rw [e.1.2, h.k, h.v]

theorem work_shape {σ σ' : CState} (h : SameShape σ σ') (x : Node) : work σ' x = work σ x := by
  cases x with
  | type a =>
    simp only [work, h.v]
    cases hs : (σ.heap a).s with
    | none => rw [h.none hs]
    | some so =>
      obtain ⟨so', h1, _⟩ := h.struct hs
      rw [h1]
  | struct a =>
    simp only [work]
    cases hs : (σ.heap a).s with
    | none => rw [h.none hs]
    | some so =>
      obtain ⟨so', h1, h2⟩ := h.struct hs
      rw [h1]
      exact fieldsWork_shape h a 0 so.fields so'.fields h2

/-- What a part of the second pass does. -/
structure Fin (env : GoEnv) (σ : CState) (stk : List Node) (P : Node → Prop) (bad : Prop) (Q : CState → Prop) (r : Out Unit × CState) : Prop where
  shape : SameShape σ r.2
  flags : ∀ y, σ.flag y = true → r.2.flag y = true
  done : ∀ a j, Done σ a j → Done r.2 a j
  news : ∀ y, r.2.flag y = true → σ.flag y = true ∨ P y
  ok : r.1 = .ok () → FInv r.2 stk ∧ Q r.2
  fail : r.1 = .err → bad
  nopanic : r.1 ≠ .panic
  err : r.1 = .err → Acyclic env → FInv r.2 stk

theorem Fin.wdone {env : GoEnv} {σ : CState} {stk : List Node} {P : Node → Prop} {bad : Prop} {Q : CState → Prop} {r : Out Unit × CState}
    (h : Fin env σ stk P bad Q r) {w : Work} (hw : WDone σ w) : WDone r.2 w := by
  cases w with
  | field a j => exact h.done a j hw
  | node x => exact h.flags x hw

/-- One part after the other. -/
theorem Fin.andThen {env : GoEnv} {σ : CState} {stk : List Node} {P1 P2 P : Node → Prop} {bad1 bad2 bad : Prop} {Q1 Q2 Q : CState → Prop}
    {r : Out Unit × CState} {f : Unit → CState → Out Unit × CState} (h : Fin env σ stk P1 bad1 Q1 r)
    (hf : ∀ σ1, SameShape σ σ1 → FInv σ1 stk → Q1 σ1 → Fin env σ1 stk P2 bad2 Q2 (f () σ1))
    (hP1 : ∀ y, P1 y → P y) (hP2 : ∀ y, P2 y → P y) (hb1 : bad1 → bad) (hb2 : bad2 → bad)
    (hQ : ∀ σ1 r2, Fin env σ1 stk P2 bad2 Q2 r2 → Q1 σ1 → Q2 r2.2 → Q r2.2) : Fin env σ stk P bad Q (andThen r f) := by
  obtain ⟨o, σ1⟩ := r
  cases o with
  | ok u =>
    obtain ⟨hi, hq⟩ := h.ok rfl
    have h2 := hf σ1 h.shape hi hq
    refine ⟨h.shape.trans h2.shape, fun y hy => h2.flags y (h.flags y hy), fun a j hd => h2.done a j (h.done a j hd), ?_, ?_, ?_, h2.nopanic, h2.err⟩
    · intro y hy
      rcases h2.news y hy with h3 | h3
      · rcases h.news y h3 with h4 | h4
        · exact .inl h4
        · exact .inr (hP1 y h4)
      · exact .inr (hP2 y h3)
    · intro hok
      have := h2.ok hok
      exact ⟨this.1, hQ σ1 _ h2 hq this.2⟩
    · exact fun he => hb2 (h2.fail he)
  | err => exact ⟨h.shape, h.flags, h.done, fun y hy => (h.news y hy).imp id (hP1 y), fun hb => (by cases hb), fun _ => hb1 (h.fail rfl), fun hb => (by cases hb), fun _ => h.err rfl⟩
  | panic => exact absurd rfl h.nopanic
  | fuel => exact ⟨h.shape, h.flags, h.done, fun y hy => (h.news y hy).imp id (hP1 y), fun hb => (by cases hb), fun hb => (by cases hb), fun hb => (by cases hb), fun hb => (by cases hb)⟩

theorem Fin.pure {env : GoEnv} {σ : CState} {stk : List Node} {P : Node → Prop} {bad : Prop} {Q : CState → Prop} (hi : FInv σ stk) (hq : Q σ) :
    Fin env σ stk P bad Q (.ok (), σ) :=
  ⟨SameShape.rfl, fun _ h => h, fun _ _ h => h, fun _ h => .inl h, fun _ => ⟨hi, hq⟩, fun hb => (by cases hb), fun hb => (by cases hb), fun hb => (by cases hb)⟩

theorem setFlag_shape (σ : CState) (x : Node) (b : Bool) : SameShape σ (σ.setFlag x b) := by
  cases x with
  | type a =>
    refine ⟨rfl, rfl, rfl, ?_, ?_, ?_, ?_⟩ <;> intro c <;> simp only [CState.setFlag, CState.upd] <;> split <;> simp_all
  | struct a =>
    refine ⟨rfl, rfl, rfl, ?_, ?_, ?_, ?_⟩ <;> intro c <;> simp only [CState.setFlag, CState.upd] <;> split <;> try simp_all
    rw [show (shapeOf ∘ fun s : StructObj => { fields := s.fields, finalized := b }) = shapeOf from rfl]

theorem setFlag_done {σ : CState} {x : Node} {b : Bool} {a j : Nat} : Done (σ.setFlag x b) a j ↔ Done σ a j := by
  cases x with
  | type c =>
    have : ((σ.setFlag (.type c) b).heap a).s = (σ.heap a).s := by
      simp only [CState.setFlag, CState.upd]
      split
      · rename_i e; rw [e]
      · rfl
    unfold Done
    rw [this]
  | struct c =>
    by_cases e : a = c
    · subst e
      have : ((σ.setFlag (.struct a) b).heap a).s = (σ.heap a).s.map (fun s => { s with finalized := b }) := by
        simp only [CState.setFlag, CState.upd, if_true]
      unfold Done
      rw [this]
      constructor
      · rintro ⟨so, f, d, h1, h2, h3, h4⟩
        obtain ⟨so', h5, rfl⟩ := Option.map_eq_some_iff.1 h1
        exact ⟨so', f, d, h5, h2, h3, h4⟩
      · rintro ⟨so, f, d, h1, h2, h3, h4⟩
        exact ⟨{ so with finalized := b }, f, d, by rw [h1]; rfl, h2, h3, h4⟩
    · have : ((σ.setFlag (.struct c) b).heap a) = σ.heap a := by
        simp only [CState.setFlag, CState.upd, if_neg e]
      unfold Done
      rw [this]

theorem setFlag_other {σ : CState} {x y : Node} {b : Bool} (h : y ≠ x) : (σ.setFlag x b).flag y = σ.flag y := by
  cases x with
  | type c =>
    cases y with
    | type a =>
      have e : a ≠ c := fun e => h (by rw [e])
      simp only [CState.flag, CState.setFlag, CState.upd, if_neg e]
    | struct a =>
      have : ((σ.setFlag (.type c) b).heap a).s = (σ.heap a).s := by
        simp only [CState.setFlag, CState.upd]
        split
        · rename_i e; rw [e]
        · rfl
      simp only [CState.flag, this]
  | struct c =>
    cases y with
    | type a =>
      simp only [CState.flag, CState.setFlag, CState.upd]
      split
      · rename_i e; subst e; rfl
      · rfl
    | struct a =>
      have e : a ≠ c := fun e => h (by rw [e])
      simp only [CState.flag, CState.setFlag, CState.upd, if_neg e]

theorem setFlag_same {env : GoEnv} {σ : CState} (hi : Parsing0 env σ) {x : Node} {v : Visit} (hv : At σ x v) (b : Bool) : (σ.setFlag x b).flag x = b := by
  cases x with
  | type c => simp only [CState.flag, CState.setFlag, CState.upd, if_true]
  | struct a =>
    cases v with
    | type t => cases hv
    | fields i =>
      obtain ⟨so, h1, _⟩ := At.structObj hi hv
      simp only [CState.flag, CState.setFlag, CState.upd, if_true, h1, Option.map_some]

theorem mem_fieldsWork {σ : CState} {a : Nat} {w : Work} : ∀ {j : Nat} {fs : List FieldObj}, w ∈ fieldsWork σ a j fs →
    ∃ (l : Nat) (f : FieldObj), fs[l]? = some f ∧ w ∈ fieldWork σ a (j + l) f
  | _, [], h => by cases h
  | j, f :: fs, h => by
    rcases List.mem_append.1 h with h | h
    · exact ⟨0, f, rfl, h⟩
    · obtain ⟨l, g, h1, h2⟩ := mem_fieldsWork h
      exact ⟨l + 1, g, h1, by rw [show j + (l + 1) = j + 1 + l by omega]; exact h2⟩

theorem fieldsWork_mem {σ : CState} {a : Nat} {w : Work} : ∀ {j l : Nat} {fs : List FieldObj} {f : FieldObj}, fs[l]? = some f → w ∈ fieldWork σ a (j + l) f →
    w ∈ fieldsWork σ a j fs
  | _, _, [], f, h, _ => by cases h
  | j, 0, g :: fs, f, h, hw => by
    cases h
    exact List.mem_append_left _ hw
  | j, l + 1, g :: fs, f, h, hw => by
    refine List.mem_append_right _ (fieldsWork_mem (j := j + 1) (l := l) (f := f) h ?_)
    rw [show j + 1 + l = j + (l + 1) by omega]
    exact hw

/-- The nodes visited for a field. -/
theorem fieldWork_nodes {env : GoEnv} {σ : CState} (hi : Parsing0 env σ) {a j : Nat} {f : FieldObj} (hf : σ.cache f.init.gf.type = some f.t) :
    (∀ y, .node y ∈ fieldWork σ a j f → ∃ v ∈ fieldVisits f.init.gf.type, At σ y v) ∧
    (∀ v ∈ fieldVisits f.init.gf.type, ∃ y, .node y ∈ fieldWork σ a j f ∧ At σ y v) ∧
    (∀ b l, .field b l ∈ fieldWork σ a j f → b = a ∧ l = j) := by
  have hfill := hi.filled hf
  unfold fieldWork fieldVisits
  generalize f.init.gf.type = t at *
  cases t with
  | map k v =>
    obtain ⟨ka, va, h1, h2, h3, h4, h5⟩ := hfill
    simp only [h1, h2, Option.toList_some, List.map_cons, List.map_nil, List.cons_append, List.nil_append, List.mem_cons, List.not_mem_nil, or_false]
    refine ⟨fun y hy => ?_, fun w hw => ?_, fun b l hb => ?_⟩
    · rcases hy with hy | hy | hy | hy <;> cases hy
      · exact ⟨_, .inl rfl, hf⟩
      · exact ⟨_, .inr (.inl rfl), h4⟩
      · exact ⟨_, .inr (.inr rfl), h5⟩
    · rcases hw with rfl | rfl | rfl
      · exact ⟨_, .inr (.inl rfl), hf⟩
      · exact ⟨_, .inr (.inr (.inl rfl)), h4⟩
      · exact ⟨_, .inr (.inr (.inr rfl)), h5⟩
    · rcases hb with hb | hb | hb | hb <;> cases hb
      exact ⟨rfl, rfl⟩
  | slice u =>
    obtain ⟨va, h1, h2, h3, h4⟩ := hfill
    simp only [h1, h2, Option.toList_some, Option.toList_none, List.map_cons, List.map_nil, List.nil_append, List.mem_cons, List.not_mem_nil, or_false]
    refine ⟨fun y hy => ?_, fun w hw => ?_, fun b l hb => ?_⟩
    · rcases hy with hy | hy | hy <;> cases hy
      · exact ⟨_, .inl rfl, hf⟩
      · exact ⟨_, .inr rfl, h4⟩
    · rcases hw with rfl | rfl
      · exact ⟨_, .inr (.inl rfl), hf⟩
      · exact ⟨_, .inr (.inr rfl), h4⟩
    · rcases hb with hb | hb | hb <;> cases hb
      exact ⟨rfl, rfl⟩
  | ptr u =>
    obtain ⟨h0, va, h1, h2, h3, h4⟩ := hfill
    simp only [h1, h2, Option.toList_some, Option.toList_none, List.map_cons, List.map_nil, List.nil_append, List.mem_cons, List.not_mem_nil, or_false]
    refine ⟨fun y hy => ?_, fun w hw => ?_, fun b l hb => ?_⟩
    · rcases hy with hy | hy | hy <;> cases hy
      · exact ⟨_, .inl rfl, hf⟩
      · exact ⟨_, .inr rfl, h4⟩
    · rcases hw with rfl | rfl
      · exact ⟨_, .inr (.inl rfl), hf⟩
      · exact ⟨_, .inr (.inr rfl), h4⟩
    · rcases hb with hb | hb | hb <;> cases hb
      exact ⟨rfl, rfl⟩
  | struct i =>
    obtain ⟨h1, h2, h3⟩ := hfill
    simp only [h1, h2, Option.toList_none, List.map_nil, List.nil_append, List.mem_cons, List.not_mem_nil, or_false]
    refine ⟨fun y hy => ?_, fun w hw => ?_, fun b l hb => ?_⟩
    · rcases hy with hy | hy <;> cases hy
      exact ⟨_, rfl, hf⟩
    · subst hw
      exact ⟨_, .inr rfl, hf⟩
    · rcases hb with hb | hb <;> cases hb
      exact ⟨rfl, rfl⟩
  | _ =>
    obtain ⟨h1, h2, h3⟩ := hfill
    simp only [h1, h2, Option.toList_none, List.map_nil, List.nil_append, List.mem_cons, List.not_mem_nil, or_false]
    refine ⟨fun y hy => ?_, fun w hw => ?_, fun b l hb => ?_⟩
    · rcases hy with hy | hy <;> cases hy
      exact ⟨_, rfl, hf⟩
    · subst hw
      exact ⟨_, .inr rfl, hf⟩
    · rcases hb with hb | hb <;> cases hb
      exact ⟨rfl, rfl⟩

/-- Work is what it should be. -/
theorem work_nodes {env : GoEnv} {σ : CState} (hi : Parsing0 env σ) {x : Node} {v : Visit} (hv : At σ x v) :
    (∀ y, .node y ∈ work σ x → ∃ w ∈ visits env v, At σ y w) ∧ (∀ w ∈ visits env v, ∃ y, .node y ∈ work σ x ∧ At σ y w) ∧
    (∀ b l, .field b l ∈ work σ x → ∃ i so f, v = .fields i ∧ x = .struct b ∧ (σ.heap b).s = some so ∧ so.fields[l]? = some f) ∧
    (∀ a so l f, x = .struct a → (σ.heap a).s = some so → so.fields[l]? = some f → .field a l ∈ work σ x) := by
  cases x with
  | type a =>
    cases v with
    | fields i => cases hv
    | type t =>
      have hv' : σ.cache t = some a := hv
      have hf := hi.filled hv'
      refine ⟨?_, ?_, ?_, fun b so l f e => (by cases e)⟩
      · intro y hy
        cases t with
        | map k v =>
          obtain ⟨ka, va, h1, h2, h3, h4, h5⟩ := hf
          simp only [work, h3, h2, Option.toList_some, List.map_cons, List.map_nil, List.nil_append, List.mem_cons, List.not_mem_nil, or_false] at hy
          cases hy
          exact ⟨_, List.mem_cons_self, h5⟩
        | slice u =>
          obtain ⟨va, h1, h2, h3, h4⟩ := hf
          simp only [work, h3, h2, Option.toList_some, List.map_cons, List.map_nil, List.nil_append, List.mem_cons, List.not_mem_nil, or_false] at hy
          cases hy
          exact ⟨_, List.mem_cons_self, h4⟩
        | ptr u =>
          obtain ⟨h0, va, h1, h2, h3, h4⟩ := hf
          simp only [work, h3, h2, Option.toList_some, List.map_cons, List.map_nil, List.nil_append, List.mem_cons, List.not_mem_nil, or_false] at hy
          cases hy
          exact ⟨_, List.mem_cons_self, h4⟩
        | struct i =>
          obtain ⟨h0, h1, so, h2, _⟩ := hf
          simp only [work, h2, h1, Option.toList_none, List.map_nil, List.append_nil, List.mem_cons, List.not_mem_nil, or_false] at hy
          cases hy
          exact ⟨_, List.mem_cons_self, hv'⟩
        | _ =>
          obtain ⟨h0, h1, h2⟩ := hf
          simp only [work, h2, h1, Option.toList_none, List.map_nil, List.append_nil] at hy
          cases hy
      · intro w hw
        cases t with
        | map k v =>
          obtain ⟨ka, va, h1, h2, h3, h4, h5⟩ := hf
          simp only [visits, List.mem_cons, List.not_mem_nil, or_false] at hw
          subst hw
          exact ⟨.type va, by simp [work, h2, h3], h5⟩
        | slice u =>
          obtain ⟨va, h1, h2, h3, h4⟩ := hf
          simp only [visits, List.mem_cons, List.not_mem_nil, or_false] at hw
          subst hw
          exact ⟨.type va, by simp [work, h2, h3], h4⟩
        | ptr u =>
          obtain ⟨h0, va, h1, h2, h3, h4⟩ := hf
          simp only [visits, List.mem_cons, List.not_mem_nil, or_false] at hw
          subst hw
          exact ⟨.type va, by simp [work, h2, h3], h4⟩
        | struct i =>
          obtain ⟨h0, h1, so, h2, _⟩ := hf
          simp only [visits, List.mem_cons, List.not_mem_nil, or_false] at hw
          subst hw
          exact ⟨.struct a, by simp [work, h1, h2], hv'⟩
        | _ => cases hw
      · intro b l hb
        simp only [work] at hb
        rcases List.mem_append.1 hb with hb | hb
        · split at hb
          · simp at hb
          · cases hb
        · simp at hb
  | struct a =>
    cases v with
    | type t => cases hv
    | fields i =>
      obtain ⟨so, h1, h2, h3⟩ := At.structObj hi hv
      have hw : work σ (.struct a) = fieldsWork σ a 0 so.fields := by simp only [work, h1]
      rw [hw]
      have hvis : visits env (.fields i) = so.fields.flatMap (fun f => fieldVisits f.init.gf.type) := by
        simp only [visits, h2, Option.getD_some, List.flatMap_map]
      refine ⟨?_, ?_, ?_, ?_⟩
      · intro y hy
        obtain ⟨l, f, h4, h5⟩ := mem_fieldsWork hy
        have hm := List.mem_of_getElem? h4
        obtain ⟨w, h6, h7⟩ := (fieldWork_nodes hi (h3 f hm)).1 y h5
        exact ⟨w, by rw [hvis]; exact List.mem_flatMap.2 ⟨f, hm, h6⟩, h7⟩
      · intro w hw'
        rw [hvis] at hw'
        obtain ⟨f, hm, h6⟩ := List.mem_flatMap.1 hw'
        obtain ⟨l, hl⟩ := List.mem_iff_getElem?.1 hm
        obtain ⟨y, h7, h8⟩ := (fieldWork_nodes (a := a) (j := 0 + l) hi (h3 f hm)).2.1 w h6
        exact ⟨y, fieldsWork_mem hl h7, h8⟩
      · intro b l hb
        obtain ⟨l', f, h4, h5⟩ := mem_fieldsWork hb
        obtain ⟨rfl, rfl⟩ := (fieldWork_nodes hi (h3 f (List.mem_of_getElem? h4))).2.2 b l h5
        exact ⟨i, so, f, rfl, rfl, h1, by rw [Nat.zero_add]; exact h4⟩
      · intro b so' l f e hs hl
        cases e
        rw [h1] at hs
        cases hs
        exact fieldsWork_mem hl (by rw [Nat.zero_add]; exact List.mem_cons_self)

theorem Visited.trans {env : GoEnv} {x y z : Visit} (h : Visited env x y) (h' : Visited env y z) : Visited env x z := by
  induction h with
  | refl => exact h'
  | step x u v hk _ ih => exact .step x u z hk (ih h')

/-- Something visited is not what it should be. -/
def VBad (env : GoEnv) (v : Visit) : Prop := ∃ i, Visited env v (.fields i) ∧ ¬ FinalOK env i

/-- What is found from a visit. -/
def Found (env : GoEnv) (σ : CState) (v : Visit) (y : Node) : Prop := ∃ w, At σ y w ∧ Visited env v w

/-- The specification of `finalize`. -/
abbrev FinSpec (env : GoEnv) (rec : CState → Node → Out Unit × CState) : Prop :=
  ∀ σ stk x v, Parsing0 env σ → FInv σ stk → At σ x v → Fin env σ stk (Found env σ v) (VBad env v) (fun σ' => σ'.flag x = true) (rec σ x)

/-- Finalizing a field. -/
theorem finalizeField_spec {env : GoEnv} {σ : CState} {stk : List Node} (hi : Parsing0 env σ) (hf : FInv σ stk) {a i j : Nat} {so : StructObj} {f : FieldObj}
    (hv : At σ (.struct a) (.fields i)) (hs : (σ.heap a).s = some so) (hj : so.fields[j]? = some f) :
    Fin env σ stk (fun _ => False) (¬ FinalOK env i) (fun σ' => Done σ' a j) (finalizeField σ a j) := by
  obtain ⟨so', h1, h2, h3⟩ := At.structObj hi hv
  rw [hs] at h1
  cases h1
  have hm := List.mem_of_getElem? hj
  unfold finalizeField
  simp only [hs, hj, chainOk_of hi _ _ (h3 f hm), if_true]
  cases hd : f.init.final with
  | error e =>
    refine ⟨SameShape.rfl, fun _ h => h, fun _ _ h => h, fun _ h => .inl h, fun h => (by cases h), fun _ => ?_, fun h => (by cases h), fun _ _ => hf⟩
    rintro ⟨fs, h4, h5⟩
    rw [h2] at h4
    cases h4
    obtain ⟨d, h6⟩ := h5 f.init (List.mem_map_of_mem hm)
    rw [hd] at h6
    cases h6
  | ok d =>
    dsimp only
    have hlt : j < so.fields.length := (List.getElem?_eq_some_iff.1 hj).1
    have hset : (so.fields.set j { f with desc := some d }).map (fun f => (f.init, f.t)) = so.fields.map (fun f => (f.init, f.t)) := by
      rw [List.map_set]
      apply List.ext_getElem? 
      intro l
      rw [List.getElem?_set]
      split
      · rename_i e
        subst e
        rw [List.getElem?_map, hj]
        simp [hlt]
      · rfl
    have hshape : SameShape σ (σ.upd a { σ.heap a with s := some { so with fields := so.fields.set j { f with desc := some d } } }) := by
      refine ⟨rfl, rfl, rfl, ?_, ?_, ?_, ?_⟩ <;> intro c <;> simp only [CState.upd] <;> split <;> try (rename_i e; subst e; rfl)
      · rfl
      · rfl
      · rfl
      · rename_i e
        subst e
        simp only [hs, Option.map_some, shapeOf]
        rw [hset]
      · rfl
    have hflag : ∀ y, (σ.upd a { σ.heap a with s := some { so with fields := so.fields.set j { f with desc := some d } } }).flag y = σ.flag y := by
      intro y
      cases y with
      | type c =>
        simp only [CState.flag, CState.upd]
        split
        · rename_i e; subst e; rfl
        · rfl
      | struct c =>
        simp only [CState.flag, CState.upd]
        split
        · rename_i so2 h4
          split at h4
          · rename_i e; subst e; cases h4; simp only [hs]
          · rw [h4]
        · rename_i h4
          split at h4
          · cases h4
          · rw [h4]
    have hself : Done (σ.upd a { σ.heap a with s := some { so with fields := so.fields.set j { f with desc := some d } } }) a j := by
      refine ⟨{ so with fields := so.fields.set j { f with desc := some d } }, { f with desc := some d }, d, ?_, ?_, hd, rfl⟩
      · simp [CState.upd]
      · rw [List.getElem?_set]
        simp [hlt]
    have hdone : ∀ c l, Done σ c l → Done (σ.upd a { σ.heap a with s := some { so with fields := so.fields.set j { f with desc := some d } } }) c l := by
      rintro c l ⟨so2, g, d2, h4, h5, h6, h7⟩
      by_cases e : c = a
      · subst e
        by_cases el : l = j
        · subst el
          exact hself
        · rw [hs] at h4
          cases h4
          refine ⟨{ so with fields := so.fields.set j { f with desc := some d } }, g, d2, ?_, ?_, h6, h7⟩
          · simp [CState.upd]
          · rw [List.getElem?_set, if_neg (fun e => el e.symm)]
            exact h5
      · exact ⟨so2, g, d2, by simp only [CState.upd, if_neg e]; exact h4, h5, h6, h7⟩
    refine ⟨hshape, fun y hy => (hflag y).trans hy, hdone, fun y hy => .inl ((hflag y).symm.trans hy), fun _ => ⟨?_, hself⟩, fun h => (by cases h),
      fun h => (by cases h), fun h => (by cases h)⟩
    intro y w hw hy
    have hy' : σ.flag y = true := (hflag y).symm.trans hy
    refine (hf y w (At.unshape hshape hw) hy').imp id (fun h w' hw' => ?_)
    rw [show work (σ.upd a { σ.heap a with s := some { so with fields := so.fields.set j { f with desc := some d } } }) y = work σ y from work_shape hshape y] at hw'
    have := h w' hw'
    cases w' with
    | field b l => exact hdone b l this
    | node z => exact (hflag z).trans this

theorem doWork_spec {env : GoEnv} {rec : CState → Node → Out Unit × CState} (hrec : FinSpec env rec) {v : Visit} :
    ∀ (ws : List Work) (σ : CState) (stk : List Node), Parsing0 env σ → FInv σ stk →
      (∀ y, .node y ∈ ws → ∃ w ∈ visits env v, At σ y w) →
      (∀ b l, .field b l ∈ ws → ∃ i so f, v = .fields i ∧ At σ (.struct b) (.fields i) ∧ (σ.heap b).s = some so ∧ so.fields[l]? = some f) →
      Fin env σ stk (fun y => ∃ w ∈ visits env v, Found env σ w y) (VBad env v) (fun σ' => ∀ w ∈ ws, WDone σ' w) (doWork rec σ ws)
  | [], σ, stk, hi, hf, _, _ => Fin.pure hf (fun w hw => by cases hw)
  | .node x :: ws, σ, stk, hi, hf, hn, hfi => by
    obtain ⟨w, h1, h2⟩ := hn x List.mem_cons_self
    simp only [doWork]
    refine Fin.andThen (hrec σ stk x w hi hf h2)
      (P2 := fun y => ∃ w ∈ visits env v, Found env σ w y) (bad2 := VBad env v) (Q2 := fun σ' => ∀ w ∈ ws, WDone σ' w) (fun σ1 hs hf1 hq => ?_) ?_ ?_ ?_ ?_ ?_
    · have := doWork_spec hrec ws σ1 stk (hi.shape hs) hf1
        (fun y hy => by obtain ⟨w, h3, h4⟩ := hn y (List.mem_cons_of_mem _ hy); exact ⟨w, h3, h4.shape hs⟩)
        (fun b l hb => by
          obtain ⟨i, so, f, h3, h4, h5, h6⟩ := hfi b l (List.mem_cons_of_mem _ hb)
          obtain ⟨so', h7, h8⟩ := hs.struct h5
          have : so'.fields[l]?.isSome := by
            have h9 := congrArg (fun L => L[l]?) h8
            simp only [shapeOf, List.getElem?_map, h6, Option.map_some] at h9
            cases h10 : so'.fields[l]? with
            | none => rw [h10] at h9; cases h9
            | some g => rfl
          obtain ⟨g, hg⟩ := Option.isSome_iff_exists.1 this
          exact ⟨i, so', g, h3, h4.shape hs, h7, hg⟩)
      refine ⟨this.shape, this.flags, this.done, fun y hy => (this.news y hy).imp id ?_, this.ok, this.fail, this.nopanic, this.err⟩
      rintro ⟨w, h3, u, h4, h5⟩
      exact ⟨w, h3, u, h4.unshape hs, h5⟩
    · exact fun y hy => ⟨w, h1, hy⟩
    · exact fun y hy => hy
    · rintro ⟨i, h3, h4⟩
      exact ⟨i, .step _ w _ h1 h3, h4⟩
    · exact fun h => h
    · intro σ1 r2 h3 h4 h5 w' hw'
      rcases List.mem_cons.1 hw' with rfl | hw'
      · exact h3.flags x h4
      · exact h5 w' hw'
  | .field a j :: ws, σ, stk, hi, hf, hn, hfi => by
    obtain ⟨i, so, f, h1, h2, h3, h4⟩ := hfi a j List.mem_cons_self
    simp only [doWork]
    refine Fin.andThen (finalizeField_spec hi hf h2 h3 h4)
      (P2 := fun y => ∃ w ∈ visits env v, Found env σ w y) (bad2 := VBad env v) (Q2 := fun σ' => ∀ w ∈ ws, WDone σ' w) (fun σ1 hs hf1 hq => ?_) ?_ ?_ ?_ ?_ ?_
    · have := doWork_spec hrec ws σ1 stk (hi.shape hs) hf1
        (fun y hy => by obtain ⟨w, h3, h4⟩ := hn y (List.mem_cons_of_mem _ hy); exact ⟨w, h3, h4.shape hs⟩)
        (fun b l hb => by
          obtain ⟨i, so, f, h3, h4, h5, h6⟩ := hfi b l (List.mem_cons_of_mem _ hb)
          obtain ⟨so', h7, h8⟩ := hs.struct h5
          have : so'.fields[l]?.isSome := by
            have h9 := congrArg (fun L => L[l]?) h8
            simp only [shapeOf, List.getElem?_map, h6, Option.map_some] at h9
            cases h10 : so'.fields[l]? with
            | none => rw [h10] at h9; cases h9
            | some g => rfl
          obtain ⟨g, hg⟩ := Option.isSome_iff_exists.1 this
          exact ⟨i, so', g, h3, h4.shape hs, h7, hg⟩)
      refine ⟨this.shape, this.flags, this.done, fun y hy => (this.news y hy).imp id ?_, this.ok, this.fail, this.nopanic, this.err⟩
      rintro ⟨w, h3, u, h4, h5⟩
      exact ⟨w, h3, u, h4.unshape hs, h5⟩
    · exact fun y hy => hy.elim
    · exact fun y hy => hy
    · intro h5
      rw [h1]
      exact ⟨i, .refl _, h5⟩
    · exact fun h => h
    · intro σ1 r2 h3 h4 h5 w' hw'
      rcases List.mem_cons.1 hw' with rfl | hw'
      · exact h3.done a j h4
      · exact h5 w' hw'

/-- Ranks of visits. -/
theorem visit_rank {env : GoEnv} (h : Acyclic env) : ∃ rank : Visit → Nat, ∀ v w, w ∈ visits env v → rank w < rank v := by
  obtain ⟨r, hr⟩ := h
  have hfv : ∀ t w, w ∈ fieldVisits t → ∃ u, w = .type u ∧ r u ≤ r t := by
    intro t w hw
    rcases List.mem_cons.1 hw with rfl | hw
    · exact ⟨t, rfl, Nat.le_refl _⟩
    · cases t with
      | map k v =>
        simp only [List.mem_cons, List.not_mem_nil, or_false] at hw
        rcases hw with rfl | rfl
        · exact ⟨_, rfl, Nat.le_of_lt (hr _ _ (by simp [kids]))⟩
        · exact ⟨_, rfl, Nat.le_of_lt (hr _ _ (by simp [kids]))⟩
      | slice u =>
        simp only [List.mem_cons, List.not_mem_nil, or_false] at hw
        subst hw
        exact ⟨_, rfl, Nat.le_of_lt (hr _ _ (by simp [kids]))⟩
      | ptr u =>
        simp only [List.mem_cons, List.not_mem_nil, or_false] at hw
        subst hw
        exact ⟨_, rfl, Nat.le_of_lt (hr _ _ (by simp [kids]))⟩
      | _ => cases hw
  refine ⟨fun v => match v with | .type t => 2 * r t + 1 | .fields i => 2 * r (.struct i), fun v w hw => ?_⟩
  cases v with
  | type t =>
    cases t with
    | map k v =>
      simp only [visits, List.mem_cons, List.not_mem_nil, or_false] at hw
      subst hw
      have := hr (.map k v) v (by simp [kids])
      show 2 * _ + 1 < 2 * _ + 1
      omega
    | slice u =>
      simp only [visits, List.mem_cons, List.not_mem_nil, or_false] at hw
      subst hw
      have := hr (.slice u) u (by simp [kids])
      show 2 * _ + 1 < 2 * _ + 1
      omega
    | ptr u =>
      simp only [visits, List.mem_cons, List.not_mem_nil, or_false] at hw
      subst hw
      have := hr (.ptr u) u (by simp [kids])
      show 2 * _ + 1 < 2 * _ + 1
      omega
    | struct i =>
      simp only [visits, List.mem_cons, List.not_mem_nil, or_false] at hw
      subst hw
      exact Nat.lt_succ_self _
    | _ => cases hw
  | fields i =>
    simp only [visits] at hw
    obtain ⟨f, hf, hw⟩ := List.mem_flatMap.1 hw
    obtain ⟨u, rfl, h2⟩ := hfv _ _ hw
    cases hfs : fieldsOf env i with
    | none => rw [hfs] at hf; cases hf
    | some fs =>
      rw [hfs, Option.getD_some] at hf
      have := hr _ _ (fieldsOf_types hfs hf)
      show 2 * _ + 1 < 2 * _
      omega

theorem finalize_spec (env : GoEnv) : ∀ n, FinSpec env (finalize n)
  | 0, σ, stk, x, v, hi, hf, hx =>
    ⟨SameShape.rfl, fun _ h => h, fun _ _ h => h, fun _ h => .inl h, fun h => (by cases h), fun h => (by cases h), fun h => (by cases h), fun h => (by cases h)⟩
  | n + 1, σ, stk, x, v, hi, hf, hx => by
    have ih := finalize_spec env n
    unfold finalize
    split
    · rename_i hfl
      exact Fin.pure hf hfl
    · rename_i hfl
      have hfl' : σ.flag x = false := by simpa using hfl
      have hsh := setFlag_shape σ x true
      have hi1 : Parsing0 env (σ.setFlag x true) := hi.shape hsh
      have hx1 : At (σ.setFlag x true) x v := hx.shape hsh
      have hf1 : FInv (σ.setFlag x true) (x :: stk) := by
        intro y w hy hyf
        by_cases e : y = x
        · exact .inl (by rw [e]; exact List.mem_cons_self)
        · rw [setFlag_other e] at hyf
          rcases hf y w (hy.unshape hsh) hyf with h1 | h1
          · exact .inl (List.mem_cons_of_mem _ h1)
          · refine .inr (fun w' hw' => ?_)
            rw [work_shape hsh] at hw'
            have := h1 w' hw'
            cases w' with
            | field a j => exact setFlag_done.2 this
            | node z =>
              by_cases ez : z = x
              · subst ez
                exact setFlag_same hi hx true
              · exact (setFlag_other ez).trans this
      have hwn := work_nodes hi1 hx1
      rw [work_shape hsh] at hwn
      have hdo := doWork_spec ih (v := v) (work σ x) (σ.setFlag x true) (x :: stk) hi1 hf1 hwn.1 (fun b l hb => by
        obtain ⟨i, so, f, h1, h2, h3, h4⟩ := hwn.2.2.1 b l hb
        subst h2
        rw [h1] at hx1
        exact ⟨i, so, f, h1, hx1, h3, h4⟩)
      have hfound : ∀ y, (∃ w ∈ visits env v, Found env (σ.setFlag x true) w y) → Found env σ v y := by
        rintro y ⟨w, h1, u, h2, h3⟩
        exact ⟨u, h2.unshape hsh, .step v w u h1 h3⟩
      have hdone1 : ∀ a j, Done σ a j → Done (σ.setFlag x true) a j := fun a j h => setFlag_done.2 h
      generalize doWork (finalize n) (σ.setFlag x true) (work σ x) = r at hdo
      have hnews : ∀ y, r.2.flag y = true → σ.flag y = true ∨ Found env σ v y := by
        intro y hy
        rcases hdo.news y hy with h1 | h1
        · by_cases e : y = x
          · subst e
            exact .inr ⟨v, hx, .refl _⟩
          · rw [setFlag_other e] at h1
            exact .inl h1
        · exact .inr (hfound y h1)
      have hflags : ∀ y, σ.flag y = true → r.2.flag y = true ∧ y ≠ x := by
        intro y hy
        have hne : y ≠ x := fun e => by rw [e, hfl'] at hy; cases hy
        exact ⟨hdo.flags y (by rw [setFlag_other hne]; exact hy), hne⟩
      obtain ⟨o, σ2⟩ := r
      have hxflag : σ2.flag x = true := hdo.flags x (setFlag_same hi hx true)
      cases o with
      | ok u =>
        obtain ⟨h1, h2⟩ := hdo.ok rfl
        refine ⟨hsh.trans hdo.shape, fun y hy => (hflags y hy).1, fun a j h => hdo.done a j (hdone1 a j h), hnews, fun _ => ⟨?_, hxflag⟩, fun h => (by cases h),
          fun h => (by cases h), fun h => (by cases h)⟩
        intro y w hy hyf
        by_cases e : y = x
        · subst e
          refine .inr (fun w' hw' => ?_)
          have hw2 : w' ∈ work σ2 y := hw'
          rw [work_shape (hsh.trans hdo.shape) y] at hw2
          exact h2 w' hw2
        · rcases h1 y w hy hyf with h3 | h3
          · rcases List.mem_cons.1 h3 with h3 | h3
            · exact absurd h3 e
            · exact .inl h3
          · exact .inr h3
      | err =>
        have hsh2 := setFlag_shape σ2 x false
        have hx2 : At σ2 x v := hx.shape (hsh.trans hdo.shape)
        have hi2 : Parsing0 env σ2 := hi.shape (hsh.trans hdo.shape)
        refine ⟨(hsh.trans hdo.shape).trans hsh2, fun y hy => ?_, fun a j h => setFlag_done.2 (hdo.done a j (hdone1 a j h)), fun y hy => ?_, fun h => (by cases h),
          fun _ => hdo.fail rfl, fun h => (by cases h), fun _ hac => ?_⟩
        · obtain ⟨h1, h2⟩ := hflags y hy
          exact (setFlag_other h2).trans h1
        · have hy' : (σ2.setFlag x false).flag y = true := hy
          by_cases e : y = x
          · subst e
            rw [setFlag_same hi2 hx2] at hy'
            cases hy'
          · rw [setFlag_other e] at hy'
            exact hnews y hy'
        · obtain ⟨rank, hrank⟩ := visit_rank hac
          have hle : ∀ {u w}, Visited env u w → rank w ≤ rank u := by
            intro u w h
            induction h with
            | refl => exact Nat.le_refl _
            | step t u v hk _ ih => exact Nat.le_trans ih (Nat.le_of_lt (hrank t u hk))
          have h1 := hdo.err rfl hac
          intro y w hy hyf
          have hyf' : (σ2.setFlag x false).flag y = true := hyf
          by_cases e : y = x
          · subst e
            rw [setFlag_same hi2 hx2] at hyf'
            cases hyf'
          · rw [setFlag_other e] at hyf'
            have hy2 : At σ2 y w := hy.unshape hsh2
            have hyσ : At σ y w := hy2.unshape (hsh.trans hdo.shape)
            rcases h1 y w hy2 hyf' with h3 | h3
            · rcases List.mem_cons.1 h3 with h3 | h3
              · exact absurd h3 e
              · exact .inl h3
            · have key : y ∈ stk ∨ .node x ∉ work σ y := by
                by_cases hxw : .node x ∈ work σ y
                · left
                  rcases hnews y hyf' with h4 | ⟨w2, h4, h5⟩
                  · rcases hf y w hyσ h4 with h6 | h6
                    · exact h6
                    · have : σ.flag x = true := h6 _ hxw
                      rw [hfl'] at this
                      cases this
                  · have := At.fun hi hyσ h4
                    subst this
                    obtain ⟨v2, h6, h7⟩ := (work_nodes hi hyσ).1 x hxw
                    have := At.fun hi hx h7
                    subst this
                    exact absurd (Nat.lt_of_lt_of_le (hrank _ _ h6) (hle h5)) (Nat.lt_irrefl _)
                · exact .inr hxw
              rcases key with hk | hk
              · exact .inl hk
              · refine .inr (fun w' hw' => ?_)
                have hw2 : w' ∈ work (σ2.setFlag x false) y := hw'
                rw [work_shape hsh2 y] at hw2
                have h8 := h3 w' hw2
                cases w' with
                | field a j => exact setFlag_done.2 h8
                | node z =>
                  have : z ≠ x := by
                    rintro rfl
                    rw [work_shape (hsh.trans hdo.shape)] at hw2
                    exact hk hw2
                  exact (setFlag_other this).trans h8
      | panic => exact absurd rfl hdo.nopanic
      | fuel =>
        exact ⟨hsh.trans hdo.shape, fun y hy => (hflags y hy).1, fun a j h => hdo.done a j (hdone1 a j h), hnews, fun h => (by cases h), fun h => (by cases h),
          fun h => (by cases h), fun h => (by cases h)⟩

end Verif.Lemmas
