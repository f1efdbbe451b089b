import Verif.Lemmas.CacheFuel
/-!
# C33: whether a type is accepted does not depend on what was used before
-/
namespace Verif.Props
open Verif.Spec Verif.Model Verif.Model.TypeCache Verif.Lemmas

/-- The caches are as they should be. -/
structure GInv (env : GoEnv) (σ : CState) : Prop where
  parsed : Parsing0 env σ
  flags : FInv σ []
  final : ∀ i a, σ.final i = some a → σ.cache (.struct i) = some a ∧ σ.flag (.struct a) = true

theorem init_ginv (env : GoEnv) : GInv env .init :=
  ⟨fun t a h => (by cases h), fun x v h _ => (by cases x <;> cases v <;> cases h), fun i a h => (by cases h)⟩

theorem fieldsWork_final (σ : CState) (g : Nat → Option Nat) (a : Nat) : ∀ (fs : List FieldObj) (j : Nat),
    fieldsWork { σ with final := g } a j fs = fieldsWork σ a j fs
  | [], _ => rfl
  | f :: fs, j => congrArg (fieldWork σ a j f ++ ·) (fieldsWork_final σ g a fs (j + 1))

theorem work_final (σ : CState) (g : Nat → Option Nat) (x : Node) : work { σ with final := g } x = work σ x := by
  cases x with
  | type a => rfl
  | struct a =>
    simp only [work]
    cases (σ.heap a).s with
    | none => rfl
    | some s => exact fieldsWork_final σ g a s.fields 0

/-- After parsing. -/
theorem finv_ext {env : GoEnv} {σ σ' : CState} {P : GoType → Prop} (hi : Parsing0 env σ) (hf : FInv σ []) (hi' : Parsing0 env σ') (he : Ext σ σ') (hn : News σ σ' P) :
    FInv σ' [] := by
  have hflag : ∀ x v, At σ x v → σ'.flag x = σ.flag x ∧ (∀ a, x = .type a ∨ x = .struct a → σ'.heap a = σ.heap a) := by
    intro x v hv
    cases x with
    | type a =>
      cases v with
      | fields i => cases hv
      | type t =>
        have := he.heap a (hi t a hv).1
        exact ⟨by simp only [CState.flag, this], fun b hb => by rcases hb with hb | hb <;> cases hb; exact this⟩
    | struct a =>
      cases v with
      | type i => cases hv
      | fields i =>
        have := he.heap a (hi (.struct i) a hv).1
        exact ⟨by simp only [CState.flag, this], fun b hb => by rcases hb with hb | hb <;> cases hb; exact this⟩
  have hold : ∀ x v, At σ' x v → σ'.flag x = true → At σ x v := by
    intro x v hv hx
    cases x with
    | type a =>
      cases v with
      | fields i => cases hv
      | type t =>
        rcases hn t a hv with h | ⟨_, _, h⟩
        · exact h
        · rw [show σ'.flag (.type a) = (σ'.heap a).finalized from rfl, h.1] at hx
          cases hx
    | struct a =>
      cases v with
      | type t => cases hv
      | fields i =>
        rcases hn (.struct i) a hv with h | ⟨_, _, h⟩
        · exact h
        · obtain ⟨so, h1, _⟩ := At.structObj hi' hv
          rw [show σ'.flag (.struct a) = so.finalized by simp only [CState.flag, h1], h.2 so h1] at hx
          cases hx
  intro x v hv hx
  have hv0 := hold x v hv hx
  obtain ⟨h1, h2⟩ := hflag x v hv0
  rcases hf x v hv0 (h1.symm.trans hx) with h | h
  · cases h
  refine .inr (fun w hw => ?_)
  have hwn := work_nodes hi' hv
  cases w with
  | node y =>
    obtain ⟨u, hu, hyu⟩ := hwn.1 y hw
    -- the same visit in the old state
    obtain ⟨y', hy', hyu'⟩ := (work_nodes hi hv0).2.1 u hu
    have hsame : y' = y := by
      cases y' <;> cases u <;> cases y <;> simp only [At] at hyu hyu'
      · rw [he.cache _ _ hyu'] at hyu; cases hyu; rfl
      · rw [he.cache _ _ hyu'] at hyu; cases hyu; rfl
    subst hsame
    have h3 : σ.flag y' = true := h _ hy'
    exact ((hflag y' u hyu').1).trans h3
  | field b l =>
    obtain ⟨i, so, f, rfl, rfl, h3, h4⟩ := hwn.2.2.1 b l hw
    have hb := h2 b (.inr rfl)
    rw [hb] at h3
    obtain ⟨so', f', d, h5, h6, h7, h8⟩ := h _ ((work_nodes hi hv0).2.2.2 b so l f rfl h3 h4)
    exact ⟨so', f', d, by rw [hb]; exact h5, h6, h7, h8⟩

/-- What is cached and has its flag is acceptable, and its description is complete. -/
theorem flagged_accepts {env : GoEnv} {σ : CState} (h : GInv env σ) {i a : Nat} (hc : σ.cache (.struct i) = some a) (hfl : σ.flag (.struct a) = true) :
    Accepts env i ∧ Faithful env σ a (.struct i) := by
  have hreach : ∀ t u, Reaches env t u → ∀ b, σ.cache t = some b → ∃ c, σ.cache u = some c := by
    intro t u hr
    induction hr with
    | refl => exact fun b hb => ⟨b, hb⟩
    | step t u w hk _ ih =>
      intro b hb
      obtain ⟨c, hc⟩ := (h.parsed.filled hb).cached u hk
      exact ih c hc
  have hvis : ∀ v w, Visited env v w → ∀ x, At σ x v → σ.flag x = true → ∃ y, At σ y w ∧ σ.flag y = true := by
    intro v w hr
    induction hr with
    | refl => exact fun x hx hf => ⟨x, hx, hf⟩
    | step v u w hk _ ih =>
      intro x hx hf
      obtain ⟨y, hy, hyu⟩ := (work_nodes h.parsed hx).2.1 u hk
      rcases h.flags x v hx hf with h1 | h1
      · cases h1
      · exact ih y hyu (h1 _ hy)
  -- the fields of a flagged struct
  have hfields : ∀ j b, At σ (.struct b) (.fields j) → σ.flag (.struct b) = true →
      ∃ so, (σ.heap b).s = some so ∧ fieldsOf env j = some (so.fields.map (·.init)) ∧ ∀ f ∈ so.fields, (∃ d, f.init.final = .ok d ∧ f.desc = some d) ∧
        σ.cache f.init.gf.type = some f.t ∧ ∀ u ∈ fieldVisits f.init.gf.type, ∃ y, At σ y u ∧ σ.flag y = true := by
    intro j b hb hfb
    obtain ⟨so, h1, h2, h3⟩ := At.structObj h.parsed hb
    have hw := (h.flags _ _ hb hfb).resolve_left (fun h => by cases h)
    have hwn := work_nodes h.parsed hb
    refine ⟨so, h1, h2, fun f hf => ⟨?_, h3 f hf, fun u hu => ?_⟩⟩
    · obtain ⟨l, hl⟩ := List.mem_iff_getElem?.1 hf
      obtain ⟨so', f', d, h5, h6, h7, h8⟩ := hw _ (hwn.2.2.2 b so l f rfl h1 hl)
      rw [h1] at h5
      cases h5
      rw [hl] at h6
      cases h6
      exact ⟨d, h7, h8⟩
    · have hu' : u ∈ visits env (.fields j) := by
        simp only [visits, h2, Option.getD_some, List.flatMap_map]
        exact List.mem_flatMap.2 ⟨f, hf, hu⟩
      obtain ⟨y, hy, hyu⟩ := hwn.2.1 u hu'
      exact ⟨y, hyu, hw _ hy⟩
  have hat : At σ (.struct a) (.fields i) := hc
  constructor
  · refine ⟨fun t ht => ?_, fun j hj => ?_⟩
    · obtain ⟨b, hb⟩ := hreach _ _ ht a hc
      exact (h.parsed.filled hb).localOK
    · obtain ⟨y, hy, hyf⟩ := hvis _ _ hj _ hat hfl
      cases y with
      | type b => cases hy
      | struct b =>
        obtain ⟨so, h1, h2, h3⟩ := hfields j b hy hyf
        refine ⟨_, h2, fun f hf => ?_⟩
        obtain ⟨g, hg, rfl⟩ := List.mem_map.1 hf
        obtain ⟨d, h4, _⟩ := (h3 g hg).1
        exact ⟨d, h4⟩
  · -- the relation: cached, and flagged or the root
    refine ⟨fun b t => σ.cache t = some b ∧ (σ.flag (.type b) = true ∨ (t = .struct i ∧ b = a)), ⟨hc, .inr ⟨rfl, rfl⟩⟩, ?_⟩
    rintro b t ⟨hb, hfb⟩
    have hfill := h.parsed.filled hb
    have hnext : ∀ u, u ∈ visits env (.type t) → ∃ y, At σ y u ∧ σ.flag y = true := by
      intro u hu
      rcases hfb with hfb | ⟨rfl, rfl⟩
      · obtain ⟨y, hy, hyu⟩ := (work_nodes (x := .type b) (v := .type t) h.parsed hb).2.1 u hu
        have hw := (h.flags (.type b) (.type t) hb hfb).resolve_left (fun h => by cases h)
        exact ⟨y, hyu, hw _ hy⟩
      · simp only [visits, List.mem_cons, List.not_mem_nil, or_false] at hu
        subst hu
        exact ⟨_, hat, hfl⟩
    have hty : ∀ u, Visit.type u ∈ visits env (.type t) → ∃ c, σ.cache u = some c ∧ σ.flag (.type c) = true := by
      intro u hu
      obtain ⟨y, hy, hyf⟩ := hnext _ hu
      cases y with
      | type c => exact ⟨c, hy, hyf⟩
      | struct c => cases hy
    refine ⟨(h.parsed t b hb).2.1, ?_, ?_⟩
    · intro u hu
      cases t with
      | map k v =>
        cases hu
        obtain ⟨ka, va, h1, h2, h3, h4, h5⟩ := hfill
        obtain ⟨c, h6, h7⟩ := hty u (by simp [visits])
        rw [h5] at h6
        cases h6
        exact ⟨va, h2, h5, .inl h7⟩
      | slice v =>
        cases hu
        obtain ⟨va, h1, h2, h3, h5⟩ := hfill
        obtain ⟨c, h6, h7⟩ := hty u (by simp [visits])
        rw [h5] at h6
        cases h6
        exact ⟨va, h2, h5, .inl h7⟩
      | ptr v =>
        cases hu
        obtain ⟨_, va, h1, h2, h3, h5⟩ := hfill
        obtain ⟨c, h6, h7⟩ := hty u (by simp [visits])
        rw [h5] at h6
        cases h6
        exact ⟨va, h2, h5, .inl h7⟩
      | _ => cases hu
    · rintro j rfl
      obtain ⟨y, hy, hyf⟩ := hnext (.fields j) (by simp [visits])
      cases y with
      | type c => cases hy
      | struct c =>
        have hcb : c = b := by
          have : σ.cache (.struct j) = some c := hy
          rw [hb] at this
          cases this
          rfl
        subst hcb
        obtain ⟨so, h1, h2, h3⟩ := hfields j c hy hyf
        refine ⟨so, _, h1, h2, rfl, fun f hf => ?_⟩
        obtain ⟨g1, g2, g3⟩ := h3 f hf
        have htype : ∀ u, Visit.type u ∈ fieldVisits f.init.gf.type → ∃ c, σ.cache u = some c ∧ σ.flag (.type c) = true := by
          intro u hu
          obtain ⟨y, hy, hyf⟩ := g3 _ hu
          cases y with
          | type c => exact ⟨c, hy, hyf⟩
          | struct c => cases hy
        refine ⟨g1, ⟨g2, .inl ?_⟩, fun k v hkv => ?_⟩
        · obtain ⟨c, h6, h7⟩ := htype f.init.gf.type List.mem_cons_self
          rw [g2] at h6
          cases h6
          exact h7
        · rw [hkv] at g2 htype
          obtain ⟨ka, va, h1, _, _, h4, _⟩ := h.parsed.filled g2
          obtain ⟨c, h6, h7⟩ := htype k (by simp [fieldVisits])
          rw [h4] at h6
          cases h6
          exact ⟨ka, h1, h4, .inl h7⟩

/-- One use. -/
theorem use_spec {env : GoEnv} {fuel : Nat} {σ : CState} (h : GInv env σ) (i : Nat) :
    (∀ a, (getOrParse env fuel σ i).1 = .ok a → GInv env (getOrParse env fuel σ i).2 ∧ Accepts env i ∧ Faithful env (getOrParse env fuel σ i).2 a (.struct i)) ∧
    ((getOrParse env fuel σ i).1 = .err ∨ (getOrParse env fuel σ i).1 = .panic → ¬ Accepts env i) ∧
    ((getOrParse env fuel σ i).1 = .err → Acyclic env → GInv env (getOrParse env fuel σ i).2) ∧
    (enoughFuel env ≤ fuel → (getOrParse env fuel σ i).1 ≠ .fuel) := by
  unfold getOrParse
  cases hfin : σ.final i with
  | some a =>
    obtain ⟨h1, h2⟩ := h.final i a hfin
    obtain ⟨h3, h4⟩ := flagged_accepts h h1 h2
    exact ⟨fun b hb => (by cases hb; exact ⟨h, h3, h4⟩), fun hb => (by rcases hb with hb | hb <;> cases hb), fun hb => (by cases hb), fun _ hb => (by cases hb)⟩
  | none =>
    dsimp only
    have hp := parseType_spec env fuel σ [] (.struct i) h.parsed
    have hpe : enoughFuel env ≤ fuel → (parseType env fuel σ (.struct i)).1 ≠ .fuel := fun hle =>
      parseType_ends (fun t ht u hu => typeUniverse_kids ht hu) fuel σ [] (.struct i) h.parsed List.mem_cons_self
        (Nat.lt_of_lt_of_le (uncached_enough env i σ) hle)
    generalize parseType env fuel σ (.struct i) = r at hp hpe
    obtain ⟨o, σ1⟩ := r
    cases o with
    | ok a =>
      obtain ⟨h1, h2⟩ := hp.ok a rfl
      have hat : At σ1 (.struct a) (.fields i) := h2
      have hf1 : FInv σ1 [] := finv_ext h.parsed h.flags h1 hp.ext hp.news
      have hfinal1 : ∀ j b, σ1.final j = some b → σ1.cache (.struct j) = some b ∧ σ1.flag (.struct b) = true := by
        intro j b hb
        rw [hp.ext.final] at hb
        obtain ⟨h3, h4⟩ := h.final j b hb
        refine ⟨hp.ext.cache _ _ h3, ?_⟩
        have hh : σ1.heap b = σ.heap b := hp.ext.heap b (h.parsed _ _ h3).1
        show (match (σ1.heap b).s with | some s => s.finalized | none => false) = true
        rw [hh]
        exact h4
      obtain ⟨so, hso, _⟩ := At.structObj h1 hat
      have hq := finalize_spec env fuel σ1 [] (.struct a) (.fields i) h1 hf1 hat
      have hqe : enoughFuel env ≤ fuel → (finalize fuel σ1 (.struct a)).1 ≠ .fuel := fun hle =>
        finalize_ends visitUniverse_closed fuel σ1 [] (.struct a) (.fields i) h1 hf1 hat (visitUniverse_fields.2 List.mem_cons_self)
          (Nat.lt_of_lt_of_le (unflagged_enough env i σ1) hle)
      have hso' : (σ1.heap a).s = some so := hso
      dsimp only [andThen]
      rw [hso']
      dsimp only
      generalize finalize fuel σ1 (.struct a) = r2 at hq hqe
      obtain ⟨o2, σ2⟩ := r2
      have hfinal2 : ∀ j b, σ2.final j = some b → σ2.cache (.struct j) = some b ∧ σ2.flag (.struct b) = true := by
        intro j b hb
        rw [show σ2.final = σ1.final from hq.shape.final] at hb
        obtain ⟨h3, h4⟩ := hfinal1 j b hb
        exact ⟨by rw [show σ2.cache = σ1.cache from hq.shape.cache]; exact h3, hq.flags _ h4⟩
      cases o2 with
      | ok u =>
        obtain ⟨h5, h6⟩ := hq.ok rfl
        have hc2 : σ2.cache (.struct i) = some a := by rw [show σ2.cache = σ1.cache from hq.shape.cache]; exact h2
        have hg : GInv env { σ2 with final := fun j => if j = i then some a else σ2.final j } := by
          refine ⟨fun t b hb => h1.shape hq.shape t b hb, fun x v hv hx => ?_, fun j b hb => ?_⟩
          · refine (h5 x v (by cases x <;> cases v <;> exact hv) (by cases x <;> exact hx)).imp id (fun h w hw => ?_)
            have := h w (by rw [work_final] at hw; exact hw)
            cases w with
            | node y => cases y <;> exact this
            | field b l => exact this
          · have hb' : (if j = i then some a else σ2.final j) = some b := hb
            split at hb'
            · rename_i e
              cases hb'
              subst e
              exact ⟨hc2, h6⟩
            · exact hfinal2 j b hb'
        obtain ⟨h7, h8⟩ := flagged_accepts hg (i := i) (a := a) hc2 h6
        exact ⟨fun b hb => (by cases hb; exact ⟨hg, h7, h8⟩), fun hb => (by rcases hb with hb | hb <;> cases hb), fun hb => (by cases hb), fun _ hb => (by cases hb)⟩
      | err =>
        refine ⟨fun b hb => (by cases hb), fun _ hacc => ?_, fun _ hac => ⟨h1.shape hq.shape, hq.err rfl hac, hfinal2⟩, fun _ hb => (by cases hb)⟩
        obtain ⟨j, hj, hbad⟩ := hq.fail rfl
        exact hbad (hacc.2 j hj)
      | panic => exact absurd rfl hq.nopanic
      | fuel =>
        exact ⟨fun b hb => (by cases hb), fun hb => (by rcases hb with hb | hb <;> cases hb), fun hb => (by cases hb), fun hle => absurd rfl (hqe hle)⟩
    | err =>
      refine ⟨fun b hb => (by cases hb), fun _ hacc => ?_, fun _ hac => ?_, fun _ hb => (by cases hb)⟩
      · obtain ⟨t, h1, h2⟩ := hp.fail (.inl rfl)
        exact h2 (hacc.1 t h1)
      · have h1 := hp.err rfl hac
        refine ⟨h1, finv_ext h.parsed h.flags h1 hp.ext hp.news, fun j b hb => ?_⟩
        have hb' : σ1.final j = some b := hb
        rw [show σ1.final = σ.final from hp.ext.final] at hb'
        obtain ⟨h3, h4⟩ := h.final j b hb'
        refine ⟨hp.ext.cache _ _ h3, ?_⟩
        have hh : σ1.heap b = σ.heap b := hp.ext.heap b (h.parsed _ _ h3).1
        show σ1.flag (.struct b) = true
        simp only [CState.flag, hh]
        exact h4
    | panic =>
      refine ⟨fun b hb => (by cases hb), fun _ hacc => ?_, fun hb => (by cases hb), fun _ hb => (by cases hb)⟩
      obtain ⟨t, h1, h2⟩ := hp.fail (.inr rfl)
      exact h2 (hacc.1 t h1)
    | fuel => exact ⟨fun b hb => (by cases hb), fun hb => (by rcases hb with hb | hb <;> cases hb), fun hb => (by cases hb), fun hle => absurd rfl (hpe hle)⟩

/-- The outcomes of a history of uses. -/
def outcomes (env : GoEnv) (fuel : Nat) : CState → List Nat → List (Out Nat)
  | _, [] => []
  | σ, i :: is => (getOrParse env fuel σ i).1 :: outcomes env fuel (getOrParse env fuel σ i).2 is

theorem run_ginv {env : GoEnv} {fuel : Nat} : ∀ (is : List Nat) (σ : CState), GInv env σ →
    ((∀ o ∈ outcomes env fuel σ is, ∃ a, o = .ok a) ∨ Acyclic env ∧ (∀ o ∈ outcomes env fuel σ is, (∃ a, o = .ok a) ∨ o = .err)) →
    GInv env (run env fuel σ is)
  | [], σ, h, _ => h
  | i :: is, σ, h, ho => by
    have hu := use_spec (fuel := fuel) h i
    refine run_ginv is _ ?_ (ho.imp (fun ho o h => ho o (List.mem_cons_of_mem _ h)) (fun ho => ⟨ho.1, fun o h => ho.2 o (List.mem_cons_of_mem _ h)⟩))
    rcases ho with ho | ⟨hac, ho⟩
    · obtain ⟨a, ha⟩ := ho _ List.mem_cons_self
      exact (hu.1 a ha).1
    · rcases ho _ List.mem_cons_self with ⟨a, ha⟩ | ha
      · exact (hu.1 a ha).1
      · exact hu.2.2.1 ha hac

/-- After any history of uses of types that all succeeded, and, if no type refers to itself directly or indirectly, after any
history of uses that succeeded or failed with an error: using a type succeeds exactly when it should be accepted, and then the
object graph handed to the codec describes the type completely.  Neither depends on the history.  Missing: mutually recursive types
after failures (see `C33_parse_violated`, `C33_finalize_violated`), and panics. -/
theorem C33_partial (env : GoEnv) (fuel : Nat) (hfuel : enoughFuel env ≤ fuel) (hist : List Nat)
    (hh : (∀ o ∈ outcomes env fuel .init hist, ∃ a, o = .ok a) ∨
      Acyclic env ∧ (∀ o ∈ outcomes env fuel .init hist, (∃ a, o = .ok a) ∨ o = .err)) (i : Nat) :
    ((∃ a, (getOrParse env fuel (run env fuel .init hist) i).1 = .ok a) ↔ Accepts env i) ∧
    ∀ a, (getOrParse env fuel (run env fuel .init hist) i).1 = .ok a →
      Faithful env (getOrParse env fuel (run env fuel .init hist) i).2 a (.struct i) := by
  obtain ⟨h1, h2, _, h4⟩ := use_spec (fuel := fuel) (run_ginv hist .init (init_ginv env) hh) i
  refine ⟨⟨fun ⟨a, ha⟩ => (h1 a ha).2.1, fun hacc => ?_⟩, fun a ha => (h1 a ha).2.2⟩
  have h4 := h4 hfuel
  generalize getOrParse env fuel (run env fuel .init hist) i = r at h1 h2 h4
  obtain ⟨o, σ⟩ := r
  cases o with
  | ok a => exact ⟨a, rfl⟩
  | err => exact absurd hacc (h2 (.inl rfl))
  | panic => exact absurd hacc (h2 (.inr rfl))
  | fuel => exact absurd rfl h4

/-- `type A struct { C *C; X int32 }`, `type C struct { A *A }`, with a tag for `X`. -/
def cyclicEnv (xtag : String) : GoEnv where
  structs := [
    { fields := [{ name := "C".toList, type := .ptr (.struct 1), tag := "bytes,1,opt".toList },
                 { name := "X".toList, type := .int32, tag := xtag.toList }] },
    { fields := [{ name := "A".toList, type := .ptr (.struct 0), tag := "bytes,1,opt".toList }] }]

/-- C33 is false after failures: with a tag that cannot be parsed on a field of `A`, `C` is rejected, but after an attempt to use `A` it is
accepted; and then the object for `A` that the codec finds through `C` has no struct descriptor (a nil pointer is followed when a value is encoded). -/
theorem C33_parse_violated :
    (getOrParse (cyclicEnv "group,2,opt") 20 .init 1).1 = .err ∧
    (getOrParse (cyclicEnv "group,2,opt") 20 .init 0).1 = .err ∧
    (getOrParse (cyclicEnv "group,2,opt") 20 (run (cyclicEnv "group,2,opt") 20 .init [0]) 1).1 = .ok 2 ∧
    (let σ := (getOrParse (cyclicEnv "group,2,opt") 20 (run (cyclicEnv "group,2,opt") 20 .init [0]) 1).2
     ((σ.heap 2).s.map fun so => so.fields.map fun f => ((σ.heap f.t).rt, (σ.heap f.t).v.map fun a => ((σ.heap a).rt, (σ.heap a).s.isSome))) =
      some [(.ptr (.struct 0), some (.struct 0, false))]) := by decide +kernel

/-- The same with a tag that does not go with the type: `C` is accepted after an attempt to use `A`, and the field `X` of `A` has not been
finalized. -/
theorem C33_finalize_violated :
    (getOrParse (cyclicEnv "bytes,2,opt") 20 .init 1).1 = .err ∧
    (getOrParse (cyclicEnv "bytes,2,opt") 20 .init 0).1 = .err ∧
    (getOrParse (cyclicEnv "bytes,2,opt") 20 (run (cyclicEnv "bytes,2,opt") 20 .init [0]) 1).1 = .ok 2 ∧
    (let σ := (getOrParse (cyclicEnv "bytes,2,opt") 20 (run (cyclicEnv "bytes,2,opt") 20 .init [0]) 1).2
     ((σ.heap 0).rt, (σ.heap 0).s.map fun so => so.fields.map fun f => f.desc.isSome) = (.struct 0, some [true, false])) := by decide +kernel

/-- `type A struct { X int32 }` with a field number that does not fit, `type B struct { A *A }`. -/
def panicEnv : GoEnv where
  structs := [
    { fields := [{ name := "X".toList, type := .int32, tag := "varint,2147483648,opt".toList }] },
    { fields := [{ name := "A".toList, type := .ptr (.struct 0), tag := "bytes,1,opt".toList }] }]

/-- C33 is false after panics, even without types that refer to themselves: the first use of `A`, or of `B`, panics; if the program
recovers from the panic of `A` then `B` is accepted afterwards, and again the object for `A` in it has no struct descriptor. -/
theorem C33_panic_violated :
    (getOrParse panicEnv 20 .init 0).1 = .panic ∧
    (getOrParse panicEnv 20 .init 1).1 = .panic ∧
    (getOrParse panicEnv 20 (run panicEnv 20 .init [0]) 1).1 = .ok 2 ∧
    (let σ := (getOrParse panicEnv 20 (run panicEnv 20 .init [0]) 1).2
     ((σ.heap 2).s.map fun so => so.fields.map fun f => ((σ.heap f.t).rt, (σ.heap f.t).v.map fun a => ((σ.heap a).rt, (σ.heap a).s.isSome))) =
      some [(.ptr (.struct 0), some (.struct 0, false))]) := by decide +kernel

/-- Correct mutually recursive types, used one after the other. -/
example : outcomes (cyclicEnv "varint,2,opt") 20 .init [0, 1, 1, 0] = [.ok 0, .ok 2, .ok 2, .ok 0] ∧ enoughFuel (cyclicEnv "varint,2,opt") ≤ 20 := by decide +kernel

/-- Types that do not refer to themselves, one of which is rejected: `type A struct { B []B; X int32 }` with a wrong tag, `type B struct { M map[int32]string }`. -/
def acyclicEnv : GoEnv where
  structs := [
    { fields := [{ name := "B".toList, type := .slice (.struct 1), tag := "bytes,1,rep".toList },
                 { name := "X".toList, type := .int32, tag := "bytes,2,opt".toList }] },
    { fields := [{ name := "M".toList, type := .map .int32 .string, tag := "bytes,1,rep".toList,
                   keyTag := "varint,1,opt".toList, valTag := "bytes,2,opt".toList }] }]

def typeDepth : GoType → Nat
  | .map k v => typeDepth k + typeDepth v + 1
  | .slice t => typeDepth t + 1
  | .ptr t => typeDepth t + 1
  | .struct 0 => 20
  | .struct _ => 10
  | _ => 0

example : Acyclic acyclicEnv ∧ outcomes acyclicEnv 20 .init [0, 1, 0, 1] = [.err, .ok 2, .err, .ok 2] ∧ enoughFuel acyclicEnv ≤ 20 := by
  refine ⟨⟨typeDepth, fun t u hu => ?_⟩, by decide +kernel, by decide +kernel⟩
  cases t with
  | map k v =>
    simp only [kids, List.mem_cons, List.not_mem_nil, or_false] at hu
    rcases hu with rfl | rfl <;> simp only [typeDepth] <;> omega
  | slice t =>
    simp only [kids, List.mem_cons, List.not_mem_nil, or_false] at hu
    subst hu
    simp only [typeDepth]
    omega
  | ptr t =>
    simp only [kids, List.mem_cons, List.not_mem_nil, or_false] at hu
    subst hu
    simp only [typeDepth]
    omega
  | struct i =>
    match i with
    | 0 =>
      have : kids acyclicEnv (.struct 0) = [.slice (.struct 1), .int32] := by decide +kernel
      rw [this] at hu
      simp only [List.mem_cons, List.not_mem_nil, or_false] at hu
      rcases hu with rfl | rfl <;> decide
    | 1 =>
      have : kids acyclicEnv (.struct 1) = [.map .int32 .string] := by decide +kernel
      rw [this] at hu
      simp only [List.mem_cons, List.not_mem_nil, or_false] at hu
      subst hu
      decide
    | i + 2 => cases hu
  | _ => cases hu

end Verif.Props
