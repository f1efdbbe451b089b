import Verif.Spec.Pool
import Verif.Lemmas.Fresh
/-! Helper lemmas: the decoder with pools computes what the decoder without them computes. -/
namespace Verif.Lemmas.Pool
open Verif.Model Verif.Spec Verif.Lemmas

/-- Results that correspond. -/
def Match {α β : Type} (R : α → β → Prop) : Res α → Res β → Prop
  | .ok a, .ok b => R a b
  | .error e, .error e' => e = e'
  | _, _ => False

/-- On pools that are in order, where the variables `own` are in use and `P` holds, the computation has the corresponding
result, leaves the pools in order, does not touch the variables `own`, and makes `S` hold. -/
def Agrees {α β : Type} (own : List Nat) (P : Pools → Prop) (R : α → β → Prop) (S : α → Pools → Prop) (x : PM α) (r : Res β) :
    Prop :=
  ∀ E p, Others E → PoolsOK p → (∀ a ∈ own, a ∈ p.owned) → P p →
    PoolsOK (x E p).2 ∧ (∀ a ∈ own, a ∈ (x E p).2.owned ∧ (x E p).2.vars a = p.vars a) ∧
      Match (fun a b => R a b ∧ S a (x E p).2) (x E p).1 r

section
variable {α β α' β' : Type} {own : List Nat} {P P' : Pools → Prop} {R : α → β → Prop} {S : α → Pools → Prop}
  {R' : α' → β' → Prop} {S' : α' → Pools → Prop} {x : PM α} {r : Res β}

theorem agrees_bind {k : α → PM α'} {k' : β → Res β'} (h : Agrees own P R S x r)
    (hk : ∀ a b, R a b → Agrees own (S a) R' S' (k a) (k' b)) : Agrees own P R' S' (x >>= k) (r >>= k') := by
  intro E p hE hp ho hP
  obtain ⟨h1, h2, h3⟩ := h E p hE hp ho hP
  have e : (x >>= k) E p = match x E p with
    | (.ok a, p) => k a E p
    | (.error e, p) => (.error e, p) := rfl
  rw [e]
  generalize x E p = y at *
  obtain ⟨y1, y2⟩ := y
  cases y1 with
  | error e1 =>
    cases r with
    | error e2 => exact ⟨h1, h2, h3⟩
    | ok b => exact h3.elim
  | ok a =>
    cases r with
    | error e2 => exact h3.elim
    | ok b =>
      obtain ⟨k1, k2, k3⟩ := hk a b h3.1 E y2 hE h1 (fun a ha => (h2 a ha).1) h3.2
      exact ⟨k1, fun a ha => ⟨(k2 a ha).1, (k2 a ha).2.trans (h2 a ha).2⟩, k3⟩

/-- A step that only concerns the variables. -/
theorem agrees_step {k : α → PM α'} {b : β} {r' : Res β'} (h : Agrees own P R S x (.ok b))
    (hk : ∀ a, R a b → Agrees own (S a) R' S' (k a) r') : Agrees own P R' S' (x >>= k) r' := by
  have : r' = ((.ok b : Res β) >>= fun _ => r') := rfl
  rw [this]
  refine agrees_bind (R := fun a b' => R a b ∧ b' = b) (S := S) ?_ ?_
  · intro E p hE hp ho hP
    obtain ⟨h1, h2, h3⟩ := h E p hE hp ho hP
    refine ⟨h1, h2, ?_⟩
    generalize (x E p).1 = y at *
    cases y with
    | error _ => exact h3.elim
    | ok a => exact ⟨⟨h3.1, rfl⟩, h3.2⟩
  · rintro a _ ⟨ha, rfl⟩
    exact hk a ha

/-- A step that only concerns the result. -/
theorem agrees_map {k : α → PM α'} {R' : α' → β → Prop} (h : Agrees own P R S x r)
    (hk : ∀ a b, R a b → Agrees own (S a) R' S' (k a) (.ok b)) : Agrees own P R' S' (x >>= k) r :=
  Eq.mp (congrArg _ (bind_pure r)) (agrees_bind (k' := pure) h hk)

theorem agrees_pre (hP : ∀ p, P' p → P p) (h : Agrees own P R S x r) : Agrees own P' R S x r :=
  fun E p hE hp ho h' => h E p hE hp ho (hP p h')

theorem agrees_absurd (hP : ∀ p, ¬ P p) : Agrees own P R S x r :=
  fun _ p _ _ _ h => absurd h (hP p)

theorem agrees_ok {a : α} {b : β} (h : R a b) (hS : ∀ p, P p → S a p) : Agrees own P R S (pure a : PM α) (.ok b) :=
  fun _ p _ hp ho hP => ⟨hp, fun a ha => ⟨ho a ha, rfl⟩, h, hS p hP⟩

theorem agrees_pure {a : α} {b : β} (h : R a b) (hS : ∀ p, P p → S a p) :
    Agrees own P R S (pure a : PM α) (pure b : Res β) :=
  agrees_ok h hS

theorem agrees_error (e : Fault) : Agrees own P R S (PM.lift (.error e) : PM α) (.error e : Res β) :=
  fun _ _ _ hp ho _ => ⟨hp, fun a ha => ⟨ho a ha, rfl⟩, rfl⟩

end

theorem agrees_lift {α : Type} {own : List Nat} {P : Pools → Prop} (r : Res α) :
    Agrees own P Eq (fun _ => P) (PM.lift r) r := by
  intro E p hE hp ho hP
  refine ⟨hp, fun a ha => ⟨ho a ha, rfl⟩, ?_⟩
  show Match _ r r
  cases r with
  | error e => exact rfl
  | ok a => exact ⟨rfl, hP⟩

/-! ## Variables in use -/

/-- The variables at `c` are in use, hold `w`, and are not among `own`. -/
def At (own : List Nat) (c : Nat) (w : Tmp) (p : Pools) : Prop := c ∈ p.owned ∧ c ∉ own ∧ p.vars c = w

/-- The variables at `c` are in use, of type `t`, and are not among `own`. -/
def Mine (own : List Nat) (c : Nat) (t : GoType) (p : Pools) : Prop := c ∈ p.owned ∧ c ∉ own ∧ (p.vars c).type = t

/-- The variables kept for a field of type `t`. -/
def Hold (own : List Nat) (t : GoType) (tmv : Option Nat) (p : Pools) : Prop := ∀ c, tmv = some c → Mine own c t p

theorem agrees_read {own : List Nat} {c : Nat} {w : Tmp} :
    Agrees own (At own c w) (fun a (_ : Unit) => a = w) (fun _ => At own c w) (readTmp c) (.ok ()) :=
  fun _ _ _ hp ho hP => ⟨hp, fun a ha => ⟨ho a ha, rfl⟩, hP.2.2, hP⟩

theorem agrees_write {own : List Nat} {c : Nat} {w : Tmp} (w' : Tmp) :
    Agrees own (At own c w) (fun _ (_ : Unit) => True) (fun _ => At own c w') (writeTmp c w') (.ok ()) := by
  intro E p hE hp ho hP
  have hvars : ∀ a, a ≠ c → (p.setVar c w').vars a = p.vars a := fun a ha => if_neg ha
  refine ⟨⟨fun t a ha => ?_, hp.once, hp.free, hp.owned, hp.nodup⟩, fun a ha => ⟨ho a ha, ?_⟩, trivial, hP.1, hP.2.1, if_pos rfl⟩
  · show ((p.setVar c w').vars a).type = t
    rw [hvars a (by rintro rfl; exact (hp.free t a ha).2 hP.1)]
    exact hp.type t a ha
  · exact hvars a (by rintro rfl; exact hP.2.1 ha)

/-- A computation that touches no variables in use leaves those at `c` as they are. -/
theorem agrees_at {α β : Type} {own : List Nat} {c : Nat} {w : Tmp} {R : α → β → Prop} {x : PM α} {r : Res β}
    (h : ∀ own, Agrees own (fun _ => True) R (fun _ _ => True) x r) :
    Agrees own (At own c w) R (fun _ => At own c w) x r := by
  intro E p hE hp ho hP
  obtain ⟨h1, h2, h3⟩ := h (c :: own) E p hE hp
    (fun a ha => by rcases List.mem_cons.1 ha with rfl | ha; exact hP.1; exact ho a ha) trivial
  refine ⟨h1, fun a ha => h2 a (List.mem_cons_of_mem _ ha), ?_⟩
  have hc := h2 c List.mem_cons_self
  generalize (x E p).1 = y at *
  cases y with
  | error _ => cases r with
    | error _ => exact h3
    | ok _ => exact h3.elim
  | ok a => cases r with
    | error _ => exact h3.elim
    | ok b => exact ⟨h3.1, hc.1, hP.2.1, hc.2.trans hP.2.2⟩

theorem agrees_hold {α β : Type} {own : List Nat} {t : GoType} {tmv : Option Nat} {R : α → β → Prop} {x : PM α} {r : Res β}
    (h : ∀ own, Agrees own (fun _ => True) R (fun _ _ => True) x r) :
    Agrees own (Hold own t tmv) R (fun _ => Hold own t tmv) x r := by
  cases tmv with
  | none =>
    intro E p hE hp ho _
    obtain ⟨h1, h2, h3⟩ := h own E p hE hp ho trivial
    refine ⟨h1, h2, ?_⟩
    generalize (x E p).1 = y at *
    cases y with
    | error _ => cases r with
      | error _ => exact h3
      | ok _ => exact h3.elim
    | ok a => cases r with
      | error _ => exact h3.elim
      | ok b => exact ⟨h3.1, fun _ hc => by cases hc⟩
  | some c =>
    intro E p hE hp ho hP
    have hm := hP c rfl
    obtain ⟨h1, h2, h3⟩ := agrees_at (c := c) (w := p.vars c) h E p hE hp ho ⟨hm.1, hm.2.1, rfl⟩
    refine ⟨h1, h2, ?_⟩
    generalize (x E p).1 = y at *
    cases y with
    | error _ => cases r with
      | error _ => exact h3
      | ok _ => exact h3.elim
    | ok a => cases r with
      | error _ => exact h3.elim
      | ok b =>
        refine ⟨h3.1, fun c' hc => ?_⟩
        cases hc
        exact ⟨h3.2.1, h3.2.2.1, (congrArg Tmp.type h3.2.2.2).trans hm.2.2⟩

theorem agrees_get (D : Descs) (kt vt : GoType) (own : List Nat) :
    Agrees own (fun _ => True) (fun _ (_ : Unit) => True) (fun c => Mine own c (.map kt vt)) (poolGet D (.map kt vt)) (.ok ()) := by
  intro E p hE hp ho _
  obtain ⟨a1, a2, a3⟩ := hE p.clock p hp
  generalize hq : ({ E.adv p.clock p with clock := p.clock + 1 } : Pools) = q
  have hq1 : PoolsOK q := by subst hq; exact ⟨a1.type, a1.once, a1.free, a1.owned, a1.nodup⟩
  have hq2 : q.owned = p.owned := by subst hq; exact a2
  have hq3 : ∀ a ∈ own, a ∈ q.owned ∧ q.vars a = p.vars a := by
    intro a ha
    exact ⟨by rw [hq2]; exact ho a ha, by subst hq; exact a3 a (ho a ha)⟩
  have e : poolGet D (.map kt vt) E p = match (E.pick q.clock).bind (fun i => (q.cells (.map kt vt))[i]?) with
      | none => (.ok (q.fresh D (.map kt vt)).1, (q.fresh D (.map kt vt)).2)
      | some a => (.ok a, { q.setCells (.map kt vt) ((q.cells (.map kt vt)).erase a) with owned := a :: q.owned }) := by
    subst hq; rfl
  rw [e]
  cases hk : (E.pick q.clock).bind (fun i => (q.cells (.map kt vt))[i]?) with
  | none =>
    dsimp only
    have hvars : ∀ a, a < q.next → (q.fresh D (.map kt vt)).2.vars a = q.vars a := fun a ha => if_neg (Nat.ne_of_lt ha)
    refine ⟨⟨?_, hq1.once, ?_, ?_, ?_⟩, ?_, trivial, ?_⟩
    · intro t a ha
      rw [hvars a (hq1.free t a ha).1]
      exact hq1.type t a ha
    · intro t a ha
      have := hq1.free t a ha
      refine ⟨Nat.lt_succ_of_lt this.1, ?_⟩
      intro h
      rcases List.mem_cons.1 h with rfl | h
      · exact Nat.lt_irrefl _ this.1
      · exact this.2 h
    · intro a ha
      rcases List.mem_cons.1 ha with rfl | ha
      · exact Nat.lt_succ_self _
      · exact Nat.lt_succ_of_lt (hq1.owned a ha)
    · exact List.nodup_cons.2 ⟨fun h => Nat.lt_irrefl _ (hq1.owned _ h), hq1.nodup⟩
    · intro a ha
      refine ⟨List.mem_cons_of_mem _ (hq3 a ha).1, ?_⟩
      rw [hvars a (hq1.owned a (hq3 a ha).1)]
      exact (hq3 a ha).2
    · refine ⟨List.mem_cons_self, fun h => Nat.lt_irrefl _ (hq1.owned _ (hq3 _ h).1), ?_⟩
      exact congrArg Tmp.type (if_pos rfl)
  | some c =>
    dsimp only
    have hc : c ∈ q.cells (.map kt vt) := by
      obtain ⟨i, _, hi⟩ := Option.bind_eq_some_iff.1 hk
      exact List.mem_of_getElem? hi
    have hcells : ∀ t, ∀ a ∈ (q.setCells (.map kt vt) ((q.cells (.map kt vt)).erase c)).cells t, a ∈ q.cells t ∧ a ≠ c := by
      intro t a ha
      simp only [Pools.setCells] at ha
      split at ha
      · subst t
        have := (hq1.once (.map kt vt)).mem_erase_iff.1 ha
        exact ⟨this.2, this.1⟩
      · rename_i hne
        refine ⟨ha, ?_⟩
        rintro rfl
        exact hne ((hq1.type t a ha).symm.trans (hq1.type _ a hc))
    refine ⟨⟨?_, ?_, ?_, ?_, ?_⟩, ?_, trivial, ?_⟩
    · exact fun t a ha => hq1.type t a (hcells t a ha).1
    · intro t
      show ((q.setCells (.map kt vt) ((q.cells (.map kt vt)).erase c)).cells t).Nodup
      simp only [Pools.setCells]
      split
      · exact (hq1.once _).erase _
      · exact hq1.once t
    · intro t a ha
      have h := hcells t a ha
      refine ⟨(hq1.free t a h.1).1, ?_⟩
      intro h'
      rcases List.mem_cons.1 h' with rfl | h'
      · exact h.2 rfl
      · exact (hq1.free t a h.1).2 h'
    · intro a ha
      rcases List.mem_cons.1 ha with rfl | ha
      · exact (hq1.free _ a hc).1
      · exact hq1.owned a ha
    · exact List.nodup_cons.2 ⟨(hq1.free _ c hc).2, hq1.nodup⟩
    · exact fun a ha => ⟨List.mem_cons_of_mem _ (hq3 a ha).1, (hq3 a ha).2⟩
    · exact ⟨List.mem_cons_self, fun h => (hq1.free _ c hc).2 (hq3 c h).1, hq1.type _ c hc⟩

theorem agrees_put {t : GoType} {c : Nat} {own : List Nat} :
    Agrees own (Mine own c t) (fun _ (_ : Unit) => True) (fun _ _ => True) (poolPut t c) (.ok ()) := by
  intro E p hE hp ho hP
  have hcells : ∀ t', ∀ a ∈ (p.setCells t (c :: p.cells t)).cells t', (a ∈ p.cells t' ∨ (a = c ∧ t' = t)) := by
    intro t' a ha
    simp only [Pools.setCells] at ha
    split at ha
    · subst t'
      rcases List.mem_cons.1 ha with rfl | ha
      · exact .inr ⟨rfl, rfl⟩
      · exact .inl ha
    · exact .inl ha
  refine ⟨⟨?_, ?_, ?_, ?_, ?_⟩, ?_, trivial, trivial⟩
  · intro t' a ha
    rcases hcells t' a ha with h | ⟨rfl, rfl⟩
    · exact hp.type t' a h
    · exact hP.2.2
  · intro t'
    show ((p.setCells t (c :: p.cells t)).cells t').Nodup
    simp only [Pools.setCells]
    split
    · exact List.nodup_cons.2 ⟨fun h => (hp.free _ c h).2 hP.1, hp.once t⟩
    · exact hp.once t'
  · intro t' a ha
    rcases hcells t' a ha with h | ⟨rfl, rfl⟩
    · exact ⟨(hp.free t' a h).1, fun h' => (hp.free t' a h).2 (List.mem_of_mem_erase h')⟩
    · exact ⟨hp.owned a hP.1, fun h' => (hp.nodup.mem_erase_iff.1 h').1 rfl⟩
  · exact fun a ha => hp.owned a (List.mem_of_mem_erase ha)
  · exact hp.nodup.erase _
  · intro a ha
    exact ⟨hp.nodup.mem_erase_iff.2 ⟨by rintro rfl; exact hP.2.1 ha, ho a ha⟩, rfl⟩

/-! ## Keys and values overwrite the variables -/

theorem fieldTypeMatch_varint {tag : TagType} {k : Kind} (h : fieldTypeMatch tag k = true) (b : Bytes) (cur cur' : Val) :
    decodeVarintAt tag k b cur = decodeVarintAt tag k b cur' := by
  cases tag <;> cases k <;> first | rfl | cases h

theorem fieldTypeMatch_fixed32 {tag : TagType} {k : Kind} (h : fieldTypeMatch tag k = true) (b : Bytes) (cur cur' : Val) :
    decodeFixed32At tag k b cur = decodeFixed32At tag k b cur' := by
  cases tag <;> cases k <;> first | rfl | cases h

theorem fieldTypeMatch_fixed64 {tag : TagType} {k : Kind} (h : fieldTypeMatch tag k = true) (b : Bytes) (cur cur' : Val) :
    decodeFixed64At tag k b cur = decodeFixed64At tag k b cur' := by
  cases tag <;> cases k <;> first | rfl | cases h

theorem keyTypeMatch_field {tag : TagType} {k : Kind} (h : keyTypeMatch tag k = true) : fieldTypeMatch tag k = true := by
  cases tag <;> cases k <;> first | rfl | cases h

/-- The tags of a map field fit its key and value types. -/
def MapReady (f : FieldDesc) : Prop :=
  ∀ kt vt, f.t = .map kt vt → fieldTypeMatch f.keyType kt.kind = true ∧
    ((∃ t, vt = .ptr t) ∨ fieldTypeMatch f.valType vt.kind = true)

theorem poolKey_eq {f : FieldDesc} {kt : GoType} (h : fieldTypeMatch f.keyType kt.kind = true) (b : Bytes) (cur : Val) :
    poolKey f kt b cur = decodeMapKey f kt b := by
  have : ∀ typ b, poolKeyAt f kt typ b cur = decodeMapKeyAt f kt typ b := by
    intro typ b
    unfold poolKeyAt decodeMapKeyAt
    split
    · exact fieldTypeMatch_varint h _ _ _
    · exact fieldTypeMatch_fixed32 h _ _ _
    · exact fieldTypeMatch_fixed64 h _ _ _
    · rfl
    · split <;> first | rfl | simp_all
  unfold poolKey decodeMapKey
  cases consumeKVTag b with
  | none => rfl
  | some a => simp only [this]

section
variable {D : Descs} {rec : DecRecP} {rec' : DecRec}
  (hrec : ∀ d b v id own, Agrees own (fun _ => True) Eq (fun _ _ => True) (rec d b v id) (rec' d b v id))

include hrec in
theorem poolValueLen_ok (t : GoType) (fb : Bytes) (cur cur' : Val) (d : Int) (own : List Nat) (h : ∀ id, t = .struct id → cur = cur') :
    Agrees own (fun _ => True) Eq (fun _ _ => True) (poolValueLen rec t fb cur d) (decodeMapValueLen rec' t fb cur' d) := by
  cases t with
  | bytes => exact agrees_ok rfl (fun _ _ => trivial)
  | string => exact agrees_ok rfl (fun _ _ => trivial)
  | struct id =>
    rw [h id rfl]
    exact hrec _ _ _ _ _
  | _ => exact agrees_error _

include hrec in
theorem poolValueAt_ok (f : FieldDesc) (t : GoType) (typ : WType) (b : Bytes) (cur cur' : Val) (d : Int) (own : List Nat)
    (h : cur = cur' ∨ (fieldTypeMatch f.valType t.kind = true ∧ ∀ id, t = .struct id → cur = cur')) :
    Agrees own (fun _ => True) Eq (fun _ _ => True) (poolValueAt rec f t typ b cur d) (decodeMapValueAt rec' f t typ b cur' d) := by
  have h' : ∀ id, t = .struct id → cur = cur' := by
    rcases h with h | h
    · exact fun _ _ => h
    · exact h.2
  unfold poolValueAt decodeMapValueAt
  split
  · rcases h with rfl | h
    · exact agrees_lift _
    · rw [fieldTypeMatch_varint h.1 b cur cur']; exact agrees_lift _
  · rcases h with rfl | h
    · exact agrees_lift _
    · rw [fieldTypeMatch_fixed32 h.1 b cur cur']; exact agrees_lift _
  · rcases h with rfl | h
    · exact agrees_lift _
    · rw [fieldTypeMatch_fixed64 h.1 b cur cur']; exact agrees_lift _
  · refine agrees_bind (agrees_lift _) ?_
    rintro ⟨fb, n⟩ _ rfl
    refine agrees_bind (poolValueLen_ok hrec t fb cur cur' d own h') ?_
    rintro v _ rfl
    exact agrees_pure rfl (fun _ _ => trivial)
  · split <;> first | exact agrees_error _ | simp_all

include hrec in
theorem poolValue_ok (f : FieldDesc) (vt : GoType) (b : Bytes) (cur : Val) (d : Int) (own : List Nat)
    (h : (∃ t, vt = .ptr t) ∨ fieldTypeMatch f.valType vt.kind = true) (hs : ∀ id, vt = .struct id → cur = (D id).empty) :
    Agrees own (fun _ => True) Eq (fun _ _ => True) (poolValue D rec f vt b cur d) (decodeMapValue D rec' f vt b d) := by
  unfold poolValue decodeMapValue
  cases consumeKVTag b with
  | none => exact agrees_error _
  | some a =>
    obtain ⟨num, typ⟩ := a
    dsimp only
    by_cases h1 : num ≠ 2
    · rw [if_pos h1, if_pos h1]; exact agrees_error _
    · rw [if_neg h1, if_neg h1]
      refine agrees_bind (R := Eq) (S := fun _ _ => True) ?_ ?_
      · by_cases hp : ∃ t, vt = .ptr t
        · obtain ⟨t, rfl⟩ := hp
          refine agrees_bind (poolValueAt_ok hrec f _ _ _ _ _ d own (.inl rfl)) ?_
          rintro ⟨v, n⟩ _ rfl
          exact agrees_pure rfl (fun _ _ => trivial)
        · have h := h.resolve_left hp
          have e1 : poolValueRef D rec f vt typ (b.drop 1) cur d = poolValueAt rec f vt typ (b.drop 1) cur d := by
            cases vt <;> first | rfl | exact absurd ⟨_, rfl⟩ hp
          have e2 : decodeMapValueRef D rec' f vt typ (b.drop 1) d = decodeMapValueAt rec' f vt typ (b.drop 1) (tmpVal D vt) d := by
            cases vt <;> first | rfl | exact absurd ⟨_, rfl⟩ hp
          rw [e1, e2]
          refine poolValueAt_ok hrec f _ _ _ _ _ d own (.inr ⟨h, fun id hid => ?_⟩)
          subst hid
          exact hs id rfl
      · rintro ⟨v, n⟩ _ rfl
        exact agrees_pure rfl (fun _ _ => trivial)

include hrec in
theorem poolPair_ok {f : FieldDesc} {kt vt : GoType} (hf : f.t = .map kt vt) (hr : MapReady f) (b : Bytes) (cur : Val) (d : Int)
    (own : List Nat) (a : Nat) :
    Agrees own (Mine own a (.map kt vt)) Eq (fun _ => Mine own a (.map kt vt)) (poolPair D rec f kt vt b cur d a)
      (decodeMapPair D rec' f kt vt b cur d) := by
  suffices h : ∀ c, c.type = .map kt vt → Agrees own (At own a c) Eq (fun _ => Mine own a (.map kt vt))
      (poolPair D rec f kt vt b cur d a) (decodeMapPair D rec' f kt vt b cur d) from
    fun E p hE hp ho hP => h (p.vars a) hP.2.2 E p hE hp ho ⟨hP.1, hP.2.1, rfl⟩
  intro c hc
  have hct : (c.reset D).type = .map kt vt := by
    unfold Tmp.reset
    split <;> exact hc
  have hcv : ∀ id, vt = .struct id → (c.reset D).val = (D id).empty := by
    rintro id rfl
    unfold Tmp.reset
    rw [hc]
  unfold poolPair decodeMapPair
  refine agrees_step agrees_read ?_
  rintro _ rfl
  rw [if_neg (by simp [hc])]
  refine agrees_step (agrees_write _) ?_
  intro _ _
  refine agrees_bind (agrees_lift _) ?_
  rintro m _ rfl
  refine agrees_step agrees_read ?_
  rintro _ rfl
  rw [poolKey_eq (hr kt vt hf).1]
  refine agrees_bind (agrees_lift _) ?_
  rintro ⟨k, n⟩ _ rfl
  refine agrees_step (agrees_write _) ?_
  intro _ _
  refine agrees_step agrees_read ?_
  rintro _ rfl
  refine agrees_bind (agrees_at (fun own => poolValue_ok hrec f vt _ _ d own (hr kt vt hf).2 hcv)) ?_
  rintro ⟨v, n'⟩ _ rfl
  refine agrees_step agrees_read ?_
  rintro _ rfl
  refine agrees_step (agrees_write _) ?_
  intro _ _
  refine agrees_step agrees_read ?_
  rintro _ rfl
  refine agrees_bind (agrees_lift _) ?_
  rintro k' _ rfl
  exact agrees_pure rfl (fun p hp => ⟨hp.1, hp.2.1, (congrArg Tmp.type hp.2.2).trans hct⟩)

include hrec in
theorem poolLenAt_ok {f : FieldDesc} (hr : MapReady f) (t : GoType) (ht : ∀ kt vt, f.t = .map kt vt → t = f.t) (fb : Bytes)
    (cur : Val) (d : Int) (own : List Nat) (tmv : Option Nat) :
    Agrees own (Hold own f.t tmv) (fun x y => x.1 = y) (fun x => Hold own f.t x.2) (poolLenAt D rec f t fb cur d tmv)
      (decodeLenAt D rec' f t fb cur d) := by
  cases t with
  | bytes => exact agrees_ok rfl (fun _ h => h)
  | string => exact agrees_ok rfl (fun _ h => h)
  | struct id =>
    refine agrees_map (agrees_hold (hrec (d - 1) fb cur id)) ?_
    rintro v _ rfl
    exact agrees_pure rfl (fun _ h => h)
  | map kt vt =>
    unfold poolLenAt decodeLenAt
    dsimp only
    cases hdm : f.decodeMap with
    | some a =>
      obtain ⟨kc, vc⟩ := a
      refine agrees_map (agrees_lift (decodeMapFast kc vc kt vt fb cur)) ?_
      rintro v _ rfl
      exact agrees_pure rfl (fun _ h => h)
    | none =>
      dsimp only
      cases hft : f.t with
      | map kt' vt' =>
        have h := ht kt' vt' hft
        rw [hft] at h
        cases h
        dsimp only
        have hget : Agrees own (Hold own (.map kt vt) tmv) (fun _ (_ : Unit) => True) (fun c => Mine own c (.map kt vt))
            (poolTmv D (.map kt vt) tmv) (.ok ()) := by
          cases tmv with
          | none => exact agrees_pre (fun _ _ => trivial) (agrees_get D kt vt own)
          | some c => exact agrees_ok trivial (fun p hp => hp c rfl)
        refine agrees_step hget ?_
        intro c _
        refine agrees_map (poolPair_ok (D := D) hrec hft hr fb cur (d - 1) own c) ?_
        rintro v _ rfl
        refine agrees_pure rfl ?_
        intro p hp c' hc'
        cases hc'
        exact hp
      | _ => exact agrees_error _
  | _ => exact agrees_error _

/-- The results of decoding a value. -/
abbrev ValOK (x : Val × Nat × Option Nat) (y : Val × Nat) : Prop := (x.1, x.2.1) = y

/-- What is kept afterwards. -/
abbrev Kept (own : List Nat) (f : FieldDesc) (x : Val × Nat × Option Nat) : Pools → Prop := Hold own f.t x.2.2

include hrec in
theorem poolValueOf_ok {f : FieldDesc} (hr : MapReady f) (t : GoType) (ht : ∀ kt vt, f.t = .map kt vt → t = f.t) (typ : WType)
    (b : Bytes) (cur : Val) (d : Int) (own : List Nat) (tmv : Option Nat) :
    Agrees own (Hold own f.t tmv) ValOK (Kept own f) (poolValueOf D rec f t typ b cur d tmv) (decodeValueAt D rec' f t typ b cur d) := by
  by_cases h2 : typ = 2
  · subst h2
    refine agrees_bind (agrees_lift _) ?_
    rintro ⟨fb, n⟩ _ rfl
    refine agrees_bind (poolLenAt_ok hrec hr t ht fb cur d own tmv) ?_
    rintro ⟨v, tmv'⟩ _ rfl
    exact agrees_pure rfl (fun _ h => h)
  · have e1 : poolValueOf D rec f t typ b cur d tmv = (do
        let (v, n) ← PM.lift (decodeValueAt D rec' f t typ b cur d)
        return (v, n, tmv)) := by
      unfold poolValueOf decodeValueAt
      split
      · exact absurd rfl h2
      · congr 2
        split <;> first | rfl | simp_all
    rw [e1]
    refine agrees_map (agrees_lift (decodeValueAt D rec' f t typ b cur d)) ?_
    rintro ⟨v, n⟩ _ rfl
    exact agrees_pure rfl (fun _ h => h)

include hrec in
theorem poolRep_ok {f : FieldDesc} (hr : MapReady f) (t : GoType) (ht : ∀ kt vt, f.t = .map kt vt → t = f.t) (typ : WType)
    (b : Bytes) (cur : Val) (d : Int) (own : List Nat) (tmv : Option Nat) :
    Agrees own (Hold own f.t tmv) ValOK (Kept own f) (poolRep D rec f t typ b cur d tmv) (decodeRep D rec' f t typ b cur d) := by
  by_cases hc : f.repeated = true ∧ ∃ te, t = .slice te
  · obtain ⟨hrep, te, rfl⟩ := hc
    have hn : ∀ kt vt, f.t ≠ .map kt vt := by
      intro kt vt h
      have := ht kt vt h
      rw [h] at this
      cases this
    unfold poolRep decodeRep
    rw [hrep]
    dsimp only
    by_cases hp : typ = tBytes ∧ f.packed = true
    · rw [if_pos hp, if_pos hp]
      cases f.decodePacked with
      | none => exact agrees_error _
      | some c =>
        refine agrees_bind (agrees_lift _) ?_
        rintro ⟨fb, n⟩ _ rfl
        refine agrees_bind (agrees_lift _) ?_
        rintro v _ rfl
        exact agrees_pure rfl (fun _ h => h)
    · rw [if_neg hp, if_neg hp]
      refine agrees_bind (agrees_lift _) ?_
      rintro xs _ rfl
      refine agrees_bind (R := ValOK) (S := Kept own f) ?_ ?_
      · by_cases hq : ∃ te', te = .ptr te'
        · obtain ⟨te', rfl⟩ := hq
          refine agrees_bind (poolValueOf_ok hrec hr _ (fun kt vt h => absurd h (hn kt vt)) _ _ _ d own tmv) ?_
          rintro ⟨v, n, tmv'⟩ _ rfl
          exact agrees_pure rfl (fun _ h => h)
        · have e1 : poolElem D rec f te typ b d tmv = poolValueOf D rec f te typ b (alloc D te) d tmv := by
            cases te <;> first | rfl | exact absurd ⟨_, rfl⟩ hq
          have e2 : decodeElem D rec' f te typ b d = decodeValueAt D rec' f te typ b (alloc D te) d := by
            cases te <;> first | rfl | exact absurd ⟨_, rfl⟩ hq
          rw [e1, e2]
          exact poolValueOf_ok hrec hr _ (fun kt vt h => absurd h (hn kt vt)) _ _ _ d own tmv
      · rintro ⟨v, n, tmv'⟩ _ rfl
        exact agrees_pure rfl (fun _ h => h)
  · have e1 : poolRep D rec f t typ b cur d tmv = poolValueOf D rec f t typ b cur d tmv := by
      unfold poolRep
      split
      · rename_i h; exact absurd ⟨h, _, rfl⟩ hc
      · rfl
    have e2 : decodeRep D rec' f t typ b cur d = decodeValueAt D rec' f t typ b cur d := by
      unfold decodeRep
      split
      · rename_i h; exact absurd ⟨h, _, rfl⟩ hc
      · rfl
    rw [e1, e2]
    exact poolValueOf_ok hrec hr t ht typ b cur d own tmv

include hrec in
theorem poolField_ok {f : FieldDesc} (hr : MapReady f) (typ : WType)
    (b : Bytes) (cur : Val) (d : Int) (own : List Nat) (tmv : Option Nat) :
    Agrees own (Hold own f.t tmv) ValOK (Kept own f) (poolField D rec f typ b cur d tmv) (decodeField D rec' f typ b cur d) := by
  have hptr : ∀ cur, Agrees own (Hold own f.t tmv) ValOK (Kept own f) (poolPtr D rec f typ b cur d tmv) (decodePtr D rec' f typ b cur d) := by
    intro cur
    by_cases hp : ∃ t, f.t = .ptr t
    · obtain ⟨t, ht⟩ := hp
      have e1 : poolPtr D rec f typ b cur d tmv = (do
          let (v, n, tmv) ← poolRep D rec f t typ b (alloc D t) d tmv
          return (.ptr (some v), n, tmv)) := by
        unfold poolPtr; rw [ht]
      have e2 : decodePtr D rec' f typ b cur d = (do
          let (v, n) ← decodeRep D rec' f t typ b (alloc D t) d
          return (.ptr (some v), n)) := by
        unfold decodePtr; rw [ht]
      rw [e1, e2]
      refine agrees_bind (poolRep_ok hrec hr t (fun kt vt h => by rw [ht] at h; cases h) _ _ _ d own tmv) ?_
      rintro ⟨v, n, tmv'⟩ _ rfl
      exact agrees_pure rfl (fun _ h => h)
    · have e1 : poolPtr D rec f typ b cur d tmv = poolRep D rec f f.t typ b cur d tmv := by
        unfold poolPtr
        split
        · rename_i h; exact absurd ⟨_, h⟩ hp
        · rfl
      have e2 : decodePtr D rec' f typ b cur d = decodeRep D rec' f f.t typ b cur d := by
        unfold decodePtr
        split
        · rename_i h; exact absurd ⟨_, h⟩ hp
        · rfl
      rw [e1, e2]
      exact poolRep_ok hrec hr f.t (fun _ _ _ => rfl) _ _ _ d own tmv
  unfold poolField decodeField
  cases f.oneof with
  | none => exact hptr _
  | some w =>
    dsimp only
    cases cur with
    | iface _ =>
      refine agrees_bind (hptr _) ?_
      rintro ⟨v, n, tmv'⟩ _ rfl
      exact agrees_pure rfl (fun _ h => h)
    | _ => exact agrees_error _

/-- The variables kept are those of the last field. -/
def HoldLast (own : List Nat) (last : Option FieldDesc) (tmv : Option Nat) (p : Pools) : Prop :=
  ∀ c, tmv = some c → ∃ g, last = some g ∧ Mine own c g.t p

theorem poolRelease_ok (own : List Nat) (last : Option FieldDesc) (tmv : Option Nat) (num : Int) :
    Agrees own (HoldLast own last tmv) (fun tmv' (_ : Unit) => ∀ c, tmv' = some c → ∃ g, last = some g ∧ g.id.toInt = num)
      (HoldLast own last) (poolRelease last num tmv) (.ok ()) := by
  cases tmv with
  | none => exact agrees_ok (fun _ h => by cases h) (fun _ h => h)
  | some c =>
    cases last with
    | none =>
      refine agrees_absurd (fun p h => ?_)
      obtain ⟨g, hg, _⟩ := h c rfl
      cases hg
    | some g =>
      unfold poolRelease
      dsimp only
      split
      · rename_i hg
        exact agrees_ok (fun c' hc' => ⟨g, rfl, hg⟩) (fun _ h => h)
      · refine agrees_step (agrees_pre ?_ (agrees_put (c := c))) ?_
        · intro p h
          obtain ⟨g', hg, h⟩ := h c rfl
          cases hg
          exact h
        · intro _ _
          exact agrees_ok (fun _ h => by cases h) (fun _ _ _ h => by cases h)

include hrec in
theorem poolRecord_ok {s : StructDesc} (hs : ∀ n f, s.getField n = some f → MapReady f) (d : Int) (b : Bytes) (fs : List Val)
    {last : Option FieldDesc} (hl : ∀ g, last = some g → MapReady g) (own : List Nat) (tmv : Option Nat) :
    Agrees own (HoldLast own last tmv) (fun x y => (x.1, x.2.1, x.2.2.1) = y ∧ ∀ g, x.2.2.1 = some g → MapReady g)
      (fun x => HoldLast own x.2.2.1 x.2.2.2) (poolRecord D rec s d b fs last tmv) (decodeRecord D rec' s d b fs last) := by
  unfold poolRecord decodeRecord
  refine agrees_bind (agrees_lift _) ?_
  rintro ⟨num, typ, n⟩ _ rfl
  dsimp only
  refine agrees_step (poolRelease_ok own last tmv num) ?_
  intro tmv' ht
  have hlook : ∀ f, lookupField s last num = some f → MapReady f ∧ ∀ c, tmv' = some c → last = some f := by
    intro f hf
    cases last with
    | none =>
      refine ⟨hs _ f hf, fun c hc => ?_⟩
      obtain ⟨g, hg, _⟩ := ht c hc
      cases hg
    | some g =>
      unfold lookupField at hf
      dsimp only at hf
      split at hf
      · rw [← hf]
        injection hf with hf
        rw [← hf]
        exact ⟨hl g rfl, fun c hc => rfl⟩
      · rename_i hne
        refine ⟨hs _ f hf, fun c hc => ?_⟩
        obtain ⟨g', hg, h⟩ := ht c hc
        cases hg
        exact absurd h hne
  cases hlk : lookupField s last num with
  | none =>
    have hnone : tmv' = none := by
      cases tmv' with
      | none => rfl
      | some c =>
        obtain ⟨g, rfl, hg⟩ := ht c rfl
        unfold lookupField at hlk
        dsimp only at hlk
        rw [if_pos hg] at hlk
        cases hlk
    dsimp only
    refine agrees_bind (agrees_lift _) ?_
    rintro m _ rfl
    refine agrees_bind (agrees_lift _) ?_
    rintro fs' _ rfl
    refine agrees_pure ⟨rfl, fun _ h => by cases h⟩ (fun p _ c hc => ?_)
    rw [hnone] at hc
    cases hc
  | some f =>
    dsimp only
    obtain ⟨hr, htm⟩ := hlook f hlk
    cases hcur : fs[f.slot]? with
    | none => exact agrees_error _
    | some cur =>
      dsimp only
      refine agrees_bind (agrees_pre ?_ (poolField_ok hrec hr typ _ cur d own tmv')) ?_
      · intro p h c hc
        obtain ⟨g, hg, h⟩ := h c hc
        rw [htm c hc] at hg
        cases hg
        exact h
      · rintro ⟨v, m, tmv''⟩ _ rfl
        exact agrees_pure ⟨rfl, fun g hg => by cases hg; exact hr⟩ (fun p h c hc => ⟨f, rfl, h c hc⟩)

include hrec in
theorem poolLoop_ok {s : StructDesc} (hs : ∀ n f, s.getField n = some f → MapReady f) (d : Int) (own : List Nat) :
    ∀ (fuel : Nat) (b : Bytes) (fs : List Val) (last : Option FieldDesc) (tmv : Option Nat), (∀ g, last = some g → MapReady g) →
    Agrees own (HoldLast own last tmv) Eq (fun _ _ => True) (poolLoop D rec s d fuel b fs last tmv)
      (decodeLoop D rec' s d fuel b fs last) := by
  have hnil : ∀ (fuel : Nat) (fs : List Val) (last : Option FieldDesc) (tmv : Option Nat),
      Agrees own (HoldLast own last tmv) Eq (fun _ _ => True) (poolLoop D rec s d fuel [] fs last tmv)
        (decodeLoop D rec' s d fuel [] fs last) := by
    intro fuel fs last tmv
    have e : decodeLoop D rec' s d fuel [] fs last = .ok fs := by cases fuel <;> rfl
    have e' : poolLoop D rec s d fuel [] fs last tmv = (poolFinish last tmv >>= fun _ => pure fs) := by cases fuel <;> rfl
    rw [e, e']
    refine agrees_step (R := fun _ (_ : Unit) => True) (S := fun _ _ => True) (b := ()) ?_
      (fun _ _ => agrees_ok rfl (fun _ _ => trivial))
    cases tmv with
    | none => exact agrees_ok trivial (fun _ _ => trivial)
    | some c =>
      cases last with
      | none =>
        refine agrees_absurd (fun p h => ?_)
        obtain ⟨g, hg, _⟩ := h c rfl
        cases hg
      | some g =>
        refine agrees_pre ?_ (agrees_put (c := c))
        intro p h
        obtain ⟨g', hg, h⟩ := h c rfl
        cases hg
        exact h
  intro fuel
  induction fuel with
  | zero =>
    intro b fs last tmv _
    cases b with
    | nil => exact hnil _ _ _ _
    | cons => exact agrees_error _
  | succ fuel ih =>
    intro b fs last tmv hl
    cases b with
    | nil => exact hnil _ _ _ _
    | cons x b =>
      refine agrees_bind (poolRecord_ok hrec hs d (x :: b) fs hl own tmv) ?_
      rintro ⟨fs', n, last', tmv'⟩ _ ⟨rfl, h⟩
      exact ih _ _ _ _ h

end

theorem poolStruct_ok {D : Descs} (hD : ∀ i n f, (D i).getField n = some f → MapReady f) : ∀ (fuel : Nat) (d : Int) (b : Bytes)
    (v : Val) (id : Nat) (own : List Nat),
    Agrees own (fun _ => True) Eq (fun _ _ => True) (poolStruct D fuel d b v id) (decodeStruct D fuel d b v id) := by
  intro fuel
  induction fuel with
  | zero => intro d b v id own; exact agrees_error _
  | succ fuel ih =>
    intro d b v id own
    unfold poolStruct decodeStruct
    split
    · exact agrees_error _
    · cases v with
      | struct fs =>
        refine agrees_bind (agrees_lift _) ?_
        rintro fs _ rfl
        refine agrees_bind (agrees_pre ?_ (poolLoop_ok ih (hD id) d own _ _ _ _ none (fun _ h => by cases h))) ?_
        · exact fun _ _ _ h => by cases h
        · rintro fs' _ rfl
          exact agrees_pure rfl (fun _ _ => trivial)
      | _ => exact agrees_error _

/-! ## Accepted types -/

theorem realKind_plain {t : GoType} (h : isList t = false) (h' : ∀ u, t ≠ .ptr u) : t.realKind = t.kind := by
  cases t with
  | ptr u => exact absurd rfl (h' u)
  | slice u => cases h
  | _ => rfl

theorem parseField_ready {gf : GoField} {i : Nat} {o : Option Nat} {f : FieldDesc} (h : parseField gf i o = .ok f)
    (hm : ∀ k v, gf.type = .map k v → isKeyType k = true ∧ isList v = false) : MapReady f := by
  unfold parseField at h
  obtain ⟨⟨p, tt⟩, h1, h⟩ := bindOk h
  obtain ⟨kv, h2, h⟩ := bindOk h
  split at h
  · rename_i hc
    cases h
    intro kt vt ht
    have hgt : gf.type = .map kt vt := by
      have : (mkField gf.type i o p tt kv).t = gf.type := by
        unfold mkField
        dsimp only
        split <;> rfl
      rw [← this, ht]
    obtain ⟨m1, m2⟩ := hm kt vt hgt
    rw [hgt] at hc ⊢
    rw [Bool.and_eq_true] at hc
    have hc := hc.2
    unfold checkTypeMatch at hc
    cases kv with
    | none => simp at hc
    | some kv =>
      obtain ⟨ktag, vtag⟩ := kv
      simp only [Bool.and_eq_true] at hc
      obtain ⟨_, ⟨_, hk⟩, hvv⟩ := hc
      refine ⟨?_, ?_⟩
      · show fieldTypeMatch ktag kt.kind = true
        rw [← realKind_plain (t := kt) (by cases kt <;> first | rfl | cases m1) (by rintro u rfl; cases m1)]
        exact keyTypeMatch_field hk
      · by_cases hp : ∃ t, vt = .ptr t
        · exact .inl hp
        · refine .inr ?_
          show fieldTypeMatch vtag vt.kind = true
          rw [← realKind_plain m2 (fun u hu => hp ⟨u, hu⟩)]
          exact hvv
  · cases h

theorem parseDescs_ready {env : GoEnv} {D : Descs} (h : parseDescs env = .ok D) (hp : PlainMaps env) (i n : Nat) (f : FieldDesc)
    (hf : (D i).getField n = some f) : MapReady f := by
  rcases parseDescs_facts h i with ⟨s, hs, hd⟩ | hd
  · have facts := parseStruct_facts hd
    rw [facts.2.2.2.2] at hf
    obtain ⟨q, hq⟩ := (facts.1 f).1 (List.mem_of_find?_eq_some hf)
    have hs' := hp s (List.mem_of_getElem? hs)
    cases hq with
    | plain i gf _ a1 a2 a3 => exact parseField_ready a3 (hs' gf (.inl ⟨List.mem_of_getElem? a1, a2⟩))
    | member j w i gf _ a1 a2 a3 a4 a5 a6 =>
      exact parseField_ready a6 (hs' gf (.inr ⟨w, List.mem_of_getElem? a1, a5⟩))
  · rw [hd] at hf
    cases hf

end Verif.Lemmas.Pool
