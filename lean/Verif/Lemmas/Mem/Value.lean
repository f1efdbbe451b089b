import Verif.Lemmas.Mem.Sim
/-!
# Scalars, maps and new variables
-/
namespace Verif.Lemmas.Mem
open Verif.Model Verif.Model.Mem Verif.Spec

/-- Results of decoding a value of type `ty`: the same number of bytes consumed, and the value. -/
def VPost (D : Descs) (ty : GoType) (h : Store) (F : Blocks) (h' : Store) (a : MVal × Nat)
    (c : Val × Nat) : Prop :=
  a.2 = c.2 ∧ MemRep h' a.1 c.1 (grow F h h') ∧ Clean h' D ty a.1

/-- `VPost` without the number of bytes. -/
def WPost (D : Descs) (ty : GoType) (h : Store) (F : Blocks) (h' : Store) (a : MVal) (c : Val) :
    Prop :=
  MemRep h' a c (grow F h h') ∧ Clean h' D ty a

theorem clean_other {h : Store} {D : Descs} {t : GoType} {v : MVal}
    (h1 : ∀ te, t ≠ .slice te) (h2 : ∀ id, t ≠ .struct id) : Clean h D t v := .other _ _ h1 h2

theorem rep_grow {h : Store} {v : MVal} {t : Val} {F : Blocks} (hr : MemRep h v t F) (h1 h2 : Store) :
    MemRep h v t (grow F h1 h2) := rep_mono hr (fun _ hx => .inl hx)

/-! ## Scalars -/

/-- A decoder that either fails, or leaves the variable as it is, or overwrites it by a scalar. -/
def ScalarFn (p : Val → Res (Val × Nat)) : Prop :=
  (∃ e, ∀ t, p t = .error e) ∨ (∃ n, ∀ t, p t = .ok (t, n)) ∨
    ∃ x n, flat x = true ∧ x ≠ .undef ∧ ∀ t, p t = .ok (x, n)

theorem varint_scalar (tag : TagType) (k : Kind) (bs : Bytes) :
    ScalarFn (fun t => decodeVarintAt tag k bs t) := by
  unfold decodeVarintAt
  cases hc : consumeVarint bs with
  | error e =>
    cases tag <;> exact .inl ⟨_, fun _ => rfl⟩
  | ok r =>
    cases tag <;>
      first
      | exact .inl ⟨_, fun _ => rfl⟩
      | (cases k <;>
          first
          | exact .inr (.inl ⟨_, fun _ => rfl⟩)
          | exact .inr (.inr ⟨_, _, rfl, (fun h => Val.noConfusion h), fun _ => rfl⟩))

theorem fixed32_scalar (tag : TagType) (k : Kind) (bs : Bytes) :
    ScalarFn (fun t => decodeFixed32At tag k bs t) := by
  unfold decodeFixed32At
  cases hc : consumeFixed32 bs with
  | error e =>
    cases tag <;> exact .inl ⟨_, fun _ => rfl⟩
  | ok r =>
    cases tag <;>
      first
      | exact .inl ⟨_, fun _ => rfl⟩
      | (cases k <;>
          first
          | exact .inr (.inl ⟨_, fun _ => rfl⟩)
          | exact .inr (.inr ⟨_, _, rfl, (fun h => Val.noConfusion h), fun _ => rfl⟩))

theorem fixed64_scalar (tag : TagType) (k : Kind) (bs : Bytes) :
    ScalarFn (fun t => decodeFixed64At tag k bs t) := by
  unfold decodeFixed64At
  cases hc : consumeFixed64 bs with
  | error e =>
    cases tag <;> exact .inl ⟨_, fun _ => rfl⟩
  | ok r =>
    cases tag <;>
      first
      | exact .inl ⟨_, fun _ => rfl⟩
      | (cases k <;>
          first
          | exact .inr (.inl ⟨_, fun _ => rfl⟩)
          | exact .inr (.inr ⟨_, _, rfl, (fun h => Val.noConfusion h), fun _ => rfl⟩))

theorem overwrite_scalar {x : Val} (hx : x ≠ .undef) (cur : MVal) : overwrite cur x = ofFlat x := by
  cases x <;> first | rfl | exact absurd rfl hx

theorem sim_scalar {D : Descs} {ty : GoType} {h : Store} {F G : Blocks} {b : View} {bs : Bytes}
    {v : MVal} {t : Val} (q : Val → Bytes → Res (Val × Nat))
    (hq : ∀ bs, ScalarFn (fun t => q t bs)) (hi : Input h b bs G) (hr : MemRep h v t F)
    (hc : Clean h D ty v) :
    Sim h F (decodeScalarM (q .undef) b v) (q t bs) (VPost D ty h F) := by
  unfold decodeScalarM
  have he := parse_eq (q .undef) hi
  rcases hq bs with ⟨e, h1⟩ | ⟨n, h1⟩ | ⟨x, n, h1, h2, h3⟩
  · rw [show q .undef bs = _ from h1 _] at he
    exact sim_err (bind_err he) (h1 t) (step_refl _ _)
  · rw [show q .undef bs = _ from h1 _] at he
    exact sim_ok (bind_ok he) (h1 t) (step_refl _ _) ⟨rfl, rep_grow hr _ _, hc⟩
  · rw [show q .undef bs = _ from h3 _] at he
    refine sim_ok (bind_ok he) (h3 t) (step_refl _ _) ⟨rfl, ?_, ?_⟩
    · rw [overwrite_scalar h2]; exact rep_flat _ _ x h1
    · rw [overwrite_scalar h2]; exact clean_flat _ _ x h1 _

/-! ## New variables -/

theorem sim_newTarget {D : Descs} {t : GoType} {h : Store} {F : Blocks} {k : MVal → M (MVal × Nat)}
    {r : Res (Val × Nat)}
    (hk : Sim (pushed h (.object (cell D t))) none' (k (cell D t)) r
      (fun h' a c => a.2 = c.2 ∧ MemRep h' a.1 c.1 (grow none' (pushed h (.object (cell D t))) h'))) :
    Sim h F (newTarget D t k) r (fun h' a c => a.2 = c.2 ∧ ∃ v G, h'.mem a.1 = .object v ∧
      MemRep h' v c.1 G ∧ ¬ G a.1 ∧ grow F h h' a.1 ∧ ∀ x, G x → grow F h h' x) := by
  unfold newTarget
  refine sim_left (grow F h (pushed h (.object (cell D t)))) (new_eq _ _) (step_pushed _ _ _)
    (fun x hx => hx) ?_
  generalize hh : pushed h (.object (cell D t)) = h1 at hk ⊢
  have hn : h.next + 1 ≤ h1.next := by rw [← hh]; exact pushed_next _ _
  have hr : r = r >>= fun c => .ok c := by cases r <;> rfl
  rw [hr]
  refine sim_bind (sim_mono hk (fun _ hx => hx.elim) (fun h' a b hs hp => And.intro hs hp)) ?_
  rintro h2 ⟨v, n⟩ ⟨t', m⟩ _ ⟨hs, hnm, hv⟩
  have hn2 := hs.next
  have hG : ∀ x, grow none' h1 h2 x → h.next + 1 ≤ x ∧ x < h2.next := by
    intro x hx
    rcases hx with hx | hx
    · exact hx.elim
    · omega
  have ho : grow F h h2 h.next := .inr ⟨Nat.le_refl _, by omega⟩
  refine ⟨grow F h h2, ?_, ?_⟩
  · intro x hx
    rcases hx with hx | hx
    · exact .inl (.inl hx)
    · by_cases hx' : x < h1.next
      · exact .inl (.inr ⟨hx.1, hx'⟩)
      · exact .inr ⟨by omega, hx.2⟩
  · refine sim_left (h' := h2.set h.next (.object v)) (grow F h h2) rfl (step_set _ _ _ ho)
      (fun x hx => .inl hx) (sim_pure ?_)
    refine ⟨hnm, v, grow none' h1 h2, set_mem _ _ _, rep_frame hv ?_, ?_, ho, ?_⟩
    · intro x hx
      exact set_mem_ne _ _ _ (by have := hG x hx; omega)
    · intro hx
      have := hG _ hx
      omega
    · intro x hx
      have := hG x hx
      exact .inr ⟨by omega, this.2⟩

/-! ## Maps -/

theorem rep_key {h : Store} {k : MVal} {c : Val} {E : Blocks} (hr : MemRep h k c E) :
    keyContent h k = c.toKey := by
  cases hr <;> try rfl
  rename_i v s h1 h2
  show Key.str <$> h.read v = _
  rw [h1]; rfl

theorem toKey_ok {v : Val} {c : Key} (h : v.toKey = .ok c) : v = c.toVal := by
  cases v <;> simp [Val.toKey] at h <;> subst h <;> rfl

theorem toKey_toVal (c : Key) : c.toVal.toKey = .ok c := by cases c <;> rfl

theorem toKey_err {v : Val} {e : Fault} (h : v.toKey = .error e) : e = .ub := by
  cases v <;> simp [Val.toKey] at h <;> exact h.symm

theorem repTable_insert {h : Store} {k v : MVal} {c : Key} {t : Val} {E F : Blocks}
    (hk : MemRep h k c.toVal E) (hv : MemRep h v t F) (hEF : ∀ x, E x → ¬ F x) :
    ∀ {es : List (MVal × MVal)} {ts : List (Key × Val)} {G K : Blocks}, MemRepTable h es ts G →
      (∀ x, E x → ¬ G x) → (∀ x, F x → ¬ G x) → (∀ x, E x → K x) → (∀ x, F x → K x) →
      (∀ x, G x → K x) → MemRepTable h (tableInsert h k v es) (mapInsert ts c t) K := by
  intro es
  induction es with
  | nil =>
    intro ts G K hr h1 h2 h3 h4 h5
    cases hr
    exact .cons k c v t [] [] E F none' _ hk hv (.nil _) hEF (fun _ _ hx => hx) (fun _ _ hx => hx)
      h3 h4 (fun _ hx => hx.elim)
  | cons e es ih =>
    intro ts G K hr h1 h2 h3 h4 h5
    cases hr with
    | cons k' c' v' t' _ ts E' F' G' _ g1 g2 g3 g4 g5 g6 g7 g8 g9 =>
      have e1 := rep_key g1
      have e2 := rep_key hk
      rw [toKey_toVal] at e1 e2
      unfold tableInsert mapInsert
      by_cases he : c' = c
      · rw [if_pos he, if_pos (by rw [e1, e2, he])]
        exact .cons k c v t es ts E F G' _ hk hv g3 hEF (fun x hx hx' => h1 x hx (g9 x hx'))
          (fun x hx hx' => h2 x hx (g9 x hx')) h3 h4 (fun x hx => h5 x (g9 x hx))
      · rw [if_neg he, if_neg (by rw [e1, e2]; intro hh; injection hh with hh; exact he hh)]
        refine .cons k' c' v' t' _ _ E' F' (fun x => E x ∨ F x ∨ G' x) _ g1 g2
          (ih g3 (fun x hx hx' => h1 x hx (g9 x hx')) (fun x hx hx' => h2 x hx (g9 x hx'))
            (fun x hx => .inl hx) (fun x hx => .inr (.inl hx)) (fun x hx => .inr (.inr hx)))
          g4 ?_ ?_ (fun x hx => h5 x (g7 x hx)) (fun x hx => h5 x (g8 x hx)) ?_
        · rintro x hx (hx' | hx' | hx')
          · exact h1 x hx' (g7 x hx)
          · exact h2 x hx' (g7 x hx)
          · exact g5 x hx hx'
        · rintro x hx (hx' | hx' | hx')
          · exact h1 x hx' (g8 x hx)
          · exact h2 x hx' (g8 x hx)
          · exact g6 x hx hx'
        · rintro x (hx | hx | hx)
          · exact h3 x hx
          · exact h4 x hx
          · exact h5 x (g9 x hx)

/-- The map at address `a`. -/
structure MapAt (h : Store) (a : Nat) (ts : List (Key × Val)) (G : Blocks) : Prop where
  table : ∃ es, h.mem a = .table es ∧ MemRepTable h es ts G
  out : ¬ G a

theorem mapAt_frame {h h' : Store} {a : Nat} {ts : List (Key × Val)} {G : Blocks}
    (hm : MapAt h a ts G) (ha : h'.mem a = h.mem a) (hG : ∀ x, G x → h'.mem x = h.mem x) :
    MapAt h' a ts G := by
  obtain ⟨⟨es, h1, h2⟩, h3⟩ := hm
  exact ⟨⟨es, ha.trans h1, repTable_frame h2 hG⟩, h3⟩

theorem sim_ensureMap {h : Store} {F : Blocks} {cur : MVal} {t : Val} (hr : MemRep h cur t F) :
    Sim h F (ensureMap cur) t.asMap (fun h' a ts => ∃ G, MapAt h' a ts G ∧ grow F h h' a ∧
      ∀ x, G x → grow F h h' x) := by
  cases hr with
  | mapNil =>
    refine sim_ok (new_eq _ _) rfl (step_pushed _ _ _) ⟨none', ⟨⟨[], pushed_mem _ _, .nil _⟩, id⟩,
      .inr ⟨Nat.le_refl _, pushed_next _ _⟩, fun _ hx => hx.elim⟩
  | map a es ts F' _ h1 h2 h3 h4 h5 =>
    exact sim_ok (h' := h) rfl rfl (step_refl _ _) ⟨F', ⟨⟨es, h1, h2⟩, h3⟩, .inl h4,
      fun x hx => .inl (h5 x hx)⟩
  | _ => exact sim_fail

/-- Storing an entry. -/
theorem sim_mapAssign {h : Store} {F G E V : Blocks} {a : Nat} {ts : List (Key × Val)}
    {k v : MVal} {kc t : Val} (hm : MapAt h a ts G) (hk : MemRep h k kc E) (hv : MemRep h v t V)
    (hEV : ∀ x, E x → ¬ V x) (hEG : ∀ x, E x → ¬ G x) (hVG : ∀ x, V x → ¬ G x)
    (ha : F a) (hEa : ¬ E a) (hVa : ¬ V a) (hE : ∀ x, E x → F x) (hV : ∀ x, V x → F x)
    (hG : ∀ x, G x → F x) :
    Sim h F (mapAssign a k v >>= fun _ => pure (MVal.map (some a)))
      (kc.toKey >>= fun c => .ok (Val.map (some (mapInsert ts c t))))
      (fun h' x y => MemRep h' x y F) := by
  obtain ⟨⟨es, h1, h2⟩, h3⟩ := hm
  have hkc := rep_key hk
  cases hc : kc.toKey with
  | error e =>
    rw [hc] at hkc
    have he := toKey_err hc
    subst he
    have : mapAssign a k v h = (.error .ub, h) := by unfold mapAssign; rw [h1, hkc]
    exact sim_err (bind_err this) rfl (step_refl _ _)
  | ok c =>
    rw [hc] at hkc
    have : mapAssign a k v h = (.ok (), h.set a (.table (tableInsert h k v es))) := by
      unfold mapAssign; rw [h1, hkc]
    refine sim_left (h' := h.set a (.table (tableInsert h k v es))) F this (step_set _ _ _ ha)
      (fun x hx => .inl hx) (sim_pure ?_)
    have hkv := toKey_ok hc
    subst hkv
    have ht := repTable_insert hk hv hEV h2 hEG hVG (K := fun x => E x ∨ V x ∨ G x)
      (fun x hx => .inl hx) (fun x hx => .inr (.inl hx)) (fun x hx => .inr (.inr hx))
    have hna : ∀ x, (E x ∨ V x ∨ G x) → x ≠ a := by
      rintro x hx rfl
      rcases hx with hx | hx | hx
      · exact hEa hx
      · exact hVa hx
      · exact h3 hx
    refine .map a _ _ _ _ (set_mem _ _ _)
      (repTable_frame ht (fun x hx => set_mem_ne _ _ _ (hna x hx))) (fun hx => hna a hx rfl) ha ?_
    rintro x (hx | hx | hx)
    · exact hE x hx
    · exact hV x hx
    · exact hG x hx

end Verif.Lemmas.Mem
