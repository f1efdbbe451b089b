import Verif.Spec.Memory
/-!
# Lemmas about messages in memory
-/
namespace Verif.Lemmas.Mem
open Verif.Model Verif.Model.Mem Verif.Spec

/-- `SpareZero` in terms of the descriptors: the spare capacity of the lists of inline structs in `v`, a value of type `t`, is zero (in the
slots of the message itself, including inline structs; memory behind pointers does not matter). -/
inductive Clean (h : Store) (D : Descs) : GoType → MVal → Prop
  | list (te : GoType) (v : MVal) :
      (∀ a len xs id, v = .slice (some a) len → te = .struct id → h.mem a = .array xs →
        ∀ x ∈ xs.drop len, x = ofFlat (D id).empty) → Clean h D (.slice te) v
  | struct (id : Nat) (v : MVal) :
      (∀ fs, v = .struct fs → ∀ f ∈ (D id).fields, f.oneof = none → ∀ x, fs[f.slot]? = some x →
        Clean h D f.t x) → Clean h D (.struct id) v
  | other (t : GoType) (v : MVal) :
      (∀ te, t ≠ .slice te) → (∀ id, t ≠ .struct id) → Clean h D t v

theorem repList_mono {h : Store} {vs : List MVal} {ts : List Val} {K K' : Blocks}
    (hr : MemRepList h vs ts K) (hk : ∀ x, K x → K' x) : MemRepList h vs ts K' := by
  cases hr with
  | nil => exact .nil _
  | cons v t vs ts F G _ h1 h2 h3 h4 h5 =>
    exact .cons v t vs ts F G _ h1 h2 h3 (fun x hx => hk x (h4 x hx)) (fun x hx => hk x (h5 x hx))

theorem rep_mono {h : Store} {v : MVal} {t : Val} {K K' : Blocks}
    (hr : MemRep h v t K) (hk : ∀ x, K x → K' x) : MemRep h v t K' := by
  cases hr with
  | w32 v => exact .w32 v _
  | w64 v => exact .w64 v _
  | bool b => exact .bool b _
  | «opaque» n => exact .opaque n _
  | undef => exact .undef _
  | strNil => exact .strNil _
  | str v s _ h1 h2 => exact .str v s _ h1 (hk _ h2)
  | bytesNil => exact .bytesNil _
  | bytes v s _ h1 h2 => exact .bytes v s _ h1 (hk _ h2)
  | ptrNil => exact .ptrNil _
  | ptr a v t F _ h1 h2 h3 h4 h5 =>
    exact .ptr a v t F _ h1 h2 h3 (hk _ h4) (fun x hx => hk x (h5 x hx))
  | sliceNil => exact .sliceNil _
  | slice a len xs ts F _ h1 h2 h3 h4 h5 h6 =>
    exact .slice a len xs ts F _ h1 h2 h3 h4 (hk _ h5) (fun x hx => hk x (h6 x hx))
  | mapNil => exact .mapNil _
  | map a es ts F _ h1 h2 h3 h4 h5 =>
    exact .map a es ts F _ h1 h2 h3 (hk _ h4) (fun x hx => hk x (h5 x hx))
  | struct fs ts _ h1 => exact .struct fs ts _ (repList_mono h1 hk)
  | ifaceNil => exact .ifaceNil _
  | ifaceNilPtr w => exact .ifaceNilPtr w _
  | iface w a v t F _ h1 h2 h3 h4 h5 =>
    exact .iface w a v t F _ h1 h2 h3 (hk _ h4) (fun x hx => hk x (h5 x hx))

theorem repTable_mono {h : Store} {es : List (MVal × MVal)} {ts : List (Key × Val)} {K K' : Blocks}
    (hr : MemRepTable h es ts K) (hk : ∀ x, K x → K' x) : MemRepTable h es ts K' := by
  cases hr with
  | nil => exact .nil _
  | cons k c v t es ts E F G _ h1 h2 h3 h4 h5 h6 h7 h8 h9 =>
    exact .cons k c v t es ts E F G _ h1 h2 h3 h4 h5 h6 (fun x hx => hk x (h7 x hx))
      (fun x hx => hk x (h8 x hx)) (fun x hx => hk x (h9 x hx))

theorem read_congr {h h' : Store} {v : View} (hm : h'.mem v.addr = h.mem v.addr) :
    h'.read v = h.read v := by
  unfold Store.read; rw [hm]

mutual
theorem rep_frame {h h' : Store} : ∀ {v : MVal} {t : Val} {K : Blocks},
    MemRep h v t K → (∀ x, K x → h'.mem x = h.mem x) → MemRep h' v t K
  | _, _, _, .w32 v _, _ => .w32 v _
  | _, _, _, .w64 v _, _ => .w64 v _
  | _, _, _, .bool b _, _ => .bool b _
  | _, _, _, .opaque n _, _ => .opaque n _
  | _, _, _, .undef _, _ => .undef _
  | _, _, _, .strNil _, _ => .strNil _
  | _, _, _, .str v s _ h1 h2, hk => .str v s _ ((read_congr (hk _ h2)).trans h1) h2
  | _, _, _, .bytesNil _, _ => .bytesNil _
  | _, _, _, .bytes v s _ h1 h2, hk => .bytes v s _ ((read_congr (hk _ h2)).trans h1) h2
  | _, _, _, .ptrNil _, _ => .ptrNil _
  | _, _, _, .ptr a v t F _ h1 h2 h3 h4 h5, hk =>
    .ptr a v t F _ ((hk _ h4).trans h1) (rep_frame h2 (fun x hx => hk x (h5 x hx))) h3 h4 h5
  | _, _, _, .sliceNil _, _ => .sliceNil _
  | _, _, _, .slice a len xs ts F _ h1 h2 h3 h4 h5 h6, hk =>
    .slice a len xs ts F _ ((hk _ h5).trans h1) h2
      (repList_frame h3 (fun x hx => hk x (h6 x hx))) h4 h5 h6
  | _, _, _, .mapNil _, _ => .mapNil _
  | _, _, _, .map a es ts F _ h1 h2 h3 h4 h5, hk =>
    .map a es ts F _ ((hk _ h4).trans h1)
      (repTable_frame h2 (fun x hx => hk x (h5 x hx))) h3 h4 h5
  | _, _, _, .struct fs ts _ h1, hk => .struct fs ts _ (repList_frame h1 hk)
  | _, _, _, .ifaceNil _, _ => .ifaceNil _
  | _, _, _, .ifaceNilPtr w _, _ => .ifaceNilPtr w _
  | _, _, _, .iface w a v t F _ h1 h2 h3 h4 h5, hk =>
    .iface w a v t F _ ((hk _ h4).trans h1) (rep_frame h2 (fun x hx => hk x (h5 x hx)))
      h3 h4 h5
theorem repList_frame {h h' : Store} : ∀ {vs : List MVal} {ts : List Val} {K : Blocks},
    MemRepList h vs ts K → (∀ x, K x → h'.mem x = h.mem x) → MemRepList h' vs ts K
  | _, _, _, .nil _, _ => .nil _
  | _, _, _, .cons v t vs ts F G _ h1 h2 h3 h4 h5, hk =>
    .cons v t vs ts F G _ (rep_frame h1 (fun x hx => hk x (h4 x hx)))
      (repList_frame h2 (fun x hx => hk x (h5 x hx))) h3 h4 h5
theorem repTable_frame {h h' : Store} : ∀ {es : List (MVal × MVal)} {ts : List (Key × Val)}
    {K : Blocks}, MemRepTable h es ts K → (∀ x, K x → h'.mem x = h.mem x) → MemRepTable h' es ts K
  | _, _, _, .nil _, _ => .nil _
  | _, _, _, .cons k c v t es ts E F G _ h1 h2 h3 h4 h5 h6 h7 h8 h9, hk =>
    .cons k c v t es ts E F G _ (rep_frame h1 (fun x hx => hk x (h7 x hx)))
      (rep_frame h2 (fun x hx => hk x (h8 x hx)))
      (repTable_frame h3 (fun x hx => hk x (h9 x hx))) h4 h5 h6 h7 h8 h9
end

/-! ## One element of a list -/

theorem repList_length {h : Store} {vs : List MVal} : ∀ {ts : List Val} {K : Blocks},
    MemRepList h vs ts K → vs.length = ts.length := by
  induction vs with
  | nil => intro ts K hr; cases hr; rfl
  | cons v vs ih =>
    intro ts K hr
    cases hr with
    | cons _ t _ ts F G _ h1 h2 h3 h4 h5 => simp [ih h2]

/-- The element at `i`, the memory it uses (`F`) and the memory of the others (`G`). -/
theorem repList_slot {h : Store} {vs : List MVal} : ∀ {ts : List Val} {K : Blocks} {i : Nat}
    {v : MVal}, MemRepList h vs ts K → vs[i]? = some v →
    ∃ (t : Val) (F G : Blocks), ts[i]? = some t ∧ MemRep h v t F ∧ (∀ x, F x → ¬ G x) ∧ (∀ x, F x → K x) ∧
      (∀ x, G x → K x) ∧
      (∀ (h' : Store) (v' : MVal) (t' : Val) (F' : Blocks), (∀ x, G x → h'.mem x = h.mem x) → MemRep h' v' t' F' → (∀ x, F' x → ¬ G x) →
        MemRepList h' (vs.set i v') (ts.set i t') (fun x => F' x ∨ G x)) ∧
      ∀ (j : Nat) (w : MVal), j ≠ i → vs[j]? = some w → ∃ u E, MemRep h w u E ∧ ∀ x, E x → G x := by
  induction vs with
  | nil => intro ts K i v _ hv; simp at hv
  | cons w vs ih =>
    intro ts K i v hr hv
    cases hr with
    | cons _ t _ ts F G _ h1 h2 h3 h4 h5 =>
      cases i with
      | zero =>
        simp at hv; subst hv
        refine ⟨t, F, G, rfl, h1, h3, h4, h5, ?_, ?_⟩
        · intro h' v' t' F' hg hv' hd
          exact .cons v' t' vs ts F' G _ hv' (repList_frame h2 hg) hd (fun x hx => .inl hx)
            (fun x hx => .inr hx)
        · intro j w hj hw
          cases j with
          | zero => exact absurd rfl hj
          | succ j =>
            obtain ⟨u, E, G1, _, g2, _, g4, _⟩ := ih (i := j) h2 (by simpa using hw)
            exact ⟨u, E, g2, g4⟩
      | succ i =>
        obtain ⟨u, F1, G1, g1, g2, g3, g4, g5, g6, g7⟩ := ih h2 (by simpa using hv)
        refine ⟨u, F1, (fun x => F x ∨ G1 x), by simpa using g1, g2, ?_, fun x hx => h5 x (g4 x hx),
          ?_, ?_, ?_⟩
        · intro x hx hx'
          rcases hx' with hx' | hx'
          · exact h3 x hx' (g4 x hx)
          · exact g3 x hx hx'
        · intro x hx
          rcases hx with hx | hx
          · exact h4 x hx
          · exact h5 x (g5 x hx)
        · intro h' v' t' F' hg hv' hd
          refine .cons w t (vs.set i v') (ts.set i t') F (fun x => F' x ∨ G1 x) _
            (rep_frame h1 (fun x hx => hg x (.inl hx)))
            (g6 h' v' t' F' (fun x hx => hg x (.inr hx)) hv' (fun x hx hx' => hd x hx (.inr hx')))
            ?_ (fun x hx => .inr (.inl hx)) ?_
          · intro x hx hx'
            rcases hx' with hx' | hx'
            · exact hd x hx' (.inl hx)
            · exact h3 x hx (g5 x hx')
          · intro x hx
            rcases hx with hx | hx
            · exact .inl hx
            · exact .inr (.inr hx)
        · intro j y hj hy
          cases j with
          | zero =>
            simp at hy; subst hy
            exact ⟨t, F, h1, fun x hx => .inl hx⟩
          | succ j =>
            obtain ⟨u', E, e1, e2⟩ := g7 j y (by omega) (by simpa using hy)
            exact ⟨u', E, e1, fun x hx => .inr (e2 x hx)⟩

theorem repList_none {h : Store} {vs : List MVal} {ts : List Val} {K : Blocks} {i : Nat}
    (hr : MemRepList h vs ts K) (hv : vs[i]? = none) : ts[i]? = none := by
  rw [List.getElem?_eq_none_iff] at hv ⊢
  rw [← repList_length hr]; exact hv

/-- One more element at the end. -/
theorem repList_append {h : Store} {vs : List MVal} : ∀ {ts : List Val} {F G K : Blocks} {v : MVal}
    {t : Val}, MemRepList h vs ts F → MemRep h v t G → (∀ x, F x → ¬ G x) → (∀ x, F x → K x) →
    (∀ x, G x → K x) → MemRepList h (vs ++ [v]) (ts ++ [t]) K := by
  induction vs with
  | nil =>
    intro ts F G K v t hr hv hd h1 h2
    cases hr
    exact .cons v t [] [] G (fun _ => False) _ hv (.nil _) (fun _ _ h => h) h2 (fun _ h => h.elim)
  | cons w vs ih =>
    intro ts F G K v t hr hv hd h1 h2
    cases hr with
    | cons _ u _ ts F1 G1 _ g1 g2 g3 g4 g5 =>
      refine .cons w u (vs ++ [v]) (ts ++ [t]) F1 (fun x => G1 x ∨ G x) _ g1
        (ih g2 hv (fun x hx => hd x (g5 x hx)) (fun x hx => .inl hx) (fun x hx => .inr hx)) ?_
        (fun x hx => h1 x (g4 x hx)) ?_
      · intro x hx hx'
        rcases hx' with hx' | hx'
        · exact g3 x hx hx'
        · exact hd x (g4 x hx) hx'
      · intro x hx
        rcases hx with hx | hx
        · exact h1 x (g5 x hx)
        · exact h2 x hx

/-! ## Values without references -/

mutual
theorem rep_flat (h : Store) (K : Blocks) : ∀ (v : Val), flat v = true → MemRep h (ofFlat v) v K
  | .w32 v, _ => .w32 v _
  | .w64 v, _ => .w64 v _
  | .bool b, _ => .bool b _
  | .opaque n, _ => .opaque n _
  | .undef, _ => .undef _
  | .str s, hf => by
    simp [flat] at hf; subst hf; exact .strNil _
  | .bytes s, hf => by
    simp [flat] at hf; subst hf; exact .bytesNil _
  | .ptr p, hf => by
    simp [flat] at hf; subst hf; exact .ptrNil _
  | .slice xs, hf => by
    simp [flat] at hf; subst hf; exact .sliceNil _
  | .map m, hf => by
    simp [flat] at hf; subst hf; exact .mapNil _
  | .iface x, hf => by
    simp [flat] at hf; subst hf; exact .ifaceNil _
  | .struct fs, hf => .struct _ _ _ (repList_flat h K fs (by simpa [flat] using hf))
theorem repList_flat (h : Store) (K : Blocks) : ∀ (vs : List Val), flats vs = true →
    MemRepList h (ofFlats vs) vs K
  | [], _ => .nil _
  | v :: vs, hf => by
    rw [flats, Bool.and_eq_true] at hf
    exact .cons _ _ _ _ (fun _ => False) (fun _ => False) _ (rep_flat h _ v hf.1)
      (repList_flat h _ vs hf.2) (fun _ h => h.elim) (fun _ h => h.elim) (fun _ h => h.elim)
end

mutual
theorem clean_flat (h : Store) (D : Descs) : ∀ (v : Val), flat v = true → ∀ t,
    Clean h D t (ofFlat v)
  | .struct fs, hf, t => by
    cases t with
    | slice te => exact .list _ _ (fun a len xs id he => by simp [ofFlat] at he)
    | struct id =>
      refine .struct _ _ (fun fs' he f _ _ x hx => ?_)
      simp [ofFlat] at he; subst he
      exact clean_flats h D fs (by simpa [flat] using hf) f.slot x hx f.t
    | _ => exact .other _ _ (by intro te he; cases he) (by intro te he; cases he)
  | .slice xs, hf, t => by
    cases t with
    | slice te => exact .list _ _ (fun a len xs id he => by simp [ofFlat] at he)
    | struct id => exact .struct _ _ (fun fs' he => by simp [ofFlat] at he)
    | _ => exact .other _ _ (by intro te he; cases he) (by intro te he; cases he)
  | .w32 _, _, t | .w64 _, _, t | .bool _, _, t | .opaque _, _, t | .undef, _, t | .str _, _, t
  | .bytes _, _, t | .ptr _, _, t | .map _, _, t | .iface _, _, t => by
    cases t with
    | slice te => exact .list _ _ (fun a len xs id he => by simp [ofFlat] at he)
    | struct id => exact .struct _ _ (fun fs' he => by simp [ofFlat] at he)
    | _ => exact .other _ _ (by intro te he; cases he) (by intro te he; cases he)
theorem clean_flats (h : Store) (D : Descs) : ∀ (vs : List Val), flats vs = true →
    ∀ (i : Nat) (x : MVal), (ofFlats vs)[i]? = some x → ∀ t, Clean h D t x
  | [], _, i, x, hx, t => by simp [ofFlats] at hx
  | v :: vs, hf, i, x, hx, t => by
    rw [flats, Bool.and_eq_true] at hf
    cases i with
    | zero => simp [ofFlats] at hx; subst hx; exact clean_flat h D v hf.1 t
    | succ i => exact clean_flats h D vs hf.2 i x (by simpa [ofFlats] using hx) t
end

/-- `Clean` depends only on the memory of the value. -/
theorem clean_frame {h h' : Store} {D : Descs} {t : GoType} {v : MVal} (hc : Clean h D t v) :
    ∀ {u : Val} {K : Blocks}, MemRep h v u K → (∀ x, K x → h'.mem x = h.mem x) → Clean h' D t v := by
  induction hc with
  | list te v hl =>
    intro u K hr hk
    refine .list _ _ (fun a len xs id hv hte hx => ?_)
    subst hv
    cases hr with
    | slice _ _ ys ts F _ h1 h2 h3 h4 h5 h6 =>
      rw [hk a h5] at hx
      exact hl a len xs id rfl hte hx
  | struct id v hs ih =>
    intro u K hr hk
    refine .struct _ _ (fun fs hv f hf ho x hx => ?_)
    subst hv
    cases hr with
    | struct _ ts _ h1 =>
      obtain ⟨t, F, G, g1, g2, g3, g4, _⟩ := repList_slot h1 hx
      exact ih fs rfl f hf ho x hx g2 (fun y hy => hk y (g4 y hy))
  | other t v h1 h2 => intro u K _ _; exact .other _ _ h1 h2

end Verif.Lemmas.Mem
