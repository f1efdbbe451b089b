import Verif.Lemmas.Mem.Dec
/-!
# The decoder on memory does what the decoder on trees does: fields
-/
namespace Verif.Lemmas.Mem
open Verif.Model Verif.Model.Mem Verif.Spec

theorem sim_lenAt {D : Descs} (hD : Regular D) {recM : DecRecM} {rec : DecRec}
    (hrec : RecSim D recM rec) {h : Store} {F : Blocks} {b : View} {bs : Bytes} {v : MVal} {u : Val}
    (f : FieldDesc) (t : GoType) (depth : Int) (hi : Input h b bs F) (hb : Below F h)
    (hr : MemRep h v u F) (hc : Clean h D t v) :
    Sim h F (decodeLenAtM D recM f t b v depth) (decodeLenAt D rec f t bs u depth)
      (WPost D t h F) := by
  unfold decodeLenAtM decodeLenAt
  split
  · exact sim_mono (sim_copyBytes hi) (fun _ hx => hx) (fun _ _ _ _ hp =>
      ⟨hp, clean_other (fun _ hh => GoType.noConfusion hh) (fun _ hh => GoType.noConfusion hh)⟩)
  · have he : (.ok (Val.str bs) : Res Val) = ((.ok bs : Res Bytes) >>= fun s => .ok (.str s)) := rfl
    rw [he]
    refine sim_bind (f := fun s => pure (MVal.str s)) (sim_copyString hi) ?_
    intro h' a c hs hp
    exact ⟨grow F h h', fun _ hx => hx, sim_pure ⟨hp,
      clean_other (fun _ hh => GoType.noConfusion hh) (fun _ hh => GoType.noConfusion hh)⟩⟩
  · rename_i kt vt
    dsimp only
    cases f.decodeMap with
    | some kv =>
      exact sim_mono (sim_mapFast kv.1 kv.2 kt vt hi hb hr) (fun _ hx => hx) (fun _ _ _ _ hp =>
        ⟨hp, clean_other (fun _ hh => GoType.noConfusion hh) (fun _ hh => GoType.noConfusion hh)⟩)
    | none =>
      dsimp only
      split
      · rename_i hft
        rw [hft]
        exact sim_mono (sim_mapPair hD hrec f kt vt (depth - 1) hi hb hr) (fun _ hx => hx)
          (fun _ _ _ _ hp => ⟨hp, clean_other (fun _ hh => GoType.noConfusion hh)
            (fun _ hh => GoType.noConfusion hh)⟩)
      · split <;> first | exact sim_fail | simp_all
  · exact hrec h F (depth - 1) b bs v u _ hi hb hr hc
  · split <;> first | exact sim_fail | simp_all

theorem sim_valueAt {D : Descs} (hD : Regular D) {recM : DecRecM} {rec : DecRec}
    (hrec : RecSim D recM rec) {h : Store} {F : Blocks} {b : View} {bs : Bytes} {v : MVal} {u : Val}
    (f : FieldDesc) (t : GoType) (typ : WType) (depth : Int) (hi : Input h b bs F) (hb : Below F h)
    (hr : MemRep h v u F) (hc : Clean h D t v) :
    Sim h F (decodeValueAtM D recM f t typ b v depth) (decodeValueAt D rec f t typ bs u depth)
      (VPost D t h F) := by
  unfold decodeValueAtM decodeValueAt
  split
  · exact sim_scalar (fun t' b => decodeVarintAt f.tagType t.kind b t') (varint_scalar _ _) hi hr hc
  · exact sim_scalar (fun t' b => decodeFixed32At f.tagType t.kind b t') (fixed32_scalar _ _) hi hr hc
  · exact sim_scalar (fun t' b => decodeFixed64At f.tagType t.kind b t') (fixed64_scalar _ _) hi hr hc
  · refine sim_read (sim_consumeBytes hi) ?_
    rintro ⟨fb, n⟩ ⟨gb, m⟩ ⟨hnm, hin⟩
    refine sim_bind (sim_lenAt hD hrec f t depth hin hb hr hc) ?_
    intro h' a c hs hp
    exact ⟨grow F h h', fun _ hx => hx, sim_pure ⟨hnm, hp.1, hp.2⟩⟩
  · split <;> first | exact sim_fail | exact (absurd rfl (by assumption))

theorem sim_elem {D : Descs} (hD : Regular D) {recM : DecRecM} {rec : DecRec}
    (hrec : RecSim D recM rec) {h : Store} {b : View} {bs : Bytes}
    (f : FieldDesc) (te : GoType) (typ : WType) (depth : Int) (hi : Input h b bs none') :
    Sim h none' (decodeElemM D recM f te typ b (cell D te) depth) (decodeElem D rec f te typ bs depth)
      (fun h' a c => a.2 = c.2 ∧ MemRep h' a.1 c.1 (grow none' h h')) := by
  have hf : ∀ t, flat (alloc D t) = true := flat_alloc hD
  unfold decodeElemM decodeElem
  split
  · rename_i t
    refine sim_bind (sim_newTarget (sim_mono (sim_valueAt hD hrec f t typ depth (input_pushed hi _)
      (below_none _) (rep_flat _ _ _ (hf t)) (clean_flat _ _ _ (hf t) t)) (fun _ hx => hx)
      (fun _ _ _ _ hp => ⟨hp.1, hp.2.1⟩))) ?_
    rintro h' ⟨o, n⟩ ⟨u, m⟩ hs ⟨hnm, v, G, g1, g2, g3, g4, g5⟩
    exact ⟨grow none' h h', fun _ hx => hx, sim_pure ⟨hnm, .ptr o v u G _ g1 g2 g3 g4 g5⟩⟩
  · split
    · simp_all
    · exact sim_mono (sim_valueAt hD hrec f te typ depth hi (below_none _)
        (rep_flat _ _ _ (hf te)) (clean_flat _ _ _ (hf te) te)) (fun _ hx => hx)
        (fun _ _ _ _ hp => ⟨hp.1, hp.2.1⟩)

/-! ## Lists -/

/-- A list with room for one more element: array, elements, memory of the elements. -/
structure Room (h : Store) (D : Descs) (te : GoType) (a len : Nat) (ts : List Val) (G : Blocks) :
    Prop where
  array : ∃ xs, h.mem a = .array xs ∧ len < xs.length ∧ MemRepList h (xs.take len) ts G ∧
    ∀ id, te = .struct id → ∀ x ∈ xs.drop len, x = ofFlat (D id).empty
  out : ¬ G a

theorem cell_struct (D : Descs) (id : Nat) : cell D (.struct id) = ofFlat (D id).empty := rfl

theorem sim_grow {D : Descs} {h : Store} {F : Blocks} {te : GoType} {o : Option Nat} {len : Nat}
    {ts : List Val} {α β : Type} {k : Nat → M α} {r : Res β} {Q : Store → α → β → Prop}
    (hb : Below F h) (hr : MemRep h (.slice o len) (.slice ts) F)
    (hc : Clean h D (.slice te) (.slice o len))
    (hk : ∀ h' a G, Step h h' none' → Room h' D te a len ts G → grow F h h' a →
      (∀ x, G x → F x) → Sim h' (grow F h h') (k a) r Q) :
    Sim h F (growM D te o len >>= k) r Q := by
  have fresh : ∀ (xs : List MVal) (G : Blocks), (∀ x, G x → F x ∧ x < h.next) → len ≤ xs.length →
      MemRepList h (xs.take len) ts G →
      (∀ id, te = .struct id → ∀ x ∈ xs.drop len, x = ofFlat (D id).empty) →
      ∀ m, 0 < m → growM D te o len h = new (.array (xs ++ List.replicate m (cell D te))) h →
      Sim h F (growM D te o len >>= k) r Q := by
    intro xs G hG hl hx hcl m hm he
    rw [new_eq] at he
    refine sim_left (grow F h (pushed h _)) he (step_pushed _ _ _) (fun _ hx => hx) ?_
    refine hk _ _ G (step_pushed _ _ _) ⟨⟨_, pushed_mem _ _, ?_, ?_, ?_⟩, ?_⟩
      (.inr ⟨Nat.le_refl _, pushed_next _ _⟩) (fun x hx => (hG x hx).1)
    · simp; omega
    · rw [List.take_append_of_le_length hl]
      exact repList_frame hx (fun x hx => (step_pushed h _ none').frame x (hG x hx).2 id)
    · intro id ht x hx'
      rw [List.drop_append_of_le_length hl, List.mem_append] at hx'
      rcases hx' with hx' | hx'
      · exact hcl id ht x hx'
      · rw [List.eq_of_mem_replicate hx', ht, cell_struct]
    · intro hx'
      have := (hG _ hx').2
      omega
  cases hr with
  | sliceNil =>
    exact fresh [] none' (fun _ hx => hx.elim) (Nat.le_refl _) (.nil _) (fun _ _ x hx => by cases hx)
      8 (by omega) rfl
  | slice a _ xs _ G _ h1 h2 h3 h4 h5 h6 =>
    have hcl : ∀ id, te = .struct id → ∀ x ∈ xs.drop len, x = ofFlat (D id).empty := by
      intro id ht
      cases hc with
      | list _ _ hl => exact hl a len xs id rfl ht h1
      | other _ _ g1 _ => exact absurd rfl (g1 te)
    by_cases he : xs.length = 0
    · have hx : xs = [] := by simpa using he
      subst hx
      refine fresh [] G (fun x hx => ⟨h6 x hx, hb x (h6 x hx)⟩) h2 h3 hcl 8 (by omega) ?_
      unfold growM; simp only [h1]; rfl
    · by_cases hl : len = xs.length
      · refine fresh xs G (fun x hx => ⟨h6 x hx, hb x (h6 x hx)⟩) h2 h3 hcl xs.length (by omega) ?_
        unfold growM; simp only [h1]; rw [if_neg he, if_pos hl]
      · have hg : growM D te (some a) len h = (.ok a, h) := by
          unfold growM; simp only [h1]; rw [if_neg he, if_neg hl]
        refine sim_left (grow F h h) hg (step_refl _ _) (fun _ hx => hx) ?_
        exact hk h a G (step_refl _ _) ⟨⟨xs, h1, by omega, h3, hcl⟩, h4⟩ (.inl h5) h6

theorem spare_room {D : Descs} {h : Store} {te : GoType} {a len : Nat} {ts : List Val} {G : Blocks}
    (hr : Room h D te a len ts G) : spareM D te a len h = (.ok (cell D te), h) := by
  obtain ⟨⟨xs, h1, h2, h3, h4⟩, h5⟩ := hr
  have hx : xs[len]? = some xs[len] := List.getElem?_eq_getElem h2
  unfold spareM
  simp only [h1, hx]
  cases te with
  | struct id =>
    have : xs[len] ∈ xs.drop len := by
      rw [List.mem_drop_iff_getElem]
      exact ⟨0, by omega, by simp⟩
    rw [cell_struct, ← h4 id rfl _ this]
  | _ => rfl

theorem ofFlats_map (xs : List Val) : ofFlats xs = xs.map ofFlat := by
  induction xs with
  | nil => rfl
  | cons x xs ih => simp [ofFlats, ih]

theorem flats_iff (xs : List Val) : flats xs = true ↔ ∀ x ∈ xs, flat x = true := by
  induction xs with
  | nil => simp [flats]
  | cons x xs ih => simp [flats, ih]

theorem packed_flat {c : Coder} {te : GoType} {b : Bytes} {v : Val}
    (h : decodePackedCoder c te b = .ok v) : ∃ xs, v = .slice xs ∧ flats xs = true := by
  have fin : ∀ (r : Option (List Val)), (∀ xs, r = some xs → flats xs = true) →
      (match r with
        | none => (.error .eof : Res Val)
        | some xs => if xs.all te.holds then .ok (.slice xs) else .error .ub) = .ok v →
      ∃ xs, v = .slice xs ∧ flats xs = true := by
    intro r hf hr
    cases r with
    | none => cases hr
    | some xs =>
      simp only at hr
      split at hr
      · injection hr with hr
        exact ⟨xs, hr.symm, hf xs rfl⟩
      · cases hr
  have m : ∀ {α : Type} (o : Option (List α)) (g : α → Val), (∀ a, flat (g a) = true) →
      ∀ xs, o.map (·.map g) = some xs → flats xs = true := by
    intro α o g hg xs he
    cases o with
    | none => cases he
    | some l =>
      injection he with he
      subst he
      rw [flats_iff]
      intro x hx
      obtain ⟨y, -, rfl⟩ := List.mem_map.1 hx
      exact hg y
  unfold decodePackedCoder at h
  cases c <;> simp only at h
  case varintU32 => exact fin _ (m _ _ (fun _ => rfl)) h
  case varintI32 => exact fin _ (m _ _ (fun _ => rfl)) h
  case varint64 => exact fin _ (m _ _ (fun _ => rfl)) h
  case zigzag32 => exact fin _ (m _ _ (fun _ => rfl)) h
  case zigzag64 => exact fin _ (m _ _ (fun _ => rfl)) h
  case fixed32 => exact fin _ (m _ _ (fun _ => rfl)) h
  case fixed64 => exact fin _ (m _ _ (fun _ => rfl)) h
  case bool => exact fin _ (m (decodePackedBool b) Val.bool (fun _ => rfl)) h
  all_goals cases h

theorem sim_packed {D : Descs} {h : Store} {F G : Blocks} {b : View} {bs : Bytes} (c : Coder)
    (te : GoType) (hi : Input h b bs G) :
    Sim h F (decodePackedM c te b) (decodePackedCoder c te bs) (WPost D (.slice te) h F) := by
  unfold decodePackedM
  have he := parse_eq (decodePackedCoder c te) hi
  cases hp : decodePackedCoder c te bs with
  | error e => rw [hp] at he; exact sim_err (bind_err he) rfl (step_refl _ _)
  | ok v =>
    obtain ⟨xs, rfl, hf⟩ := packed_flat hp
    rw [hp] at he
    refine sim_left F he (step_refl _ _) (fun _ hx => .inl hx) ?_
    refine sim_left (grow F h (pushed h _)) (new_eq _ _) (step_pushed _ _ _) (fun _ hx => hx)
      (sim_pure ⟨?_, ?_⟩)
    · refine .slice _ _ _ xs none' _ (pushed_mem _ _) (by simp) ?_ id
        (.inr ⟨Nat.le_refl _, pushed_next _ _⟩) (fun _ hx => hx.elim)
      have : (xs.map ofFlat).take xs.length = ofFlats xs := by
        rw [ofFlats_map]; exact List.take_of_length_le (by simp)
      rw [this]
      exact repList_flat _ _ xs hf
    · refine .list _ _ (fun a len ys id hv ht hm x hx => ?_)
      injection hv with e1 e2
      injection e1 with e1
      subst e1 e2
      rw [pushed_mem] at hm
      injection hm with hm
      subst hm
      rw [List.drop_of_length_le (by simp)] at hx
      cases hx

theorem sim_rep {D : Descs} (hD : Regular D) {recM : DecRecM} {rec : DecRec}
    (hrec : RecSim D recM rec) {h : Store} {F : Blocks} {b : View} {bs : Bytes} {v : MVal} {u : Val}
    (f : FieldDesc) (t : GoType) (typ : WType) (depth : Int) (hi : Input h b bs F) (hb : Below F h)
    (hr : MemRep h v u F) (hc : Clean h D t v) :
    Sim h F (decodeRepM D recM f t typ b v depth) (decodeRep D rec f t typ bs u depth)
      (VPost D t h F) := by
  unfold decodeRepM decodeRep
  split
  · rename_i te hrp
    rw [hrp]
    dsimp only
    by_cases hp : typ = tBytes ∧ f.packed = true
    · rw [if_pos hp, if_pos hp]
      cases f.decodePacked with
      | none => exact sim_fail
      | some c =>
        refine sim_read (sim_consumeBytes hi) ?_
        rintro ⟨fb, n⟩ ⟨gb, m⟩ ⟨hnm, hin⟩
        refine sim_bind (sim_packed (D := D) c te hin) ?_
        intro h' a c hs hp
        exact ⟨grow F h h', fun _ hx => hx, sim_pure ⟨hnm, hp.1, hp.2⟩⟩
    · rw [if_neg hp, if_neg hp]
      have slice : ∀ o len ts, v = .slice o len → u = .slice ts →
          Sim h F (growM D te o len >>= fun a => spareM D te a len >>= fun x =>
            decodeElemM D recM f te typ b x depth >>= fun r => putElem a len r.1 >>= fun _ =>
              pure (MVal.slice (some a) (len + 1), r.2))
            (decodeElem D rec f te typ bs depth >>= fun r => .ok (.slice (ts ++ [r.1]), r.2))
            (VPost D (.slice te) h F) := by
        intro o len ts hv hu
        subst hv hu
        refine sim_grow hb hr hc ?_
        intro h1 a G s1 hroom ha hG
        have n1 := s1.next
        refine sim_left (grow F h h1) (spare_room hroom) (step_refl _ _) (fun _ hx => .inl hx) ?_
        have i1 : Input h1 b bs none' := input_none (input_step (input_none hi) s1)
        refine sim_bind (sim_mono (sim_elem hD hrec f te typ depth i1) (fun _ hx => hx.elim)
          (fun h' a b hs hp => And.intro hs hp)) ?_
        rintro h2 ⟨w, n⟩ ⟨t', m⟩ _ ⟨s2, hnm, hw⟩
        have n2 := s2.next
        obtain ⟨⟨xs, g1, g2, g3, g4⟩, g5⟩ := hroom
        have ha1 : a < h1.next := below_grow hb n1 a ha
        have hm : h2.mem a = .array xs := by rw [s2.frame a ha1 id]; exact g1
        have ha2 : grow F h h2 a := by
          rcases ha with ha | ha
          · exact .inl ha
          · exact .inr ⟨ha.1, by omega⟩
        refine ⟨grow F h h2, ?_, ?_⟩
        · intro x hx
          rcases hx with hx | hx
          · exact .inl (.inl hx)
          · by_cases hx' : x < h1.next
            · exact .inl (.inr ⟨hx.1, hx'⟩)
            · exact .inr ⟨by omega, hx.2⟩
        have hput : putElem a len w h2 = (.ok (), h2.set a (.array (xs.set len w))) := by
          unfold putElem; rw [hm]
        refine sim_left (grow F h h2) hput (step_set _ _ _ ha2) (fun _ hx => .inl hx) (sim_pure ?_)
        have hGa : ∀ x, G x → x < h1.next := fun x hx => by have := hb x (hG x hx); omega
        have hls : MemRepList h2 (xs.take len ++ [w]) (ts ++ [t'])
            (fun x => G x ∨ grow none' h1 h2 x) := by
          refine repList_append (repList_frame g3 (fun x hx => s2.frame x (hGa x hx) id)) hw ?_
            (fun x hx => .inl hx) (fun x hx => .inr hx)
          intro x hx hx'
          have := grow_none hx'; have := hGa x hx; omega
        have htk : (xs.set len w).take (len + 1) = xs.take len ++ [w] := by
          have hlt : len < (xs.set len w).length := by simpa using g2
          rw [List.take_succ_eq_append_getElem hlt, List.getElem_set_self, List.take_set_of_le]
          exact Nat.le_refl _
        refine ⟨hnm, ?_, ?_⟩
        · refine .slice a (len + 1) (xs.set len w) _ (fun x => G x ∨ grow none' h1 h2 x) _
            (set_mem _ _ _) (by simp; omega) ?_ ?_ ?_ ?_
          · rw [htk]
            refine repList_frame hls (fun x hx => set_mem_ne _ _ _ ?_)
            rintro rfl
            rcases hx with hx | hx
            · exact g5 hx
            · have := grow_none hx; omega
          · rintro (hx | hx)
            · exact g5 hx
            · have := grow_none hx; omega
          · rcases ha2 with hx | hx
            · exact .inl hx
            · exact .inr hx
          · rintro x (hx | hx)
            · exact .inl (hG x hx)
            · have := grow_none hx
              exact .inr ⟨by omega, this.2⟩
        · refine .list _ _ (fun a' len' ys id hv ht hm' x hx => ?_)
          injection hv with e1 e2
          injection e1 with e1
          subst e1 e2
          rw [set_mem] at hm'
          injection hm' with hm'
          subst hm'
          rw [List.drop_set_of_lt (Nat.lt_succ_self _)] at hx
          refine g4 id ht x ?_
          have hd : xs.drop (len + 1) = (xs.drop len).drop 1 := by rw [List.drop_drop]
          rw [hd] at hx
          exact List.mem_of_mem_drop hx
      cases hr with
      | sliceNil => exact slice none 0 [] rfl rfl
      | slice a len xs ts G _ h1 h2 h3 h4 h5 h6 => exact slice (some a) len ts rfl rfl
      | _ => exact sim_fail
  · rename_i hne
    split
    · rename_i hrp _
      exact (hne _ (by assumption) rfl).elim
    · exact sim_valueAt hD hrec f _ typ depth hi hb hr hc

theorem sim_ptr {D : Descs} (hD : Regular D) {recM : DecRecM} {rec : DecRec}
    (hrec : RecSim D recM rec) {h : Store} {F : Blocks} {b : View} {bs : Bytes} {v : MVal} {u : Val}
    (f : FieldDesc) (typ : WType) (depth : Int) (hi : Input h b bs F) (hb : Below F h)
    (hr : MemRep h v u F) (hc : Clean h D f.t v) :
    Sim h F (decodePtrM D recM f typ b v depth) (decodePtr D rec f typ bs u depth)
      (VPost D f.t h F) := by
  unfold decodePtrM decodePtr
  split
  · rename_i t ht
    rw [ht]
    refine sim_bind (sim_newTarget (F := F) (sim_mono (sim_rep hD hrec f t typ depth
      (input_pushed hi _) (below_none _) (rep_flat _ _ _ (flat_alloc hD t))
      (clean_flat _ _ _ (flat_alloc hD t) t)) (fun _ hx => hx)
      (fun _ _ _ _ hp => ⟨hp.1, hp.2.1⟩))) ?_
    rintro h' ⟨o, n⟩ ⟨u, m⟩ hs ⟨hnm, w, G, g1, g2, g3, g4, g5⟩
    exact ⟨grow F h h', fun _ hx => hx, sim_pure ⟨hnm, .ptr o w u G _ g1 g2 g3 g4 g5,
      clean_other (fun _ hh => GoType.noConfusion hh) (fun _ hh => GoType.noConfusion hh)⟩⟩
  · rename_i hne
    split
    · rename_i t ht
      exact absurd ht (hne t)
    · exact sim_rep hD hrec f f.t typ depth hi hb hr hc

theorem sim_field {D : Descs} (hD : Regular D) {recM : DecRecM} {rec : DecRec}
    (hrec : RecSim D recM rec) {h : Store} {F : Blocks} {b : View} {bs : Bytes} {v : MVal} {u : Val}
    (f : FieldDesc) (typ : WType) (depth : Int) (hi : Input h b bs F) (hb : Below F h)
    (hr : MemRep h v u F) (hc : f.oneof = none → Clean h D f.t v) :
    Sim h F (decodeFieldM D recM f typ b v depth) (decodeField D rec f typ bs u depth)
      (fun h' a c => a.2 = c.2 ∧ MemRep h' a.1 c.1 (grow F h h') ∧
        (f.oneof = none → Clean h' D f.t a.1)) := by
  unfold decodeFieldM decodeField
  cases ho : f.oneof with
  | none =>
    exact sim_mono (sim_ptr hD hrec f typ depth hi hb hr (hc ho)) (fun _ hx => hx)
      (fun _ _ _ _ hp => ⟨hp.1, hp.2.1, fun _ => hp.2.2⟩)
  | some w =>
    have main : Sim h F (newTarget D f.t (fun cur => decodePtrM D recM f typ b cur depth) >>=
        fun r => pure (MVal.iface (some (w, some r.1)), r.2))
        (decodePtr D rec f typ bs (alloc D f.t) depth >>= fun r =>
          .ok (Val.iface (some (w, some r.1)), r.2))
        (fun h' a c => a.2 = c.2 ∧ MemRep h' a.1 c.1 (grow F h h') ∧
          (some w = none → Clean h' D f.t a.1)) := by
      refine sim_bind (sim_newTarget (F := F) (sim_mono (sim_ptr hD hrec f typ depth
        (input_pushed hi _) (below_none _) (rep_flat _ _ _ (flat_alloc hD f.t))
        (clean_flat _ _ _ (flat_alloc hD f.t) f.t)) (fun _ hx => hx)
        (fun _ _ _ _ hp => ⟨hp.1, hp.2.1⟩))) ?_
      rintro h' ⟨o, n⟩ ⟨u, m⟩ hs ⟨hnm, x, G, g1, g2, g3, g4, g5⟩
      exact ⟨grow F h h', fun _ hx => hx, sim_pure ⟨hnm, .iface w o x u G _ g1 g2 g3 g4 g5,
        fun hh => by cases hh⟩⟩
    cases hr with
    | ifaceNil => exact main
    | ifaceNilPtr => exact main
    | iface => exact main
    | _ => exact sim_fail

end Verif.Lemmas.Mem
