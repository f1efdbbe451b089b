import Verif.Lemmas.Mem.Value
/-!
# The decoder on memory does what the decoder on trees does: values
-/
namespace Verif.Lemmas.Mem
open Verif.Model Verif.Model.Mem Verif.Spec

/-- What the proofs need to know about descriptors. -/
structure Regular (D : Descs) : Prop where
  zero : ∀ id, flat (D id).empty = true
  found : ∀ id n f, (D id).getField n = some f → f ∈ (D id).fields
  slots : ∀ id, ∀ f ∈ (D id).fields, ∀ g ∈ (D id).fields, f.slot = g.slot → g.oneof = none →
    f.oneof = none ∧ f.t = g.t
  unknown : ∀ id slot p, (D id).unknown = some (slot, p) → ∀ f ∈ (D id).fields, f.slot ≠ slot

/-- Nested calls do the same. -/
def RecSim (D : Descs) (recM : DecRecM) (rec : DecRec) : Prop :=
  ∀ (h : Store) (F : Blocks) (depth : Int) (b : View) (bs : Bytes) (v : MVal) (t : Val) (id : Nat),
    Input h b bs F → Below F h → MemRep h v t F → Clean h D (.struct id) v →
    Sim h F (recM depth b v id) (rec depth bs t id) (WPost D (.struct id) h F)

theorem flat_zeroVal {D : Descs} (hD : Regular D) (t : GoType) : flat (zeroVal D t) = true := by
  cases t <;> first | rfl | exact hD.zero _

theorem flat_alloc {D : Descs} (hD : Regular D) (t : GoType) : flat (alloc D t) = true := by
  unfold alloc
  split
  · exact flat_zeroVal hD t
  · rfl

theorem flat_tmpVal {D : Descs} (hD : Regular D) (t : GoType) : flat (tmpVal D t) = true := by
  cases t <;> first | rfl | exact hD.zero _

theorem input_pushed {h : Store} {b : View} {bs : Bytes} {F : Blocks} (hi : Input h b bs F)
    (blk : Block) : Input (pushed h blk) b bs none' :=
  input_mono (input_step (input_mono hi (G := none') (fun _ hx => hx.elim)) (step_pushed h blk none'))
    (fun _ hx => hx.elim)

theorem input_none {h : Store} {b : View} {bs : Bytes} {F : Blocks} (hi : Input h b bs F) :
    Input h b bs none' := input_mono hi (fun _ hx => hx.elim)

/-! ## Map entries -/

theorem sim_mapKeyAt {h : Store} {b : View} {bs : Bytes} (f : FieldDesc) (kt : GoType)
    (typ : WType) (hi : Input h b bs none') :
    Sim h none' (decodeMapKeyAtM f kt typ b) (decodeMapKeyAt f kt typ bs)
      (fun h' a c => a.2 = c.2 ∧ MemRep h' a.1 c.1 (grow none' h h')) := by
  have key : ∀ (q : Val → Bytes → Res (Val × Nat)), (∀ bs, ScalarFn (fun t => q t bs)) →
      Sim h none' (decodeScalarM (q .undef) b .undef) (q .undef bs)
        (fun h' a c => a.2 = c.2 ∧ MemRep h' a.1 c.1 (grow none' h h')) := fun q hq =>
    sim_mono (sim_scalar (D := fun _ => default) (ty := .bool) q hq hi (.undef _)
      (clean_other (fun _ hh => GoType.noConfusion hh) (fun _ hh => GoType.noConfusion hh)))
      (fun _ hx => hx) (fun _ _ _ _ hp => ⟨hp.1, hp.2.1⟩)
  unfold decodeMapKeyAtM decodeMapKeyAt
  split
  · exact key (fun t b => decodeVarintAt f.keyType kt.kind b t) (varint_scalar _ _)
  · exact key (fun t b => decodeFixed32At f.keyType kt.kind b t) (fixed32_scalar _ _)
  · exact key (fun t b => decodeFixed64At f.keyType kt.kind b t) (fixed64_scalar _ _)
  · split
    · exact sim_fail
    · have he : ((fun r : Bytes × Nat => (Val.str r.1, r.2)) <$> liftP (consumeBytes bs)) =
          (liftP (consumeBytes bs) >>= fun r => (.ok r.1 : Res Bytes) >>= fun s =>
            .ok (Val.str s, r.2)) := by
        cases consumeBytes bs <;> rfl
      rw [he]
      refine sim_read (sim_consumeBytes hi) ?_
      rintro ⟨fb, n⟩ ⟨gb, m⟩ ⟨hnm, hin⟩
      refine sim_bind (sim_copyString hin) ?_
      intro h' a c hs hp
      exact ⟨grow none' h h', fun _ hx => hx, sim_pure ⟨hnm, hp⟩⟩
  · split <;> first | exact sim_fail | exact (absurd rfl (by assumption))

theorem decodeMapKey_kv (f : FieldDesc) (kt : GoType) (bs : Bytes) :
    decodeMapKey f kt bs = (kvTag 1 bs >>= fun typ => decodeMapKeyAt f kt typ (bs.drop 1) >>=
      fun r => .ok (r.1, r.2 + 1)) := by
  unfold decodeMapKey kvTag
  cases consumeKVTag bs with
  | none => rfl
  | some r =>
    obtain ⟨num, typ⟩ := r
    dsimp only
    by_cases hn : num ≠ 1
    · rw [if_pos hn, if_pos hn]; rfl
    · rw [if_neg hn, if_neg hn]; rfl

theorem sim_mapKey {h : Store} {b : View} {bs : Bytes} (f : FieldDesc) (kt : GoType)
    (hi : Input h b bs none') :
    Sim h none' (decodeMapKeyM f kt b) (decodeMapKey f kt bs)
      (fun h' a c => a.2 = c.2 ∧ MemRep h' a.1 c.1 (grow none' h h')) := by
  rw [decodeMapKey_kv]
  unfold decodeMapKeyM
  refine sim_read (sim_parse hi) ?_
  rintro typ _ rfl
  refine sim_bind (sim_mapKeyAt f kt typ (input_drop hi 1)) ?_
  rintro h' ⟨v, n⟩ ⟨t, m⟩ hs ⟨hnm, hv⟩
  exact ⟨grow none' h h', fun _ hx => hx, sim_pure ⟨by simpa using hnm, hv⟩⟩

theorem sim_mapValueLen {D : Descs} {recM : DecRecM} {rec : DecRec} (hrec : RecSim D recM rec)
    {h : Store} {b : View} {bs : Bytes} {v : MVal} {u : Val} (t : GoType) (depth : Int)
    (hi : Input h b bs none') (hr : MemRep h v u none') (hc : Clean h D t v) :
    Sim h none' (decodeMapValueLenM recM t b v depth) (decodeMapValueLen rec t bs u depth)
      (fun h' a c => MemRep h' a c (grow none' h h')) := by
  unfold decodeMapValueLenM decodeMapValueLen
  split
  · exact sim_copyBytes hi
  · have he : (.ok (Val.str bs) : Res Val) = ((.ok bs : Res Bytes) >>= fun s => .ok (.str s)) := rfl
    rw [he]
    refine sim_bind (f := fun s => pure (MVal.str s)) (sim_copyString hi) ?_
    intro h' a c hs hp
    exact ⟨grow none' h h', fun _ hx => hx, sim_pure hp⟩
  · exact sim_mono (hrec h none' (depth - 1) b bs v u _ hi (below_none h) hr hc) (fun _ hx => hx)
      (fun _ _ _ _ hp => hp.1)
  · split <;> first | exact sim_fail | simp_all

theorem sim_mapValueAt {D : Descs} {recM : DecRecM} {rec : DecRec} (hrec : RecSim D recM rec)
    {h : Store} {b : View} {bs : Bytes} {v : MVal} {u : Val} (f : FieldDesc) (t : GoType)
    (typ : WType) (depth : Int) (hi : Input h b bs none') (hr : MemRep h v u none')
    (hc : Clean h D t v) :
    Sim h none' (decodeMapValueAtM recM f t typ b v depth) (decodeMapValueAt rec f t typ bs u depth)
      (fun h' a c => a.2 = c.2 ∧ MemRep h' a.1 c.1 (grow none' h h')) := by
  have key : ∀ (q : Val → Bytes → Res (Val × Nat)), (∀ bs, ScalarFn (fun t => q t bs)) →
      Sim h none' (decodeScalarM (q .undef) b v) (q u bs)
        (fun h' a c => a.2 = c.2 ∧ MemRep h' a.1 c.1 (grow none' h h')) := fun q hq =>
    sim_mono (sim_scalar q hq hi hr hc) (fun _ hx => hx) (fun _ _ _ _ hp => ⟨hp.1, hp.2.1⟩)
  unfold decodeMapValueAtM decodeMapValueAt
  split
  · exact key (fun t' b => decodeVarintAt f.valType t.kind b t') (varint_scalar _ _)
  · exact key (fun t' b => decodeFixed32At f.valType t.kind b t') (fixed32_scalar _ _)
  · exact key (fun t' b => decodeFixed64At f.valType t.kind b t') (fixed64_scalar _ _)
  · refine sim_read (sim_consumeBytes hi) ?_
    rintro ⟨fb, n⟩ ⟨gb, m⟩ ⟨hnm, hin⟩
    refine sim_bind (sim_mapValueLen hrec t depth hin hr hc) ?_
    intro h' a c hs hp
    exact ⟨grow none' h h', fun _ hx => hx, sim_pure ⟨hnm, hp⟩⟩
  · split <;> first | exact sim_fail | exact (absurd rfl (by assumption))

theorem sim_mapValueRef {D : Descs} (hD : Regular D) {recM : DecRecM} {rec : DecRec}
    (hrec : RecSim D recM rec) {h : Store} {b : View} {bs : Bytes} (f : FieldDesc) (vt : GoType)
    (typ : WType) (depth : Int) (hi : Input h b bs none') :
    Sim h none' (decodeMapValueRefM D recM f vt typ b depth)
      (decodeMapValueRef D rec f vt typ bs depth)
      (fun h' a c => a.2 = c.2 ∧ MemRep h' a.1 c.1 (grow none' h h')) := by
  unfold decodeMapValueRefM decodeMapValueRef
  split
  · rename_i t
    refine sim_bind (sim_newTarget (sim_mapValueAt hrec f t typ depth (input_pushed hi _)
      (rep_flat _ _ _ (flat_alloc hD t)) (clean_flat _ _ _ (flat_alloc hD t) t))) ?_
    rintro h' ⟨o, n⟩ ⟨u, m⟩ hs ⟨hnm, v, G, g1, g2, g3, g4, g5⟩
    exact ⟨grow none' h h', fun _ hx => hx, sim_pure ⟨hnm, .ptr o v u G _ g1 g2 g3 g4 g5⟩⟩
  · split
    · simp_all
    · exact sim_mapValueAt hrec f vt typ depth hi (rep_flat _ _ _ (flat_tmpVal hD vt))
        (clean_flat _ _ _ (flat_tmpVal hD vt) vt)

theorem decodeMapValue_kv (D : Descs) (rec : DecRec) (f : FieldDesc) (vt : GoType) (bs : Bytes)
    (depth : Int) :
    decodeMapValue D rec f vt bs depth = (kvTag 2 bs >>= fun typ =>
      decodeMapValueRef D rec f vt typ (bs.drop 1) depth >>= fun r => .ok (r.1, r.2 + 1)) := by
  unfold decodeMapValue kvTag
  cases consumeKVTag bs with
  | none => rfl
  | some r =>
    obtain ⟨num, typ⟩ := r
    dsimp only
    by_cases hn : num ≠ 2
    · rw [if_pos hn, if_pos hn]; rfl
    · rw [if_neg hn, if_neg hn]; rfl

theorem sim_mapValue {D : Descs} (hD : Regular D) {recM : DecRecM} {rec : DecRec}
    (hrec : RecSim D recM rec) {h : Store} {b : View} {bs : Bytes} (f : FieldDesc) (vt : GoType)
    (depth : Int) (hi : Input h b bs none') :
    Sim h none' (decodeMapValueM D recM f vt b depth) (decodeMapValue D rec f vt bs depth)
      (fun h' a c => a.2 = c.2 ∧ MemRep h' a.1 c.1 (grow none' h h')) := by
  rw [decodeMapValue_kv]
  unfold decodeMapValueM
  refine sim_read (sim_parse hi) ?_
  rintro typ _ rfl
  refine sim_bind (sim_mapValueRef hD hrec f vt typ depth (input_drop hi 1)) ?_
  rintro h' ⟨v, n⟩ ⟨t, m⟩ hs ⟨hnm, hv⟩
  exact ⟨grow none' h h', fun _ hx => hx, sim_pure ⟨by simpa using hnm, hv⟩⟩

theorem grow_none {h h' : Store} {x : Nat} (hx : grow none' h h' x) : h.next ≤ x ∧ x < h'.next := by
  rcases hx with hx | hx
  · exact hx.elim
  · exact hx

theorem sim_mapPair {D : Descs} (hD : Regular D) {recM : DecRecM} {rec : DecRec}
    (hrec : RecSim D recM rec) {h : Store} {F : Blocks} {b : View} {bs : Bytes} {v : MVal} {u : Val}
    (f : FieldDesc) (kt vt : GoType) (depth : Int) (hi : Input h b bs F) (hb : Below F h)
    (hr : MemRep h v u F) :
    Sim h F (decodeMapPairM D recM f kt vt b v depth) (decodeMapPair D rec f kt vt bs u depth)
      (fun h' a c => MemRep h' a c (grow F h h')) := by
  unfold decodeMapPairM decodeMapPair
  refine sim_bind (sim_ensureMap hr) ?_
  rintro h1 a ts s1 ⟨G, hm1, ha1, hG1⟩
  have b1 := below_grow hb s1.next
  have i1 : Input h1 b bs none' := input_none (input_step hi s1)
  refine ⟨grow F h h1, fun _ hx => hx, ?_⟩
  refine sim_bind (sim_mono (sim_mapKey f kt i1) (fun _ hx => hx.elim)
    (fun h' a b hs hp => And.intro hs hp)) ?_
  rintro h2 ⟨k, n⟩ ⟨kc, m⟩ _ ⟨s2, hnm, hk⟩
  simp only at hnm; subst hnm
  have i2 : Input h2 b bs none' := input_none (input_step i1 s2)
  refine ⟨grow F h h2, ?_, ?_⟩
  · intro x hx
    rcases hx with hx | hx
    · exact .inl (.inl hx)
    · by_cases hx' : x < h1.next
      · exact .inl (.inr ⟨hx.1, hx'⟩)
      · exact .inr ⟨by omega, hx.2⟩
  refine sim_bind (sim_mono (sim_mapValue hD hrec f vt depth (input_drop i2 n))
    (fun _ hx => hx.elim) (fun h' a b hs hp => And.intro hs hp)) ?_
  rintro h3 ⟨w, n'⟩ ⟨t, m'⟩ _ ⟨s3, -, hv⟩
  have n1 := s1.next
  have n2 := s2.next
  have n3 := s3.next
  refine ⟨grow F h h3, ?_, ?_⟩
  · intro x hx
    rcases hx with hx | hx
    · exact .inl (.inl hx)
    · by_cases hx' : x < h2.next
      · exact .inl (.inr ⟨hx.1, hx'⟩)
      · exact .inr ⟨by omega, hx.2⟩
  have ha' := b1 a ha1
  have hm2 : MapAt h3 a ts G := by
    refine mapAt_frame (mapAt_frame hm1 (s2.frame a ha' id)
      (fun x hx => s2.frame x (b1 x (hG1 x hx)) id)) (s3.frame a (by omega) id) ?_
    intro x hx
    exact s3.frame x (by have := b1 x (hG1 x hx); omega) id
  have hk3 : MemRep h3 k kc (grow none' h1 h2) :=
    rep_frame hk (fun x hx => s3.frame x (grow_none hx).2 id)
  have up : ∀ x, grow F h h1 x → grow F h h3 x := by
    intro x hx
    rcases hx with hx | hx
    · exact .inl hx
    · exact .inr ⟨hx.1, by omega⟩
  refine sim_mono (sim_mapAssign (F := grow F h h3) hm2 hk3 hv ?_ ?_ ?_ (up a ha1) ?_ ?_ ?_ ?_ ?_)
    (fun _ hx => hx) ?_
  · intro x hx hx'
    have := grow_none hx; have := grow_none hx'; omega
  · intro x hx hx'
    have := grow_none hx; have := b1 x (hG1 x hx'); omega
  · intro x hx hx'
    have := grow_none hx; have := b1 x (hG1 x hx'); omega
  · intro hx; have := grow_none hx; omega
  · intro hx; have := grow_none hx; omega
  · intro x hx; have := grow_none hx; exact .inr ⟨by omega, by omega⟩
  · intro x hx; have := grow_none hx; exact .inr ⟨by omega, by omega⟩
  · intro x hx; exact up x (hG1 x hx)
  · intro h4 a' c' s4 hp
    refine rep_mono hp ?_
    intro x hx
    have := s4.next
    rcases hx with hx | hx
    · exact .inl hx
    · exact .inr ⟨hx.1, by omega⟩

/-! ## The map decoders of the wire package -/

theorem decodeMapPart_flat {c : Coder} {b : Bytes} {num : Nat} {x : Val} {n : Nat}
    (h : decodeMapPart c b num = .ok (x, n)) : flat x = true := by
  unfold decodeMapPart at h
  cases c <;> simp only at h
  case varintU32 => cases h1 : decodeMapVarint b num <;> rw [h1] at h <;> cases h; rfl
  case varintI32 => cases h1 : decodeMapVarint b num <;> rw [h1] at h <;> cases h; rfl
  case varint64 => cases h1 : decodeMapVarint b num <;> rw [h1] at h <;> cases h; rfl
  case zigzag32 => cases h1 : decodeMapVarint b num <;> rw [h1] at h <;> cases h; rfl
  case zigzag64 => cases h1 : decodeMapVarint b num <;> rw [h1] at h <;> cases h; rfl
  case fixed32 => cases h1 : decodeMapFixed32 b num <;> rw [h1] at h <;> cases h; rfl
  case fixed64 => cases h1 : decodeMapFixed64 b num <;> rw [h1] at h <;> cases h; rfl
  case bool => cases h1 : decodeMapBool b num <;> rw [h1] at h <;> cases h; rfl
  all_goals cases h

theorem decodeMapParts_flat {kc vc : Coder} {b : Bytes} {k x : Val}
    (h : decodeMapParts kc vc b = .ok (k, x)) : flat k = true ∧ flat x = true := by
  unfold decodeMapParts at h
  cases h1 : decodeMapPart kc b 1 with
  | error e => rw [h1] at h; cases h
  | ok r =>
    obtain ⟨k', n⟩ := r
    rw [h1] at h
    cases h2 : decodeMapPart vc (b.drop n) 2 with
    | error e =>
      have : (Except.error e : Res (Val × Val)) = .ok (k, x) := by
        rw [← h]
        show _ = (decodeMapPart vc (b.drop n) 2 >>= _)
        rw [h2]; rfl
      cases this
    | ok r' =>
      obtain ⟨x', n'⟩ := r'
      have : (Except.ok (k', x') : Res (Val × Val)) = .ok (k, x) := by
        rw [← h]
        show _ = (decodeMapPart vc (b.drop n) 2 >>= _)
        rw [h2]; rfl
      injection this with this
      injection this with e1 e2
      subst e1 e2
      exact ⟨decodeMapPart_flat h1, decodeMapPart_flat h2⟩

theorem decodeMapFast_parts (kc vc : Coder) (kt vt : GoType) (b : Bytes) (cur : Val) :
    decodeMapFast kc vc kt vt b cur = (decodeMapParts kc vc b >>= fun r => cur.asMap >>= fun m =>
      if (kt.holds r.1 && vt.holds r.2) = true then
        r.1.toKey >>= fun c => .ok (Val.map (some (mapInsert m c r.2)))
      else .error .ub) := by
  unfold decodeMapFast decodeMapParts
  cases decodeMapPart kc b 1 with
  | error e => rfl
  | ok r =>
    obtain ⟨k, n⟩ := r
    show (decodeMapPart vc (b.drop n) 2 >>= _) = ((decodeMapPart vc (b.drop n) 2 >>= _) >>= _)
    cases decodeMapPart vc (b.drop n) 2 with
    | error e => rfl
    | ok r => rfl

theorem sim_mapFast {h : Store} {F : Blocks} {b : View} {bs : Bytes} {v : MVal} {u : Val}
    (kc vc : Coder) (kt vt : GoType) (hi : Input h b bs F) (hb : Below F h) (hr : MemRep h v u F) :
    Sim h F (decodeMapFastM kc vc kt vt b v) (decodeMapFast kc vc kt vt bs u)
      (fun h' a c => MemRep h' a c (grow F h h')) := by
  rw [decodeMapFast_parts]
  unfold decodeMapFastM
  have hp : Sim h F (parse b (decodeMapParts kc vc)) (decodeMapParts kc vc bs)
      (fun h' a c => h' = h ∧ (a = c ∧ flat c.1 = true ∧ flat c.2 = true)) := by
    have he := parse_eq (decodeMapParts kc vc) hi
    cases hp : decodeMapParts kc vc bs with
    | error e => rw [hp] at he; exact sim_err he rfl (step_refl _ _)
    | ok r =>
      obtain ⟨k, x⟩ := r
      rw [hp] at he
      exact sim_ok he rfl (step_refl _ _) ⟨rfl, rfl, decodeMapParts_flat hp⟩
  refine sim_read hp ?_
  rintro ⟨k, x⟩ ⟨k', x'⟩ ⟨he, hk, hx⟩
  injection he with e1 e2
  subst e1 e2
  refine sim_bind (sim_ensureMap hr) ?_
  rintro h1 a ts s1 ⟨G, hm1, ha1, hG1⟩
  refine ⟨grow F h h1, fun _ hx => hx, ?_⟩
  dsimp only
  split
  · refine sim_mono (sim_mapAssign (E := none') (V := none') hm1 (rep_flat _ _ _ hk)
      (rep_flat _ _ _ hx) (fun _ hx => hx.elim) (fun _ hx => hx.elim) (fun _ hx => hx.elim) ha1 id
      id (fun _ hx => hx.elim) (fun _ hx => hx.elim) hG1) (fun _ hx => hx) ?_
    intro h4 a' c' s4 hp
    refine rep_mono hp ?_
    intro x hx
    have := s4.next
    rcases hx with hx | hx
    · exact .inl hx
    · exact .inr ⟨hx.1, by omega⟩
  · exact sim_fail

end Verif.Lemmas.Mem
