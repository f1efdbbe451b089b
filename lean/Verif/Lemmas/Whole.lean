import Verif.Lemmas.Steps
import Verif.Lemmas.Extend
import Verif.Model.GoErrors
import Verif.Spec.Whole
/-! Helper lemmas: the decoder does not report an early end on input that is whole. -/
namespace Verif.Lemmas.Whole
open Verif.Spec Verif.Model Verif.Lemmas

/-- The result is not `io.ErrUnexpectedEOF`. -/
def NoEof {α : Type} (r : Res α) : Prop := ∀ e, r = .error e → e.goError ≠ some .unexpectedEOF

theorem NoEof.ok {α : Type} (a : α) : NoEof (.ok a : Res α) := nofun
theorem NoEof.err {α : Type} {e : Fault} (h : e.goError ≠ some .unexpectedEOF) : NoEof (.error e : Res α) := by
  intro e' h'; cases h'; exact h
theorem NoEof.bind {α β : Type} {r : Res α} {g : α → Res β} (h : NoEof r) (hg : ∀ a, r = .ok a → NoEof (g a)) :
    NoEof (r >>= g) := by
  cases r with
  | error e => exact NoEof.err (h e rfl)
  | ok a => exact hg a rfl
theorem NoEof.map {α β : Type} {r : Res α} (g : α → β) (h : NoEof r) : NoEof (g <$> r) := by
  cases r with
  | error e => exact NoEof.err (h e rfl)
  | ok a => exact NoEof.ok _
theorem NoEof.lift {α : Type} {r : Except PErr α} {a : α} (h : r = .ok a) : NoEof (liftP r) := by
  rw [h]; exact NoEof.ok _
theorem asSlice_noEof (v : Val) : NoEof v.asSlice := by
  cases v <;> first | exact NoEof.ok _ | exact NoEof.err nofun
theorem asMap_noEof (v : Val) : NoEof v.asMap := by
  cases v <;> first | exact NoEof.ok _ | exact NoEof.err nofun
theorem toKey_noEof (v : Val) : NoEof v.toKey := by
  cases v <;> first | exact NoEof.ok _ | exact NoEof.err nofun

/-! ### values that are complete -/

theorem isValue_varint {d num : Nat} {v : Bytes} (h : IsValue d num .varint v) : ∃ n, IsVarint64 v n := by
  cases h with | varint _ _ _ n h => exact ⟨n, h⟩
theorem isValue_i32 {d num : Nat} {v : Bytes} (h : IsValue d num .i32 v) : v.length = 4 := by
  cases h with | i32 _ _ _ h => exact h
theorem isValue_i64 {d num : Nat} {v : Bytes} (h : IsValue d num .i64 v) : v.length = 8 := by
  cases h with | i64 _ _ _ h => exact h
theorem isValue_len {d num : Nat} {v : Bytes} (h : IsValue d num .len v) : ∃ p, IsLen v p := by
  cases h with | len _ _ _ p h => exact ⟨p, h⟩

theorem varintAt_noEof {d num : Nat} {v : Bytes} (h : IsValue d num .varint v) (tag : TagType) (k : Kind) (rest : Bytes) (cur : Val) :
    NoEof (decodeVarintAt tag k (v ++ rest) cur) := by
  obtain ⟨n, h⟩ := isValue_varint h
  unfold decodeVarintAt
  split
  case' h_4 => exact NoEof.err nofun
  all_goals exact (NoEof.lift (consumeVarint_isVarint64 h rest)).bind fun a _ => NoEof.ok _

theorem fixed32At_noEof {d num : Nat} {v : Bytes} (h : IsValue d num .i32 v) (tag : TagType) (k : Kind) (rest : Bytes) (cur : Val) :
    NoEof (decodeFixed32At tag k (v ++ rest) cur) := by
  unfold decodeFixed32At
  split
  · exact (NoEof.lift (consumeFixed32_take (isValue_i32 h) rest)).bind fun a _ => NoEof.ok _
  · exact NoEof.err nofun

theorem fixed64At_noEof {d num : Nat} {v : Bytes} (h : IsValue d num .i64 v) (tag : TagType) (k : Kind) (rest : Bytes) (cur : Val) :
    NoEof (decodeFixed64At tag k (v ++ rest) cur) := by
  unfold decodeFixed64At
  split
  · exact (NoEof.lift (consumeFixed64_take (isValue_i64 h) rest)).bind fun a _ => NoEof.ok _
  · exact NoEof.err nofun

theorem valueAt_noEof (D : Descs) (rec : DecRec) (f : FieldDesc) (s : Scalar) {d num : Nat} {t : WireType} {v : Bytes}
    (h : IsValue d num t v) (rest : Bytes) (cur : Val) (depth : Int) :
    NoEof (decodeValueAt D rec f s.goType t.code (v ++ rest) cur depth) := by
  cases t with
  | varint => exact varintAt_noEof h _ _ _ _
  | i32 => exact fixed32At_noEof h _ _ _ _
  | i64 => exact fixed64At_noEof h _ _ _ _
  | len =>
    obtain ⟨p, h⟩ := isValue_len h
    refine NoEof.bind (NoEof.lift (consumeBytes_isLen h rest)) fun a _ => NoEof.bind ?_ fun _ _ => NoEof.ok _
    cases s <;> first | exact NoEof.ok _ | exact NoEof.err nofun
  | sgroup => exact NoEof.err nofun
  | egroup => exact NoEof.err nofun

theorem lenThen_noEof {d num : Nat} {t : WireType} {v : Bytes} (h : IsValue d num t v) (rest : Bytes) {g : Bytes → Res Val}
    (hg : t = .len → ∀ p, IsLen v p → NoEof (g p)) : NoEof (lenThen t.code (v ++ rest) g) := by
  unfold lenThen
  split
  · rename_i ht
    have ht : t = .len := code_inj ht
    subst ht
    obtain ⟨p, h⟩ := isValue_len h
    have e := consumeBytes_isLen h rest
    refine NoEof.bind (NoEof.lift e) fun a ha => ?_
    rw [e] at ha
    cases ha
    exact NoEof.bind (hg rfl p h) fun _ _ => NoEof.ok _
  · exact NoEof.err nofun

theorem mapKeyAt_noEof (f : FieldDesc) (kt : GoType) {d num : Nat} {t : WireType} {v : Bytes} (h : IsValue d num t v) (rest : Bytes) :
    NoEof (decodeMapKeyAt f kt t.code (v ++ rest)) := by
  cases t with
  | varint => exact varintAt_noEof h _ _ _ _
  | i32 => exact fixed32At_noEof h _ _ _ _
  | i64 => exact fixed64At_noEof h _ _ _ _
  | len =>
    obtain ⟨p, h⟩ := isValue_len h
    show NoEof (if _ then _ else _)
    split
    · exact NoEof.err nofun
    · exact NoEof.map _ (NoEof.lift (consumeBytes_isLen h rest))
  | sgroup => exact NoEof.err nofun
  | egroup => exact NoEof.err nofun

/-! ### entries of maps -/

/-- The tag byte of a part of a map entry is the key of the first record. -/
theorem kvTag_record {r : Rec} (hr : r.OK) {s : Bytes} {n : Nat} {ty : WType} (h : consumeKVTag (r.raw ++ s) = some (n, ty)) :
    n = r.num ∧ ty = r.typ.code ∧ (r.raw ++ s).drop 1 = r.val ++ s := by
  have hk := hr.1
  obtain ⟨num, t, k, v⟩ := r
  dsimp only [Rec.raw] at *
  obtain ⟨⟨hv, _, _⟩, _, _⟩ := hk
  rw [consumeKVTag_eq] at h
  generalize hq : key num t = q at hv
  have ht := WireType.code_lt t
  unfold key at hq
  cases hv with
  | last c hc =>
    simp only [List.cons_append, List.nil_append] at h
    rw [if_pos hc] at h
    simp only [Option.some.injEq, Prod.mk.injEq] at h
    have h2 : c.toNat % 8 = ty := h.2
    exact ⟨by omega, h2.symm.trans (by omega), rfl⟩
  | more c bs m hc _ =>
    simp only [List.cons_append] at h
    rw [if_neg (by omega)] at h
    cases h

theorem tag_ok {n : Nat} (h1 : 1 ≤ n) (h2 : n < 16) (t : WireType) : IsKey (tag n t) n t := by
  have := WireType.code_lt t
  rw [tag_small h2]
  have e : (BitVec.ofNat 8 (8 * n + t.code)).toNat = key n t := by
    rw [BitVec.toNat_ofNat, Nat.mod_eq_of_lt (by omega)]
    rfl
  refine ⟨⟨?_, by simp, by unfold key; omega⟩, h1, by omega⟩
  rw [← e]
  exact .last _ (by rw [e]; unfold key; omega)

/-- What is left after the first record. -/
theorem part_rest {r : Rec} {s : Bytes} (hr : r.OK) {n : Nat} (h1 : 1 ≤ n) (h2 : n < 16) {t : WireType} {v rest : Bytes} {d : Nat}
    (hv : IsValue d n t v) (e : r.raw ++ s = tag n t ++ v ++ rest) : (r.raw ++ s).drop (tag n t ++ v).length = s := by
  obtain ⟨h3, h4⟩ := rec_unique hr (r' := ⟨n, t, tag n t, v⟩) ⟨tag_ok h1 h2 t, d, hv⟩ e
  rw [h3]
  exact List.drop_left

theorem mapKey_noEof (f : FieldDesc) (kt : GoType) {b : Bytes} {rs : List Rec} (h : Splits b rs) : NoEof (decodeMapKey f kt b) := by
  unfold decodeMapKey
  split
  · exact NoEof.err nofun
  · rename_i num typ hb
    split
    · exact NoEof.err nofun
    · cases rs with
      | nil =>
        rw [h.1] at hb
        cases hb
      | cons r rs =>
        have hr := h.2 r (by simp)
        rw [h.1, rawOf_cons] at hb ⊢
        obtain ⟨_, rfl, e⟩ := kvTag_record hr hb
        rw [e]
        obtain ⟨_, d, hv⟩ := hr
        exact NoEof.bind (mapKeyAt_noEof f kt hv _) fun _ _ => NoEof.ok _

theorem mapValue_noEof {D : Descs} {rec : DecRec} {f : FieldDesc} {vt : GoType} {depth : Int} {b : Bytes} {rs : List Rec} (h : Splits b rs)
    (hg : ∀ r ∈ rs, r.num = 2 → ∀ rest, r.val.length + rest.length < b.length →
      NoEof (decodeMapValueRef D rec f vt r.typ.code (r.val ++ rest) depth)) :
    NoEof (decodeMapValue D rec f vt b depth) := by
  unfold decodeMapValue
  split
  · exact NoEof.err nofun
  · rename_i num typ hb
    split
    · exact NoEof.err nofun
    · rename_i hn
      have hn := Decidable.not_not.1 hn
      cases rs with
      | nil =>
        rw [h.1] at hb
        cases hb
      | cons r rs =>
        have hr := h.2 r (by simp)
        have hp := IsKey.length_pos hr.1
        rw [h.1, rawOf_cons] at hb ⊢
        obtain ⟨e1, rfl, e⟩ := kvTag_record hr hb
        rw [e]
        refine NoEof.bind (hg r (by simp) (by omega) _ ?_) fun _ _ => NoEof.ok _
        rw [h.1, rawOf_cons, Rec.raw]
        simp only [List.length_append]
        omega

theorem mapPair_noEof {D : Descs} {rec : DecRec} {f : FieldDesc} {ks : Scalar} {vt : GoType} {depth : Int} {b : Bytes} {rs : List Rec}
    (hf : f.keyType = tagTypeOf ks) (h : Splits b rs)
    (hg : ∀ r ∈ rs, r.num = 2 → ∀ rest, r.val.length + rest.length < b.length →
      NoEof (decodeMapValueRef D rec f vt r.typ.code (r.val ++ rest) depth)) (cur : Val) :
    NoEof (decodeMapPair D rec f ks.goType vt b cur depth) := by
  unfold decodeMapPair
  refine NoEof.bind (asMap_noEof _) fun m _ => NoEof.bind (mapKey_noEof f _ h) ?_
  rintro ⟨k, n⟩ hk
  obtain ⟨kb, rest, e1, rfl, hs⟩ := mapKey_sound hf hk
  refine NoEof.bind ?_ fun _ _ => NoEof.bind (toKey_noEof _) fun _ _ => NoEof.ok _
  cases rs with
  | nil =>
    have := congrArg List.length e1
    rw [h.1] at this
    simp [tag_small (n := 1) (by omega)] at this
  | cons r rs =>
    have hr := h.2 r (by simp)
    have e := h.1
    rw [rawOf_cons] at e
    subst e
    rw [part_rest hr (by omega) (by omega) (scalarDec_isValue hs 1) e1]
    refine mapValue_noEof (rs := rs) ⟨rfl, fun r hr => h.2 r (by simp [hr])⟩ fun r' h1 h2 rest h3 => ?_
    exact hg r' (by simp [h1]) h2 rest (by simp only [List.length_append]; omega)

theorem scalarDec_bool {s : Scalar} (hs : s ≠ .bool) {v : Bytes} {y : Val} (h : ScalarDec true s v y) : ScalarDec false s v y := by
  cases s <;> first | exact absurd rfl hs | exact h

/-- The bytes after the tag byte start with a complete value. -/
theorem kvTag_value {b : Bytes} {rs : List Rec} (h : Splits b rs) {n : Nat} {t : WireType} (hb : consumeKVTag b = some (n, t.code)) :
    ∃ d v rest, b.drop 1 = v ++ rest ∧ IsValue d n t v := by
  cases rs with
  | nil => rw [h.1] at hb; cases hb
  | cons r rs =>
    have hr := h.2 r (by simp)
    rw [h.1, rawOf_cons] at hb ⊢
    obtain ⟨rfl, e, e1⟩ := kvTag_record hr hb
    have e := code_inj e
    subst e
    obtain ⟨_, d, hv⟩ := hr
    exact ⟨d, r.val, _, e1, hv⟩

theorem mapPart_noEof {s : Scalar} (hs : s ≠ .bool) {b : Bytes} {rs : List Rec} (h : Splits b rs) (num : Nat) :
    NoEof (decodeMapPart (coderOf s) b num) := by
  have h1 : NoEof (decodeMapVarint b num) := by
    unfold decodeMapVarint
    split
    · exact NoEof.err nofun
    · rename_i fn typ hb
      split
      · exact NoEof.err nofun
      · split
        · exact NoEof.err nofun
        · rename_i ht
          rw [Decidable.not_not.1 ht] at hb
          obtain ⟨d, v, rest, e, hv⟩ := kvTag_value (t := .varint) h hb
          obtain ⟨n, hv⟩ := isValue_varint hv
          rw [e, fastVarint_eq, consumeVarint_isVarint64 hv]
          exact NoEof.ok _
  have h2 : NoEof (decodeMapFixed32 b num) := by
    unfold decodeMapFixed32
    split
    · exact NoEof.err nofun
    · rename_i fn typ hb
      split
      · exact NoEof.err nofun
      · split
        · exact NoEof.err nofun
        · rename_i ht
          rw [Decidable.not_not.1 ht] at hb
          obtain ⟨d, v, rest, e, hv⟩ := kvTag_value (t := .i32) h hb
          rw [e, consumeFixed32_take (isValue_i32 hv)]
          exact NoEof.ok _
  have h3 : NoEof (decodeMapFixed64 b num) := by
    unfold decodeMapFixed64
    split
    · exact NoEof.err nofun
    · rename_i fn typ hb
      split
      · exact NoEof.err nofun
      · split
        · exact NoEof.err nofun
        · rename_i ht
          rw [Decidable.not_not.1 ht] at hb
          obtain ⟨d, v, rest, e, hv⟩ := kvTag_value (t := .i64) h hb
          rw [e, consumeFixed64_take (isValue_i64 hv)]
          exact NoEof.ok _
  cases s <;> first
    | exact absurd rfl hs
    | exact NoEof.map _ h1
    | exact NoEof.map _ h2
    | exact NoEof.map _ h3
    | exact NoEof.err nofun

theorem fast_end {kt vt : GoType} {k x : Val} {cur : Val} :
    NoEof (cur.asMap >>= fun m => if kt.holds k && vt.holds x then (k.toKey >>= fun k => pure (.map (some (mapInsert m k x)))) else (.error .ub : Res Val)) := by
  refine NoEof.bind (asMap_noEof _) fun m _ => ?_
  split
  · exact NoEof.bind (toKey_noEof _) fun _ _ => NoEof.ok _
  · exact NoEof.err nofun

theorem mapFast_noEof {ks vs : Scalar} (hk : ks ≠ .bool) (hv : vs ≠ .bool) {b : Bytes} {rs : List Rec} (h : Splits b rs) (cur : Val) :
    NoEof (decodeMapFast (coderOf ks) (coderOf vs) ks.goType vs.goType b cur) := by
  unfold decodeMapFast
  refine NoEof.bind (mapPart_noEof hk h 1) ?_
  rintro ⟨k, n⟩ h1
  obtain ⟨kb, rest, e1, rfl, hs⟩ := mapPart_sound h1
  refine NoEof.bind ?_ fun _ _ => fast_end
  cases rs with
  | nil =>
    have := congrArg List.length e1
    rw [h.1] at this
    simp [tag_small (n := 1) (by omega)] at this
  | cons r rs =>
    have hr := h.2 r (by simp)
    have e := h.1
    rw [rawOf_cons] at e
    subst e
    rw [part_rest hr (by omega) (by omega) (scalarDec_isValue (scalarDec_bool hk hs) 1) e1]
    exact mapPart_noEof hv (rs := rs) ⟨rfl, fun r hr => h.2 r (by simp [hr])⟩ 2

theorem mapFast_read {ks vs : Scalar} (hf : fastPair ks vs = true) {kb vb rest : Bytes} {k y : Val} (h1 : ScalarDec true ks kb k)
    (h2 : ScalarDec true vs vb y) (cur : Val) :
    NoEof (decodeMapFast (coderOf ks) (coderOf vs) ks.goType vs.goType (tag 1 ks.wire ++ kb ++ (tag 2 vs.wire ++ vb) ++ rest) cur) := by
  obtain ⟨p1, p2⟩ := fastPair_packable hf
  unfold decodeMapFast
  rw [List.append_assoc (tag 1 ks.wire ++ kb), mapPart_complete p1 (by omega) h1]
  refine NoEof.bind (NoEof.ok _) fun a ha => ?_
  cases ha
  simp only [List.drop_left]
  rw [mapPart_complete p2 (by omega) h2]
  exact NoEof.bind (NoEof.ok _) fun _ _ => fast_end

/-! ### unknown records -/

theorem fieldValue_deep {loop loop' : Int → Bytes → Int → Except PErr Nat} {num : Int} {t : Nat} {b : Bytes} {d d' : Int} (hd : d ≤ d')
    (hl : loop num b d = .error .recursionDepth ∨ loop' num b d' = loop num b d) :
    fieldValueWith loop num t b d = .error .recursionDepth ∨ fieldValueWith loop' num t b d' = fieldValueWith loop num t b d := by
  unfold fieldValueWith
  split
  · exact .inr rfl
  · exact .inr rfl
  · exact .inr rfl
  · exact .inr rfl
  · by_cases h : d < 0
    · rw [if_pos h]; exact .inl rfl
    · rw [if_neg h, if_neg (by omega)]
      exact hl
  · exact .inr rfl
  · exact .inr rfl

theorem group_deep : ∀ (fuel : Nat) (num : Int) (n0 : Nat) (b : Bytes) (d d' : Int), d ≤ d' →
    consumeGroupLoop fuel num n0 b d = .error .recursionDepth ∨ consumeGroupLoop fuel num n0 b d' = consumeGroupLoop fuel num n0 b d := by
  intro fuel
  induction fuel with
  | zero => intro num n0 b d d' _; exact .inr rfl
  | succ fuel ih =>
    intro num n0 b d d' hd
    unfold consumeGroupLoop
    cases consumeTag b with
    | error e => exact .inr rfl
    | ok r =>
      obtain ⟨num2, t2, n⟩ := r
      simp only [bind, Except.bind]
      split
      · exact .inr rfl
      · rcases fieldValue_deep (loop := fun num b depth => consumeGroupLoop fuel num b.length b depth)
          (loop' := fun num b depth => consumeGroupLoop fuel num b.length b depth) (num := num2) (t := t2) (b := b.drop n) (d := d - 1) (d' := d' - 1)
          (by omega) (ih _ _ _ _ _ (by omega)) with h | h
        · rw [h]; exact .inl rfl
        · rw [h]
          cases fieldValueWith (fun num b depth => consumeGroupLoop fuel num b.length b depth) num2 t2 (b.drop n) (d - 1) with
          | error e => exact .inr rfl
          | ok m => exact ih _ _ _ _ _ hd

/-- A value that is complete is skipped, or its groups are nested too deeply. -/
theorem skip_whole {d num : Nat} {t : WireType} {v : Bytes} (h : IsValue d num t v) (rest : Bytes) :
    consumeFieldValue num t.code (v ++ rest) = .error .recursionDepth ∨ consumeFieldValue num t.code (v ++ rest) = .ok v.length := by
  unfold consumeFieldValue
  have h1 := consumeFieldValueD_complete h rest (max defaultRecursionLimit d) (by omega)
  unfold consumeFieldValueD at h1 ⊢
  rcases fieldValue_deep (loop := fun num b depth => consumeGroupLoop (b.length + 1) num b.length b depth)
    (loop' := fun num b depth => consumeGroupLoop (b.length + 1) num b.length b depth) (num := num) (t := t.code) (b := v ++ rest)
    (d := defaultRecursionLimit) (d' := max defaultRecursionLimit d) (by omega) (group_deep _ _ _ _ _ _ (by omega)) with h2 | h2
  · exact .inl h2
  · exact .inr (h2 ▸ h1)

/-! ### fields, records and messages -/

/-- Nested decoders on whole input shorter than `N`. -/
def RecWhole (S : Schema) (rec : DecRec) (N : Nat) : Prop :=
  ∀ d b v id, b.length < N → Typed S id v → Whole S id b → NoEof (rec d b v id)

section
variable {D : Descs} {S : Schema} (hD : DescOK D S) (hW : S.WF) {rec : DecRec} {N : Nat} (hrec : RecWhole S rec N)
include hD hW hrec

omit hD hW in
theorem lenRec_noEof {dd num : Nat} {t : WireType} {v rest : Bytes} (hv : IsValue dd num t v) (hb : v.length ≤ N) {cur : Val} {id : Nat}
    (hc : Typed S id cur) (d : Int) (hw : t = .len → ∀ p, IsLen v p → Whole S id p) :
    NoEof (lenThen t.code (v ++ rest) (fun fb => rec d fb cur id)) := by
  refine lenThen_noEof hv rest fun ht p hp => ?_
  have := isLen_length hp
  exact hrec _ _ _ _ (by omega) hc (hw ht p hp)

theorem mapMsg_noEof {f : FieldDesc} (hf : f.valType = .bytes) (id : Nat) (byPtr : Bool) {dd num : Nat} {t : WireType} {v rest : Bytes}
    (hv : IsValue dd num t v) (hb : v.length ≤ N) (d : Int) (hw : t = .len → ∀ p, IsLen v p → Whole S id p) :
    NoEof (decodeMapValueRef D rec f (msgType id byPtr) t.code (v ++ rest) d) := by
  cases byPtr with
  | true =>
    have h : decodeMapValueRef D rec f (msgType id true) t.code (v ++ rest) d
        = lenThen t.code (v ++ rest) (fun fb => rec (d - 1) fb (S id).zero id) >>= fun x => pure (.ptr (some x.1), x.2) := by
      rw [← hD.empty id]
      show decodeMapValueAt rec f (.struct id) _ _ (D id).empty d >>= _ = _
      rw [mapValueAt_len _ _ hf]
      rfl
    rw [h]
    exact NoEof.bind (lenRec_noEof hrec hv hb (typed_zero hW id) _ hw) (fun _ _ => NoEof.ok _)
  | false =>
    have h : decodeMapValueRef D rec f (msgType id false) t.code (v ++ rest) d
        = lenThen t.code (v ++ rest) (fun fb => rec (d - 1) fb (S id).zero id) := by
      rw [← hD.empty id]
      show decodeMapValueAt rec f (.struct id) _ _ (D id).empty d = _
      rw [mapValueAt_len _ _ hf]
      rfl
    rw [h]
    exact lenRec_noEof hrec hv hb (typed_zero hW id) _ hw

omit hD hW hrec in
theorem mapScalar_noEof (f : FieldDesc) (s : Scalar) {dd num : Nat} {t : WireType} {v rest : Bytes} (hv : IsValue dd num t v) (d : Int) :
    NoEof (decodeMapValueRef D rec f s.goType t.code (v ++ rest) d) := by
  have h : decodeMapValueRef D rec f s.goType t.code (v ++ rest) d
      = decodeValueAt D rec { f with tagType := f.valType } s.goType t.code (v ++ rest) .undef d := by
    rw [← mapValueAt_eq]; cases s <;> rfl
  rw [h]
  exact valueAt_noEof _ _ _ _ hv _ _ _

theorem decodePtr_noEof (n sl : Nat) (m : Option Nat) {sh : Shape} (hl : sh.legal = true) {dd num : Nat} {t : WireType} {v rest : Bytes}
    (hv : IsValue dd num t v) (hb : v.length ≤ N) (hw : t = .len → ∀ p, IsLen v p → WholeIn S sh p) {cur : Val}
    (hc : Shape.fresh sh ∨ ShapeTyped S sh cur) (d : Int) :
    NoEof (decodePtr D rec (descOf ⟨n, sl, m, sh⟩) t.code (v ++ rest) cur d) := by
  cases sh with
  | single s => rw [ptr_single]; exact valueAt_noEof _ _ _ _ hv _ _ _
  | optional s => rw [ptr_optional]; exact NoEof.bind (valueAt_noEof _ _ _ _ hv _ _ _) (fun _ _ => NoEof.ok _)
  | list s p =>
    cases p with
    | false =>
      rw [ptr_list]
      exact NoEof.bind (asSlice_noEof _) (fun _ _ => NoEof.bind (valueAt_noEof _ _ _ _ hv _ _ _) (fun _ _ => NoEof.ok _))
    | true =>
      have hp : s.packable = true := hl
      rw [ptr_packed _ _ _ _ _ _ _ _ _ _ hp]
      split
      · refine lenThen_noEof hv rest fun ht p h => ?_
        cases hw ht p h with
        | packed _ _ ys h =>
          rw [(packedCoder_ok hp p _).2 ⟨ys, rfl, h⟩]
          exact NoEof.ok _
      · exact NoEof.bind (asSlice_noEof _) (fun _ _ => NoEof.bind (valueAt_noEof _ _ _ _ hv _ _ _) (fun _ _ => NoEof.ok _))
  | msg id p =>
    have hw' : t = .len → ∀ p, IsLen v p → Whole S id p := by
      intro ht p h
      cases hw ht p h with | msg _ _ _ h => exact h
    cases p with
    | true =>
      rw [ptr_msgPtr, hD.empty]
      exact NoEof.bind (lenRec_noEof hrec hv hb (typed_zero hW id) _ hw') (fun _ _ => NoEof.ok _)
    | false =>
      have hc' : Typed S id cur := by
        rcases hc with hc | hc
        · exact hc.elim
        · cases hc with | msg _ _ _ h1 => cases h1 with | inline _ _ h1 => exact h1
      rw [ptr_msgInline]
      exact lenRec_noEof hrec hv hb hc' _ hw'
  | msgList id p =>
    have hw' : t = .len → ∀ p, IsLen v p → Whole S id p := by
      intro ht p h
      cases hw ht p h with | msgList _ _ _ h => exact h
    cases p with
    | true =>
      rw [ptr_msgListPtr, hD.empty]
      exact NoEof.bind (asSlice_noEof _) (fun _ _ =>
        NoEof.bind (lenRec_noEof hrec hv hb (typed_zero hW id) _ hw') (fun _ _ => NoEof.ok _))
    | false =>
      rw [ptr_msgListInline, hD.empty]
      exact NoEof.bind (asSlice_noEof _) (fun _ _ =>
        NoEof.bind (lenRec_noEof hrec hv hb (typed_zero hW id) _ hw') (fun _ _ => NoEof.ok _))
  | map k s =>
    rw [ptr_map]
    refine lenThen_noEof hv rest fun ht p h => ?_
    split
    · rename_i hfast
      cases hw ht p h with
      | map _ _ _ rs h1 h2 => exact mapFast_noEof (h1 hfast).1 (h1 hfast).2 h2 _
      | mapRead _ _ kb vb rest k y h1 h2 h3 => exact mapFast_read h1 h2 h3 _
    · rename_i hfast
      cases hw ht p h with
      | map _ _ _ rs h1 h2 =>
        refine mapPair_noEof (by rw [descOf_map]) h2 (fun r hr _ rest _ => ?_) _
        obtain ⟨_, dd, hv⟩ := h2.2 r hr
        exact mapScalar_noEof _ _ hv _
      | mapRead _ _ kb vb rest k y h1 h2 h3 => exact absurd h1 hfast
  | mapMsg k id p =>
    rw [ptr_mapMsg]
    refine lenThen_noEof hv rest fun ht q h => ?_
    have hlen := isLen_length h
    cases hw ht q h with
    | mapMsg _ _ _ _ rs h1 h2 =>
      refine mapPair_noEof (by rw [descOf_mapMsg]) h1 (fun r hr hn rest hl => ?_) _
      obtain ⟨_, dd, hv⟩ := h1.2 r hr
      exact mapMsg_noEof hD hW hrec (by rw [descOf_mapMsg]) id p hv (by omega) _ (h2 r hr hn)

theorem decodeField_noEof {f : Field} (hl : f.shape.legal = true)
    (hm : f.member ≠ none → (∃ s, f.shape = .single s) ∨ (∃ id p, f.shape = .msg id p)) {dd num : Nat} {t : WireType} {v rest : Bytes}
    (hv : IsValue dd num t v) (hb : v.length ≤ N) (hw : t = .len → ∀ p, IsLen v p → WholeIn S f.shape p) {cur : Val} (hc : FieldTyped S f cur)
    (d : Int) : NoEof (decodeField D rec (descOf f) t.code (v ++ rest) cur d) := by
  cases hf : f.member with
  | none =>
    have ho : (descOf f).oneof = none := by rw [descOf_oneof, hf]
    unfold decodeField
    rw [ho]
    exact decodePtr_noEof hD hW hrec f.num f.slot f.member hl hv hb hw (.inr (typed_plain hf hc)) d
  | some w =>
    have ho : (descOf f).oneof = some w := by rw [descOf_oneof, hf]
    obtain ⟨o, rfl⟩ := typed_member hf hc
    unfold decodeField
    rw [ho]
    refine NoEof.bind (decodePtr_noEof hD hW hrec f.num f.slot f.member hl hv hb hw ?_ d) fun _ _ => NoEof.ok _
    rcases member_start hD (hm (by rw [hf]; nofun)) with h | h
    · exact .inl h
    · refine .inr ?_
      rw [h]
      exact shapeTyped_zero hW _

/-- The loop over the records. -/
theorem decodeLoop_noEof (hok : DecOK S rec N) (id : Nat) (d : Int) : ∀ (rs : List Rec) (fuel : Nat) (b : Bytes) (xs : List Val) (last : Option FieldDesc),
    LastOK S id last → b.length ≤ fuel → b.length ≤ N → Typed S id (.struct xs) → Splits b rs →
    (∀ r ∈ rs, ∀ f ∈ (S id).fields, f.num = r.num → r.typ = .len → ∀ p, IsLen r.val p → WholeIn S f.shape p) →
    NoEof (decodeLoop D rec (D id) d fuel b xs last) := by
  intro rs
  induction rs with
  | nil =>
    intro fuel b xs last _ _ _ _ hs _
    rw [hs.1]
    cases fuel <;> exact NoEof.ok _
  | cons r rs ih =>
    intro fuel b xs last hlast hf hN ht hs hw
    have hr := hs.2 r (by simp)
    have hpos := rec_pos hr
    have hlen : b.length = r.raw.length + (rawOf rs).length := by rw [hs.1, rawOf_cons, List.length_append]
    have hb : b = r.key ++ (r.val ++ rawOf rs) := by rw [hs.1, rawOf_cons, Rec.raw, List.append_assoc]
    obtain ⟨k1, k2, k3⟩ := decodeRecord_ok hD hW hok hlast hN ht d
    have hstep : NoEof (decodeRecord D rec (D id) d b xs last) := by
      obtain ⟨hk, dd, hv⟩ := hr
      have hT := consumeTag_isKey hk (r.val ++ rawOf rs)
      have hkp := IsKey.length_pos hk
      rw [hb]
      cases hfind : (S id).fields.find? (fun f => f.num == r.num) with
      | none =>
        rw [record_unknown hD hW hlast hk.2.2 hT ht d hfind]
        refine NoEof.bind ?_ fun _ _ => NoEof.ok _
        rcases skip_whole hv (rawOf rs) with h | h
        · rw [h]; exact NoEof.err nofun
        · rw [h]; exact NoEof.ok _
      | some f =>
        have hf := List.mem_of_find?_eq_some hfind
        have hfn : f.num = r.num := by simpa using List.find?_some hfind
        obtain ⟨x, hx, hft⟩ := typed_slot hW ht hf
        rw [record_field hD hW hlast hk.2.2 hT d hfind hx]
        refine NoEof.bind (decodeField_noEof hD hW hrec ((hW id).legal f hf) ((hW id).members f hf) hv ?_ (hw r (by simp) f hf hfn) hft d) fun _ _ => NoEof.ok _
        rw [hb] at hN
        simp only [List.length_append] at hN
        omega
    cases fuel with
    | zero => omega
    | succ fuel =>
      cases hbb : b with
      | nil => rw [hbb, List.length_nil] at hlen; omega
      | cons c b' =>
        rw [← hbb]
        have e : decodeLoop D rec (D id) d (fuel + 1) b xs last = (decodeRecord D rec (D id) d b xs last >>= fun x => decodeLoop D rec (D id) d fuel (b.drop x.2.1) x.1 x.2.2) := by
          rw [hbb]; rfl
        rw [e]
        refine NoEof.bind hstep ?_
        rintro ⟨ys, n, l⟩ h
        obtain ⟨r', rest, e1, rfl, h1⟩ := (k1 ys n).1 ⟨l, h⟩
        have hty := recStep_typed hW h1 ht
        have hn : r' = r.raw ∧ rest = rawOf rs := by
          have e2 := hs.1
          rw [rawOf_cons, e1] at e2
          cases h1 with
          | unknown num t k v _ g1 g2 g3 =>
            obtain ⟨g, g'⟩ := rec_unique (r := ⟨num, t, k, v⟩) ⟨g1, _, g3⟩ hr e2
            exact ⟨by rw [← g]; rfl, g'⟩
          | field f t k v _ x y g1 g2 g3 g4 =>
            obtain ⟨g, g'⟩ := rec_unique (r := ⟨f.num, t, k, v⟩) ⟨g2, _, decField_isValue g4⟩ hr e2
            exact ⟨by rw [← g]; rfl, g'⟩
        obtain ⟨rfl, rfl⟩ := hn
        have e3 : b.drop r.raw.length = rawOf rs := by rw [e1, List.drop_left]
        dsimp only
        rw [e3]
        exact ih fuel _ ys l (k2 _ _ _ h) (by omega) (by omega) hty ⟨rfl, fun r hr => hs.2 r (by simp [hr])⟩ fun r hr => hw r (by simp [hr])

end

/-- Messages. -/
theorem decodeStruct_noEof {D : Descs} {S : Schema} (hD : DescOK D S) (hW : S.WF) : ∀ fuel, RecWhole S (decodeStruct D fuel) fuel := by
  intro fuel
  induction fuel with
  | zero => intro d b v id hb; omega
  | succ fuel ih =>
    intro d b v id hb ht hw
    by_cases hd : d = 0
    · subst hd
      rw [Trunc.struct_zero]
      exact NoEof.err nofun
    · have ht0 := ht
      cases ht with
      | mk _ xs h1 h2 h3 =>
        cases hw with
        | mk _ _ rs hs hw =>
          have hr := reset_eq hD hW ht0
          rw [decodeStruct_succ hd hr]
          refine NoEof.bind ?_ fun _ _ => NoEof.ok _
          exact decodeLoop_noEof hD hW ih (decodeStruct_ok hD hW fuel) id d rs b.length b _ none lastOK_none (Nat.le_refl _) (by omega) (typed_clear (hW id) ht0) hs hw

end Verif.Lemmas.Whole
