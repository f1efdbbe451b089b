import Verif.Lemmas.Skip
import Verif.Lemmas.Fixed
import Verif.Model.Api
/-! Helper lemmas: what the decoder does on `p` and on `p ++ q` (it reads from the left and looks no
further than it must), and that the fuel of the nested calls does not matter. -/
namespace Verif.Lemmas.Trunc
open Verif.Model Verif.Spec Verif.Lemmas

/-! ### parsing errors -/

theorem cvStage_extend (q : Bytes) (j : Nat) : ∀ (v : BitVec 64) (p : Bytes),
    cvStage j v p ≠ .error .truncated → cvStage j v (p ++ q) = cvStage j v p := by
  induction j with
  | zero =>
    intro v p h
    cases p with
    | nil => exact absurd rfl h
    | cons c p => rfl
  | succ j ih =>
    intro v p h
    cases p with
    | nil => exact absurd rfl h
    | cons c p =>
      simp only [cvStage, cvStanza, List.cons_append] at h ⊢
      split
      · rfl
      · rename_i hy
        rw [if_neg hy] at h
        exact ih _ _ h

theorem consumeVarint_extend (q : Bytes) {p : Bytes} (h : consumeVarint p ≠ .error .truncated) :
    consumeVarint (p ++ q) = consumeVarint p := by
  rw [consumeVarint_eq_stage] at h ⊢
  rw [consumeVarint_eq_stage]
  exact cvStage_extend q 9 _ p h

theorem consumeFixed32_extend (q : Bytes) {p : Bytes} (h : consumeFixed32 p ≠ .error .truncated) :
    consumeFixed32 (p ++ q) = consumeFixed32 p := by
  rw [consumeFixed32_eq] at h ⊢
  rw [consumeFixed32_eq]
  split at h
  · exact absurd rfl h
  · rename_i hl
    rw [if_neg (by simp; omega), if_neg hl, List.take_append_of_le_length (by omega)]

theorem consumeFixed64_extend (q : Bytes) {p : Bytes} (h : consumeFixed64 p ≠ .error .truncated) :
    consumeFixed64 (p ++ q) = consumeFixed64 p := by
  rw [consumeFixed64_eq] at h ⊢
  rw [consumeFixed64_eq]
  split at h
  · exact absurd rfl h
  · rename_i hl
    rw [if_neg (by simp; omega), if_neg hl, List.take_append_of_le_length (by omega)]

theorem consumeTag_extend (q : Bytes) {p : Bytes} (h : consumeTag p ≠ .error .truncated) :
    consumeTag (p ++ q) = consumeTag p := by
  unfold consumeTag at h ⊢
  by_cases hv : consumeVarint p = .error .truncated
  · rw [hv] at h; exact absurd rfl h
  · rw [consumeVarint_extend q hv]

theorem consumeBytes_len {b fb : Bytes} {n : Nat} (h : consumeBytes b = .ok (fb, n)) :
    fb.length < n ∧ n ≤ b.length := by
  obtain ⟨pre, post, h1, ⟨l, h2, h3⟩, h4⟩ := consumeBytes_sound_isLen h
  have := IsVarint.length_pos h2.1
  subst h1 h3 h4
  simp only [List.length_append]
  omega

theorem consumeBytes_extend (q : Bytes) {p : Bytes} (h : consumeBytes p ≠ .error .truncated) :
    consumeBytes (p ++ q) = consumeBytes p := by
  unfold consumeBytes at h ⊢
  by_cases hv : consumeVarint p = .error .truncated
  · rw [hv] at h; exact absurd rfl h
  · rw [consumeVarint_extend q hv]
    cases hc : consumeVarint p with
    | error e => rfl
    | ok r =>
      obtain ⟨m, n⟩ := r
      have hn := (consumeVarint_len hc).2
      rw [hc] at h
      simp only [bind, Except.bind] at h ⊢
      split at h
      · exact absurd rfl h
      · rename_i hl
        rw [List.drop_append_of_le_length hn, if_neg hl, if_neg (by simp at hl ⊢; omega),
          List.take_append_of_le_length (by omega)]

theorem groupLoop_le : ∀ (fuel : Nat) (num : Int) (n0 : Nat) (b : Bytes) (d : Int) {n : Nat},
    consumeGroupLoop fuel num n0 b d = .ok n → n ≤ n0 := by
  intro fuel
  induction fuel with
  | zero => intro num n0 b d n h; cases h
  | succ fuel ih =>
    intro num n0 b d n h
    unfold consumeGroupLoop at h
    simp only [bind, Except.bind] at h
    split at h
    · cases h
    · split at h
      · split at h
        · cases h
        · cases h; omega
      · split at h
        · cases h
        · exact ih _ _ _ _ h

theorem fieldValue_le {loop : Int → Bytes → Int → Except PErr Nat} {num : Int} {t : Nat} {b : Bytes}
    {d : Int} {n : Nat} (hl : ∀ n, loop num b d = .ok n → n ≤ b.length)
    (h : fieldValueWith loop num t b d = .ok n) : n ≤ b.length := by
  unfold fieldValueWith at h
  split at h
  · cases hc : consumeVarint b with
    | error e => rw [hc] at h; cases h
    | ok r =>
      obtain ⟨v, k⟩ := r
      rw [hc] at h; cases h
      exact (consumeVarint_len hc).2
  · rw [consumeFixed32_eq] at h
    split at h
    · cases h
    · cases h; simp only; omega
  · rw [consumeFixed64_eq] at h
    split at h
    · cases h
    · cases h; simp only; omega
  · cases hc : consumeBytes b with
    | error e => rw [hc] at h; cases h
    | ok r =>
      obtain ⟨v, k⟩ := r
      rw [hc] at h; cases h
      exact (consumeBytes_len hc).2
  · split at h
    · cases h
    · exact hl _ h
  · cases h
  · cases h

theorem map_extend {α β : Type} {f : α → β} {r r' : Except PErr α}
    (h : r ≠ .error .truncated → r' = r) (hm : r.map f ≠ .error .truncated) : r'.map f = r.map f := by
  rw [h]
  intro e
  subst e
  exact hm rfl

theorem fieldValue_extend (q : Bytes) {loop loop' : Int → Bytes → Int → Except PErr Nat} {num : Int} {t : Nat}
    {p : Bytes} {d : Int} (hl : loop num p d ≠ .error .truncated → loop' num (p ++ q) d = loop num p d)
    (h : fieldValueWith loop num t p d ≠ .error .truncated) :
    fieldValueWith loop' num t (p ++ q) d = fieldValueWith loop num t p d := by
  unfold fieldValueWith at h ⊢
  split at h
  · exact map_extend (consumeVarint_extend q) h
  · exact map_extend (consumeFixed32_extend q) h
  · exact map_extend (consumeFixed64_extend q) h
  · exact map_extend (consumeBytes_extend q) h
  · split at h
    · rename_i hd; rw [if_pos hd, if_pos hd]
    · rename_i hd; rw [if_neg hd, if_neg hd]; exact hl h
  · rfl
  · rfl

theorem consumeTag_len {b : Bytes} {num : Int} {t n : Nat} (h : consumeTag b = .ok (num, t, n)) :
    1 ≤ n ∧ n ≤ b.length := by
  unfold consumeTag at h
  cases hc : consumeVarint b with
  | error e => rw [hc] at h; cases h
  | ok r =>
    obtain ⟨v, k⟩ := r
    rw [hc] at h
    simp only [bind, Except.bind] at h
    split at h
    · cases h
    · cases h
      exact consumeVarint_len hc

theorem groupLoop_extend (q : Bytes) : ∀ (fuel fuel' : Nat) (num : Int) (n0 : Nat) (p : Bytes) (d : Int),
    (p ++ q).length < fuel' → consumeGroupLoop fuel num n0 p d ≠ .error .truncated →
    consumeGroupLoop fuel' num (n0 + q.length) (p ++ q) d = consumeGroupLoop fuel num n0 p d := by
  intro fuel
  induction fuel with
  | zero => intro fuel' num n0 p d _ h; exact absurd rfl h
  | succ fuel ih =>
    intro fuel' num n0 p d hf h
    cases fuel' with
    | zero => omega
    | succ fuel' =>
      unfold consumeGroupLoop at h ⊢
      by_cases ht : consumeTag p = .error .truncated
      · rw [ht] at h; exact absurd rfl h
      · rw [consumeTag_extend q ht]
        cases hc : consumeTag p with
        | error e => rfl
        | ok r =>
          obtain ⟨num2, t2, n⟩ := r
          obtain ⟨hn1, hn⟩ := consumeTag_len hc
          rw [hc] at h
          simp only [bind, Except.bind] at h ⊢
          rw [List.drop_append_of_le_length hn]
          split at h
          · rename_i he
            rw [if_pos he, if_pos he]
            split
            · rfl
            · simp only [List.length_append, Nat.add_sub_add_right]
          · rename_i he
            rw [if_neg he, if_neg he]
            have hlen : (p.drop n ++ q).length < fuel' := by
              simp only [List.length_append, List.length_drop] at hf ⊢; omega
            have hfv := fieldValue_extend q
              (loop := fun num b depth => consumeGroupLoop fuel num b.length b depth)
              (loop' := fun num b depth => consumeGroupLoop fuel' num b.length b depth)
              (num := num2) (t := t2) (p := p.drop n) (d := d - 1) (by
                intro hl
                simp only [List.length_append] at hl ⊢
                exact ih fuel' num2 _ _ _ hlen hl)
            cases hv : fieldValueWith (fun num b depth => consumeGroupLoop fuel num b.length b depth) num2 t2
                (p.drop n) (d - 1) with
            | error e =>
              rw [hv] at h hfv
              rw [hfv h]
            | ok m =>
              rw [hv] at h hfv
              rw [hfv (by simp)]
              have hm := fieldValue_le (fun n hl => groupLoop_le fuel _ _ _ _ hl) hv
              simp only at h ⊢
              rw [List.drop_append_of_le_length hm]
              exact ih fuel' num n0 _ d (by
                simp only [List.length_append, List.length_drop] at hf ⊢; omega) h

theorem consumeFieldValue_extend (q : Bytes) {num : Int} {t : Nat} {p : Bytes}
    (h : consumeFieldValue num t p ≠ .error .truncated) :
    consumeFieldValue num t (p ++ q) = consumeFieldValue num t p := by
  unfold consumeFieldValue consumeFieldValueD at h ⊢
  refine fieldValue_extend q ?_ h
  intro hl
  simp only [List.length_append] at hl ⊢
  exact groupLoop_extend q _ _ num _ p _ (by simp) hl

theorem consumeFieldValue_le {num : Int} {t : Nat} {b : Bytes} {n : Nat} (h : consumeFieldValue num t b = .ok n) :
    n ≤ b.length := by
  unfold consumeFieldValue consumeFieldValueD at h
  exact fieldValue_le (fun n hl => groupLoop_le _ _ _ _ _ hl) h

/-! ### results -/

/-- The result on an input, and the result on that input followed by `q`: the same, unless the input
ends too early. -/
def Ext {α : Type} (q : Bytes) (r r' : Res α) : Prop := r' = r ∨ (q ≠ [] ∧ r = .error (.parse .truncated))

theorem Ext.rfl {α : Type} {q : Bytes} {r : Res α} : Ext q r r := .inl _root_.rfl

theorem Ext.of_eq {α : Type} {q : Bytes} {r r' : Res α} (h : r' = r) : Ext q r r' := .inl h

theorem Ext.bind {α β : Type} {q : Bytes} {r r' : Res α} {k k' : α → Res β} (h : Ext q r r')
    (hk : ∀ a, r = .ok a → Ext q (k a) (k' a)) : Ext q (r >>= k) (r' >>= k') := by
  rcases h with h | ⟨hq, h⟩
  · rw [h]
    cases hr : r with
    | error e => exact .inl _root_.rfl
    | ok a => exact hk a hr
  · rw [h]; exact .inr ⟨hq, _root_.rfl⟩

theorem liftP_ext {α : Type} (q : Bytes) {f : Bytes → Except PErr α} {p : Bytes}
    (h : f p ≠ .error .truncated → f (p ++ q) = f p) : Ext q (liftP (f p)) (liftP (f (p ++ q))) := by
  by_cases hq : q = []
  · subst hq
    rw [List.append_nil]
    exact .rfl
  · by_cases ht : f p = .error .truncated
    · rw [ht]; exact .inr ⟨hq, _root_.rfl⟩
    · rw [h ht]; exact .rfl

theorem liftP_okk {α : Type} {r : Except PErr α} {a : α} (h : liftP r = .ok a) : r = .ok a := by
  cases r with
  | error e => cases h
  | ok x => cases h; rfl

/-- The two nested decoders agree on inputs shorter than `M`. -/
def RecEq (M : Nat) (rec rec' : DecRec) : Prop := ∀ d b v id, b.length < M → rec' d b v id = rec d b v id

theorem varintAt_ext (q : Bytes) (tag : TagType) (k : Kind) (p : Bytes) (cur : Val) :
    Ext q (decodeVarintAt tag k p cur) (decodeVarintAt tag k (p ++ q) cur) := by
  unfold decodeVarintAt
  split
  case' h_4 => exact .rfl
  all_goals exact (liftP_ext q (consumeVarint_extend q)).bind fun a _ => .rfl

theorem fixed32At_ext (q : Bytes) (tag : TagType) (k : Kind) (p : Bytes) (cur : Val) :
    Ext q (decodeFixed32At tag k p cur) (decodeFixed32At tag k (p ++ q) cur) := by
  unfold decodeFixed32At
  split
  · exact (liftP_ext q (consumeFixed32_extend q)).bind fun a _ => .rfl
  · exact .rfl

theorem fixed64At_ext (q : Bytes) (tag : TagType) (k : Kind) (p : Bytes) (cur : Val) :
    Ext q (decodeFixed64At tag k p cur) (decodeFixed64At tag k (p ++ q) cur) := by
  unfold decodeFixed64At
  split
  · exact (liftP_ext q (consumeFixed64_extend q)).bind fun a _ => .rfl
  · exact .rfl

section
variable {D : Descs} {rec rec' : DecRec} {M : Nat}

theorem mapValueAt_congr (hr : RecEq M rec rec') (f : FieldDesc) (t : GoType) (typ : WType) (b : Bytes) (cur : Val)
    (d : Int) (hb : b.length ≤ M) : decodeMapValueAt rec' f t typ b cur d = decodeMapValueAt rec f t typ b cur d := by
  unfold decodeMapValueAt
  split
  · rfl
  · rfl
  · rfl
  · cases hc : consumeBytes b with
    | error e => rfl
    | ok r =>
      obtain ⟨fb, n⟩ := r
      obtain ⟨h1, h2⟩ := consumeBytes_len hc
      simp only [liftP, bind, Except.bind]
      have : decodeMapValueLen rec' t fb cur d = decodeMapValueLen rec t fb cur d := by
        unfold decodeMapValueLen
        split
        · rfl
        · rfl
        · exact hr _ _ _ _ (by omega)
        · rfl
      rw [this]
  · rfl

theorem mapPair_congr (hr : RecEq M rec rec') (f : FieldDesc) (kt vt : GoType) (b : Bytes) (cur : Val) (d : Int)
    (hb : b.length ≤ M) : decodeMapPair D rec' f kt vt b cur d = decodeMapPair D rec f kt vt b cur d := by
  unfold decodeMapPair
  have : ∀ n, decodeMapValue D rec' f vt (b.drop n) d = decodeMapValue D rec f vt (b.drop n) d := by
    intro n
    unfold decodeMapValue
    split
    · rfl
    · split
      · rfl
      · have hb' : ((b.drop n).drop 1).length ≤ M := by simp only [List.length_drop]; omega
        have : ∀ typ, decodeMapValueRef D rec' f vt typ ((b.drop n).drop 1) d =
            decodeMapValueRef D rec f vt typ ((b.drop n).drop 1) d := by
          intro typ
          unfold decodeMapValueRef
          split
          · rw [mapValueAt_congr hr _ _ _ _ _ _ hb']
          · exact mapValueAt_congr hr _ _ _ _ _ _ hb'
        rw [this]
  simp only [this]

theorem lenAt_congr (hr : RecEq M rec rec') (f : FieldDesc) (t : GoType) (fb : Bytes) (cur : Val) (d : Int)
    (hb : fb.length < M) : decodeLenAt D rec' f t fb cur d = decodeLenAt D rec f t fb cur d := by
  unfold decodeLenAt
  split
  · rfl
  · rfl
  · split
    · rfl
    · split
      · exact mapPair_congr hr _ _ _ _ _ _ (by omega)
      · rfl
  · exact hr _ _ _ _ hb
  · rfl

theorem valueAt_ext (hr : RecEq M rec rec') (q : Bytes) (f : FieldDesc) (t : GoType) (typ : WType) (p : Bytes)
    (cur : Val) (d : Int) (hp : p.length ≤ M) :
    Ext q (decodeValueAt D rec f t typ p cur d) (decodeValueAt D rec' f t typ (p ++ q) cur d) := by
  unfold decodeValueAt
  split
  · exact varintAt_ext q _ _ _ _
  · exact fixed32At_ext q _ _ _ _
  · exact fixed64At_ext q _ _ _ _
  · refine (liftP_ext q (consumeBytes_extend q)).bind ?_
    rintro ⟨fb, n⟩ h
    obtain ⟨h1, h2⟩ := consumeBytes_len (liftP_okk h)
    simp only
    rw [lenAt_congr hr _ _ _ _ _ (by omega)]
    exact .rfl
  · exact .rfl

theorem elem_ext (hr : RecEq M rec rec') (q : Bytes) (f : FieldDesc) (t : GoType) (typ : WType) (p : Bytes)
    (d : Int) (hp : p.length ≤ M) :
    Ext q (decodeElem D rec f t typ p d) (decodeElem D rec' f t typ (p ++ q) d) := by
  unfold decodeElem
  split
  · exact (valueAt_ext hr q _ _ _ _ _ _ hp).bind fun a _ => .rfl
  · exact valueAt_ext hr q _ _ _ _ _ _ hp

theorem rep_ext (hr : RecEq M rec rec') (q : Bytes) (f : FieldDesc) (t : GoType) (typ : WType) (p : Bytes)
    (cur : Val) (d : Int) (hp : p.length ≤ M) :
    Ext q (decodeRep D rec f t typ p cur d) (decodeRep D rec' f t typ (p ++ q) cur d) := by
  unfold decodeRep
  split
  · split
    · split
      · exact .rfl
      · exact (liftP_ext q (consumeBytes_extend q)).bind fun a _ => .rfl
    · exact Ext.rfl.bind fun xs _ => (elem_ext hr q _ _ _ _ _ hp).bind fun a _ => .rfl
  · exact valueAt_ext hr q _ _ _ _ _ _ hp

theorem ptr_ext (hr : RecEq M rec rec') (q : Bytes) (f : FieldDesc) (typ : WType) (p : Bytes)
    (cur : Val) (d : Int) (hp : p.length ≤ M) :
    Ext q (decodePtr D rec f typ p cur d) (decodePtr D rec' f typ (p ++ q) cur d) := by
  unfold decodePtr
  split
  · exact (rep_ext hr q _ _ _ _ _ _ hp).bind fun a _ => .rfl
  · exact rep_ext hr q _ _ _ _ _ _ hp

theorem field_ext (hr : RecEq M rec rec') (q : Bytes) (f : FieldDesc) (typ : WType) (p : Bytes)
    (cur : Val) (d : Int) (hp : p.length ≤ M) :
    Ext q (decodeField D rec f typ p cur d) (decodeField D rec' f typ (p ++ q) cur d) := by
  unfold decodeField
  split
  · split
    · exact (ptr_ext hr q _ _ _ _ _ hp).bind fun a _ => .rfl
    · exact .rfl
  · exact ptr_ext hr q _ _ _ _ _ hp

end

/-! ### how much is consumed -/

theorem bindOkk {α β : Type} {r : Res α} {k : α → Res β} {b : β} (h : r >>= k = .ok b) :
    ∃ a, r = .ok a ∧ k a = .ok b := by
  cases r with
  | error e => cases h
  | ok a => exact ⟨a, rfl, h⟩

theorem varintAt_le {tag : TagType} {k : Kind} {b : Bytes} {cur v : Val} {n : Nat}
    (h : decodeVarintAt tag k b cur = .ok (v, n)) : n ≤ b.length := by
  unfold decodeVarintAt at h
  split at h
  case' h_4 => cases h
  all_goals
    obtain ⟨⟨u, m⟩, h1, h2⟩ := bindOkk h
    cases h2
    exact (consumeVarint_len (liftP_okk h1)).2

theorem fixed32At_le {tag : TagType} {k : Kind} {b : Bytes} {cur v : Val} {n : Nat}
    (h : decodeFixed32At tag k b cur = .ok (v, n)) : n ≤ b.length := by
  unfold decodeFixed32At at h
  split at h
  · obtain ⟨⟨u, m⟩, h1, h2⟩ := bindOkk h
    cases h2
    have h3 := liftP_okk h1
    rw [consumeFixed32_eq] at h3
    split at h3
    · cases h3
    · cases h3; omega
  · cases h

theorem fixed64At_le {tag : TagType} {k : Kind} {b : Bytes} {cur v : Val} {n : Nat}
    (h : decodeFixed64At tag k b cur = .ok (v, n)) : n ≤ b.length := by
  unfold decodeFixed64At at h
  split at h
  · obtain ⟨⟨u, m⟩, h1, h2⟩ := bindOkk h
    cases h2
    have h3 := liftP_okk h1
    rw [consumeFixed64_eq] at h3
    split at h3
    · cases h3
    · cases h3; omega
  · cases h

section
variable {D : Descs} {rec : DecRec}

theorem valueAt_le {f : FieldDesc} {t : GoType} {typ : WType} {b : Bytes} {cur v : Val} {d : Int} {n : Nat}
    (h : decodeValueAt D rec f t typ b cur d = .ok (v, n)) : n ≤ b.length := by
  unfold decodeValueAt at h
  split at h
  · exact varintAt_le h
  · exact fixed32At_le h
  · exact fixed64At_le h
  · obtain ⟨⟨fb, m⟩, h1, h2⟩ := bindOkk h
    obtain ⟨x, _, h3⟩ := bindOkk h2
    cases h3
    exact (consumeBytes_len (liftP_okk h1)).2
  · cases h

theorem elem_le {f : FieldDesc} {t : GoType} {typ : WType} {b : Bytes} {v : Val} {d : Int} {n : Nat}
    (h : decodeElem D rec f t typ b d = .ok (v, n)) : n ≤ b.length := by
  unfold decodeElem at h
  split at h
  · obtain ⟨⟨x, m⟩, h1, h2⟩ := bindOkk h
    cases h2
    exact valueAt_le h1
  · exact valueAt_le h

theorem rep_le {f : FieldDesc} {t : GoType} {typ : WType} {b : Bytes} {cur v : Val} {d : Int} {n : Nat}
    (h : decodeRep D rec f t typ b cur d = .ok (v, n)) : n ≤ b.length := by
  unfold decodeRep at h
  split at h
  · split at h
    · split at h
      · cases h
      · obtain ⟨⟨fb, m⟩, h1, h2⟩ := bindOkk h
        obtain ⟨x, _, h3⟩ := bindOkk h2
        cases h3
        exact (consumeBytes_len (liftP_okk h1)).2
    · obtain ⟨xs, _, h2⟩ := bindOkk h
      obtain ⟨⟨x, m⟩, h3, h4⟩ := bindOkk h2
      cases h4
      exact elem_le h3
  · exact valueAt_le h

theorem ptr_le {f : FieldDesc} {typ : WType} {b : Bytes} {cur v : Val} {d : Int} {n : Nat}
    (h : decodePtr D rec f typ b cur d = .ok (v, n)) : n ≤ b.length := by
  unfold decodePtr at h
  split at h
  · obtain ⟨⟨x, m⟩, h1, h2⟩ := bindOkk h
    cases h2
    exact rep_le h1
  · exact rep_le h

theorem field_le {f : FieldDesc} {typ : WType} {b : Bytes} {cur v : Val} {d : Int} {n : Nat}
    (h : decodeField D rec f typ b cur d = .ok (v, n)) : n ≤ b.length := by
  unfold decodeField at h
  split at h
  · split at h
    · obtain ⟨⟨x, m⟩, h1, h2⟩ := bindOkk h
      cases h2
      exact ptr_le h1
    · cases h
  · exact ptr_le h

theorem record_le {s : StructDesc} {d : Int} {b : Bytes} {fs fs' : List Val} {last last' : Option FieldDesc} {n : Nat}
    (h : decodeRecord D rec s d b fs last = .ok (fs', n, last')) : 1 ≤ n ∧ n ≤ b.length := by
  unfold decodeRecord at h
  obtain ⟨⟨num, typ, k⟩, h1, h2⟩ := bindOkk h
  obtain ⟨hk1, hk2⟩ := consumeTag_len (liftP_okk h1)
  simp only at h2
  split at h2
  · obtain ⟨m, h3, h4⟩ := bindOkk h2
    obtain ⟨x, _, h5⟩ := bindOkk h4
    cases h5
    have := consumeFieldValue_le (liftP_okk h3)
    simp only [List.length_drop] at this
    omega
  · split at h2
    · cases h2
    · obtain ⟨⟨x, m⟩, h3, h4⟩ := bindOkk h2
      cases h4
      have := field_le h3
      simp only [List.length_drop] at this
      omega

end

/-! ### records and messages -/

section
variable {D : Descs} {rec rec' : DecRec} {M : Nat}

theorem record_ext (hr : RecEq M rec rec') (q : Bytes) (s : StructDesc) (d : Int) (p : Bytes) (fs : List Val)
    (last : Option FieldDesc) (hp : p.length ≤ M) :
    Ext q (decodeRecord D rec s d p fs last) (decodeRecord D rec' s d (p ++ q) fs last) := by
  unfold decodeRecord
  refine (liftP_ext q (consumeTag_extend q)).bind ?_
  rintro ⟨num, typ, n⟩ h
  obtain ⟨h1, h2⟩ := consumeTag_len (liftP_okk h)
  simp only [List.drop_append_of_le_length h2]
  split
  · refine (liftP_ext q (f := consumeFieldValue num typ) (p := p.drop n) (consumeFieldValue_extend q)).bind ?_
    intro m hm
    have := consumeFieldValue_le (liftP_okk hm)
    simp only [List.length_drop] at this
    rw [List.take_append_of_le_length (by omega)]
    exact .rfl
  · split
    · exact .rfl
    · exact (field_ext hr q _ _ _ _ _ (by simp only [List.length_drop]; omega)).bind fun a _ => .rfl

/-- The loop on an input and on the input followed by `q`. -/
theorem loop_ext (hr : RecEq M rec rec') (q : Bytes) (s : StructDesc) (d : Int) :
    ∀ (fuel fuel' : Nat) (p : Bytes) (fs : List Val) (last : Option FieldDesc), p.length ≤ M → p.length ≤ fuel →
      (p ++ q).length ≤ fuel' →
      (∃ fs' last' k, q.length ≤ k ∧ decodeLoop D rec s d fuel p fs last = .ok fs' ∧
        decodeLoop D rec' s d fuel' (p ++ q) fs last = decodeLoop D rec' s d k q fs' last') ∨
      (∃ e, decodeLoop D rec s d fuel p fs last = .error e ∧
        decodeLoop D rec' s d fuel' (p ++ q) fs last = .error e) ∨
      (q ≠ [] ∧ decodeLoop D rec s d fuel p fs last = .error (.parse .truncated)) := by
  intro fuel
  induction fuel with
  | zero =>
    intro fuel' p fs last _ hf hf'
    have : p = [] := List.length_eq_zero_iff.1 (by omega)
    subst this
    exact .inl ⟨fs, last, fuel', hf', by simp [decodeLoop], rfl⟩
  | succ fuel ih =>
    intro fuel' p fs last hM hf hf'
    cases p with
    | nil => exact .inl ⟨fs, last, fuel', hf', by simp [decodeLoop], rfl⟩
    | cons c p =>
      cases fuel' with
      | zero => simp at hf'
      | succ fuel' =>
        simp only [List.cons_append, decodeLoop]
        rw [show c :: (p ++ q) = c :: p ++ q from rfl]
        rcases record_ext (D := D) hr q s d (c :: p) fs last hM with h | ⟨hq, h⟩
        · rw [h]
          cases hc : decodeRecord D rec s d (c :: p) fs last with
          | error e => exact .inr (.inl ⟨e, rfl, rfl⟩)
          | ok r =>
            obtain ⟨fs', n, last'⟩ := r
            obtain ⟨h1, h2⟩ := record_le hc
            simp only [bind, Except.bind]
            rw [List.drop_append_of_le_length h2]
            have h3 : ((c :: p).drop n).length + n = (c :: p).length := by
              simp only [List.length_drop]; omega
            refine ih fuel' _ fs' last' (by omega) (by omega) ?_
            simp only [List.length_append] at hf' ⊢
            omega
        · rw [h]
          exact .inr (.inr ⟨hq, rfl⟩)

end

theorem struct_zero (D : Descs) (f : Nat) (b : Bytes) (v : Val) (id : Nat) :
    decodeStruct D (f + 1) 0 b v id = .error .maxDepth := by
  cases v <;> rfl

theorem struct_fields (D : Descs) (f : Nat) {d : Int} (hd : d ≠ 0) (b : Bytes) (fs : List Val) (id : Nat) :
    decodeStruct D (f + 1) d b (.struct fs) id =
      (resetUnknown (D id) fs >>= fun fs => decodeLoop D (decodeStruct D f) (D id) d b.length b fs none >>= fun fs =>
        pure (.struct fs)) := by
  rw [decodeStruct, if_neg hd]

theorem struct_other (D : Descs) (f : Nat) {d : Int} (hd : d ≠ 0) (b : Bytes) {v : Val} (id : Nat)
    (hv : ∀ fs, v ≠ .struct fs) : decodeStruct D (f + 1) d b v id = .error .ub := by
  rw [decodeStruct, if_neg hd]
  exact hv

theorem loop_nil (D : Descs) (rec : DecRec) (s : StructDesc) (d : Int) (k : Nat) (fs : List Val)
    (last : Option FieldDesc) : decodeLoop D rec s d k [] fs last = .ok fs := by
  cases k <;> rfl

/-- The fuel does not matter, as long as it is more than the length of the input. -/
theorem decodeStruct_fuel (D : Descs) : ∀ (f f' : Nat) (d : Int) (b : Bytes) (v : Val) (id : Nat),
    b.length < f → b.length < f' → decodeStruct D f' d b v id = decodeStruct D f d b v id := by
  intro f
  induction f with
  | zero => intro f' d b v id h; omega
  | succ f ih =>
    intro f' d b v id h h'
    cases f' with
    | zero => omega
    | succ f' =>
      by_cases hd : d = 0
      · rw [hd, struct_zero, struct_zero]
      · by_cases hv : ∃ fs, v = .struct fs
        · obtain ⟨fs, rfl⟩ := hv
          rw [struct_fields D f hd, struct_fields D f' hd]
          refine congrArg (resetUnknown (D id) fs >>= ·) (funext fun fs => ?_)
          have hre : RecEq b.length (decodeStruct D f) (decodeStruct D f') := by
            intro d b' v id hb
            exact ih f' d b' v id (by omega) (by omega)
          have := loop_ext (D := D) hre [] (D id) d b.length b.length b fs none (Nat.le_refl _)
            (Nat.le_refl _) (by simp)
          rw [List.append_nil] at this
          rcases this with ⟨fs', last', k, _, h1, h2⟩ | ⟨e, h1, h2⟩ | ⟨hq, _⟩
          · rw [h1, h2, loop_nil]
          · rw [h1, h2]
          · exact absurd rfl hq
        · have hv' : ∀ fs, v ≠ .struct fs := fun fs e => hv ⟨fs, e⟩
          rw [struct_other D f hd b id hv', struct_other D f' hd b id hv']

/-- A message and the message followed by more bytes. -/
theorem struct_ext (D : Descs) (p q : Bytes) (d : Int) (v : Val) (id : Nat) :
    (∃ w, decodeStruct D (p.length + 1) d p v id = .ok w) ∨
    (∃ e, decodeStruct D (p.length + 1) d p v id = .error e ∧
      decodeStruct D ((p ++ q).length + 1) d (p ++ q) v id = .error e) ∨
    decodeStruct D (p.length + 1) d p v id = .error (.parse .truncated) := by
  by_cases hd : d = 0
  · rw [hd, struct_zero, struct_zero]
    exact .inr (.inl ⟨_, rfl, rfl⟩)
  · by_cases hv : ∃ fs, v = .struct fs
    · obtain ⟨fs, rfl⟩ := hv
      rw [struct_fields D _ hd, struct_fields D _ hd]
      cases hr : resetUnknown (D id) fs with
      | error e => exact .inr (.inl ⟨e, rfl, rfl⟩)
      | ok fs =>
        have hre : RecEq p.length (decodeStruct D p.length) (decodeStruct D (p ++ q).length) := by
          intro d b' v id hb
          exact decodeStruct_fuel D _ _ d b' v id hb (by simp only [List.length_append]; omega)
        simp only [bind, Except.bind]
        rcases loop_ext (D := D) hre q (D id) d p.length (p ++ q).length p fs none (Nat.le_refl _)
          (Nat.le_refl _) (Nat.le_refl _) with ⟨fs', last', k, _, h1, _⟩ | ⟨e, h1, h2⟩ | ⟨_, h1⟩
        · rw [h1]; exact .inl ⟨_, rfl⟩
        · rw [h1, h2]; exact .inr (.inl ⟨e, rfl, rfl⟩)
        · rw [h1]; exact .inr (.inr rfl)
    · have hv' : ∀ fs, v ≠ .struct fs := fun fs e => hv ⟨fs, e⟩
      rw [struct_other D _ hd p id hv', struct_other D _ hd _ id hv']
      exact .inr (.inl ⟨_, rfl, rfl⟩)

theorem unmarshal_some {env : GoEnv} {D : Descs} (h : parseDescs env = .ok D) (b : Bytes) (id : Nat) (v : Val) :
    unmarshal env b (.ptr id (some v)) = decodeStruct D (b.length + 1) defaultRecursionMaxDepth b v id := by
  simp only [unmarshal, h, bind, Except.bind]

theorem unmarshal_bad {env : GoEnv} {e : Fault} (h : parseDescs env = .error e) (b : Bytes) (id : Nat)
    (v : Option Val) : unmarshal env b (.ptr id v) = .error e := by
  simp only [unmarshal, h, bind, Except.bind]

theorem unmarshal_none {env : GoEnv} {D : Descs} (h : parseDescs env = .ok D) (b : Bytes) (id : Nat) :
    unmarshal env b (.ptr id none) = .error .panic := by
  simp only [unmarshal, h, bind, Except.bind]

theorem unmarshal_ext (env : GoEnv) (p q : Bytes) (a : Arg) :
    (∃ w, unmarshal env p a = .ok w) ∨
    (∃ e, unmarshal env p a = .error e ∧ unmarshal env (p ++ q) a = .error e) ∨
    unmarshal env p a = .error (.parse .truncated) := by
  cases a with
  | nil => exact .inr (.inl ⟨.notPointer, rfl, rfl⟩)
  | nonPtr => exact .inr (.inl ⟨.notPointer, rfl, rfl⟩)
  | ptrOther _ => exact .inr (.inl ⟨.badType, rfl, rfl⟩)
  | ptr id v =>
    cases hD : parseDescs env with
    | error e => exact .inr (.inl ⟨e, unmarshal_bad hD _ _ _, unmarshal_bad hD _ _ _⟩)
    | ok D =>
      cases v with
      | none => exact .inr (.inl ⟨.panic, unmarshal_none hD _ _, unmarshal_none hD _ _⟩)
      | some v =>
        rw [unmarshal_some hD, unmarshal_some hD]
        exact struct_ext D p q _ v id

end Verif.Lemmas.Trunc
