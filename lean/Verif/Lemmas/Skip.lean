import Verif.Lemmas.Fixed
import Verif.Spec.Grammar
/-! Helper lemmas: skipping a field value against the grammar. -/
namespace Verif.Lemmas
open Verif.Model Verif.Spec

theorem consumeVarint_isVarint64 {pre : Bytes} {n : Nat} (h : IsVarint64 pre n) (post : Bytes) :
    consumeVarint (pre ++ post) = .ok (BitVec.ofNat 64 n, pre.length) :=
  consumeVarint_of_isVarint post h.1 h.2.1 h.2.2

theorem consumeVarint_sound64 {b : Bytes} {v : BitVec 64} {n : Nat}
    (h : consumeVarint b = .ok (v, n)) :
    ∃ pre post, b = pre ++ post ∧ IsVarint64 pre v.toNat ∧ n = pre.length := by
  obtain ⟨pre, post, h1, h2, h3, h4⟩ := consumeVarint_sound h
  exact ⟨pre, post, h1, ⟨h2, h3, v.isLt⟩, h4⟩

theorem isVarint64_varint {n : Nat} (h : n < 2 ^ 64) : IsVarint64 (varint n) n :=
  ⟨isVarint_varint n, varint_length_le (k := 9) (Nat.lt_of_lt_of_le h (by decide)), h⟩

theorem isKey_tag {num : Nat} (t : WireType) (h : 1 ≤ num) (h' : num < 2 ^ 31) :
    IsKey (tag num t) num t :=
  ⟨isVarint64_varint (by have := WireType.code_lt t; unfold key; omega), h, h'⟩

theorem isLen_lenDelim {p : Bytes} (h : p.length < 2 ^ 64) : IsLen (lenDelim p) p :=
  ⟨varint p.length, isVarint64_varint h, rfl⟩

theorem IsKey.length_pos {bs : Bytes} {num : Nat} {t : WireType} (h : IsKey bs num t) :
    1 ≤ bs.length := IsVarint.length_pos h.1.1

theorem IsVarint64.length_pos {bs : Bytes} {n : Nat} (h : IsVarint64 bs n) :
    1 ≤ bs.length := IsVarint.length_pos h.1

theorem consumeTag_isKey {k : Bytes} {num : Nat} {t : WireType} (h : IsKey k num t) (post : Bytes) :
    consumeTag (k ++ post) = .ok (num, t.code, k.length) := by
  obtain ⟨⟨h1, h2, h3⟩, h4, h5⟩ := h
  have ht := WireType.code_lt t
  rw [consumeTag_of_isVarint post h1 h2 (by unfold key; omega) (by unfold key; omega)]
  unfold key
  rw [Except.ok.injEq, Prod.mk.injEq, Prod.mk.injEq]
  refine ⟨by omega, ?_, rfl⟩
  show (8 * num + t.code) % 8 = t.code
  omega

theorem code_of_lt {t : Nat} (h : t < 6) : ∃ w : WireType, w.code = t := by
  match t, h with
  | 0, _ => exact ⟨.varint, rfl⟩
  | 1, _ => exact ⟨.i64, rfl⟩
  | 2, _ => exact ⟨.len, rfl⟩
  | 3, _ => exact ⟨.sgroup, rfl⟩
  | 4, _ => exact ⟨.egroup, rfl⟩
  | 5, _ => exact ⟨.i32, rfl⟩

theorem code_inj {s t : WireType} (h : s.code = t.code) : s = t := by
  cases s <;> cases t <;> first | rfl | (exact absurd h (by decide))

theorem consumeTag_sound_key {b : Bytes} {num : Int} {t n : Nat}
    (h : consumeTag b = .ok (num, t, n)) :
    ∃ pre post m, b = pre ++ post ∧ n = pre.length ∧ num = (m : Nat) ∧ 1 ≤ m ∧ m < 2 ^ 31 ∧
      ∀ w : WireType, w.code = t → IsKey pre m w := by
  obtain ⟨pre, post, m, h1, h2, h3, h4, h5, h6, h7, h8⟩ := consumeTag_sound h
  refine ⟨pre, post, m / 8, h1, h4, h7, by omega, by omega, ?_⟩
  intro w hw
  refine ⟨?_, by omega, by omega⟩
  have : key (m / 8) w = m := by unfold key; rw [hw, h8]; omega
  rw [this]
  exact ⟨h2, h3, by omega⟩

theorem consumeBytes_isLen {bs p : Bytes} (h : IsLen bs p) (post : Bytes) :
    consumeBytes (bs ++ post) = .ok (p, bs.length) := by
  obtain ⟨pre, h1, rfl⟩ := h
  unfold consumeBytes
  rw [List.append_assoc, consumeVarint_isVarint64 h1]
  simp only [bind, Except.bind, List.drop_left, BitVec.toNat_ofNat, Nat.mod_eq_of_lt h1.2.2]
  rw [if_neg (by simp)]
  simp

theorem consumeBytes_sound_isLen {b p : Bytes} {n : Nat} (h : consumeBytes b = .ok (p, n)) :
    ∃ pre post, b = pre ++ post ∧ IsLen pre p ∧ n = pre.length := by
  unfold consumeBytes at h
  simp only [bind, Except.bind] at h
  split at h
  · cases h
  · rename_i x vn hcv
    obtain ⟨v, k⟩ := vn
    simp only at h
    split at h
    · cases h
    · rename_i hle
      rw [Except.ok.injEq, Prod.mk.injEq] at h
      obtain ⟨h1, h2⟩ := h
      obtain ⟨pre, post, e1, e2, e4⟩ := consumeVarint_sound64 hcv
      subst e1 e4
      simp only [List.drop_left, gt_iff_lt, Nat.not_lt] at *
      have hl : p.length = v.toNat := by rw [← h1, List.length_take]; omega
      refine ⟨pre ++ p, post.drop v.toNat, ?_, ⟨pre, by rw [hl]; exact e2, rfl⟩, by simp; omega⟩
      rw [← h1, List.append_assoc, List.take_append_drop]

/-! ### completeness -/

/-- What completeness says about values. -/
def ValueComplete (d num : Nat) (t : WireType) (v : Bytes) : Prop :=
  ∀ (fuel : Nat) (post : Bytes) (depth : Int), v.length ≤ fuel → (d : Int) ≤ depth + 1 →
    fieldValueWith (fun num b depth => consumeGroupLoop fuel num b.length b depth)
      num t.code (v ++ post) depth = .ok v.length

/-- What completeness says about the fields of a group. -/
def RecordsComplete (d : Nat) (body : Bytes) : Prop :=
  ∀ (fuel n0 num : Nat) (e post : Bytes) (depth : Int), IsKey e num .egroup →
    (body ++ e).length ≤ fuel → (d : Int) ≤ depth →
    consumeGroupLoop fuel num n0 (body ++ (e ++ post)) depth = .ok (n0 - post.length)

mutual
theorem value_complete {d num : Nat} {t : WireType} {v : Bytes} :
    IsValue d num t v → ValueComplete d num t v
  | .varint _ _ bs n h => by
    intro fuel post depth hf hd
    show (consumeVarint (bs ++ post)).map (·.2) = _
    rw [consumeVarint_isVarint64 h]; rfl
  | .i64 _ _ bs h => by
    intro fuel post depth hf hd
    show (consumeFixed64 (bs ++ post)).map (·.2) = _
    rw [consumeFixed64_eq, if_neg (by simp [h]), h]; rfl
  | .i32 _ _ bs h => by
    intro fuel post depth hf hd
    show (consumeFixed32 (bs ++ post)).map (·.2) = _
    rw [consumeFixed32_eq, if_neg (by simp [h]), h]; rfl
  | .len _ _ bs p h => by
    intro fuel post depth hf hd
    show (consumeBytes (bs ++ post)).map (·.2) = _
    rw [consumeBytes_isLen h]; rfl
  | .group d _ body e hb he => by
    intro fuel post depth hf hd
    show (if depth < 0 then Except.error PErr.recursionDepth
      else consumeGroupLoop fuel num (body ++ e ++ post).length (body ++ e ++ post) depth) = _
    rw [if_neg (by omega), List.append_assoc body e post,
      records_complete hb fuel _ num e post depth he hf (by omega)]
    simp only [List.length_append]
    congr 1; omega
theorem records_complete {d : Nat} {body : Bytes} : IsRecords d body → RecordsComplete d body
  | .nil _ => by
    intro fuel n0 num e post depth he hf hd
    have hpos := IsKey.length_pos he
    obtain ⟨fuel, rfl⟩ : ∃ k, fuel = k + 1 := ⟨fuel - 1, by simp at hf; omega⟩
    rw [List.nil_append]
    unfold consumeGroupLoop
    rw [consumeTag_isKey he]
    simp only [bind, Except.bind, List.drop_left]
    rw [if_pos (by rfl), if_neg (by simp)]
  | .cons _ num2 t k v rest hk hv hr => by
    intro fuel n0 num e post depth he hf hd
    have hpos := IsKey.length_pos he
    have hpos2 := IsKey.length_pos hk
    simp only [List.length_append] at hf
    obtain ⟨fuel, rfl⟩ : ∃ k, fuel = k + 1 := ⟨fuel - 1, by omega⟩
    unfold consumeGroupLoop
    rw [List.append_assoc, List.append_assoc, consumeTag_isKey hk]
    simp only [bind, Except.bind, List.drop_left]
    have hne : t.code ≠ tEGroup := by
      cases hv <;> decide
    rw [if_neg hne, value_complete hv fuel (rest ++ (e ++ post)) (depth - 1) (by omega) (by omega)]
    simp only [List.drop_left]
    exact records_complete hr fuel n0 num e post depth he (by simp; omega) hd
end

/-! ### soundness -/

theorem fieldValue_sound {loop : Int → Bytes → Int → Except PErr Nat}
    {num : Nat} {t : Nat} {b : Bytes} {depth : Int} {n : Nat}
    (hloop : ∀ n, 0 ≤ depth → loop num b depth = .ok n →
      ∃ body e post, b = body ++ e ++ post ∧ IsRecords depth.toNat body ∧ IsKey e num .egroup ∧
        n = (body ++ e).length)
    (h : fieldValueWith loop num t b depth = .ok n) :
    ∃ w : WireType, w.code = t ∧ w ≠ .egroup ∧
      ∃ v post, b = v ++ post ∧ IsValue (depth + 1).toNat num w v ∧ n = v.length := by
  unfold fieldValueWith at h
  split at h
  · refine ⟨.varint, rfl, by decide, ?_⟩
    cases hc : consumeVarint b with
    | error e => rw [hc] at h; cases h
    | ok vn =>
      obtain ⟨v, k⟩ := vn
      rw [hc] at h
      simp only [Except.map, Except.ok.injEq] at h
      obtain ⟨pre, post, h1, h2, h3⟩ := consumeVarint_sound64 hc
      exact ⟨pre, post, h1, .varint _ _ _ _ h2, by omega⟩
  · refine ⟨.i32, rfl, by decide, ?_⟩
    rw [consumeFixed32_eq] at h
    split at h
    · cases h
    · rename_i hl
      simp only [Except.map, Except.ok.injEq] at h
      refine ⟨b.take 4, b.drop 4, by simp, .i32 _ _ _ (by simp; omega), by simp; omega⟩
  · refine ⟨.i64, rfl, by decide, ?_⟩
    rw [consumeFixed64_eq] at h
    split at h
    · cases h
    · rename_i hl
      simp only [Except.map, Except.ok.injEq] at h
      refine ⟨b.take 8, b.drop 8, by simp, .i64 _ _ _ (by simp; omega), by simp; omega⟩
  · refine ⟨.len, rfl, by decide, ?_⟩
    cases hc : consumeBytes b with
    | error e => rw [hc] at h; cases h
    | ok vn =>
      obtain ⟨v, k⟩ := vn
      rw [hc] at h
      simp only [Except.map, Except.ok.injEq] at h
      obtain ⟨pre, post, h1, h2, h3⟩ := consumeBytes_sound_isLen hc
      exact ⟨pre, post, h1, .len _ _ _ _ h2, by omega⟩
  · refine ⟨.sgroup, rfl, by decide, ?_⟩
    split at h
    · cases h
    · rename_i hd
      obtain ⟨body, e, post, h1, h2, h3, h4⟩ := hloop n (by omega) h
      refine ⟨body ++ e, post, h1, ?_, h4⟩
      have : (depth + 1).toNat = depth.toNat + 1 := by omega
      rw [this]
      exact .group _ _ _ _ h2 h3
  · cases h
  · cases h

theorem groupLoop_sound (fuel : Nat) : ∀ (num n0 : Nat) (b : Bytes) (depth : Int) (n : Nat),
    0 ≤ depth → consumeGroupLoop fuel num n0 b depth = .ok n →
    ∃ body e post, b = body ++ e ++ post ∧ IsRecords depth.toNat body ∧ IsKey e num .egroup ∧
      n = n0 - post.length := by
  induction fuel with
  | zero => intro num n0 b depth n _ h; cases h
  | succ fuel ih =>
    intro num n0 b depth n hd h
    unfold consumeGroupLoop at h
    simp only [bind, Except.bind] at h
    split at h
    · cases h
    · rename_i x r hct
      obtain ⟨num2, t2, k⟩ := r
      obtain ⟨pre, post, m, e1, e2, e3, e4, e5, e6⟩ := consumeTag_sound_key hct
      subst e1 e2 e3
      simp only [List.drop_left] at h
      split at h
      · rename_i ht
        split at h
        · cases h
        · rename_i hn
          have : num = m := by omega
          subst this
          rw [Except.ok.injEq] at h
          exact ⟨[], pre, post, by simp, .nil _, e6 .egroup ht.symm, h.symm⟩
      · rename_i ht
        split at h
        · cases h
        · rename_i x n2 hfv
          obtain ⟨w, hw, hne, v, post2, f1, f2, f3⟩ := fieldValue_sound (num := m) (by
            intro n' hd' hl
            obtain ⟨body, e, post', g1, g2, g3, g4⟩ := ih m _ _ _ n' hd' hl
            refine ⟨body, e, post', g1, g2, g3, ?_⟩
            rw [g4, g1]; simp only [List.length_append]; omega) hfv
          subst f1 f3
          simp only [List.drop_left] at h
          obtain ⟨body, e, post', g1, g2, g3, g4⟩ := ih num n0 _ depth n hd h
          subst g1
          refine ⟨pre ++ v ++ body, e, post', by simp, ?_, g3, g4⟩
          have : (depth - 1 + 1).toNat = depth.toNat := by omega
          rw [this] at f2
          exact .cons _ m w _ _ _ (e6 w hw) f2 g2

theorem consumeFieldValueD_sound {num : Nat} {t : Nat} {b : Bytes} {depth : Int} {n : Nat}
    (h : consumeFieldValueD num t b depth = .ok n) :
    ∃ w : WireType, w.code = t ∧ w ≠ .egroup ∧
      ∃ v post, b = v ++ post ∧ IsValue (depth + 1).toNat num w v ∧ n = v.length := by
  unfold consumeFieldValueD at h
  refine fieldValue_sound ?_ h
  intro n hd hl
  obtain ⟨body, e, post', g1, g2, g3, g4⟩ := groupLoop_sound _ num _ _ _ n hd hl
  refine ⟨body, e, post', g1, g2, g3, ?_⟩
  rw [g4, g1]; simp only [List.length_append]; omega

theorem consumeFieldValueD_complete {d num : Nat} {w : WireType} {v : Bytes}
    (h : IsValue d num w v) (post : Bytes) (depth : Int) (hd : (d : Int) ≤ depth + 1) :
    consumeFieldValueD num w.code (v ++ post) depth = .ok v.length := by
  unfold consumeFieldValueD
  have key := value_complete h ((v ++ post).length + 1) post depth (by simp; omega) hd
  -- the loop of `consumeFieldValueD` is entered with `v ++ post` itself
  rw [← key]
  rfl

end Verif.Lemmas
