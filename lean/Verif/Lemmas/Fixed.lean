import Verif.Lemmas.ZigZag
/-! Helper lemmas: fixed-width words, tags, length back-patching. -/
namespace Verif.Lemmas
open Verif.Model Verif.Spec

theorem or_shl (acc b k : Nat) (h : acc < 2 ^ k) : acc ||| (b <<< k) = acc + b * 2 ^ k := by
  rw [Nat.or_comm, ← Nat.shiftLeft_add_eq_or_of_lt h, Nat.shiftLeft_eq, Nat.add_comm]

theorem le4 (n : Nat) : le 4 n = [BitVec.ofNat 8 n, BitVec.ofNat 8 (n / 2 ^ 8),
    BitVec.ofNat 8 (n / 2 ^ 16), BitVec.ofNat 8 (n / 2 ^ 24)] := by
  simp [le, Nat.div_div_eq_div_mul]

theorem le8 (n : Nat) : le 8 n = [BitVec.ofNat 8 n, BitVec.ofNat 8 (n / 2 ^ 8),
    BitVec.ofNat 8 (n / 2 ^ 16), BitVec.ofNat 8 (n / 2 ^ 24), BitVec.ofNat 8 (n / 2 ^ 32),
    BitVec.ofNat 8 (n / 2 ^ 40), BitVec.ofNat 8 (n / 2 ^ 48), BitVec.ofNat 8 (n / 2 ^ 56)] := by
  simp [le, Nat.div_div_eq_div_mul]

theorem le_length (k n : Nat) : (le k n).length = k := by
  induction k generalizing n with
  | zero => rfl
  | succ k ih => simp [le, ih]

theorem leVal_le (k n : Nat) : leVal (le k n) = n % 256 ^ k := by
  induction k generalizing n with
  | zero => simp [le, leVal]; omega
  | succ k ih =>
    simp only [le, leVal, ih, BitVec.toNat_ofNat]
    rw [show 256 ^ (k + 1) = 256 * 256 ^ k from by rw [Nat.pow_succ, Nat.mul_comm], Nat.mod_mul]

theorem leVal_lt (bs : Bytes) : leVal bs < 256 ^ bs.length := by
  induction bs with
  | nil => simp [leVal]
  | cons b bs ih =>
    simp only [leVal, List.length_cons, Nat.pow_succ]
    have := b.isLt
    omega

theorem appendFixed32_eq (b : Bytes) (v : BitVec 32) : appendFixed32 b v = b ++ le 4 v.toNat := by
  simp only [appendFixed32, le4, toByte_shift]; simp

theorem appendFixed64_eq (b : Bytes) (v : BitVec 64) : appendFixed64 b v = b ++ le 8 v.toNat := by
  simp only [appendFixed64, le8, toByte_shift]; simp

theorem word32_of_bytes (b0 b1 b2 b3 : Byte) :
    (b0.setWidth 32 <<< 0 ||| b1.setWidth 32 <<< 8 ||| b2.setWidth 32 <<< 16 |||
      b3.setWidth 32 <<< 24 : BitVec 32) = BitVec.ofNat 32 (leVal [b0, b1, b2, b3]) := by
  have h0 := b0.isLt; have h1 := b1.isLt; have h2 := b2.isLt; have h3 := b3.isLt
  apply BitVec.eq_of_toNat_eq
  simp only [BitVec.toNat_or, BitVec.toNat_shiftLeft, BitVec.toNat_setWidth, BitVec.toNat_ofNat,
    leVal]
  have e : ∀ (c : Byte) (k : Nat), k ≤ 24 →
      (c.toNat % 2 ^ 32) <<< k % 2 ^ 32 = c.toNat <<< k := by
    intro c k hk
    have hc := c.isLt
    rw [Nat.mod_eq_of_lt (a := c.toNat) (by omega)]
    apply Nat.mod_eq_of_lt
    rw [Nat.shiftLeft_eq]
    calc c.toNat * 2 ^ k < 256 * 2 ^ k := Nat.mul_lt_mul_of_pos_right hc (Nat.two_pow_pos _)
      _ ≤ 256 * 2 ^ 24 := Nat.mul_le_mul_left _ (Nat.pow_le_pow_right (by omega) hk)
      _ = 2 ^ 32 := by decide
  rw [e b0 0 (by omega), e b1 8 (by omega), e b2 16 (by omega), e b3 24 (by omega)]
  rw [Nat.shiftLeft_zero, or_shl _ _ 8 (by omega), or_shl _ _ 16 (by omega), or_shl _ _ 24 (by omega)]
  omega

theorem word64_of_bytes (b0 b1 b2 b3 b4 b5 b6 b7 : Byte) :
    (b0.setWidth 64 <<< 0 ||| b1.setWidth 64 <<< 8 ||| b2.setWidth 64 <<< 16 |||
      b3.setWidth 64 <<< 24 ||| b4.setWidth 64 <<< 32 ||| b5.setWidth 64 <<< 40 |||
      b6.setWidth 64 <<< 48 ||| b7.setWidth 64 <<< 56 : BitVec 64) =
      BitVec.ofNat 64 (leVal [b0, b1, b2, b3, b4, b5, b6, b7]) := by
  have h0 := b0.isLt; have h1 := b1.isLt; have h2 := b2.isLt; have h3 := b3.isLt
  have h4 := b4.isLt; have h5 := b5.isLt; have h6 := b6.isLt; have h7 := b7.isLt
  apply BitVec.eq_of_toNat_eq
  simp only [BitVec.toNat_or, BitVec.toNat_shiftLeft, BitVec.toNat_setWidth, BitVec.toNat_ofNat,
    leVal]
  have e : ∀ (c : Byte) (k : Nat), k ≤ 56 →
      (c.toNat % 2 ^ 64) <<< k % 2 ^ 64 = c.toNat <<< k := by
    intro c k hk
    have hc := c.isLt
    rw [Nat.mod_eq_of_lt (a := c.toNat) (by omega)]
    apply Nat.mod_eq_of_lt
    rw [Nat.shiftLeft_eq]
    calc c.toNat * 2 ^ k < 256 * 2 ^ k := Nat.mul_lt_mul_of_pos_right hc (Nat.two_pow_pos _)
      _ ≤ 256 * 2 ^ 56 := Nat.mul_le_mul_left _ (Nat.pow_le_pow_right (by omega) hk)
      _ = 2 ^ 64 := by decide
  rw [e b0 0 (by omega), e b1 8 (by omega), e b2 16 (by omega), e b3 24 (by omega),
    e b4 32 (by omega), e b5 40 (by omega), e b6 48 (by omega), e b7 56 (by omega)]
  rw [Nat.shiftLeft_zero, or_shl _ _ 8 (by omega), or_shl _ _ 16 (by omega), or_shl _ _ 24 (by omega),
    or_shl _ _ 32 (by omega), or_shl _ _ 40 (by omega), or_shl _ _ 48 (by omega), or_shl _ _ 56 (by omega)]
  omega

theorem consumeFixed32_eq (b : Bytes) : consumeFixed32 b =
    if b.length < 4 then .error .truncated else .ok (BitVec.ofNat 32 (leVal (b.take 4)), 4) := by
  match b with
  | [] => rfl
  | [_] => rfl
  | [_, _] => rfl
  | [_, _, _] => rfl
  | b0 :: b1 :: b2 :: b3 :: rest =>
    simp only [consumeFixed32, word32_of_bytes, List.length_cons, List.take_succ_cons, List.take_zero]
    rw [if_neg (by omega)]

theorem consumeFixed64_eq (b : Bytes) : consumeFixed64 b =
    if b.length < 8 then .error .truncated else .ok (BitVec.ofNat 64 (leVal (b.take 8)), 8) := by
  match b with
  | [] => rfl
  | [_] => rfl
  | [_, _] => rfl
  | [_, _, _] => rfl
  | [_, _, _, _] => rfl
  | [_, _, _, _, _] => rfl
  | [_, _, _, _, _, _] => rfl
  | [_, _, _, _, _, _, _] => rfl
  | b0 :: b1 :: b2 :: b3 :: b4 :: b5 :: b6 :: b7 :: rest =>
    simp only [consumeFixed64, word64_of_bytes, List.length_cons, List.take_succ_cons, List.take_zero]
    rw [if_neg (by omega)]

theorem consumeFixed32_le (v : BitVec 32) (post : Bytes) :
    consumeFixed32 (le 4 v.toNat ++ post) = .ok (v, 4) := by
  rw [consumeFixed32_eq, if_neg (by simp [le_length])]
  rw [List.take_append_of_le_length (by simp [le_length]), List.take_of_length_le (by simp [le_length]),
    leVal_le]
  congr 2
  apply BitVec.eq_of_toNat_eq
  have := v.isLt
  rw [BitVec.toNat_ofNat]; omega

theorem consumeFixed64_le (v : BitVec 64) (post : Bytes) :
    consumeFixed64 (le 8 v.toNat ++ post) = .ok (v, 8) := by
  rw [consumeFixed64_eq, if_neg (by simp [le_length])]
  rw [List.take_append_of_le_length (by simp [le_length]), List.take_of_length_le (by simp [le_length]),
    leVal_le]
  congr 2
  apply BitVec.eq_of_toNat_eq
  have := v.isLt
  rw [BitVec.toNat_ofNat]; omega

/-! ### length-delimited data -/

theorem appendString_eq (b s : Bytes) (h : s.length < 2 ^ 64) :
    appendString b s = b ++ lenDelim s := by
  simp only [appendString, appendVarint_eq, lenDelim, BitVec.toNat_ofNat, Nat.mod_eq_of_lt h]
  simp

theorem lenPack_eq (b payload : Bytes) (x : Byte) (h : payload.length < 2 ^ 64) :
    lenPack (b ++ [x] ++ payload) payload.length = b ++ lenDelim payload := by
  unfold lenPack lenDelim
  split
  · rename_i h1
    rw [varint_small h1, toByte_eq]
    have e : (b ++ [x] ++ payload).length - 1 - payload.length = b.length := by simp
    rw [e, List.append_assoc, List.set_append_right _ _ (by omega)]
    rw [BitVec.toNat_ofNat, Nat.mod_eq_of_lt h]
    simp
  · rename_i h1
    unfold lenPackSlow
    simp only [sizeVarint_ofNat _ h, pwAppendVarint_eq, BitVec.toNat_ofNat, Nat.mod_eq_of_lt h,
      List.nil_append]
    have hm : 1 ≤ (varint payload.length).length := by
      have := IsVarint.length_pos (isVarint_varint payload.length); omega
    generalize hM : varint payload.length = V at *
    have hlen : (b ++ [x] ++ payload ++ List.replicate (V.length - 1) 0#8).length =
        b.length + payload.length + V.length := by simp; omega
    have e : (b ++ [x] ++ payload ++ List.replicate (V.length - 1) 0#8).length - payload.length -
        V.length = b.length := by omega
    rw [e]
    unfold copyWithin overwrite
    rw [hlen]
    have e2 : min (b.length + payload.length + V.length - (b.length + V.length))
        (b.length + payload.length + V.length - (b.length + 1)) = payload.length := by omega
    simp only [e2]
    generalize hB : b ++ [x] ++ payload ++ List.replicate (V.length - 1) 0#8 = B at *
    have hd : B.drop (b.length + 1) = payload ++ List.replicate (V.length - 1) 0#8 := by
      rw [← hB]
      simp [List.drop_append]
    have ht : B.take b.length = b := by
      rw [← hB]; simp
    have hend : B.drop (b.length + V.length + payload.length) = [] := by
      apply List.drop_eq_nil_of_le; omega
    have hp : (payload ++ List.replicate (V.length - 1) 0#8).take payload.length = payload := by
      simp
    rw [hd, hend, List.append_nil, hp]
    · have htl : (B.take (b.length + V.length)).length = b.length + V.length := by
        simp; omega
      rw [List.take_append_of_le_length (by omega), List.take_take, Nat.min_eq_left (by omega), ht]
      rw [List.drop_append_of_le_length (by omega), List.drop_of_length_le (by omega)]
      simp

theorem packedFrame_eq (b : Bytes) (body : Bytes → Bytes) (payload : Bytes)
    (hb : ∀ b, body b = b ++ payload) (h : payload.length < 2 ^ 64) :
    packedFrame b body = b ++ lenDelim payload := by
  unfold packedFrame lenReserve
  simp only [hb]
  have : (b ++ [0#8] ++ payload).length - (b ++ [0#8]).length = payload.length := by simp; omega
  rw [this]
  exact lenPack_eq b payload _ h

theorem consumeBytes_lenDelim (p post : Bytes) (h : p.length < 2 ^ 64) :
    consumeBytes (lenDelim p ++ post) = .ok (p, (lenDelim p).length) := by
  unfold consumeBytes lenDelim
  rw [List.append_assoc, consumeVarint_varint _ h]
  simp only [bind, Except.bind, List.drop_left, BitVec.toNat_ofNat, Nat.mod_eq_of_lt h]
  rw [if_neg (by simp)]
  simp

theorem consumeBytes_sound {b p : Bytes} {n : Nat} (h : consumeBytes b = .ok (p, n)) :
    ∃ pre m post, b = pre ++ p ++ post ∧ IsVarint pre m ∧ m = p.length ∧ m < 2 ^ 64 ∧
      n = pre.length + p.length := by
  unfold consumeBytes at h
  simp only [bind, Except.bind] at h
  split at h
  · cases h
  · rename_i x vn hcv
    obtain ⟨v, k⟩ := vn
    simp only at h
    split at h
    · cases h
    · rename_i hle
      rw [Except.ok.injEq, Prod.mk.injEq] at h
      obtain ⟨h1, h2⟩ := h
      obtain ⟨pre, post, e1, e2, e3, e4⟩ := consumeVarint_sound hcv
      subst e1 e4
      simp only [List.drop_left, gt_iff_lt, Nat.not_lt] at *
      have hl : p.length = v.toNat := by rw [← h1, List.length_take]; omega
      refine ⟨pre, v.toNat, post.drop v.toNat, ?_, e2, hl.symm, v.isLt, by omega⟩
      rw [← h1, List.append_assoc, List.take_append_drop]

theorem consumeBytes_len {b p : Bytes} {n : Nat} (h : consumeBytes b = .ok (p, n)) :
    1 ≤ n ∧ n ≤ b.length ∧ p.length < n := by
  obtain ⟨pre, m, post, h1, h2, h3, h4, h5⟩ := consumeBytes_sound h
  have := IsVarint.length_pos h2
  subst h1; simp; omega

/-! ### tags -/

theorem signExtend_small (num : BitVec 32) (h : num.toNat < 2 ^ 31) :
    (num.signExtend 64).toNat = num.toNat := by
  have := signExtend_nonneg num (by rw [BitVec.toInt_eq_toNat_cond]; split <;> omega)
  rw [this]

theorem key_or (n t : Nat) (ht : t < 8) : n * 8 ||| t = 8 * n + t := by
  have := Nat.shiftLeft_add_eq_or_of_lt (i := 3) (b := t) (by omega) n
  rw [Nat.shiftLeft_eq, show 2 ^ 3 = 8 from rfl] at this
  omega

theorem encodeTag_toNat (num : BitVec 32) (t : Nat) (h : num.toNat < 2 ^ 31) (ht : t < 8) :
    (encodeTag num t).toNat = 8 * num.toNat + t := by
  unfold encodeTag
  rw [BitVec.toNat_or, BitVec.toNat_shiftLeft, signExtend_small num h, BitVec.toNat_ofNat,
    Nat.shiftLeft_eq]
  generalize num.toNat = n at *
  rw [Nat.mod_eq_of_lt (by omega), Nat.mod_eq_of_lt (by omega)]
  exact key_or n t ht

theorem pwEncodeTag_toNat (num : BitVec 32) (t : Nat) (h : num.toNat < 2 ^ 31) (ht : t < 8) :
    (pwEncodeTag num t).toNat = 8 * num.toNat + t := by
  rw [← encodeTag_toNat num t h ht]
  unfold pwEncodeTag encodeTag
  have : BitVec.ofNat 64 t &&& 7#64 = BitVec.ofNat 64 t := by
    apply BitVec.eq_of_toNat_eq
    simp only [BitVec.toNat_and, BitVec.toNat_ofNat]
    rw [show 7 % 2 ^ 64 = 2 ^ 3 - 1 from rfl, Nat.and_two_pow_sub_one_eq_mod]
    omega
  rw [this]

theorem pwDecodeTag_eq (x : BitVec 64) : pwDecodeTag x =
    if x.toNat / 8 ≥ 2 ^ 31 then ((-1 : Int), 0) else (((x.toNat / 8 : Nat) : Int), x.toNat % 8) := by
  unfold pwDecodeTag
  have e1 : (x >>> 3).toNat = x.toNat / 8 := by
    rw [BitVec.toNat_ushiftRight, Nat.shiftRight_eq_div_pow]
  have e2 : (x &&& 7#64).toNat = x.toNat % 8 := by
    rw [BitVec.toNat_and]
    simp only [BitVec.toNat_ofNat]
    rw [show 7 % 2 ^ 64 = 2 ^ 3 - 1 from rfl, Nat.and_two_pow_sub_one_eq_mod]
  rw [e1, e2]
  have : (x >>> 3 > 0x7fffffff#64) ↔ x.toNat / 8 ≥ 2 ^ 31 := by
    rw [gt_iff_lt, BitVec.lt_def, e1]
    simp only [BitVec.toNat_ofNat]
    omega
  simp only [this]

theorem consumeTag_of_isVarint {pre : Bytes} {m : Nat} (post : Bytes) (hp : IsVarint pre m)
    (hlen : pre.length ≤ 10) (hm : m < 2 ^ 34) (h1 : 8 ≤ m) :
    consumeTag (pre ++ post) = .ok ((m / 8 : Nat), m % 8, pre.length) := by
  unfold consumeTag
  rw [consumeVarint_of_isVarint post hp hlen (by omega)]
  simp only [bind, Except.bind]
  rw [pwDecodeTag_eq]
  have e : (BitVec.ofNat 64 m).toNat = m := by rw [BitVec.toNat_ofNat]; omega
  have e' : ¬ m / 8 ≥ 2 ^ 31 := by omega
  simp only [e, e', if_false, minValidNumber]
  rw [if_neg (by omega)]

theorem consumeTag_sound {b : Bytes} {num : Int} {t n : Nat}
    (h : consumeTag b = .ok (num, t, n)) :
    ∃ pre post m, b = pre ++ post ∧ IsVarint pre m ∧ pre.length ≤ 10 ∧ n = pre.length ∧
      8 ≤ m ∧ m < 2 ^ 34 ∧ num = (m / 8 : Nat) ∧ t = m % 8 := by
  unfold consumeTag at h
  simp only [bind, Except.bind] at h
  split at h
  · cases h
  · rename_i x vn hcv
    obtain ⟨v, k⟩ := vn
    simp only [pwDecodeTag_eq] at h
    obtain ⟨pre, post, e1, e2, e3, e4⟩ := consumeVarint_sound hcv
    by_cases hc : v.toNat / 8 ≥ 2 ^ 31
    · simp [hc, minValidNumber] at h
    · simp only [hc, if_false, minValidNumber] at h
      split at h
      · cases h
      · rename_i h1
        rw [Except.ok.injEq, Prod.mk.injEq, Prod.mk.injEq] at h
        obtain ⟨h2, h3, h4⟩ := h
        exact ⟨pre, post, v.toNat, e1, e2, e3, by omega, by omega, by omega, by omega, h3.symm⟩

theorem consumeTag_len {b : Bytes} {num : Int} {t n : Nat}
    (h : consumeTag b = .ok (num, t, n)) : 1 ≤ n ∧ n ≤ b.length ∧ 1 ≤ num ∧ t < 8 := by
  obtain ⟨pre, post, m, h1, h2, h3, h4, h5, h6, h7, h8⟩ := consumeTag_sound h
  have := IsVarint.length_pos h2
  subst h1; simp; omega

theorem consumeTag_tag (num : Nat) (t : WireType) (post : Bytes) (h : 1 ≤ num)
    (h' : num < 2 ^ 31) :
    consumeTag (tag num t ++ post) = .ok (num, t.code, (tag num t).length) := by
  have ht : t.code < 8 := by cases t <;> decide
  have := consumeTag_of_isVarint post (isVarint_varint (key num t))
    (varint_length_le (k := 9) (by unfold key; omega)) (by unfold key; omega) (by unfold key; omega)
  unfold tag
  rw [this]
  unfold key
  rw [Except.ok.injEq, Prod.mk.injEq, Prod.mk.injEq]
  refine ⟨by omega, ?_, rfl⟩
  show (8 * num + t.code) % 8 = t.code
  omega

theorem WireType.code_lt (t : WireType) : t.code < 8 := by cases t <;> decide

theorem appendTag_eq (b : Bytes) (num : BitVec 32) (t : WireType) (h : num.toNat < 2 ^ 31) :
    appendVarintSmall b (encodeTag num t.code) = b ++ tag num.toNat t := by
  rw [appendVarintSmall_eq, encodeTag_toNat _ _ h (WireType.code_lt t)]; rfl

theorem appendTag_eq' (b : Bytes) (num : BitVec 32) (t : WireType) (h : num.toNat < 2 ^ 31) :
    appendVarint b (encodeTag num t.code) = b ++ tag num.toNat t := by
  rw [appendVarint_eq, encodeTag_toNat _ _ h (WireType.code_lt t)]; rfl

theorem consumeKVTag_eq (b : Bytes) : consumeKVTag b =
    match b with
    | [] => none
    | c :: _ => if c.toNat < 128 then some (c.toNat / 8, c.toNat % 8) else none := by
  cases b with
  | nil => rfl
  | cons c rest =>
    simp only [consumeKVTag]
    rw [Nat.shiftRight_eq_div_pow, show (7 : Nat) = 2 ^ 3 - 1 from rfl,
      Nat.and_two_pow_sub_one_eq_mod]

theorem appendKeyTag_eq (b : Bytes) (t : WireType) : appendKeyTag b t.code = b ++ tag 1 t := by
  unfold appendKeyTag tag key
  rw [varint_small (by have := WireType.code_lt t; omega)]
  cases t <;> rfl

theorem appendValTag_eq (b : Bytes) (t : WireType) : appendValTag b t.code = b ++ tag 2 t := by
  unfold appendValTag tag key
  rw [varint_small (by have := WireType.code_lt t; omega)]
  cases t <;> rfl

end Verif.Lemmas
