import Verif.Lemmas.Skip
/-! Helper lemmas: shortest encodings, groups. -/
namespace Verif.Lemmas
open Verif.Model Verif.Spec

theorem varint_shortest {bs : Bytes} {n : Nat} (h : IsVarint bs n) :
    (varint n).length ≤ bs.length := by
  induction h with
  | last b hb => rw [varint_small hb]; simp
  | more b bs n hb h ih =>
    by_cases hn : n = 0
    · subst hn
      have hb' := b.isLt
      rw [varint_small (by omega)]
      simp
    · rw [varint_big (by omega)]
      have : (b.toNat - 128 + 128 * n) / 128 = n := by have hb' := b.isLt; omega
      rw [this]; simpa using ih

theorem varint_unique_shortest {bs : Bytes} {n : Nat} (h : IsVarint bs n)
    (hl : bs.length = (varint n).length) : bs = varint n := by
  induction h with
  | last b hb => rw [varint_small hb]; simp
  | more b bs n hb h ih =>
    have hb' := b.isLt
    by_cases hn : n = 0
    · subst hn
      have := IsVarint.length_pos h
      rw [varint_small (by omega), List.length_cons, List.length_singleton] at hl
      omega
    · rw [varint_big (by omega)] at hl ⊢
      have : (b.toNat - 128 + 128 * n) / 128 = n := by omega
      rw [this] at hl ⊢
      rw [ih (by simpa using hl)]
      congr 1
      apply BitVec.eq_of_toNat_eq
      rw [BitVec.toNat_ofNat]
      omega

/-- `c & 0x7f == 0`. -/
theorem pad_iff (c : Byte) : (c &&& 0x7f#8 == 0#8) = decide (c.toNat % 128 = 0) := by
  have e : (c &&& 0x7f#8).toNat = c.toNat % 128 := by
    rw [BitVec.toNat_and]
    simp only [BitVec.toNat_ofNat]
    rw [show 127 % 2 ^ 8 = 2 ^ 7 - 1 from rfl, Nat.and_two_pow_sub_one_eq_mod]
  rw [← e]
  by_cases h : c &&& 0x7f#8 = 0#8
  · simp [h]
  · rw [beq_eq_false_iff_ne.mpr h]
    symm
    rw [decide_eq_false_iff_not]
    intro h0
    exact h (BitVec.eq_of_toNat_eq (by simpa using h0))

theorem trimPadding_append_stop (x y : Bytes) (h : trimPadding y ≠ []) :
    trimPadding (x ++ y) = x ++ trimPadding y := by
  unfold trimPadding at *
  rw [List.reverse_append, List.dropWhile_append]
  split
  · rename_i h0
    rw [List.isEmpty_iff] at h0
    rw [h0] at h
    simp at h
  · simp

theorem trimPadding_append_all (x y : Bytes) (h : trimPadding y = []) :
    trimPadding (x ++ y) = trimPadding x := by
  unfold trimPadding at *
  rw [List.reverse_append, List.dropWhile_append]
  rw [List.reverse_eq_nil_iff] at h
  rw [h]; simp

theorem trimPadding_singleton (c : Byte) :
    trimPadding [c] = if c.toNat % 128 = 0 then [] else [c] := by
  unfold trimPadding
  simp only [List.reverse_singleton, List.dropWhile, pad_iff]
  split <;> simp_all

theorem trim_isVarint {bs : Bytes} {n : Nat} (h : IsVarint bs n) :
    trimPadding bs = if n = 0 then [] else bs.take (varint n).length := by
  induction h with
  | last b hb =>
    rw [trimPadding_singleton, varint_small hb]
    simp only [List.length_singleton, List.take_succ_cons, List.take_nil]
    have : b.toNat % 128 = b.toNat := by omega
    rw [this]
  | more b bs n hb h ih =>
    have hb' := b.isLt
    rw [show b :: bs = [b] ++ bs from rfl]
    by_cases hn : n = 0
    · subst hn
      rw [if_pos rfl] at ih
      rw [trimPadding_append_all _ _ ih, trimPadding_singleton, varint_small (by omega)]
      have : b.toNat % 128 = b.toNat - 128 + 128 * 0 := by omega
      rw [this]
      split <;> simp
    · rw [if_neg hn] at ih
      have hpos : 1 ≤ (varint n).length := IsVarint.length_pos (isVarint_varint n)
      have hpos2 := IsVarint.length_pos h
      rw [trimPadding_append_stop _ _ (by
        rw [ih]
        intro h0
        have := congrArg List.length h0
        rw [List.length_take, List.length_nil] at this; omega), ih, if_neg (by omega),
        varint_big (n := b.toNat - 128 + 128 * n) (by omega)]
      have : (b.toNat - 128 + 128 * n) / 128 = n := by omega
      rw [this]; simp

theorem varint_length_tag (num t : Nat) (ht : t < 8) :
    (varint (8 * num + t)).length = (varint (8 * num)).length := by
  by_cases h : 8 * num < 128
  · rw [varint_small h, varint_small (by omega)]; rfl
  · rw [varint_big (n := 8 * num + t) (by omega), varint_big (n := 8 * num) (by omega)]
    have : (8 * num + t) / 128 = 8 * num / 128 := by omega
    rw [this]; simp

theorem sizeTag_eq (num : BitVec 32) (t : WireType) (h : num.toNat < 2 ^ 31) :
    sizeTag num = (tag num.toNat t).length := by
  unfold sizeTag tag key
  rw [sizeVarint_eq, pwEncodeTag_toNat num 0 h (by omega), varint_length_tag _ _ (WireType.code_lt t)]
  rfl

theorem toInt_small (num : BitVec 32) (h : num.toNat < 2 ^ 31) : num.toInt = (num.toNat : Int) := by
  rw [BitVec.toInt_eq_toNat_cond]; split <;> omega

theorem consumeGroup_eq (num : BitVec 32) (hn : num.toNat < 2 ^ 31) (body e post : Bytes)
    (hb : IsRecords 10000 body) (he : IsKey e num.toNat .egroup) :
    consumeGroup num (body ++ e ++ post) = .ok (body, (body ++ e).length) := by
  unfold consumeGroup consumeFieldValue
  have hv := consumeFieldValueD_complete (.group _ _ _ _ hb he) post defaultRecursionLimit (by decide)
  rw [toInt_small num hn]
  rw [show tSGroup = WireType.sgroup.code from rfl, hv]
  simp only [bind, Except.bind, List.take_left]
  rw [Except.ok.injEq, Prod.mk.injEq]
  refine ⟨?_, rfl⟩
  have h1 := trim_isVarint he.1.1
  have hk : key num.toNat .egroup ≠ 0 := by
    show 8 * num.toNat + 4 ≠ 0; omega
  rw [if_neg hk] at h1
  have hlen := varint_shortest he.1.1
  have hpos : 1 ≤ (varint (key num.toNat .egroup)).length := IsVarint.length_pos (isVarint_varint _)
  rw [trimPadding_append_stop _ _ (by
    rw [h1]
    intro h0
    have := congrArg List.length h0
    rw [List.length_take, List.length_nil] at this; omega), h1, sizeTag_eq num .egroup hn]
  unfold tag
  have : (body ++ List.take (varint (key num.toNat .egroup)).length e).length
      - (varint (key num.toNat .egroup)).length = body.length := by
    simp; omega
  rw [this, List.take_left]

end Verif.Lemmas
