import Verif.Lemmas.Consume
/-! Helper lemmas: zigzag. -/
namespace Verif.Lemmas
open Verif.Model Verif.Spec

theorem sshr_sign {w : Nat} (x : BitVec (w + 1)) :
    x.sshiftRight w = if 0 ≤ x.toInt then 0#(w + 1) else BitVec.allOnes (w + 1) := by
  apply BitVec.eq_of_toInt_eq
  rw [BitVec.toInt_sshiftRight, Int.shiftRight_eq_div_pow]
  have h1 := BitVec.toInt_lt (x := x)
  have h2 := BitVec.le_toInt (x := x)
  simp only [Nat.add_sub_cancel] at h1 h2
  split
  · rename_i h
    rw [Int.ediv_eq_zero_of_lt h (by exact_mod_cast h1)]; simp
  · rename_i h
    rw [BitVec.toInt_allOnes]
    simp only [Nat.zero_lt_succ, if_true]
    have hp : (0 : Int) < 2 ^ w := Int.pow_pos (by decide)
    have : x.toInt / (2 ^ w : Nat) = -1 := by
      push_cast
      rw [Int.ediv_eq_iff_of_pos hp]
      omega
    exact this

theorem xor_allOnes' {w : Nat} (x : BitVec w) : x ^^^ BitVec.allOnes w = ~~~x := by
  simp

theorem zigzag64_toNat (x : BitVec 64) : (zigzag64 x).toNat = zigzag x.toInt := by
  unfold zigzag64 zigzag
  rw [sshr_sign]
  have hx := x.isLt
  have hc := BitVec.toInt_eq_toNat_cond x
  split
  · rename_i h
    rw [BitVec.xor_zero, BitVec.toNat_shiftLeft, Nat.shiftLeft_eq]
    omega
  · rename_i h
    rw [xor_allOnes', BitVec.toNat_not, BitVec.toNat_shiftLeft, Nat.shiftLeft_eq]
    omega

theorem zigzag32_toNat (x : BitVec 32) : (zigzag32 x).toNat = zigzag x.toInt := by
  unfold zigzag32 zigzag
  rw [sshr_sign]
  have hx := x.isLt
  have hc := BitVec.toInt_eq_toNat_cond x
  split
  · rename_i h
    rw [BitVec.xor_zero, BitVec.toNat_shiftLeft, Nat.shiftLeft_eq]
    omega
  · rename_i h
    rw [xor_allOnes', BitVec.toNat_not, BitVec.toNat_shiftLeft, Nat.shiftLeft_eq]
    omega

theorem decodeZigZag_toInt (x : BitVec 64) : (decodeZigZag x).toInt = unzigzag x.toNat := by
  unfold decodeZigZag unzigzag
  rw [sshr_sign]
  have hx := x.isLt
  have hc := BitVec.toInt_eq_toNat_cond (x <<< 63)
  have hs : (x <<< 63).toNat = x.toNat % 2 * 2 ^ 63 := by
    rw [BitVec.toNat_shiftLeft, Nat.shiftLeft_eq]; omega
  have hd : (x >>> 1).toNat = x.toNat / 2 := by
    rw [BitVec.toNat_ushiftRight, Nat.shiftRight_eq_div_pow]
  by_cases hp : x.toNat % 2 = 0
  · rw [if_pos (by omega), if_pos hp, BitVec.xor_zero, BitVec.toInt_eq_toNat_cond, hd]
    omega
  · rw [if_neg (by omega), if_neg hp, xor_allOnes', BitVec.toInt_eq_toNat_cond, BitVec.toNat_not, hd]
    omega

theorem unzigzag_zigzag (i : Int) : unzigzag (zigzag i) = i := by
  unfold unzigzag zigzag; split <;> split <;> omega

theorem zigzag_unzigzag (n : Nat) : zigzag (unzigzag n) = n := by
  unfold unzigzag zigzag; split <;> split <;> omega

theorem decodeZigZag_zigzag64 (x : BitVec 64) : decodeZigZag (zigzag64 x) = x := by
  apply BitVec.eq_of_toInt_eq
  rw [decodeZigZag_toInt, zigzag64_toNat, unzigzag_zigzag]

theorem zigzag64_decodeZigZag (x : BitVec 64) : zigzag64 (decodeZigZag x) = x := by
  apply BitVec.eq_of_toNat_eq
  rw [zigzag64_toNat, decodeZigZag_toInt, zigzag_unzigzag]

theorem decodeZigZag_zigzag32 (x : BitVec 32) :
    (decodeZigZag (BitVec.ofNat 64 (zigzag32 x).toNat)).setWidth 32 = x := by
  apply BitVec.eq_of_toInt_eq
  have h1 : (BitVec.ofNat 64 (zigzag32 x).toNat).toNat = (zigzag32 x).toNat := by
    rw [BitVec.toNat_ofNat]; have := (zigzag32 x).isLt; omega
  have h2 : (decodeZigZag (BitVec.ofNat 64 (zigzag32 x).toNat)).toInt = x.toInt := by
    rw [decodeZigZag_toInt, h1, zigzag32_toNat, unzigzag_zigzag]
  rw [BitVec.toInt_setWidth]
  have h3 := BitVec.toInt_eq_toNat_bmod (decodeZigZag (BitVec.ofNat 64 (zigzag32 x).toNat))
  rw [h2] at h3
  have hx := x.isLt
  have hc := BitVec.toInt_eq_toNat_cond x
  generalize (decodeZigZag (BitVec.ofNat 64 (zigzag32 x).toNat)).toNat = k at *
  rw [Int.bmod_def] at *
  omega

end Verif.Lemmas
