import Verif.Spec.Varint
import Verif.Model.Wire
/-! Helper lemmas: varint writers and readers against the arithmetic specification. -/
namespace Verif.Lemmas
open Verif.Model Verif.Spec

theorem varint_small {n : Nat} (h : n < 128) : varint n = [BitVec.ofNat 8 n] := by
  rw [varint, if_pos h]

theorem varint_big {n : Nat} (h : 128 ≤ n) :
    varint n = BitVec.ofNat 8 (n % 128 + 128) :: varint (n / 128) := by
  rw [varint, if_neg (by omega)]

theorem toByte_eq {w : Nat} (v : BitVec w) : toByte v = BitVec.ofNat 8 v.toNat := by
  unfold toByte
  apply BitVec.eq_of_toNat_eq; simp

theorem toByte_shift {w : Nat} (v : BitVec w) (k : Nat) :
    toByte (v >>> k) = BitVec.ofNat 8 (v.toNat / 2 ^ k) := by
  rw [toByte_eq]; simp [BitVec.toNat_ushiftRight, Nat.shiftRight_eq_div_pow]

theorem and7f (n : Nat) : n &&& 127 = n % 128 := by
  have := Nat.and_two_pow_sub_one_eq_mod n 7; simpa using this

theorem or80 (n : Nat) (h : n < 128) : n ||| 128 = n + 128 := by
  have h2 := Nat.two_pow_add_eq_or_of_lt (i := 7) (b := n) (by simpa using h) 1
  simp at h2; rw [Nat.or_comm, ← h2]; omega

theorem or80_mod (n : Nat) : (n ||| 128) % 256 = n % 128 + 128 := by
  have h : n % 256 = n % 128 ∨ n % 256 = n % 128 + 128 := by omega
  have e : (n ||| 128) % 256 = (n % 256 ||| 128) := by
    have := Nat.or_mod_two_pow (a := n) (b := 128) (n := 8)
    simpa using this
  rw [e]
  rcases h with h | h <;> rw [h]
  · exact or80 _ (by omega)
  · rw [← or80 (n % 128) (by omega), Nat.or_assoc, Nat.or_self]

theorem contByte_eq (v : BitVec 64) (k : Nat) :
    contByte v k = BitVec.ofNat 8 (v.toNat / 2 ^ k % 128 + 128) := by
  unfold contByte; rw [toByte_eq]
  congr 1
  simp only [BitVec.toNat_or, BitVec.toNat_and, BitVec.toNat_ushiftRight, BitVec.toNat_ofNat,
    Nat.shiftRight_eq_div_pow]
  rw [show 127 % 2 ^ 64 = 127 from rfl, show 128 % 2 ^ 64 = 128 from rfl, and7f, or80 _ (by omega)]

theorem contByteM32_eq (v : BitVec 32) (k : Nat) :
    contByteM32 v k = BitVec.ofNat 8 (v.toNat / 2 ^ k % 128 + 128) := by
  unfold contByteM32; rw [toByte_eq]
  congr 1
  simp only [BitVec.toNat_or, BitVec.toNat_and, BitVec.toNat_ushiftRight, BitVec.toNat_ofNat,
    Nat.shiftRight_eq_div_pow]
  rw [show 127 % 2 ^ 32 = 127 from rfl, show 128 % 2 ^ 32 = 128 from rfl, and7f, or80 _ (by omega)]

theorem contByte32_eq (v : BitVec 32) (k : Nat) :
    contByte32 v k = BitVec.ofNat 8 (v.toNat / 2 ^ k % 128 + 128) := by
  unfold contByte32; rw [toByte_eq]
  apply BitVec.eq_of_toNat_eq
  simp only [BitVec.toNat_or, BitVec.toNat_ushiftRight, BitVec.toNat_ofNat,
    Nat.shiftRight_eq_div_pow]
  rw [show 128 % 2 ^ 32 = 128 from rfl]
  have := or80_mod (v.toNat / 2 ^ k)
  simp only [show (2:Nat)^8 = 256 from rfl]
  omega

theorem loopByte_eq {w : Nat} (v : BitVec w) :
    toByte v ||| 0x80#8 = BitVec.ofNat 8 (v.toNat % 128 + 128) := by
  rw [toByte_eq]
  apply BitVec.eq_of_toNat_eq
  simp only [BitVec.toNat_or, BitVec.toNat_ofNat]
  rw [show 128 % 2 ^ 8 = 128 from rfl]
  have := or80_mod (v.toNat % 2 ^ 8)
  have h3 : (v.toNat % 2^8 ||| 128) < 2^8 := Nat.or_lt_two_pow (by omega) (by omega)
  simp only [show (2:Nat)^8 = 256 from rfl] at *
  omega

theorem varintLoop_eq {w : Nat} (fuel : Nat) (b : Bytes) (v : BitVec w)
    (h : v.toNat < 128 ^ (fuel + 1)) : varintLoop fuel b v = b ++ varint v.toNat := by
  induction fuel generalizing b v with
  | zero => simp [varintLoop, varint_small (n := v.toNat) (by simpa using h), toByte_eq]
  | succ f ih =>
    unfold varintLoop
    split
    · rename_i hv
      rw [ih, varint_big hv, loopByte_eq]
      · simp [Nat.shiftRight_eq_div_pow]
      · simp only [BitVec.toNat_ushiftRight, Nat.shiftRight_eq_div_pow]
        rw [Nat.pow_succ] at h
        exact Nat.div_lt_of_lt_mul (by simp only [show (2:Nat)^7 = 128 from rfl]; rw [Nat.mul_comm]; exact h)
    · rename_i hv
      rw [varint_small (by omega), toByte_eq]

theorem varintLoop64 (b : Bytes) (v : BitVec 64) : varintLoop 10 b v = b ++ varint v.toNat :=
  varintLoop_eq _ _ _ (Nat.lt_of_lt_of_le v.isLt (by decide))

theorem varintLoop32 (b : Bytes) (v : BitVec 32) : varintLoop 10 b v = b ++ varint v.toNat :=
  varintLoop_eq _ _ _ (Nat.lt_of_lt_of_le v.isLt (by decide))

theorem appendVarint_eq (b : Bytes) (v : BitVec 64) : appendVarint b v = b ++ varint v.toNat :=
  varintLoop64 b v

theorem shl_one_lt {w : Nat} (v : BitVec w) (k : Nat) (h : k < w) :
    v < 1#w <<< k ↔ v.toNat < 2 ^ k := by
  rw [BitVec.lt_def, BitVec.toNat_shiftLeft]
  have hw : 1 % 2 ^ w = 1 := Nat.mod_eq_of_lt (Nat.one_lt_two_pow (by omega))
  rw [BitVec.toNat_ofNat, hw, Nat.one_shiftLeft, Nat.mod_eq_of_lt (Nat.pow_lt_pow_right (by omega) h)]

theorem varint_unfold (n : Nat) : varint n = if n < 128 then [BitVec.ofNat 8 n]
  else BitVec.ofNat 8 (n % 128 + 128) :: varint (n / 128) := by rw [varint]

theorem varint_chunks (k n : Nat) (h1 : k = 0 ∨ 128 ^ k ≤ n) (h2 : n < 128 ^ (k + 1)) :
    varint n = (List.range k).map (fun i => BitVec.ofNat 8 (n / 2 ^ (7 * i) % 128 + 128)) ++
      [BitVec.ofNat 8 (n / 2 ^ (7 * k))] := by
  induction k generalizing n with
  | zero => simp [varint_small (n := n) (by simpa using h2)]
  | succ k ih =>
    have h1 : 128 ^ (k + 1) ≤ n := by rcases h1 with h | h; omega; exact h
    have h128 : 128 ≤ n := by
      have : 128 ^ 1 ≤ 128 ^ (k + 1) := Nat.pow_le_pow_right (by omega) (by omega)
      omega
    rw [varint_big h128, ih (n / 128)]
    · rw [List.range_succ_eq_map, List.map_cons, List.map_map]
      have e : ∀ i, n / 128 / 2 ^ (7 * i) = n / 2 ^ (7 * (i + 1)) := by
        intro i
        rw [Nat.div_div_eq_div_mul, show (128 : Nat) = 2 ^ 7 from rfl, ← Nat.pow_add]
        congr 2; omega
      simp [Function.comp_def, e]
    · right
      rw [Nat.le_div_iff_mul_le (by omega)]
      rw [Nat.pow_succ] at h1; exact h1
    · apply Nat.div_lt_of_lt_mul
      rw [Nat.pow_succ 128 (k + 1)] at h2
      rw [Nat.mul_comm]; exact h2

/-- The unrolled switch over the magnitude of a 64-bit word writes the canonical varint. -/
theorem unrolled64 (b : Bytes) (v : BitVec 64) : appendU64 b v = b ++ varint v.toNat := by
  have hv := v.isLt
  unfold appendU64
  simp only [shl_one_lt v _ (show 7 < 64 by decide), shl_one_lt v _ (show 14 < 64 by decide),
    shl_one_lt v _ (show 21 < 64 by decide), shl_one_lt v _ (show 28 < 64 by decide),
    shl_one_lt v _ (show 35 < 64 by decide), shl_one_lt v _ (show 42 < 64 by decide),
    shl_one_lt v _ (show 49 < 64 by decide), shl_one_lt v _ (show 56 < 64 by decide),
    shl_one_lt v _ (show 63 < 64 by decide), contByte_eq, toByte_eq, BitVec.toNat_ushiftRight, Nat.shiftRight_eq_div_pow]
  generalize v.toNat = n at *
  split
  · rw [varint_chunks 0 n (by simp) (by omega)]; simp
  split
  · rw [varint_chunks 1 n (by omega) (by omega)]; simp [List.range_succ]
  split
  · rw [varint_chunks 2 n (by omega) (by omega)]; simp [List.range_succ]
  split
  · rw [varint_chunks 3 n (by omega) (by omega)]; simp [List.range_succ]
  split
  · rw [varint_chunks 4 n (by omega) (by omega)]; simp [List.range_succ]
  split
  · rw [varint_chunks 5 n (by omega) (by omega)]; simp [List.range_succ]
  split
  · rw [varint_chunks 6 n (by omega) (by omega)]; simp [List.range_succ]
  split
  · rw [varint_chunks 7 n (by omega) (by omega)]; simp [List.range_succ]
  split
  · rw [varint_chunks 8 n (by omega) (by omega)]; simp [List.range_succ]
  · rw [varint_chunks 9 n (by omega) (by omega)]
    have : n / 9223372036854775808 = 1 := by omega
    simp [List.range_succ, this]

theorem pwAppendVarint_eq (b : Bytes) (v : BitVec 64) : pwAppendVarint b v = b ++ varint v.toNat :=
  unrolled64 b v

theorem appendVarintSmall_eq (b : Bytes) (v : BitVec 64) :
    appendVarintSmall b v = b ++ varint v.toNat := by
  unfold appendVarintSmall
  simp only [shl_one_lt v _ (show 7 < 64 by decide), shl_one_lt v _ (show 14 < 64 by decide),
    shl_one_lt v _ (show 21 < 64 by decide), contByte_eq, toByte_eq, BitVec.toNat_ushiftRight, Nat.shiftRight_eq_div_pow, varintLoop64]
  generalize v.toNat = n at *
  split
  · rw [varint_chunks 0 n (by simp) (by omega)]; simp
  split
  · rw [varint_chunks 1 n (by omega) (by omega)]; simp [List.range_succ]
  split
  · rw [varint_chunks 2 n (by omega) (by omega)]; simp [List.range_succ]
  rfl

theorem appendU32_eq (b : Bytes) (v : BitVec 32) : appendU32 b v = b ++ varint v.toNat := by
  have hv := v.isLt
  unfold appendU32
  simp only [shl_one_lt v _ (show 7 < 32 by decide), shl_one_lt v _ (show 14 < 32 by decide),
    shl_one_lt v _ (show 21 < 32 by decide), shl_one_lt v _ (show 28 < 32 by decide),
    contByte32_eq, toByte_eq, BitVec.toNat_ushiftRight, Nat.shiftRight_eq_div_pow]
  generalize v.toNat = n at *
  split
  · rw [varint_chunks 0 n (by simp) (by omega)]; simp
  split
  · rw [varint_chunks 1 n (by omega) (by omega)]; simp [List.range_succ]
  split
  · rw [varint_chunks 2 n (by omega) (by omega)]; simp [List.range_succ]
  split
  · rw [varint_chunks 3 n (by omega) (by omega)]; simp [List.range_succ]
  · rw [varint_chunks 4 n (by omega) (by omega)]; simp [List.range_succ]

theorem appendZigZag32_eq (b : Bytes) (x : BitVec 32) :
    appendZigZag32 b x = b ++ varint (zigzag32 x).toNat := by
  have hv := (zigzag32 x).isLt
  unfold appendZigZag32
  generalize zigzag32 x = v at *
  simp only [shl_one_lt v _ (show 7 < 32 by decide), shl_one_lt v _ (show 14 < 32 by decide),
    shl_one_lt v _ (show 21 < 32 by decide), shl_one_lt v _ (show 28 < 32 by decide),
    contByteM32_eq, toByte_eq, BitVec.toNat_ushiftRight, Nat.shiftRight_eq_div_pow]
  generalize v.toNat = n at *
  split
  · rw [varint_chunks 0 n (by simp) (by omega)]; simp
  split
  · rw [varint_chunks 1 n (by omega) (by omega)]; simp [List.range_succ]
  split
  · rw [varint_chunks 2 n (by omega) (by omega)]; simp [List.range_succ]
  split
  · rw [varint_chunks 3 n (by omega) (by omega)]; simp [List.range_succ]
  · rw [varint_chunks 4 n (by omega) (by omega)]; simp [List.range_succ]

theorem appendZigZag64_eq (b : Bytes) (x : BitVec 64) :
    appendZigZag64 b x = b ++ varint (zigzag64 x).toNat := unrolled64 _ _

theorem signExtend_nonneg (x : BitVec 32) (h : 0 ≤ x.toInt) :
    (x.signExtend 64).toNat = x.toNat := by
  have hx := x.isLt
  have hn : x.toNat < 2 ^ 31 := by
    have := BitVec.toInt_eq_toNat_cond x
    omega
  have hm : x.msb = false := by rw [BitVec.msb_eq_decide]; simp; omega
  rw [BitVec.signExtend_eq_setWidth_of_msb_false hm]
  simp only [BitVec.toNat_setWidth]
  exact Nat.mod_eq_of_lt (by omega)

theorem signExtend_neg (x : BitVec 32) (h : ¬ 0 ≤ x.toInt) :
    2 ^ 63 ≤ (x.signExtend 64).toNat := by
  have hx := x.isLt
  have h2 : (x.signExtend 64).toInt = x.toInt := BitVec.toInt_signExtend_of_le (by decide)
  have h3 := BitVec.toInt_eq_toNat_cond (x.signExtend 64)
  have h4 := (x.signExtend 64).isLt
  omega

theorem appendI32_eq (b : Bytes) (x : BitVec 32) :
    appendI32 b x = b ++ varint (x.signExtend 64).toNat := by
  unfold appendI32
  split
  · rename_i h
    rw [signExtend_nonneg x h]
    exact appendU32_eq b x
  · rename_i h
    have e := signExtend_neg x h
    have hlt := (x.signExtend 64).isLt
    simp only [contByte_eq]
    generalize (x.signExtend 64).toNat = n at *
    rw [varint_chunks 9 n (by omega) (by omega)]
    have : n / 9223372036854775808 = 1 := by omega
    simp [List.range_succ, this]

end Verif.Lemmas
