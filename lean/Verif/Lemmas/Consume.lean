import Verif.Lemmas.Varint
/-! Helper lemmas: reading varints. -/
namespace Verif.Lemmas
open Verif.Model Verif.Spec

theorem IsVarint.ne_nil {bs : Bytes} {n : Nat} (h : IsVarint bs n) : bs ≠ [] := by
  cases h <;> simp

theorem IsVarint.length_pos {bs : Bytes} {n : Nat} (h : IsVarint bs n) : 0 < bs.length := by
  cases h <;> simp

theorem ofNat8_toNat {n : Nat} (h : n < 256) : (BitVec.ofNat 8 n).toNat = n := by
  simp [BitVec.toNat_ofNat]; omega

theorem isVarint_varint (n : Nat) : IsVarint (varint n) n := by
  induction n using Nat.strongRecOn with
  | _ n ih =>
    by_cases h : n < 128
    · rw [varint_small h]
      have := IsVarint.last (BitVec.ofNat 8 n) (by rw [ofNat8_toNat (by omega)]; exact h)
      rwa [ofNat8_toNat (by omega)] at this
    · rw [varint_big (by omega)]
      have := IsVarint.more (BitVec.ofNat 8 (n % 128 + 128)) _ _
        (by rw [ofNat8_toNat (by omega)]; omega) (ih (n / 128) (by omega))
      rw [ofNat8_toNat (by omega)] at this
      have e : n % 128 + 128 - 128 + 128 * (n / 128) = n := by omega
      rwa [e] at this

theorem varint_ne_nil (n : Nat) : varint n ≠ [] := IsVarint.ne_nil (isVarint_varint n)

/-- Base-128 encodings are prefix-free. -/
theorem IsVarint.prefix_unique {p q r s : Bytes} {m n : Nat} (hp : IsVarint p m)
    (hq : IsVarint q n) (h : p ++ r = q ++ s) : p = q ∧ m = n ∧ r = s := by
  induction hp generalizing q n with
  | last b hb =>
    cases hq with
    | last c hc => simp at h; simp [h]
    | more c cs k hc hcs => simp at h; rw [h.1] at hb; omega
  | more b bs k hb hbs ih =>
    cases hq with
    | last c hc => simp at h; rw [h.1] at hb; omega
    | more c cs k' hc hcs =>
      simp only [List.cons_append, List.cons.injEq] at h
      obtain ⟨h1, h2, h3⟩ := ih hcs h.2
      subst h1 h2 h3; simp [h.1]

/-- The unrolled reader with `j` full stanzas left. -/
def cvStage : Nat → BitVec 64 → Bytes → Except PErr (BitVec 64 × Nat)
  | 0 => cvLast
  | j + 1 => cvStanza (7 * (8 - j)) (9 - j) (cvStage j)

theorem consumeVarint_eq_stage (b : Bytes) : consumeVarint b = cvStage 9 0#64 b := rfl

theorem byte_lt (c : Byte) : c.toNat < 256 := c.isLt

theorem setWidth64_toNat (c : Byte) : (c.setWidth 64).toNat = c.toNat := by
  have := byte_lt c
  simp; omega

theorem shl_toNat (c : Byte) (sh : Nat) (h : sh ≤ 56) :
    ((c.setWidth 64 : BitVec 64) <<< sh).toNat = c.toNat * 2 ^ sh := by
  rw [BitVec.toNat_shiftLeft, setWidth64_toNat, Nat.shiftLeft_eq]
  apply Nat.mod_eq_of_lt
  have := byte_lt c
  calc c.toNat * 2 ^ sh < 256 * 2 ^ sh := by apply Nat.mul_lt_mul_of_pos_right this; exact Nat.two_pow_pos _
    _ ≤ 256 * 2 ^ 56 := Nat.mul_le_mul_left _ (Nat.pow_le_pow_right (by omega) h)
    _ = 2 ^ 64 := by decide

theorem shl80_toNat (sh : Nat) (h : sh ≤ 56) : (0x80#64 <<< sh).toNat = 128 * 2 ^ sh := by
  rw [BitVec.toNat_shiftLeft, Nat.shiftLeft_eq]
  simp only [BitVec.toNat_ofNat]
  rw [show 128 % 2 ^ 64 = 128 from rfl]
  apply Nat.mod_eq_of_lt
  calc 128 * 2 ^ sh ≤ 128 * 2 ^ 56 := Nat.mul_le_mul_left _ (Nat.pow_le_pow_right (by omega) h)
    _ < 2 ^ 64 := by decide

theorem y_lt (c : Byte) (k : Nat) (hk : k < 2 ^ 64) : (c.setWidth 64 : BitVec 64) < BitVec.ofNat 64 k ↔ c.toNat < k := by
  rw [BitVec.lt_def, setWidth64_toNat, BitVec.toNat_ofNat, Nat.mod_eq_of_lt hk]

theorem stanza_add (v : BitVec 64) (c : Byte) (sh : Nat) (h : sh ≤ 56) (hv : v.toNat < 2 ^ sh) :
    (v + (c.setWidth 64 : BitVec 64) <<< sh).toNat = v.toNat + c.toNat * 2 ^ sh := by
  rw [BitVec.toNat_add, shl_toNat c sh h]
  apply Nat.mod_eq_of_lt
  have := byte_lt c
  calc v.toNat + c.toNat * 2 ^ sh < 2 ^ sh + 255 * 2 ^ sh := by
        apply Nat.add_lt_add_of_lt_of_le hv; apply Nat.mul_le_mul_right; omega
    _ = 256 * 2 ^ sh := by omega
    _ ≤ 256 * 2 ^ 56 := Nat.mul_le_mul_left _ (Nat.pow_le_pow_right (by omega) h)
    _ = 2 ^ 64 := by decide

theorem stanza_sub (v : BitVec 64) (c : Byte) (sh : Nat) (h : sh ≤ 56) (hv : v.toNat < 2 ^ sh)
    (hc : 128 ≤ c.toNat) :
    (v + (c.setWidth 64 : BitVec 64) <<< sh - 0x80#64 <<< sh).toNat =
      v.toNat + (c.toNat - 128) * 2 ^ sh := by
  have h1 := stanza_add v c sh h hv
  have h2 := shl80_toNat sh h
  have hle : 128 * 2 ^ sh ≤ c.toNat * 2 ^ sh := Nat.mul_le_mul_right _ hc
  rw [BitVec.toNat_sub_of_le]
  · rw [h1, h2, Nat.sub_mul]; omega
  · rw [BitVec.le_def, h1, h2]; omega

theorem last_add (v : BitVec 64) (c : Byte) (hv : v.toNat < 2 ^ (7 * (9 - 0))) (hc : c.toNat < 2) :
    (v + (c.setWidth 64 : BitVec 64) <<< 63).toNat = v.toNat + 2 ^ (7 * (9 - 0)) * c.toNat := by
  rw [BitVec.toNat_add, BitVec.toNat_shiftLeft, setWidth64_toNat, Nat.shiftLeft_eq]
  have : c.toNat = 0 ∨ c.toNat = 1 := by omega
  rcases this with h | h <;> rw [h]
  · simp; omega
  · simp only [Nat.mul_one, Nat.one_mul] at *
    omega

theorem cvStage_complete (j : Nat) (hj : j ≤ 9) (v : BitVec 64) (hv : v.toNat < 2 ^ (7 * (9 - j)))
    (pre post : Bytes) (m : Nat) (hp : IsVarint pre m) (hlen : pre.length ≤ j + 1)
    (hlt : v.toNat + 2 ^ (7 * (9 - j)) * m < 2 ^ 64) :
    cvStage j v (pre ++ post) =
      .ok (BitVec.ofNat 64 (v.toNat + 2 ^ (7 * (9 - j)) * m), 9 - j + pre.length) := by
  induction j generalizing v pre m with
  | zero =>
    cases hp with
    | last c hc =>
      simp only [cvStage, List.cons_append, cvLast]
      have h2 : c.toNat < 2 := by simp at hlt; omega
      rw [if_pos (by rw [y_lt c 2 (by decide)]; exact h2)]
      rw [Except.ok.injEq, Prod.mk.injEq]
      refine ⟨?_, by simp⟩
      apply BitVec.eq_of_toNat_eq
      rw [last_add v c hv h2, BitVec.toNat_ofNat, Nat.mod_eq_of_lt hlt]
    | more c cs k hc hcs => simp at hlen; exact absurd hlen (IsVarint.ne_nil hcs)
  | succ j ih =>
    have e : 7 * (8 - j) = 7 * (9 - (j + 1)) := by omega
    have hsh : 7 * (9 - (j + 1)) ≤ 56 := by omega
    cases hp with
    | last c hc =>
      simp only [cvStage, List.cons_append, cvStanza]
      rw [if_pos (by rw [y_lt c 128 (by decide)]; exact hc)]
      rw [Except.ok.injEq, Prod.mk.injEq]
      constructor
      · apply BitVec.eq_of_toNat_eq
        rw [e, stanza_add v c _ hsh hv, BitVec.toNat_ofNat, Nat.mod_eq_of_lt hlt, Nat.mul_comm]
      · simp; omega
    | more c cs k hc hcs =>
      simp only [cvStage, List.cons_append, cvStanza]
      rw [if_neg (by rw [y_lt c 128 (by decide)]; omega)]
      have hs := stanza_sub v c (7 * (9 - (j + 1))) hsh hv hc
      have hc' := byte_lt c
      rw [e]
      have e2 : 7 * (9 - j) = 7 * (9 - (j + 1)) + 7 := by omega
      have hp2 : 2 ^ (7 * (9 - j)) = 128 * 2 ^ (7 * (9 - (j + 1))) := by
        rw [e2, Nat.pow_add]; omega
      have hval : v.toNat + (c.toNat - 128) * 2 ^ (7 * (9 - (j + 1))) + 2 ^ (7 * (9 - j)) * k =
          v.toNat + 2 ^ (7 * (9 - (j + 1))) * (c.toNat - 128 + 128 * k) := by
        rw [hp2, Nat.mul_add, Nat.mul_comm (c.toNat - 128)]
        have : 128 * 2 ^ (7 * (9 - (j + 1))) * k = 2 ^ (7 * (9 - (j + 1))) * (128 * k) := by
          rw [Nat.mul_comm 128, Nat.mul_assoc]
        omega
      rw [ih (by omega) _ _ cs k hcs (by simpa using hlen) (by rw [hs, hval]; exact hlt)]
      · rw [hs, hval, Except.ok.injEq, Prod.mk.injEq]
        exact ⟨rfl, by simp; omega⟩
      · rw [hs, hp2]
        have : (c.toNat - 128) * 2 ^ (7 * (9 - (j + 1))) ≤ 127 * 2 ^ (7 * (9 - (j + 1))) :=
          Nat.mul_le_mul_right _ (by omega)
        omega

theorem cvStage_sound (j : Nat) (hj : j ≤ 9) (v : BitVec 64) (hv : v.toNat < 2 ^ (7 * (9 - j)))
    (b : Bytes) (r : BitVec 64) (n : Nat) (h : cvStage j v b = .ok (r, n)) :
    ∃ pre post m, b = pre ++ post ∧ IsVarint pre m ∧ pre.length ≤ j + 1 ∧
      n = 9 - j + pre.length ∧ r.toNat = v.toNat + 2 ^ (7 * (9 - j)) * m := by
  induction j generalizing v b with
  | zero =>
    cases b with
    | nil => simp [cvStage, cvLast] at h
    | cons c rest =>
      simp only [cvStage, cvLast] at h
      split at h
      · rename_i hy
        rw [y_lt c 2 (by decide)] at hy
        simp only [Except.ok.injEq, Prod.mk.injEq] at h
        refine ⟨[c], rest, c.toNat, rfl, .last c (by omega), by simp, by simp; omega, ?_⟩
        rw [← h.1]
        exact last_add v c hv hy
      · simp at h
  | succ j ih =>
    have e : 7 * (8 - j) = 7 * (9 - (j + 1)) := by omega
    have hsh : 7 * (9 - (j + 1)) ≤ 56 := by omega
    cases b with
    | nil => simp [cvStage, cvStanza] at h
    | cons c rest =>
      simp only [cvStage, cvStanza] at h
      split at h
      · rename_i hy
        rw [y_lt c 128 (by decide)] at hy
        simp only [Except.ok.injEq, Prod.mk.injEq] at h
        refine ⟨[c], rest, c.toNat, rfl, .last c (by omega), by simp, by simp; omega, ?_⟩
        rw [← h.1, e, stanza_add v c _ hsh hv, Nat.mul_comm]
      · rename_i hy
        rw [y_lt c 128 (by decide)] at hy
        rw [e] at h
        have hs := stanza_sub v c (7 * (9 - (j + 1))) hsh hv (by omega)
        have hc' := byte_lt c
        have e2 : 7 * (9 - j) = 7 * (9 - (j + 1)) + 7 := by omega
        have hp2 : 2 ^ (7 * (9 - j)) = 128 * 2 ^ (7 * (9 - (j + 1))) := by
          rw [e2, Nat.pow_add]; omega
        obtain ⟨pre, post, m, h1, h2, h3, h4, h5⟩ := ih (by omega) _ (by
          rw [hs, hp2]
          have : (c.toNat - 128) * 2 ^ (7 * (9 - (j + 1))) ≤ 127 * 2 ^ (7 * (9 - (j + 1))) :=
            Nat.mul_le_mul_right _ (by omega)
          omega) rest h
        refine ⟨c :: pre, post, c.toNat - 128 + 128 * m, by simp [h1], .more c pre m (by omega) h2,
          by simp; omega, by simp; omega, ?_⟩
        rw [h5, hs, hp2, Nat.mul_add, Nat.mul_comm (c.toNat - 128)]
        have : 128 * 2 ^ (7 * (9 - (j + 1))) * m = 2 ^ (7 * (9 - (j + 1))) * (128 * m) := by
          rw [Nat.mul_comm 128, Nat.mul_assoc]
        omega

theorem cvStage_truncated (j : Nat) (v : BitVec 64) (b : Bytes) :
    cvStage j v b = .error .truncated ↔ b.length ≤ j ∧ ∀ c ∈ b, 128 ≤ c.toNat := by
  induction j generalizing v b with
  | zero =>
    cases b with
    | nil => simp [cvStage, cvLast]
    | cons c rest => simp only [cvStage, cvLast]; split <;> simp
  | succ j ih =>
    cases b with
    | nil => simp [cvStage, cvStanza]
    | cons c rest =>
      simp only [cvStage, cvStanza]
      split
      · rename_i hy
        rw [y_lt c 128 (by decide)] at hy
        simp; omega
      · rename_i hy
        rw [y_lt c 128 (by decide)] at hy
        rw [ih]; simp; omega

theorem cvStage_error (j : Nat) (v : BitVec 64) (b : Bytes) (e : PErr)
    (h : cvStage j v b = .error e) : e = .truncated ∨ e = .overflow := by
  induction j generalizing v b with
  | zero =>
    cases b with
    | nil => simp [cvStage, cvLast] at h; simp [h]
    | cons c rest =>
      simp only [cvStage, cvLast] at h
      split at h
      · simp at h
      · simp at h; simp [h]
  | succ j ih =>
    cases b with
    | nil => simp [cvStage, cvStanza] at h; simp [h]
    | cons c rest =>
      simp only [cvStage, cvStanza] at h
      split at h
      · simp at h
      · exact ih _ _ h

theorem cvStage_overflow (j : Nat) (v : BitVec 64) (b : Bytes) :
    cvStage j v b = .error .overflow ↔ ∃ pre c post, b = pre ++ c :: post ∧ pre.length = j ∧
      (∀ x ∈ pre, 128 ≤ x.toNat) ∧ 2 ≤ c.toNat := by
  induction j generalizing v b with
  | zero =>
    cases b with
    | nil => simp [cvStage, cvLast]
    | cons c rest =>
      simp only [cvStage, cvLast]
      split
      · rename_i hy
        rw [y_lt c 2 (by decide)] at hy
        simp only [reduceCtorEq, false_iff]
        rintro ⟨pre, c', post, h1, h2, h3, h4⟩
        have : pre = [] := List.length_eq_zero_iff.mp h2
        subst this
        simp only [List.nil_append, List.cons.injEq] at h1
        rw [← h1.1] at h4; omega
      · rename_i hy
        rw [y_lt c 2 (by decide)] at hy
        simp only [true_iff]
        exact ⟨[], c, rest, rfl, rfl, by simp, by omega⟩
  | succ j ih =>
    cases b with
    | nil => simp [cvStage, cvStanza]
    | cons c rest =>
      simp only [cvStage, cvStanza]
      split
      · rename_i hy
        rw [y_lt c 128 (by decide)] at hy
        simp only [reduceCtorEq, false_iff]
        rintro ⟨pre, c', post, h1, h2, h3, h4⟩
        cases pre with
        | nil => simp at h2
        | cons x pre =>
          simp only [List.cons_append, List.cons.injEq] at h1
          have := h3 x (by simp)
          rw [← h1.1] at this; omega
      · rename_i hy
        rw [y_lt c 128 (by decide)] at hy
        rw [ih]
        constructor
        · rintro ⟨pre, c', post, h1, h2, h3, h4⟩
          refine ⟨c :: pre, c', post, by simp [h1], by simp [h2], ?_, h4⟩
          intro x hx
          rcases List.mem_cons.mp hx with rfl | hx
          · omega
          · exact h3 x hx
        · rintro ⟨pre, c', post, h1, h2, h3, h4⟩
          cases pre with
          | nil => simp at h2
          | cons x pre =>
            simp only [List.cons_append, List.cons.injEq] at h1
            exact ⟨pre, c', post, h1.2, by simpa using h2, fun y hy => h3 y (by simp [hy]), h4⟩

/-! Top-level statements used elsewhere. -/

theorem consumeVarint_of_isVarint {pre : Bytes} {m : Nat} (post : Bytes) (hp : IsVarint pre m)
    (hlen : pre.length ≤ 10) (hm : m < 2 ^ 64) :
    consumeVarint (pre ++ post) = .ok (BitVec.ofNat 64 m, pre.length) := by
  rw [consumeVarint_eq_stage]
  have := cvStage_complete 9 (by omega) 0#64 (by simp) pre post m hp (by omega) (by simpa using hm)
  simpa using this

theorem consumeVarint_sound {b : Bytes} {v : BitVec 64} {n : Nat}
    (h : consumeVarint b = .ok (v, n)) :
    ∃ pre post, b = pre ++ post ∧ IsVarint pre v.toNat ∧ pre.length ≤ 10 ∧ n = pre.length := by
  rw [consumeVarint_eq_stage] at h
  obtain ⟨pre, post, m, h1, h2, h3, h4, h5⟩ := cvStage_sound 9 (by omega) 0#64 (by simp) b v n h
  simp at h5
  exact ⟨pre, post, h1, by rw [h5]; exact h2, by omega, by omega⟩

theorem varint_length_le {n k : Nat} (h : n < 128 ^ (k + 1)) : (varint n).length ≤ k + 1 := by
  induction k generalizing n with
  | zero => rw [varint_small (by simpa using h)]; simp
  | succ k ih =>
    by_cases h1 : n < 128
    · rw [varint_small h1]; simp
    · rw [varint_big (by omega)]
      simp only [List.length_cons]
      have : n / 128 < 128 ^ (k + 1) := by
        apply Nat.div_lt_of_lt_mul
        rw [Nat.pow_succ] at h; rw [Nat.mul_comm]; exact h
      have := ih this
      omega

theorem consumeVarint_varint (n : Nat) (h : n < 2 ^ 64) (post : Bytes) :
    consumeVarint (varint n ++ post) = .ok (BitVec.ofNat 64 n, (varint n).length) :=
  consumeVarint_of_isVarint post (isVarint_varint n)
    (varint_length_le (k := 9) (Nat.lt_of_lt_of_le h (by decide))) h

theorem consumeVarint_len {b : Bytes} {v : BitVec 64} {n : Nat}
    (h : consumeVarint b = .ok (v, n)) : 1 ≤ n ∧ n ≤ b.length := by
  obtain ⟨pre, post, h1, h2, h3, h4⟩ := consumeVarint_sound h
  have := IsVarint.length_pos h2
  subst h1; simp; omega

/-- Length of the canonical encoding through `SizeVarint`. -/
theorem varint_length (n : Nat) : (varint n).length = if n = 0 then 1 else n.log2 / 7 + 1 := by
  induction n using Nat.strongRecOn with
  | _ n ih =>
    by_cases h : n < 128
    · rw [varint_small h]
      by_cases h0 : n = 0
      · simp [h0]
      · have : n.log2 < 7 := by rw [Nat.log2_lt h0]; omega
        simp [h0]; omega
    · rw [varint_big (by omega), List.length_cons, ih (n / 128) (by omega)]
      have h0 : n ≠ 0 := by omega
      have h1 : n / 128 ≠ 0 := by omega
      have e : n.log2 = (n / 128).log2 + 7 := by
        rw [Nat.log2_eq_iff h0]
        have hle := Nat.log2_self_le h1
        have hlt := Nat.lt_log2_self (n := n / 128)
        constructor
        · rw [Nat.pow_add]; omega
        · rw [show (n / 128).log2 + 7 + 1 = ((n / 128).log2 + 1) + 7 by omega, Nat.pow_add]; omega
      simp [h0, h1]; omega

theorem sizeVarint_eq (v : BitVec 64) : sizeVarint v = (varint v.toNat).length := by
  unfold sizeVarint len64
  rw [varint_length]
  by_cases h : v = 0#64
  · simp [h]
  · have h0 : v.toNat ≠ 0 := fun h' => h (BitVec.eq_of_toNat_eq (by simpa using h'))
    have : v.toNat.log2 < 64 := by rw [Nat.log2_lt h0]; exact v.isLt
    simp only [h, h0, if_false]
    omega

theorem sizeVarint_ofNat (n : Nat) (h : n < 2 ^ 64) :
    sizeVarint (BitVec.ofNat 64 n) = (varint n).length := by
  rw [sizeVarint_eq]; simp [Nat.mod_eq_of_lt h]

end Verif.Lemmas
