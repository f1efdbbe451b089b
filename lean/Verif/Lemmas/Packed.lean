import Verif.Lemmas.Skip
/-! Helper lemmas: list writers, packed writers and readers. -/
namespace Verif.Lemmas
open Verif.Model Verif.Spec

theorem foldl_append {α : Type} (f : Bytes → α → Bytes) (g : α → Bytes)
    (h : ∀ b x, f b x = b ++ g x) (xs : List α) (b : Bytes) :
    xs.foldl f b = b ++ xs.flatMap g := by
  induction xs generalizing b with
  | nil => simp
  | cons x xs ih => simp [ih, h]

theorem fastVarint_eq (b : Bytes) : fastVarint b = consumeVarint b := by
  match b with
  | [] => rfl
  | b0 :: rest =>
    simp only [fastVarint]
    split
    · rename_i h
      have := consumeVarint_of_isVarint rest (IsVarint.last b0 h) (by simp)
        (by have := b0.isLt; omega)
      rw [List.singleton_append] at this
      rw [this, Except.ok.injEq, Prod.mk.injEq]
      refine ⟨?_, rfl⟩
      apply BitVec.eq_of_toNat_eq
      simp
    · rename_i h
      match rest with
      | [] => rfl
      | b1 :: rest' =>
        simp only
        split
        · rename_i h1
          have hv := IsVarint.more b0 [b1] _ (by omega) (IsVarint.last b1 h1)
          have := consumeVarint_of_isVarint rest' hv (by simp)
            (by have := b0.isLt; omega)
          rw [show [b0, b1] ++ rest' = b0 :: b1 :: rest' from rfl] at this
          rw [this, Except.ok.injEq, Prod.mk.injEq]
          refine ⟨?_, rfl⟩
          apply BitVec.eq_of_toNat_eq
          have h0 := b0.isLt
          have e : (b0 &&& 0x7f#8).toNat = b0.toNat - 128 := by
            rw [BitVec.toNat_and]
            simp only [BitVec.toNat_ofNat]
            rw [show 127 % 2 ^ 8 = 2 ^ 7 - 1 from rfl, Nat.and_two_pow_sub_one_eq_mod]
            omega
          rw [BitVec.toNat_add, BitVec.toNat_shiftLeft, BitVec.toNat_setWidth, BitVec.toNat_setWidth, e,
            BitVec.toNat_ofNat, Nat.shiftLeft_eq]
          generalize b0.toNat = x at *
          generalize b1.toNat = y at *
          omega
        · rfl

theorem decodePackedLoop_append {α : Type} (conv : BitVec 64 → α) (fuel : Nat) (b : Bytes)
    (acc : List α) :
    decodePackedLoop conv fuel b acc = (decodePackedLoop conv fuel b []).map (acc ++ ·) := by
  induction fuel generalizing b acc with
  | zero => cases b <;> simp [decodePackedLoop]
  | succ fuel ih =>
    cases b with
    | nil => simp [decodePackedLoop]
    | cons c rest =>
      simp only [decodePackedLoop]
      split
      · simp
      · rw [ih, ih (acc := [] ++ _), Option.map_map]
        congr 1
        funext l; simp

theorem decodePackedLoop_complete {α : Type} (conv : BitVec 64 → α) {b : Bytes} {ns : List Nat}
    (h : VarintSeq b ns) : ∀ (fuel : Nat) (acc : List α), b.length ≤ fuel →
    decodePackedLoop conv fuel b acc = some (acc ++ ns.map (fun n => conv (BitVec.ofNat 64 n))) := by
  induction h with
  | nil => intro fuel acc _; cases fuel <;> simp [decodePackedLoop]
  | cons pre rest n ns hp hr ih =>
    intro fuel acc hf
    have hpos := IsVarint64.length_pos hp
    rw [List.length_append] at hf
    obtain ⟨fuel, rfl⟩ : ∃ k, fuel = k + 1 := ⟨fuel - 1, by omega⟩
    obtain ⟨c, pre', rfl⟩ : ∃ c pre', pre = c :: pre' := by
      cases pre with
      | nil => simp at hpos
      | cons c p => exact ⟨c, p, rfl⟩
    rw [List.cons_append]
    simp only [decodePackedLoop]
    rw [← List.cons_append, fastVarint_eq, consumeVarint_isVarint64 hp]
    simp only [List.drop_left]
    rw [ih _ _ (by simp at hf; omega)]
    simp

theorem decodePackedLoop_sound {α : Type} (conv : BitVec 64 → α) (fuel : Nat) :
    ∀ (b : Bytes) (acc r : List α), decodePackedLoop conv fuel b acc = some r →
    ∃ ns, VarintSeq b ns ∧ r = acc ++ ns.map (fun n => conv (BitVec.ofNat 64 n)) := by
  induction fuel with
  | zero =>
    intro b acc r h
    cases b with
    | nil => simp [decodePackedLoop] at h; exact ⟨[], .nil, by simp [h]⟩
    | cons c rest => simp [decodePackedLoop] at h
  | succ fuel ih =>
    intro b acc r h
    cases b with
    | nil => simp [decodePackedLoop] at h; exact ⟨[], .nil, by simp [h]⟩
    | cons c rest =>
      simp only [decodePackedLoop] at h
      split at h
      · cases h
      · rename_i v n hv
        rw [fastVarint_eq] at hv
        obtain ⟨pre, post, h1, h2, h3⟩ := consumeVarint_sound64 hv
        rw [h1] at h ⊢
        subst h3
        rw [List.drop_left] at h
        obtain ⟨ns, g1, g2⟩ := ih _ _ _ h
        exact ⟨v.toNat :: ns, .cons _ _ _ _ h2 g1, by simp [g2]⟩

theorem varintSeq_flatMap {α : Type} (f : α → Nat) (h : ∀ x, f x < 2 ^ 64) (xs : List α) :
    VarintSeq (xs.flatMap (fun x => varint (f x))) (xs.map f) := by
  induction xs with
  | nil => exact .nil
  | cons x xs ih => exact .cons _ _ _ _ (isVarint64_varint (h x)) ih

theorem packedFixed64Loop_eq (xs : List (BitVec 64)) : ∀ acc,
    packedFixed64Loop (xs.flatMap (fun x => le 8 x.toNat)) acc = some (acc ++ xs) := by
  induction xs with
  | nil => intro acc; simp [packedFixed64Loop]
  | cons x xs ih =>
    intro acc
    rw [List.flatMap_cons]
    have h : ∀ rest, packedFixed64Loop (le 8 x.toNat ++ rest) acc
        = packedFixed64Loop rest (acc ++ [x]) := by
      intro rest
      have hx := consumeFixed64_le x rest
      rw [le8] at hx ⊢
      simp only [List.cons_append, List.nil_append, consumeFixed64, packedFixed64Loop] at hx ⊢
      rw [Except.ok.injEq, Prod.mk.injEq] at hx
      rw [hx.1]
    rw [h, ih]; simp

theorem packedFixed32Loop_eq (xs : List (BitVec 32)) : ∀ acc,
    packedFixed32Loop (xs.flatMap (fun x => le 4 x.toNat)) acc = some (acc ++ xs) := by
  induction xs with
  | nil => intro acc; simp [packedFixed32Loop]
  | cons x xs ih =>
    intro acc
    rw [List.flatMap_cons]
    have h : ∀ rest, packedFixed32Loop (le 4 x.toNat ++ rest) acc
        = packedFixed32Loop rest (acc ++ [x]) := by
      intro rest
      have hx := consumeFixed32_le x rest
      rw [le4] at hx ⊢
      simp only [List.cons_append, List.nil_append, consumeFixed32, packedFixed32Loop] at hx ⊢
      rw [Except.ok.injEq, Prod.mk.injEq] at hx
      rw [hx.1]
    rw [h, ih]; simp

theorem flatMap_le_length {α : Type} (k : Nat) (f : α → Nat) (xs : List α) :
    (xs.flatMap (fun x => le k (f x))).length = k * xs.length := by
  induction xs with
  | nil => simp
  | cons x xs ih => simp [ih, le_length, Nat.mul_add]; omega

/-! ### packed writers -/

theorem appendPackedU64_eq (b : Bytes) (xs : List (BitVec 64))
    (h : (xs.flatMap (fun x => varint x.toNat)).length < 2 ^ 64) :
    appendPackedU64 b xs = b ++ lenDelim (xs.flatMap (fun x => varint x.toNat)) :=
  packedFrame_eq _ _ _ (fun b => foldl_append _ _ (fun b x => varintLoop64 b x) xs b) h

theorem appendPackedU32_eq (b : Bytes) (xs : List (BitVec 32))
    (h : (xs.flatMap (fun x => varint x.toNat)).length < 2 ^ 64) :
    appendPackedU32 b xs = b ++ lenDelim (xs.flatMap (fun x => varint x.toNat)) :=
  packedFrame_eq _ _ _ (fun b => foldl_append _ _ (fun b x => varintLoop32 b x) xs b) h

theorem appendPackedI32_eq (b : Bytes) (xs : List (BitVec 32))
    (h : (xs.flatMap (fun x => varint (x.signExtend 64).toNat)).length < 2 ^ 64) :
    appendPackedI32 b xs = b ++ lenDelim (xs.flatMap (fun x => varint (x.signExtend 64).toNat)) :=
  packedFrame_eq _ _ _ (fun b => foldl_append _ _ (fun b x => varintLoop64 b (x.signExtend 64)) xs b) h

theorem appendPackedZigZag64_eq (b : Bytes) (xs : List (BitVec 64))
    (h : (xs.flatMap (fun x => varint (zigzag64 x).toNat)).length < 2 ^ 64) :
    appendPackedZigZag64 b xs = b ++ lenDelim (xs.flatMap (fun x => varint (zigzag64 x).toNat)) :=
  packedFrame_eq _ _ _ (fun b => foldl_append _ _ (fun b x => varintLoop64 b (zigzag64 x)) xs b) h

theorem appendPackedZigZag32_eq (b : Bytes) (xs : List (BitVec 32))
    (h : (xs.flatMap (fun x => varint (zigzag32 x).toNat)).length < 2 ^ 64) :
    appendPackedZigZag32 b xs = b ++ lenDelim (xs.flatMap (fun x => varint (zigzag32 x).toNat)) :=
  packedFrame_eq _ _ _ (fun b => foldl_append _ _ (fun b x => varintLoop32 b (zigzag32 x)) xs b) h

theorem appendPackedFixed64_eq (b : Bytes) (xs : List (BitVec 64)) (h : 8 * xs.length < 2 ^ 64) :
    appendPackedFixed64 b xs = b ++ lenDelim (xs.flatMap (fun x => le 8 x.toNat)) := by
  have e : appendPackedFixed64 b xs =
      xs.foldl appendFixed64 (appendVarint b (BitVec.ofNat 64 (8 * xs.length))) := rfl
  unfold lenDelim
  rw [e, foldl_append _ (fun x => le 8 x.toNat) (fun b x => appendFixed64_eq b x), appendVarint_eq,
    flatMap_le_length, BitVec.toNat_ofNat, Nat.mod_eq_of_lt h]
  simp

theorem appendPackedFixed32_eq (b : Bytes) (xs : List (BitVec 32)) (h : 4 * xs.length < 2 ^ 64) :
    appendPackedFixed32 b xs = b ++ lenDelim (xs.flatMap (fun x => le 4 x.toNat)) := by
  have e : appendPackedFixed32 b xs =
      xs.foldl appendFixed32 (appendVarint b (BitVec.ofNat 64 (4 * xs.length))) := rfl
  unfold lenDelim
  rw [e, foldl_append _ (fun x => le 4 x.toNat) (fun b x => appendFixed32_eq b x), appendVarint_eq,
    flatMap_le_length, BitVec.toNat_ofNat, Nat.mod_eq_of_lt h]
  simp

theorem boolByte_eq (x : Bool) : [boolByte x] = varint x.toNat := by
  cases x <;> (rw [varint_small (by decide)]; rfl)

theorem appendBool_eq (b : Bytes) (x : Bool) : appendBool b x = b ++ varint x.toNat := by
  rw [← boolByte_eq]; cases x <;> rfl

theorem appendPackedBool_eq (b : Bytes) (xs : List Bool) (h : xs.length < 2 ^ 64) :
    appendPackedBool b xs = b ++ lenDelim (xs.flatMap (fun x => varint x.toNat)) := by
  have e : xs.map boolByte = xs.flatMap (fun x => varint x.toNat) := by
    induction xs with
    | nil => rfl
    | cons x xs ih =>
      rw [List.map_cons, List.flatMap_cons, ← boolByte_eq, ih (by simp at h; omega)]; rfl
  unfold appendPackedBool lenDelim
  rw [← e, appendVarint_eq, BitVec.toNat_ofNat, Nat.mod_eq_of_lt h]
  simp

/-! ### list writers -/

theorem appendU64List_eq (b : Bytes) (t : BitVec 64) (xs : List (BitVec 64)) :
    appendU64List b t xs = b ++ xs.flatMap (fun x => varint t.toNat ++ varint x.toNat) :=
  foldl_append _ _ (fun b x => by rw [varintLoop64, appendVarintSmall_eq, List.append_assoc]) xs b

theorem appendU32List_eq (b : Bytes) (t : BitVec 64) (xs : List (BitVec 32)) :
    appendU32List b t xs = b ++ xs.flatMap (fun x => varint t.toNat ++ varint x.toNat) :=
  foldl_append _ _ (fun b x => by rw [varintLoop32, appendVarintSmall_eq, List.append_assoc]) xs b

theorem appendI32List_eq (b : Bytes) (t : BitVec 64) (xs : List (BitVec 32)) :
    appendI32List b t xs =
      b ++ xs.flatMap (fun x => varint t.toNat ++ varint (x.signExtend 64).toNat) :=
  foldl_append _ _ (fun b x => by rw [varintLoop64, appendVarintSmall_eq, List.append_assoc]) xs b

theorem appendZigZag64List_eq (b : Bytes) (t : BitVec 64) (xs : List (BitVec 64)) :
    appendZigZag64List b t xs =
      b ++ xs.flatMap (fun x => varint t.toNat ++ varint (zigzag64 x).toNat) :=
  foldl_append _ _ (fun b x => by rw [varintLoop64, appendVarintSmall_eq, List.append_assoc]) xs b

theorem appendZigZag32List_eq (b : Bytes) (t : BitVec 64) (xs : List (BitVec 32)) :
    appendZigZag32List b t xs =
      b ++ xs.flatMap (fun x => varint t.toNat ++ varint (zigzag32 x).toNat) :=
  foldl_append _ _ (fun b x => by rw [varintLoop32, appendVarintSmall_eq, List.append_assoc]) xs b

theorem appendFixed64List_eq (b : Bytes) (t : BitVec 64) (xs : List (BitVec 64)) :
    appendFixed64List b t xs = b ++ xs.flatMap (fun x => varint t.toNat ++ le 8 x.toNat) :=
  foldl_append _ _ (fun b x => by
    rw [← List.append_assoc, ← appendFixed64_eq, ← appendVarintSmall_eq]; rfl) xs b

theorem appendFixed32List_eq (b : Bytes) (t : BitVec 64) (xs : List (BitVec 32)) :
    appendFixed32List b t xs = b ++ xs.flatMap (fun x => varint t.toNat ++ le 4 x.toNat) :=
  foldl_append _ _ (fun b x => by
    rw [← List.append_assoc, ← appendFixed32_eq, ← appendVarintSmall_eq]; rfl) xs b

theorem appendBoolList_eq (b : Bytes) (t : BitVec 64) (xs : List Bool) :
    appendBoolList b t xs = b ++ xs.flatMap (fun x => varint t.toNat ++ varint x.toNat) :=
  foldl_append _ _ (fun b x => by
    rw [← List.append_assoc, ← appendVarintSmall_eq, ← boolByte_eq]) xs b

theorem appendStringList_eq (b : Bytes) (t : BitVec 64) (xs : List Bytes)
    (h : ∀ x ∈ xs, x.length < 2 ^ 64) :
    appendStringList b t xs = b ++ xs.flatMap (fun x => varint t.toNat ++ lenDelim x) := by
  unfold appendStringList
  induction xs generalizing b with
  | nil => simp
  | cons x xs ih =>
    rw [List.foldl_cons, ih _ (fun y hy => h y (by simp [hy])), appendVarint_eq, appendVarintSmall_eq,
      BitVec.toNat_ofNat, Nat.mod_eq_of_lt (h x (by simp))]
    simp [lenDelim]

end Verif.Lemmas
