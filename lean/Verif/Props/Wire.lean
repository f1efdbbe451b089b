import Verif.Lemmas.Packed
import Verif.Lemmas.Group
/-!
# Properties of the wire layer: C04 - C10, C13, C40

The specification is `Spec/Varint.lean` (base-128 numbers, zigzag, little-endian words) and
`Spec/Grammar.lean` (well-formed wire data).
-/
namespace Verif.Props
open Verif.Model Verif.Spec Verif.Lemmas

/-! ## C04: varint writers -/

/-- `varint n` really is the unique shortest base-128 encoding of `n`. -/
theorem C04_varint_is_shortest (n : Nat) :
    IsVarint (varint n) n ∧ ∀ bs, IsVarint bs n →
      (varint n).length ≤ bs.length ∧ (bs.length = (varint n).length → bs = varint n) :=
  ⟨isVarint_varint n, fun _ h => ⟨varint_shortest h, varint_unique_shortest h⟩⟩

/-- All 64-bit writers append the canonical encoding of the value. -/
theorem C04_writers64 (b : Bytes) (v : BitVec 64) :
    appendVarint b v = b ++ varint v.toNat ∧
    appendVarintSmall b v = b ++ varint v.toNat ∧
    appendU64 b v = b ++ varint v.toNat ∧
    pwAppendVarint b v = b ++ varint v.toNat :=
  ⟨appendVarint_eq b v, appendVarintSmall_eq b v, unrolled64 b v, pwAppendVarint_eq b v⟩

/-- The 32-bit writer. -/
theorem C04_writerU32 (b : Bytes) (v : BitVec 32) : appendU32 b v = b ++ varint v.toNat :=
  appendU32_eq b v

/-- `int32` values are written as the 64-bit two's complement of the same integer. -/
theorem C04_writerI32 (b : Bytes) (v : BitVec 32) :
    appendI32 b v = b ++ varint (v.toInt % 2 ^ 64).toNat := by
  rw [appendI32_eq]
  congr 2

/-- The zigzag writers. -/
theorem C04_writersZigZag (b : Bytes) :
    (∀ v : BitVec 64, appendZigZag64 b v = b ++ varint (zigzag v.toInt)) ∧
    (∀ v : BitVec 32, appendZigZag32 b v = b ++ varint (zigzag v.toInt)) :=
  ⟨fun v => by rw [appendZigZag64_eq, zigzag64_toNat],
   fun v => by rw [appendZigZag32_eq, zigzag32_toNat]⟩

/-- The bool writer. -/
theorem C04_writerBool (b : Bytes) (v : Bool) : appendBool b v = b ++ varint v.toNat :=
  appendBool_eq b v

/-- The element-wise list writers: a tag and the element each time. -/
theorem C04_list_writers (b : Bytes) (t : BitVec 64) :
    (∀ xs, appendU64List b t xs = b ++ xs.flatMap fun x => varint t.toNat ++ varint x.toNat) ∧
    (∀ xs, appendU32List b t xs = b ++ xs.flatMap fun x => varint t.toNat ++ varint x.toNat) ∧
    (∀ xs, appendI32List b t xs =
      b ++ xs.flatMap fun x => varint t.toNat ++ varint (x.toInt % 2 ^ 64).toNat) ∧
    (∀ xs, appendZigZag64List b t xs =
      b ++ xs.flatMap fun x => varint t.toNat ++ varint (zigzag x.toInt)) ∧
    (∀ xs, appendZigZag32List b t xs =
      b ++ xs.flatMap fun x => varint t.toNat ++ varint (zigzag x.toInt)) ∧
    (∀ xs, appendBoolList b t xs = b ++ xs.flatMap fun x => varint t.toNat ++ varint x.toNat) := by
  refine ⟨appendU64List_eq b t, appendU32List_eq b t, ?_, ?_, ?_, appendBoolList_eq b t⟩
  · intro xs
    rw [appendI32List_eq]
    congr 2
  · intro xs
    rw [appendZigZag64List_eq]
    simp only [zigzag64_toNat]
  · intro xs
    rw [appendZigZag32List_eq]
    simp only [zigzag32_toNat]

/-- `SizeVarint` is the length of the canonical encoding, between 1 and 10. -/
theorem C04_size (v : BitVec 64) :
    sizeVarint v = (varint v.toNat).length ∧ 1 ≤ sizeVarint v ∧ sizeVarint v ≤ 10 := by
  rw [sizeVarint_eq]
  exact ⟨rfl, IsVarint.length_pos (isVarint_varint _), (isVarint64_varint v.isLt).2.1⟩

example : varint 300 = [0xac#8, 0x02#8] := by
  rw [varint_big (by decide), varint_small (by decide)]
example : appendI32 [7#8] (-1) = 7#8 :: List.replicate 9 0xff#8 ++ [1#8] := by decide
example : appendU64 [] (1#64 <<< 63) = List.replicate 9 0x80#8 ++ [1#8] := by decide

/-! ## C05: varint reader -/

/-- Success, exactly: the input starts with a terminated 64-bit varint; value and length are its. -/
theorem C05_ok_iff (b : Bytes) (v : BitVec 64) (n : Nat) :
    consumeVarint b = .ok (v, n) ↔
      ∃ pre post, b = pre ++ post ∧ IsVarint64 pre v.toNat ∧ n = pre.length := by
  constructor
  · exact consumeVarint_sound64
  · rintro ⟨pre, post, rfl, h, rfl⟩
    rw [consumeVarint_isVarint64 h]; simp

/-- Truncation, exactly: fewer than ten bytes, none of them terminates. -/
theorem C05_truncated_iff (b : Bytes) :
    consumeVarint b = .error .truncated ↔ b.length < 10 ∧ ∀ c ∈ b, 128 ≤ c.toNat := by
  rw [consumeVarint_eq_stage, cvStage_truncated]
  constructor <;> rintro ⟨h, h'⟩ <;> exact ⟨by omega, h'⟩

/-- Overflow, exactly: nine continuation bytes and then a byte above 1 (more than 64 bits). -/
theorem C05_overflow_iff (b : Bytes) :
    consumeVarint b = .error .overflow ↔
      ∃ pre c post, b = pre ++ c :: post ∧ pre.length = 9 ∧ (∀ x ∈ pre, 128 ≤ x.toNat) ∧
        2 ≤ c.toNat := by
  rw [consumeVarint_eq_stage, cvStage_overflow]

/-- There is no fourth outcome. -/
theorem C05_total (b : Bytes) :
    (∃ v n, consumeVarint b = .ok (v, n) ∧ 1 ≤ n ∧ n ≤ b.length ∧ n ≤ 10) ∨
    consumeVarint b = .error .truncated ∨ consumeVarint b = .error .overflow := by
  cases h : consumeVarint b with
  | ok r =>
    left
    obtain ⟨v, n⟩ := r
    have hl := consumeVarint_len h
    obtain ⟨pre, post, h1, h2, h3⟩ := consumeVarint_sound64 h
    exact ⟨v, n, rfl, hl.1, hl.2, by have := h2.2.1; omega⟩
  | error e =>
    right
    rw [consumeVarint_eq_stage] at h
    rcases cvStage_error _ _ _ _ h with rfl | rfl
    · left; rfl
    · right; rfl

/-- The base-128 value and the length are determined by the bytes: there is at most one
terminated prefix. -/
theorem C05_prefix_unique {p q r s : Bytes} {m n : Nat} (hp : IsVarint p m) (hq : IsVarint q n)
    (h : p ++ r = q ++ s) : p = q ∧ m = n := by
  obtain ⟨h1, h2, _⟩ := IsVarint.prefix_unique hp hq h
  exact ⟨h1, h2⟩

/-- No byte after the terminator matters. -/
theorem C05_suffix_irrelevant (b s : Bytes) (v : BitVec 64) (n : Nat)
    (h : consumeVarint b = .ok (v, n)) :
    consumeVarint (b ++ s) = .ok (v, n) ∧ consumeVarint (b.take n ++ s) = .ok (v, n) := by
  obtain ⟨pre, post, rfl, h2, rfl⟩ := consumeVarint_sound64 h
  constructor
  · rw [List.append_assoc, consumeVarint_isVarint64 h2]; simp
  · rw [List.take_left, consumeVarint_isVarint64 h2]; simp

/-- Reading inverts writing, whatever follows. -/
theorem C05_inverts_writers (v : BitVec 64) (post : Bytes) :
    consumeVarint (pwAppendVarint [] v ++ post) = .ok (v, sizeVarint v) ∧
    consumeVarint (appendVarint [] v ++ post) = .ok (v, sizeVarint v) ∧
    consumeVarint (appendU64 [] v ++ post) = .ok (v, sizeVarint v) := by
  have h := consumeVarint_varint v.toNat v.isLt post
  have e : BitVec.ofNat 64 v.toNat = v := by simp
  rw [e, ← sizeVarint_eq] at h
  rw [pwAppendVarint_eq, appendVarint_eq, unrolled64]
  exact ⟨h, h, h⟩

/-- The inlined fast paths of the packed and map readers agree with the general reader. -/
theorem C05_fast_path (b : Bytes) : fastVarint b = consumeVarint b := fastVarint_eq b

example : consumeVarint [0xac#8, 0x02#8, 0xff#8] = .ok (300#64, 2) := by decide
example : consumeVarint [0x81#8, 0x80#8, 0x00#8] = .ok (1#64, 3) := by decide   -- padded
example : consumeVarint [0xff#8] = .error .truncated := by decide
example : consumeVarint (List.replicate 10 0xff#8) = .error .overflow := by decide

/-! ## C06: zigzag -/

/-- Encoding is the numbering 0, -1, 1, -2, ...; decoding is the inverse numbering. -/
theorem C06_zigzag64 (x : BitVec 64) :
    (encodeZigZag x).toNat = zigzag x.toInt ∧ (zigzag64 x).toNat = zigzag x.toInt ∧
    (decodeZigZag x).toInt = unzigzag x.toNat :=
  ⟨zigzag64_toNat x, zigzag64_toNat x, decodeZigZag_toInt x⟩

/-- Two-sided inverse on 64 bits. -/
theorem C06_inverse64 (x : BitVec 64) :
    decodeZigZag (encodeZigZag x) = x ∧ encodeZigZag (decodeZigZag x) = x :=
  ⟨decodeZigZag_zigzag64 x, zigzag64_decodeZigZag x⟩

/-- 32-bit values: same numbering, and the 64-bit decoder followed by truncation gets them back. -/
theorem C06_zigzag32 (x : BitVec 32) :
    (zigzag32 x).toNat = zigzag x.toInt ∧
    (decodeZigZag (BitVec.ofNat 64 (zigzag32 x).toNat)).setWidth 32 = x :=
  ⟨zigzag32_toNat x, decodeZigZag_zigzag32 x⟩

/-- The specification numbering is a bijection. -/
theorem C06_spec_bijection :
    (∀ i : Int, unzigzag (zigzag i) = i) ∧ ∀ n : Nat, zigzag (unzigzag n) = n :=
  ⟨unzigzag_zigzag, zigzag_unzigzag⟩

example : [0, -1, 1, -2, 2].map zigzag = [0, 1, 2, 3, 4] := by decide
example : encodeZigZag (-3) = 5#64 ∧ decodeZigZag 5#64 = -3 := by decide

/-! ## C07: fixed width -/

/-- Writers produce little-endian bytes. -/
theorem C07_write (b : Bytes) :
    (∀ v : BitVec 32, appendFixed32 b v = b ++ le 4 v.toNat ∧ pwAppendFixed32 b v = b ++ le 4 v.toNat) ∧
    (∀ v : BitVec 64, appendFixed64 b v = b ++ le 8 v.toNat ∧ pwAppendFixed64 b v = b ++ le 8 v.toNat) :=
  ⟨fun v => ⟨appendFixed32_eq b v, appendFixed32_eq b v⟩,
   fun v => ⟨appendFixed64_eq b v, appendFixed64_eq b v⟩⟩

/-- Readers return the number the bytes denote, and fail exactly on short input. -/
theorem C07_read (b : Bytes) :
    (consumeFixed32 b = if b.length < 4 then .error .truncated
      else .ok (BitVec.ofNat 32 (leVal (b.take 4)), 4)) ∧
    (consumeFixed64 b = if b.length < 8 then .error .truncated
      else .ok (BitVec.ofNat 64 (leVal (b.take 8)), 8)) :=
  ⟨consumeFixed32_eq b, consumeFixed64_eq b⟩

/-- Every bit pattern survives. -/
theorem C07_roundtrip (post : Bytes) :
    (∀ v : BitVec 32, consumeFixed32 (appendFixed32 [] v ++ post) = .ok (v, 4)) ∧
    (∀ v : BitVec 64, consumeFixed64 (appendFixed64 [] v ++ post) = .ok (v, 8)) :=
  ⟨fun v => by rw [appendFixed32_eq]; exact consumeFixed32_le v post,
   fun v => by rw [appendFixed64_eq]; exact consumeFixed64_le v post⟩

example : consumeFixed32 (appendFixed32 [] 0x7fc00001#32 ++ [9#8]) = .ok (0x7fc00001#32, 4) := by decide

/-- The writers of repeated fields put the tag before each element, and each element in little-endian order. -/
theorem C07_list_writers (b : Bytes) (t : BitVec 64) :
    (∀ xs : List (BitVec 32), appendFixed32List b t xs = b ++ xs.flatMap fun x => varint t.toNat ++ le 4 x.toNat) ∧
    (∀ xs : List (BitVec 64), appendFixed64List b t xs = b ++ xs.flatMap fun x => varint t.toNat ++ le 8 x.toNat) :=
  ⟨appendFixed32List_eq b t, appendFixed64List_eq b t⟩

example : appendFixed32List [9#8] 13#64 [1#32, 0x01020304#32] = [9#8, 13#8, 1#8, 0#8, 0#8, 0#8, 13#8, 4#8, 3#8, 2#8, 1#8] := by decide

/-! ## C08: tags -/

/-- A tag written for a valid number and any wire type reads back, with its length. -/
theorem C08_roundtrip (num : BitVec 32) (t : WireType) (post : Bytes)
    (h1 : 1 ≤ num.toNat) (h2 : num.toNat < 2 ^ 29) :
    consumeTag (pwAppendTag [] num t.code ++ post) = .ok (num.toNat, t.code, sizeTag num) ∧
    consumeTag (appendVarintSmall [] (encodeTag num t.code) ++ post)
      = .ok (num.toNat, t.code, sizeTag num) := by
  have h := consumeTag_tag num.toNat t post h1 (by omega)
  rw [← sizeTag_eq num t (by omega)] at h
  rw [appendTag_eq _ _ _ (by omega)]
  unfold pwAppendTag
  rw [pwAppendVarint_eq, pwEncodeTag_toNat _ _ (by omega) (WireType.code_lt t)]
  exact ⟨h, h⟩

/-- Reading a tag, exactly: a varint `m` whose number `m / 8` lies in 1..2^31-1; the type is
`m % 8` (6 and 7 are left to the caller). -/
theorem C08_consume_iff (b : Bytes) (num : Int) (t n : Nat) :
    consumeTag b = .ok (num, t, n) ↔
      ∃ pre post m, b = pre ++ post ∧ IsVarint64 pre m ∧ n = pre.length ∧
        1 ≤ m / 8 ∧ m / 8 < 2 ^ 31 ∧ num = (m / 8 : Nat) ∧ t = m % 8 := by
  constructor
  · intro h
    obtain ⟨pre, post, m, h1, h2, h3, h4, h5, h6, h7, h8⟩ := consumeTag_sound h
    exact ⟨pre, post, m, h1, ⟨h2, h3, by omega⟩, h4, by omega, by omega, h7, h8⟩
  · rintro ⟨pre, post, m, rfl, h2, rfl, h4, h5, rfl, rfl⟩
    exact consumeTag_of_isVarint post h2.1 h2.2.1 (by omega) (by omega)

/-- Number 0 and numbers beyond `int32` are rejected. -/
theorem C08_rejects (pre post : Bytes) (m : Nat) (h : IsVarint64 pre m)
    (hm : m / 8 = 0 ∨ 2 ^ 31 ≤ m / 8) : consumeTag (pre ++ post) = .error .fieldNumber := by
  unfold consumeTag
  rw [consumeVarint_isVarint64 h]
  simp only [bind, Except.bind]
  rw [pwDecodeTag_eq]
  have e : (BitVec.ofNat 64 m).toNat = m := by
    rw [BitVec.toNat_ofNat]; exact Nat.mod_eq_of_lt h.2.2
  rw [e]
  by_cases hc : m / 8 ≥ 2 ^ 31
  · simp [hc, minValidNumber]
  · have h0 : m / 8 = 0 := by omega
    simp only [hc, if_false, minValidNumber]
    rw [if_pos (by omega)]

/-- The one-byte tags of map entries: key is field 1, value is field 2. -/
theorem C08_kv_tags (b : Bytes) (t : WireType) :
    appendKeyTag b t.code = b ++ tag 1 t ∧ appendValTag b t.code = b ++ tag 2 t ∧
    (∀ post, consumeKVTag (tag 1 t ++ post) = some (1, t.code)) ∧
    (∀ post, consumeKVTag (tag 2 t ++ post) = some (2, t.code)) := by
  refine ⟨appendKeyTag_eq b t, appendValTag_eq b t, fun post => ?_, fun post => ?_⟩
  all_goals
    unfold tag key
    rw [varint_small (by have := WireType.code_lt t; omega), List.singleton_append, consumeKVTag_eq]
    cases t <;> rfl

example : consumeTag (pwAppendTag [] 536870911#32 5 ++ [1#8]) = .ok (536870911, 5, 5) := by decide
example : consumeTag [0x07#8] = .error .fieldNumber := by decide

/-! ## C09: length back-patching -/

/-- Reserve, append anything, pack: the payload gets its canonical length in front. -/
theorem C09_backpatch (b payload : Bytes) (h : payload.length < 2 ^ 64) :
    lenPack (lenReserve b ++ payload) payload.length = b ++ varint payload.length ++ payload := by
  have := lenPack_eq b payload 0#8 h
  unfold lenDelim at this
  rw [List.append_assoc b, ← this]
  rfl

/-- The written block reads back as the payload. -/
theorem C09_readback (payload post : Bytes) (h : payload.length < 2 ^ 64) :
    consumeBytes (lenPack (lenReserve [] ++ payload) payload.length ++ post)
      = .ok (payload, sizeBytes payload.length) := by
  rw [C09_backpatch _ _ h]
  have := consumeBytes_lenDelim payload post h
  unfold lenDelim at this
  rw [List.nil_append, this]
  simp [sizeBytes, sizeVarint_ofNat _ h]

/-- Reading a length-delimited block, exactly. -/
theorem C09_consume_iff (b p : Bytes) (n : Nat) :
    consumeBytes b = .ok (p, n) ↔ ∃ blk post, b = blk ++ post ∧ IsLen blk p ∧ n = blk.length := by
  constructor
  · exact consumeBytes_sound_isLen
  · rintro ⟨blk, post, rfl, h, rfl⟩; exact consumeBytes_isLen h post

example : lenPack (lenReserve [1#8] ++ List.replicate 200 7#8) 200
    = [1#8, 0xc8#8, 0x01#8] ++ List.replicate 200 7#8 := by
  set_option maxRecDepth 4096 in decide

/-! ## C10: packed lists -/

theorem flatMap_varint_length {α : Type} (f : α → Nat) (h : ∀ x, f x < 2 ^ 64) (xs : List α) :
    (xs.flatMap fun x => varint (f x)).length ≤ 10 * xs.length := by
  induction xs with
  | nil => simp
  | cons x xs ih =>
    have := (isVarint64_varint (h x)).2.1
    rw [List.flatMap_cons, List.length_append, List.length_cons]; omega

/-- `PackedRoundTrip enc dec`: for every list, what `enc` appends is one length-delimited block of
exactly its declared length, and `dec` turns the block's content back into the list. -/
def PackedRoundTrip {α : Type} (enc : Bytes → List α → Bytes) (dec : Bytes → Option (List α)) :
    Prop :=
  ∀ (b : Bytes) (xs : List α), 10 * xs.length < 2 ^ 64 →
    ∃ payload, enc b xs = b ++ varint payload.length ++ payload ∧ dec payload = some xs

theorem packed_varint {α : Type} {enc : Bytes → List α → Bytes} {conv : BitVec 64 → α} {f : α → Nat}
    (hf : ∀ x, f x < 2 ^ 64)
    (he : ∀ b xs, (xs.flatMap fun x => varint (f x)).length < 2 ^ 64 →
      enc b xs = b ++ lenDelim (xs.flatMap fun x => varint (f x)))
    (hc : ∀ x, conv (BitVec.ofNat 64 (f x)) = x) :
    PackedRoundTrip enc (fun b => decodePackedLoop conv b.length b []) := by
  intro b xs hx
  refine ⟨xs.flatMap fun x => varint (f x), ?_, ?_⟩
  · have := flatMap_varint_length f hf xs
    rw [he b xs (by omega), List.append_assoc]; rfl
  · show decodePackedLoop conv _ _ [] = _
    rw [decodePackedLoop_complete conv (varintSeq_flatMap f hf xs) _ _ (Nat.le_refl _)]
    rw [List.nil_append, List.map_map, show (fun n => conv (BitVec.ofNat 64 n)) ∘ f = id from
      funext hc, List.map_id]

theorem C10_uint64 : PackedRoundTrip appendPackedU64 decodePackedU64 :=
  packed_varint (f := fun x : BitVec 64 => x.toNat) (fun x => x.isLt) appendPackedU64_eq
    (fun x => by simp)

theorem C10_uint32 : PackedRoundTrip appendPackedU32 decodePackedU32 :=
  packed_varint (f := fun x : BitVec 32 => x.toNat) (fun x => by have := x.isLt; omega)
    appendPackedU32_eq (fun x => by
      apply BitVec.eq_of_toNat_eq; simp)

/-- `int32` lists: written sign-extended to 64 bits, read with the 32-bit reader. -/
theorem C10_int32 : PackedRoundTrip appendPackedI32 decodePackedU32 :=
  packed_varint (f := fun x : BitVec 32 => (x.signExtend 64).toNat) (fun x => (x.signExtend 64).isLt)
    appendPackedI32_eq (fun x => by
      rw [BitVec.ofNat_toNat, BitVec.setWidth_eq]
      apply BitVec.eq_of_toInt_eq
      have h2 : (x.signExtend 64).toInt = x.toInt := BitVec.toInt_signExtend_of_le (by decide)
      rw [BitVec.toInt_setWidth, ← h2]
      have h3 := BitVec.toInt_eq_toNat_cond (x.signExtend 64)
      have h4 := BitVec.toInt_lt (x := x)
      have h5 := BitVec.le_toInt (x := x)
      rw [Int.bmod_def]
      have h6 := (x.signExtend 64).isLt
      generalize (x.signExtend 64).toNat = n at *
      split at h3 <;> split <;> omega)

theorem C10_sint64 : PackedRoundTrip appendPackedZigZag64 decodePackedZigZag64 :=
  packed_varint (f := fun x : BitVec 64 => (zigzag64 x).toNat) (fun x => (zigzag64 x).isLt)
    appendPackedZigZag64_eq (fun x => by
      rw [BitVec.ofNat_toNat, BitVec.setWidth_eq]; exact decodeZigZag_zigzag64 x)

theorem C10_sint32 : PackedRoundTrip appendPackedZigZag32 decodePackedZigZag32 :=
  packed_varint (f := fun x : BitVec 32 => (zigzag32 x).toNat)
    (fun x => by have := (zigzag32 x).isLt; omega)
    appendPackedZigZag32_eq (fun x => decodeZigZag_zigzag32 x)

theorem C10_fixed64 : PackedRoundTrip appendPackedFixed64 decodePackedFixed64 := by
  intro b xs hx
  refine ⟨xs.flatMap fun x => le 8 x.toNat, ?_, ?_⟩
  · rw [appendPackedFixed64_eq _ _ (by omega), List.append_assoc]; rfl
  · unfold decodePackedFixed64
    rw [flatMap_le_length, show (7 : Nat) = 2 ^ 3 - 1 from rfl, Nat.and_two_pow_sub_one_eq_mod,
      if_neg (by omega), packedFixed64Loop_eq]
    simp

theorem C10_fixed32 : PackedRoundTrip appendPackedFixed32 decodePackedFixed32 := by
  intro b xs hx
  refine ⟨xs.flatMap fun x => le 4 x.toNat, ?_, ?_⟩
  · rw [appendPackedFixed32_eq _ _ (by omega), List.append_assoc]; rfl
  · unfold decodePackedFixed32
    rw [flatMap_le_length, show (3 : Nat) = 2 ^ 2 - 1 from rfl, Nat.and_two_pow_sub_one_eq_mod,
      if_neg (by omega), packedFixed32Loop_eq]
    simp

theorem C10_bool : PackedRoundTrip appendPackedBool decodePackedBool := by
  intro b xs hx
  refine ⟨xs.map boolByte, ?_, ?_⟩
  · unfold appendPackedBool
    rw [appendVarint_eq, BitVec.toNat_ofNat, Nat.mod_eq_of_lt (by omega), List.length_map]
  · unfold decodePackedBool
    rw [List.map_map]
    congr 1
    conv => rhs; rw [← List.map_id xs]
    apply List.map_congr_left
    intro x _
    cases x <;> rfl

example : appendPackedZigZag32 [9#8] [-1, 300] = [9#8, 3#8, 1#8, 0xd8#8, 4#8] ∧
    decodePackedZigZag32 [1#8, 0xd8#8, 4#8] = some [-1, 300] := by decide

/-! ## C13: skipping -/

/-- Skipping a value, exactly: it succeeds with `n` when the first `n` bytes are one well-formed
value of the given wire type, with groups nested at most 10001 deep. -/
theorem C13_skip_iff (num : Nat) (t : Nat) (b : Bytes) (n : Nat) :
    consumeFieldValue num t b = .ok n ↔
      ∃ w v post, WireType.code w = t ∧ b = v ++ post ∧ IsValue 10001 num w v ∧ n = v.length := by
  constructor
  · intro h
    obtain ⟨w, h1, _, v, post, h3, h4, h5⟩ := consumeFieldValueD_sound h
    exact ⟨w, v, post, h1, h3, h4, h5⟩
  · rintro ⟨w, v, post, rfl, rfl, h, rfl⟩
    exact consumeFieldValueD_complete h post _ (by decide)

/-- Never more bytes than there are, and never an end-group or a reserved type. -/
theorem C13_in_bounds (num : Nat) (t : Nat) (b : Bytes) (n : Nat)
    (h : consumeFieldValue num t b = .ok n) : n ≤ b.length ∧ t ≠ 4 ∧ t ≤ 5 := by
  obtain ⟨w, h1, h2, v, post, h3, h4, h5⟩ := consumeFieldValueD_sound h
  subst h3 h5 h1
  refine ⟨by simp, ?_, ?_⟩ <;> revert h2 <;> cases w <;> decide

/-- The answer does not depend on what follows. -/
theorem C13_suffix_irrelevant (num : Nat) (t : Nat) (b s : Bytes) (n : Nat)
    (h : consumeFieldValue num t b = .ok n) :
    consumeFieldValue num t (b ++ s) = .ok n ∧ consumeFieldValue num t (b.take n ++ s) = .ok n := by
  rw [C13_skip_iff] at h
  obtain ⟨w, v, post, h1, rfl, h3, rfl⟩ := h
  rw [C13_skip_iff, C13_skip_iff]
  exact ⟨⟨w, v, post ++ s, h1, by simp, h3, rfl⟩, ⟨w, v, s, h1, by simp, h3, rfl⟩⟩

/-- A whole field (tag and value). -/
theorem C13_field_iff (b : Bytes) (num : Nat) (t n : Nat) :
    consumeField b = .ok (num, t, n) ↔
      ∃ w k v post, WireType.code w = t ∧ b = k ++ v ++ post ∧ IsKey k num w ∧
        IsValue 10001 num w v ∧ n = (k ++ v).length := by
  constructor
  · intro h
    unfold consumeField at h
    simp only [bind, Except.bind] at h
    split at h
    · cases h
    · rename_i r hct
      obtain ⟨num', t', k⟩ := r
      simp only at h
      split at h
      · cases h
      · rename_i m hfv
        rw [Except.ok.injEq, Prod.mk.injEq, Prod.mk.injEq] at h
        obtain ⟨g1, g2, g3⟩ := h
        obtain ⟨pre, post, m', e1, e2, e3, e4, e5, e6⟩ := consumeTag_sound_key hct
        subst e1 e2 g1 g2
        have : m' = num := by omega
        subst this
        rw [List.drop_left] at hfv
        obtain ⟨w, v, post', f1, rfl, f3, f4⟩ := (C13_skip_iff _ _ _ _).mp hfv
        exact ⟨w, pre, v, post', f1, by simp, e6 w f1, f3, by simp; omega⟩
  · rintro ⟨w, k, v, post, rfl, rfl, h1, h2, rfl⟩
    unfold consumeField
    rw [List.append_assoc, consumeTag_isKey h1]
    simp only [bind, Except.bind, List.drop_left]
    rw [(C13_skip_iff num w.code (v ++ post) v.length).mpr ⟨w, v, post, rfl, rfl, h2, rfl⟩]
    simp

-- a group (field 1) holding field 2 = 5 and an empty nested group 3, then one more byte
example : consumeFieldValue 1 3 [0x10#8, 0x05#8, 0x1b#8, 0x1c#8, 0x0c#8, 0xff#8] = .ok 5 := by decide
-- mismatched end tag
example : consumeFieldValue 1 3 [0x14#8] = .error .endGroup := by decide
example : IsValue 10001 1 .sgroup ([0x10#8] ++ [0x05#8] ++ [] ++ [0x0c#8]) :=
  .group _ _ _ _
    (.cons _ 2 .varint _ _ _
      ⟨⟨.last _ (by decide), by decide, by decide⟩, by decide, by decide⟩
      (.varint _ _ _ _ ⟨.last _ (by decide), by decide, by decide⟩) (.nil _))
    ⟨⟨.last _ (by decide), by decide, by decide⟩, by decide, by decide⟩

/-! ## C40: groups -/

/-- Writing a group after `b` and reading it back from there returns the payload and its length. -/
theorem C40_roundtrip (num : BitVec 32) (h1 : 1 ≤ num.toNat) (h2 : num.toNat < 2 ^ 29)
    (b payload post : Bytes) (hp : IsRecords 10000 payload) :
    ∃ g, pwAppendGroup b num payload = b ++ g ∧
      consumeGroup num (g ++ post) = .ok (payload, g.length) ∧
      g.length = sizeGroup num payload.length := by
  refine ⟨payload ++ tag num.toNat .egroup, ?_, ?_, ?_⟩
  · unfold pwAppendGroup
    rw [pwAppendVarint_eq, show tEGroup = WireType.egroup.code from rfl,
      pwEncodeTag_toNat _ _ (by omega) (WireType.code_lt _), List.append_assoc]
    rfl
  · exact consumeGroup_eq num (by omega) payload _ post hp (isKey_tag _ h1 (by omega))
  · rw [List.length_append, sizeGroup, sizeTag_eq num .egroup (by omega)]

/-- Padded (non-canonical) end tags are cut off correctly. -/
theorem C40_padded_end (num : BitVec 32) (h2 : num.toNat < 2 ^ 31)
    (payload e post : Bytes) (hp : IsRecords 10000 payload) (he : IsKey e num.toNat .egroup) :
    consumeGroup num (payload ++ e ++ post) = .ok (payload, (payload ++ e).length) :=
  consumeGroup_eq num h2 payload e post hp he

/-- Whatever is accepted as a group is a well-formed payload followed by a matching end tag. -/
theorem C40_sound (num : BitVec 32) (h2 : num.toNat < 2 ^ 31) (b p : Bytes) (n : Nat)
    (h : consumeGroup num b = .ok (p, n)) :
    ∃ e post, b = p ++ e ++ post ∧ IsRecords 10000 p ∧ IsKey e num.toNat .egroup ∧
      n = (p ++ e).length := by
  have h' := h
  unfold consumeGroup at h
  simp only [bind, Except.bind] at h
  split at h
  · cases h
  · rename_i m hm
    rw [toInt_small num h2] at hm
    obtain ⟨w, v, post, f1, rfl, f3, rfl⟩ := (C13_skip_iff _ _ _ _).mp hm
    have : w = .sgroup := code_inj f1
    subst this
    cases f3 with
    | group _ _ body e hb he =>
      rw [consumeGroup_eq num h2 body e post hb he, Except.ok.injEq, Prod.mk.injEq] at h'
      obtain ⟨rfl, rfl⟩ := h'
      exact ⟨e, post, rfl, hb, he, rfl⟩

-- field 2 = 5 inside group 1; end tag padded to three bytes
example : consumeGroup 1 [0x10#8, 0x05#8, 0x8c#8, 0x80#8, 0x00#8, 0x63#8]
    = .ok ([0x10#8, 0x05#8], 5) := by decide

end Verif.Props
