import Verif.Lemmas.DecScalar
/-! Helper lemmas: decoding map entries whose parts are scalars. -/
namespace Verif.Lemmas
open Verif.Model Verif.Spec

theorem tag_small {n : Nat} (hn : n < 16) (t : WireType) : tag n t = [BitVec.ofNat 8 (8 * n + t.code)] := by
  have := WireType.code_lt t
  unfold tag key
  rw [varint_small (by omega)]

theorem kvTag_complete {n : Nat} (hn : n < 16) (t : WireType) (r : Bytes) :
    consumeKVTag (tag n t ++ r) = some (n, t.code) := by
  have := WireType.code_lt t
  rw [tag_small hn, List.singleton_append, consumeKVTag_eq]
  simp only [BitVec.toNat_ofNat]
  rw [Nat.mod_eq_of_lt (by omega), if_pos (by omega)]
  simp; omega

theorem kvTag_drop {n : Nat} (hn : n < 16) (t : WireType) (r : Bytes) : (tag n t ++ r).drop 1 = r := by
  rw [tag_small hn]; rfl

theorem kvTag_len {n : Nat} (hn : n < 16) (t : WireType) : (tag n t).length = 1 := by
  rw [tag_small hn]; rfl

theorem kvTag_sound {b : Bytes} {n : Nat} {t : WireType} (h : consumeKVTag b = some (n, t.code)) :
    n < 16 ∧ b = tag n t ++ b.drop 1 := by
  rw [consumeKVTag_eq] at h
  cases b with
  | nil => cases h
  | cons c rest =>
    simp only at h
    split at h
    · rename_i hc
      injection h with h
      injection h with h1 h2
      have hn : n < 16 := by omega
      refine ⟨hn, ?_⟩
      rw [tag_small hn, List.singleton_append]
      have : BitVec.ofNat 8 (8 * n + t.code) = c := by
        apply BitVec.eq_of_toNat_eq
        rw [BitVec.toNat_ofNat, Nat.mod_eq_of_lt (by omega)]; omega
      rw [this]; rfl
    · cases h

/-! ## the generic path -/

theorem mapValueAt_eq (D : Descs) (rec : DecRec) (f : FieldDesc) (s : Scalar) (typ : WType) (b : Bytes) (cur : Val)
    (depth : Int) : decodeMapValueAt rec f s.goType typ b cur depth
      = decodeValueAt D rec { f with tagType := f.valType } s.goType typ b cur depth := by
  have h : ∀ fb, decodeMapValueLen rec s.goType fb cur depth
      = decodeLenAt D rec { f with tagType := f.valType } s.goType fb cur depth := by
    intro fb; cases s <;> rfl
  unfold decodeMapValueAt decodeValueAt
  split <;> simp only [h]

theorem kindString {s : Scalar} : s.goType.kind = .string ↔ s = .string := by
  cases s <;> decide

theorem mapKeyAt_complete {f : FieldDesc} {s : Scalar} (hf : f.keyType = tagTypeOf s) (hk : s.isKey = true)
    {v : Bytes} {y : Val} (h : ScalarDec false s v y) (rest : Bytes) :
    decodeMapKeyAt f s.goType s.wire.code (v ++ rest) = .ok (y, v.length) := by
  cases hw : s.wire with
  | varint => simp only [decodeMapKeyAt, WireType.code, hf]; exact varintAt_complete hw h rest _
  | i32 => simp only [decodeMapKeyAt, WireType.code, hf]; exact fixed32At_complete hw h rest _
  | i64 => simp only [decodeMapKeyAt, WireType.code, hf]; exact fixed64At_complete hw h rest _
  | len =>
    have hs : s = .string := by cases s <;> first | rfl | (cases hw; done) | (cases hk; done)
    subst hs
    obtain ⟨p, h1, rfl⟩ := h
    simp only [decodeMapKeyAt, WireType.code, Scalar.wire]
    rw [if_neg (by simp [kindString]), consumeBytes_isLen h1]
    rfl
  | sgroup => cases s <;> cases hw
  | egroup => cases s <;> cases hw

theorem mapKeyAt_sound {f : FieldDesc} {s : Scalar} (hf : f.keyType = tagTypeOf s)
    {typ : WType} {b : Bytes} {y : Val} {n : Nat} (h : decodeMapKeyAt f s.goType typ b = .ok (y, n)) :
    typ = s.wire.code ∧ ∃ v rest, b = v ++ rest ∧ n = v.length ∧ ScalarDec false s v y := by
  unfold decodeMapKeyAt at h
  split at h
  · rw [hf] at h; obtain ⟨h1, h2⟩ := varintAt_sound h; exact ⟨by rw [h1]; rfl, h2⟩
  · rw [hf] at h; obtain ⟨h1, h2⟩ := fixed32At_sound h; exact ⟨by rw [h1]; rfl, h2⟩
  · rw [hf] at h; obtain ⟨h1, h2⟩ := fixed64At_sound h; exact ⟨by rw [h1]; rfl, h2⟩
  · split at h
    · cases h
    · rename_i hs
      have hs : s = .string := kindString.1 (Decidable.not_not.1 hs)
      subst hs
      obtain ⟨⟨p, m⟩, h1, h2⟩ := map_ok.1 h
      obtain ⟨pre, post, h3, h4, h5⟩ := consumeBytes_sound_isLen (liftP_ok.1 h1)
      injection h2 with h2 h2'
      subst h2 h2'
      exact ⟨rfl, pre, post, h3, h5, p, h4, rfl⟩
  · cases h

theorem mapKeyAt_safe (f : FieldDesc) (kt : GoType) (typ : WType) (b : Bytes) : Safe (decodeMapKeyAt f kt typ b) := by
  unfold decodeMapKeyAt
  split
  · exact varintAt_safe _ _ _ _
  · exact fixed32At_safe _ _ _ _
  · exact fixed64At_safe _ _ _ _
  · split
    · exact Safe.err nofun nofun
    · exact Safe.map _ (Safe.liftP _)
  · exact Safe.err nofun nofun

theorem mapKey_complete {f : FieldDesc} {s : Scalar} (hf : f.keyType = tagTypeOf s) (hk : s.isKey = true)
    {kb : Bytes} {y : Val} (h : ScalarDec false s kb y) (rest : Bytes) :
    decodeMapKey f s.goType (tag 1 s.wire ++ kb ++ rest) = .ok (y, (tag 1 s.wire ++ kb).length) := by
  unfold decodeMapKey
  rw [List.append_assoc, kvTag_complete (by omega)]
  simp only [kvTag_drop (n := 1) (by omega)]
  rw [if_neg (by simp), mapKeyAt_complete hf hk h, List.length_append, kvTag_len (by omega), Nat.add_comm]
  rfl

theorem mapKey_sound {f : FieldDesc} {s : Scalar} (hf : f.keyType = tagTypeOf s)
    {b : Bytes} {y : Val} {n : Nat} (h : decodeMapKey f s.goType b = .ok (y, n)) :
    ∃ kb rest, b = tag 1 s.wire ++ kb ++ rest ∧ n = (tag 1 s.wire ++ kb).length ∧ ScalarDec false s kb y := by
  unfold decodeMapKey at h
  split at h
  · cases h
  · rename_i num typ hb
    split at h
    · cases h
    · rename_i hn
      have hn : num = 1 := Decidable.not_not.1 hn
      subst hn
      obtain ⟨⟨y', m⟩, h1, h2⟩ := bind_ok.1 h
      obtain ⟨h3, v, rest, h4, h5, h6⟩ := mapKeyAt_sound hf h1
      subst h3
      obtain ⟨_, h7⟩ := kvTag_sound hb
      have h8 := pure_ok.1 h2
      injection h8 with h8 h9
      refine ⟨v, rest, ?_, ?_, h8 ▸ h6⟩
      · rw [List.append_assoc, ← h4]; exact h7
      · rw [List.length_append, kvTag_len (by omega), ← h9, ← h5, Nat.add_comm]

theorem mapKey_safe (f : FieldDesc) (kt : GoType) (b : Bytes) : Safe (decodeMapKey f kt b) := by
  unfold decodeMapKey
  split
  · exact Safe.err nofun nofun
  · split
    · exact Safe.err nofun nofun
    · exact Safe.bind (mapKeyAt_safe _ _ _ _) (fun _ _ => Safe.ok _)

/-! ## the specialised decoders -/

theorem mapVarint_complete {num : Nat} (hn : num < 16) {v : Bytes} {n : Nat} (h : IsVarint64 v n) (rest : Bytes) :
    decodeMapVarint (tag num .varint ++ v ++ rest) num
      = .ok (BitVec.ofNat 64 n, (tag num .varint ++ v).length) := by
  unfold decodeMapVarint
  rw [List.append_assoc, kvTag_complete hn]
  simp only [kvTag_drop hn, fastVarint_eq, consumeVarint_isVarint64 h, WireType.code, tVarint]
  rw [List.length_append, kvTag_len hn, Nat.add_comm]
  simp

theorem mapVarint_sound {num : Nat} {b : Bytes} {u : BitVec 64} {n : Nat}
    (h : decodeMapVarint b num = .ok (u, n)) :
    ∃ v rest, b = tag num .varint ++ v ++ rest ∧ n = (tag num .varint ++ v).length ∧ IsVarint64 v u.toNat := by
  unfold decodeMapVarint at h
  split at h
  · cases h
  · rename_i fn typ hb
    split at h
    · cases h
    · split at h
      · cases h
      · rename_i h1 h2
        have h1 := Decidable.not_not.1 h1
        have h2 : typ = WireType.varint.code := Decidable.not_not.1 h2
        subst h1 h2
        split at h
        · cases h
        · rename_i v m hv
          injection h with h
          injection h with h3 h4
          rw [fastVarint_eq] at hv
          obtain ⟨pre, post, h5, h6, h7⟩ := consumeVarint_sound64 hv
          obtain ⟨h8, h9⟩ := kvTag_sound hb
          refine ⟨pre, post, ?_, ?_, h3 ▸ h6⟩
          · rw [List.append_assoc, ← h5]; exact h9
          · rw [List.length_append, kvTag_len h8, ← h4, h7, Nat.add_comm]

theorem mapFixed32_complete {num : Nat} (hn : num < 16) {v : Bytes} (h : v.length = 4) (rest : Bytes) :
    decodeMapFixed32 (tag num .i32 ++ v ++ rest) num
      = .ok (BitVec.ofNat 32 (leVal v), (tag num .i32 ++ v).length) := by
  unfold decodeMapFixed32
  rw [List.append_assoc, kvTag_complete hn]
  simp only [kvTag_drop hn, consumeFixed32_take h, WireType.code, tFixed32]
  rw [List.length_append, kvTag_len hn, h]
  simp

theorem mapFixed32_sound {num : Nat} {b : Bytes} {u : BitVec 32} {n : Nat}
    (h : decodeMapFixed32 b num = .ok (u, n)) :
    ∃ v rest, b = tag num .i32 ++ v ++ rest ∧ n = (tag num .i32 ++ v).length ∧ v.length = 4 ∧
      u = BitVec.ofNat 32 (leVal v) := by
  unfold decodeMapFixed32 at h
  split at h
  · cases h
  · rename_i fn typ hb
    split at h
    · cases h
    · split at h
      · cases h
      · rename_i h1 h2
        have h1 := Decidable.not_not.1 h1
        have h2 : typ = WireType.i32.code := Decidable.not_not.1 h2
        subst h1 h2
        split at h
        · cases h
        · rename_i v m hv
          injection h with h
          injection h with h3 h4
          obtain ⟨pre, post, h5, h6, h7, h10⟩ := consumeFixed32_sound hv
          obtain ⟨h8, h9⟩ := kvTag_sound hb
          refine ⟨pre, post, ?_, ?_, h6, by rw [← h3, h10]⟩
          · rw [List.append_assoc, ← h5]; exact h9
          · rw [List.length_append, kvTag_len h8, ← h4, h7, h6]

theorem mapFixed64_complete {num : Nat} (hn : num < 16) {v : Bytes} (h : v.length = 8) (rest : Bytes) :
    decodeMapFixed64 (tag num .i64 ++ v ++ rest) num
      = .ok (BitVec.ofNat 64 (leVal v), (tag num .i64 ++ v).length) := by
  unfold decodeMapFixed64
  rw [List.append_assoc, kvTag_complete hn]
  simp only [kvTag_drop hn, consumeFixed64_take h, WireType.code, tFixed64]
  rw [List.length_append, kvTag_len hn, h]
  simp

theorem mapFixed64_sound {num : Nat} {b : Bytes} {u : BitVec 64} {n : Nat}
    (h : decodeMapFixed64 b num = .ok (u, n)) :
    ∃ v rest, b = tag num .i64 ++ v ++ rest ∧ n = (tag num .i64 ++ v).length ∧ v.length = 8 ∧
      u = BitVec.ofNat 64 (leVal v) := by
  unfold decodeMapFixed64 at h
  split at h
  · cases h
  · rename_i fn typ hb
    split at h
    · cases h
    · split at h
      · cases h
      · rename_i h1 h2
        have h1 := Decidable.not_not.1 h1
        have h2 : typ = WireType.i64.code := Decidable.not_not.1 h2
        subst h1 h2
        split at h
        · cases h
        · rename_i v m hv
          injection h with h
          injection h with h3 h4
          obtain ⟨pre, post, h5, h6, h7, h10⟩ := consumeFixed64_sound hv
          obtain ⟨h8, h9⟩ := kvTag_sound hb
          refine ⟨pre, post, ?_, ?_, h6, by rw [← h3, h10]⟩
          · rw [List.append_assoc, ← h5]; exact h9
          · rw [List.length_append, kvTag_len h8, ← h4, h7, h6]

theorem mapBool_complete {num : Nat} (hn : num < 16) (c : Byte) (rest : Bytes) :
    decodeMapBool (tag num .varint ++ [c] ++ rest) num
      = .ok (c != 0#8, (tag num .varint ++ [c]).length) := by
  have h := kvTag_complete hn .varint ([c] ++ rest)
  rw [tag_small hn] at h ⊢
  simp only [List.cons_append, List.nil_append] at h ⊢
  simp only [decodeMapBool]
  rw [h]
  simp [WireType.code, tVarint]

theorem mapBool_sound {num : Nat} {b : Bytes} {u : Bool} {n : Nat}
    (h : decodeMapBool b num = .ok (u, n)) :
    ∃ c rest, b = tag num .varint ++ [c] ++ rest ∧ n = (tag num .varint ++ [c]).length ∧ u = (c != 0#8) := by
  unfold decodeMapBool at h
  split at h
  · rename_i c0 c rest
    split at h
    · cases h
    · rename_i fn typ hb
      split at h
      · cases h
      · split at h
        · cases h
        · rename_i h1 h2
          have h1 := Decidable.not_not.1 h1
          have h2 : typ = WireType.varint.code := Decidable.not_not.1 h2
          subst h1 h2
          injection h with h
          injection h with h3 h4
          obtain ⟨h8, h9⟩ := kvTag_sound hb
          refine ⟨c, rest, ?_, ?_, h3.symm⟩
          · rw [List.append_assoc]; exact h9
          · rw [List.length_append, kvTag_len h8, ← h4]; rfl
  · cases h

theorem mapVarint_safe (b : Bytes) (num : Nat) : Safe (decodeMapVarint b num) := by
  unfold decodeMapVarint
  repeat' split
  all_goals first | exact Safe.ok _ | exact Safe.err nofun nofun
theorem mapFixed32_safe (b : Bytes) (num : Nat) : Safe (decodeMapFixed32 b num) := by
  unfold decodeMapFixed32
  repeat' split
  all_goals first | exact Safe.ok _ | exact Safe.err nofun nofun
theorem mapFixed64_safe (b : Bytes) (num : Nat) : Safe (decodeMapFixed64 b num) := by
  unfold decodeMapFixed64
  repeat' split
  all_goals first | exact Safe.ok _ | exact Safe.err nofun nofun
theorem mapBool_safe (b : Bytes) (num : Nat) : Safe (decodeMapBool b num) := by
  unfold decodeMapBool
  repeat' split
  all_goals first | exact Safe.ok _ | exact Safe.err nofun nofun

theorem mapPart_complete {s : Scalar} (hs : s.packable = true) {num : Nat} (hn : num < 16) {v : Bytes} {y : Val}
    (h : ScalarDec true s v y) (rest : Bytes) :
    decodeMapPart (coderOf s) (tag num s.wire ++ v ++ rest) num = .ok (y, (tag num s.wire ++ v).length) := by
  cases s with
  | int32 | uint32 =>
    obtain ⟨n, h1, rfl⟩ := h
    simp only [coderOf, Scalar.wire, decodeMapPart, mapVarint_complete hn h1]
    rw [← setWidth32_ofNat]; rfl
  | int64 | uint64 =>
    obtain ⟨n, h1, rfl⟩ := h
    simp only [coderOf, Scalar.wire, decodeMapPart, mapVarint_complete hn h1]
    rfl
  | sint32 =>
    obtain ⟨n, h1, rfl⟩ := h
    simp only [coderOf, Scalar.wire, decodeMapPart, mapVarint_complete hn h1]
    rw [← setWidth32_ofInt, ← decodeZigZag_ofNat h1.2.2]; rfl
  | sint64 =>
    obtain ⟨n, h1, rfl⟩ := h
    simp only [coderOf, Scalar.wire, decodeMapPart, mapVarint_complete hn h1]
    rw [← decodeZigZag_ofNat h1.2.2]; rfl
  | fixed32 | sfixed32 | float =>
    obtain ⟨h1, rfl⟩ := h
    simp only [coderOf, Scalar.wire, decodeMapPart, mapFixed32_complete hn h1]; rfl
  | fixed64 | sfixed64 | double =>
    obtain ⟨h1, rfl⟩ := h
    simp only [coderOf, Scalar.wire, decodeMapPart, mapFixed64_complete hn h1]; rfl
  | bool =>
    obtain ⟨c, rfl, rfl⟩ := h
    simp only [coderOf, Scalar.wire, decodeMapPart, mapBool_complete hn]; rfl
  | string => cases hs
  | bytes => cases hs

theorem mapPart_sound {s : Scalar} {num : Nat} {b : Bytes} {y : Val} {n : Nat}
    (h : decodeMapPart (coderOf s) b num = .ok (y, n)) :
    ∃ v rest, b = tag num s.wire ++ v ++ rest ∧ n = (tag num s.wire ++ v).length ∧ ScalarDec true s v y := by
  cases s with
  | int32 | uint32 =>
    obtain ⟨⟨u, m⟩, h1, h2⟩ := map_ok.1 h
    injection h2 with h2 h3
    obtain ⟨v, rest, h4, h5, h6⟩ := mapVarint_sound h1
    refine ⟨v, rest, h4, by rw [← h3, h5]; rfl, u.toNat, h6, ?_⟩
    rw [← h2, ← setWidth32_ofNat, BitVec.ofNat_toNat, BitVec.setWidth_eq]
  | int64 | uint64 =>
    obtain ⟨⟨u, m⟩, h1, h2⟩ := map_ok.1 h
    injection h2 with h2 h3
    obtain ⟨v, rest, h4, h5, h6⟩ := mapVarint_sound h1
    refine ⟨v, rest, h4, by rw [← h3, h5]; rfl, u.toNat, h6, ?_⟩
    rw [← h2, BitVec.ofNat_toNat, BitVec.setWidth_eq]
  | sint32 =>
    obtain ⟨⟨u, m⟩, h1, h2⟩ := map_ok.1 h
    injection h2 with h2 h3
    obtain ⟨v, rest, h4, h5, h6⟩ := mapVarint_sound h1
    refine ⟨v, rest, h4, by rw [← h3, h5]; rfl, u.toNat, h6, ?_⟩
    rw [← h2, ← setWidth32_ofInt, ← decodeZigZag_ofNat u.isLt, BitVec.ofNat_toNat, BitVec.setWidth_eq]
  | sint64 =>
    obtain ⟨⟨u, m⟩, h1, h2⟩ := map_ok.1 h
    injection h2 with h2 h3
    obtain ⟨v, rest, h4, h5, h6⟩ := mapVarint_sound h1
    refine ⟨v, rest, h4, by rw [← h3, h5]; rfl, u.toNat, h6, ?_⟩
    rw [← h2, ← decodeZigZag_ofNat u.isLt, BitVec.ofNat_toNat, BitVec.setWidth_eq]
  | fixed32 | sfixed32 | float =>
    obtain ⟨⟨u, m⟩, h1, h2⟩ := map_ok.1 h
    injection h2 with h2 h3
    obtain ⟨v, rest, h4, h5, h6, h7⟩ := mapFixed32_sound h1
    exact ⟨v, rest, h4, by rw [← h3, h5]; rfl, h6, by rw [← h2, h7]⟩
  | fixed64 | sfixed64 | double =>
    obtain ⟨⟨u, m⟩, h1, h2⟩ := map_ok.1 h
    injection h2 with h2 h3
    obtain ⟨v, rest, h4, h5, h6, h7⟩ := mapFixed64_sound h1
    exact ⟨v, rest, h4, by rw [← h3, h5]; rfl, h6, by rw [← h2, h7]⟩
  | bool =>
    obtain ⟨⟨u, m⟩, h1, h2⟩ := map_ok.1 h
    injection h2 with h2 h3
    obtain ⟨c, rest, h4, h5, h6⟩ := mapBool_sound h1
    exact ⟨[c], rest, h4, by rw [← h3, h5]; rfl, c, rfl, by rw [← h2, h6]⟩
  | string => cases h
  | bytes => cases h

theorem mapPart_safe {s : Scalar} (hs : s.packable = true) (b : Bytes) (num : Nat) :
    Safe (decodeMapPart (coderOf s) b num) := by
  cases s <;> first
    | (cases hs; done)
    | exact Safe.map _ (mapVarint_safe _ _)
    | exact Safe.map _ (mapFixed32_safe _ _)
    | exact Safe.map _ (mapFixed64_safe _ _)
    | exact Safe.map _ (mapBool_safe _ _)

theorem fastPair_iff {k v : Scalar} :
    getMapDecoder (coderOf k) (coderOf v) = if fastPair k v then some (coderOf k, coderOf v) else none := by
  cases k <;> cases v <;> rfl

theorem fastPair_packable {k v : Scalar} (h : fastPair k v = true) : k.packable = true ∧ v.packable = true := by
  cases k <;> cases v <;> first | exact ⟨rfl, rfl⟩ | cases h

theorem mapInsert_eq (m : List (Key × Val)) (k : Key) (v : Val) : mapInsert m k v = putEntry m k v := by
  induction m with
  | nil => rfl
  | cons e m ih => obtain ⟨a, b⟩ := e; simp only [mapInsert, putEntry, ih]

theorem toKey_toVal (k : Key) : k.toVal.toKey = .ok k := by cases k <;> rfl

theorem toKey_ok {v : Val} {k : Key} (h : v.toKey = .ok k) : v = k.toVal := by
  cases v <;> first | (cases h; rfl) | cases h

theorem isKey_toKey {s : Scalar} (hs : s.isKey = true) {v : Val} (h : s.goType.holds v = true) :
    ∃ k : Key, v = k.toVal := by
  cases v with
  | w32 x => exact ⟨.w32 x, rfl⟩
  | w64 x => exact ⟨.w64 x, rfl⟩
  | bool x => exact ⟨.bool x, rfl⟩
  | str x => exact ⟨.str x, rfl⟩
  | _ => cases s <;> first | (cases h; done) | (cases hs; done)

theorem asMap_ok {v : Val} {m : List (Key × Val)} (h : v.asMap = .ok m) : ∃ o, v = .map o ∧ m = o.getD [] := by
  cases v <;> first | (cases h; exact ⟨_, rfl, rfl⟩) | cases h

theorem mapFast_complete {ks vs : Scalar} (hf : fastPair ks vs = true) {kb vb rest : Bytes} {k : Key} {y : Val}
    (hk : ScalarDec true ks kb k.toVal) (hv : ScalarDec true vs vb y) (m : Option (List (Key × Val))) :
    decodeMapFast (coderOf ks) (coderOf vs) ks.goType vs.goType
      (tag 1 ks.wire ++ kb ++ (tag 2 vs.wire ++ vb) ++ rest) (.map m)
      = .ok (.map (some (putEntry (m.getD []) k y))) := by
  obtain ⟨h1, h2⟩ := fastPair_packable hf
  unfold decodeMapFast
  rw [List.append_assoc (tag 1 ks.wire ++ kb), mapPart_complete h1 (by omega) hk]
  simp only [bind, Except.bind, List.drop_left]
  rw [mapPart_complete h2 (by omega) hv]
  simp only [Val.asMap, toKey_toVal, scalarDec_holds hk, scalarDec_holds hv, Bool.and_self, if_true, mapInsert_eq]
  rfl

theorem mapFast_sound {ks vs : Scalar} {b : Bytes} {cur w : Val}
    (h : decodeMapFast (coderOf ks) (coderOf vs) ks.goType vs.goType b cur = .ok w) :
    ∃ kb vb rest m k y, b = tag 1 ks.wire ++ kb ++ (tag 2 vs.wire ++ vb) ++ rest ∧ cur = .map m ∧
      ScalarDec true ks kb k.toVal ∧ ScalarDec true vs vb y ∧ w = .map (some (putEntry (m.getD []) k y)) := by
  unfold decodeMapFast at h
  obtain ⟨⟨k, n⟩, h1, h⟩ := bind_ok.1 h
  obtain ⟨⟨x, n'⟩, h2, h⟩ := bind_ok.1 h
  obtain ⟨m, h3, h⟩ := bind_ok.1 h
  obtain ⟨kb, r, g1, g2, g3⟩ := mapPart_sound h1
  rw [g1, g2, List.drop_left] at h2
  obtain ⟨vb, rest, g4, g5, g6⟩ := mapPart_sound h2
  split at h
  · obtain ⟨k', g7, g8⟩ := bind_ok.1 h
    obtain ⟨o, g9, g10⟩ := asMap_ok h3
    have g11 := toKey_ok g7
    subst g11
    refine ⟨kb, vb, rest, o, k', x, ?_, g9, g3, g6, ?_⟩
    · rw [g1, g4]; simp only [List.append_assoc]
    · rw [← pure_ok.1 g8, mapInsert_eq, g10]
  · cases h

theorem mapFast_safe {ks vs : Scalar} (hf : fastPair ks vs = true) (hk : ks.isKey = true) (b : Bytes)
    (m : Option (List (Key × Val))) :
    Safe (decodeMapFast (coderOf ks) (coderOf vs) ks.goType vs.goType b (.map m)) := by
  obtain ⟨p1, p2⟩ := fastPair_packable hf
  unfold decodeMapFast
  refine Safe.bind (mapPart_safe p1 _ _) (fun ⟨k, n⟩ h1 => ?_)
  refine Safe.bind (mapPart_safe p2 _ _) (fun ⟨x, n'⟩ h2 => ?_)
  refine Safe.bind (Safe.ok _) (fun m h3 => ?_)
  obtain ⟨_, _, _, _, g3⟩ := mapPart_sound h1
  obtain ⟨_, _, _, _, g6⟩ := mapPart_sound h2
  have g3 := scalarDec_holds g3
  have g6 := scalarDec_holds g6
  simp only [g3, g6, Bool.and_self, if_true]
  obtain ⟨k', rfl⟩ := isKey_toKey hk g3
  rw [toKey_toVal]
  exact Safe.ok _

end Verif.Lemmas
