import Verif.Lemmas.DecMap
import Verif.Lemmas.DescOf
/-! Helper lemmas: the decoder on a record of a field of each shape. -/
namespace Verif.Lemmas
open Verif.Model Verif.Spec

/-- Results that consume a prefix. -/
def Reads (r : Res (Val × Nat)) (b : Bytes) (P : Bytes → Val → Prop) : Prop :=
  ∀ y n, r = .ok (y, n) ↔ ∃ v rest, b = v ++ rest ∧ n = v.length ∧ P v y

theorem Reads.congr {r : Res (Val × Nat)} {b : Bytes} {P Q : Bytes → Val → Prop} (h : Reads r b P)
    (hPQ : ∀ v y, P v y ↔ Q v y) : Reads r b Q := by
  intro y n
  rw [h y n]
  constructor
  · rintro ⟨v, rest, h1, h2, h3⟩; exact ⟨v, rest, h1, h2, (hPQ _ _).1 h3⟩
  · rintro ⟨v, rest, h1, h2, h3⟩; exact ⟨v, rest, h1, h2, (hPQ _ _).2 h3⟩

theorem Reads.error {e : Fault} {b : Bytes} {P : Bytes → Val → Prop} (h : ∀ v y, ¬ P v y) :
    Reads (.error e) b P := by
  intro y n
  constructor
  · nofun
  · rintro ⟨v, rest, _, _, h3⟩; exact absurd h3 (h _ _)

/-- Post-processing the value read. -/
theorem Reads.map {r : Res (Val × Nat)} {b : Bytes} {P : Bytes → Val → Prop} (h : Reads r b P) (g : Val → Val) :
    Reads (r >>= fun x => pure (g x.1, x.2)) b (fun v y => ∃ x, P v x ∧ y = g x) := by
  intro y n
  rw [bind_ok]
  constructor
  · rintro ⟨⟨x, m⟩, h1, h2⟩
    obtain ⟨v, rest, h3, h4, h5⟩ := (h x m).1 h1
    have h6 := pure_ok.1 h2
    injection h6 with h6 h7
    exact ⟨v, rest, h3, by rw [← h7, h4], x, h5, h6.symm⟩
  · rintro ⟨v, rest, h3, rfl, x, h5, rfl⟩
    exact ⟨(x, v.length), (h _ _).2 ⟨v, rest, h3, rfl, h5⟩, rfl⟩

/-- A length-delimited value handed on to `g`. -/
def lenThen (typ : WType) (b : Bytes) (g : Bytes → Res Val) : Res (Val × Nat) :=
  if typ = tBytes then do
    let (fb, n) ← liftP (consumeBytes b)
    let v ← g fb
    return (v, n)
  else .error .wireType

theorem lenThen_reads (typ : WType) (b : Bytes) (g : Bytes → Res Val) :
    Reads (lenThen typ b g) b (fun v y => typ = WireType.len.code ∧ ∃ p, IsLen v p ∧ g p = .ok y) := by
  intro y n
  unfold lenThen
  split
  · rename_i ht
    rw [bind_ok]
    constructor
    · rintro ⟨⟨p, m⟩, h1, h2⟩
      obtain ⟨w, h3, h4⟩ := bind_ok.1 h2
      obtain ⟨pre, post, h5, h6, h7⟩ := consumeBytes_sound_isLen (liftP_ok.1 h1)
      have h8 := pure_ok.1 h4
      injection h8 with h8 h9
      exact ⟨pre, post, h5, by rw [← h9, h7], ht, p, h6, by rw [h3, h8]⟩
    · rintro ⟨v, rest, rfl, rfl, _, p, h1, h2⟩
      refine ⟨(p, v.length), liftP_ok.2 (consumeBytes_isLen h1 rest), ?_⟩
      simp only [h2]; rfl
  · rename_i ht
    constructor
    · nofun
    · rintro ⟨v, rest, _, _, h1, _⟩; exact absurd h1 ht

theorem lenThen_safe {typ : WType} {b : Bytes} {g : Bytes → Res Val}
    (h : ∀ pre p rest, b = pre ++ rest → IsLen pre p → Safe (g p)) : Safe (lenThen typ b g) := by
  unfold lenThen
  split
  · refine Safe.bind (Safe.liftP _) (fun ⟨p, m⟩ h1 => ?_)
    obtain ⟨pre, post, h5, h6, h7⟩ := consumeBytes_sound_isLen (liftP_ok.1 h1)
    exact Safe.bind (h _ _ _ h5 h6) (fun _ _ => Safe.ok _)
  · exact Safe.err nofun nofun

theorem isLen_length {v p : Bytes} (h : IsLen v p) : p.length < v.length := by
  obtain ⟨pre, h1, rfl⟩ := h
  have := IsVarint64.length_pos h1
  simp; omega

/-! ## values -/

theorem valueAt_reads (D : Descs) (rec : DecRec) (f : FieldDesc) {s : Scalar} (hf : f.tagType = tagTypeOf s)
    (typ : WType) (b : Bytes) (cur : Val) (d : Int) :
    Reads (decodeValueAt D rec f s.goType typ b cur d) b
      (fun v y => typ = s.wire.code ∧ ScalarDec false s v y) := by
  intro y n
  constructor
  · intro h
    obtain ⟨h1, v, rest, h2, h3, h4⟩ := valueAt_sound hf h
    exact ⟨v, rest, h2, h3, h1, h4⟩
  · rintro ⟨v, rest, rfl, rfl, rfl, h⟩
    exact valueAt_complete D rec f hf h rest cur d

/-- `decodeValueAt` for types written as blocks. -/
theorem valueAt_len (D : Descs) (rec : DecRec) (f : FieldDesc) (hf : f.tagType = .bytes) (t : GoType) (typ : WType)
    (b : Bytes) (cur : Val) (d : Int) :
    decodeValueAt D rec f t typ b cur d = lenThen typ b (fun fb => decodeLenAt D rec f t fb cur d) := by
  unfold decodeValueAt lenThen
  split
  · simp [tBytes, decodeVarintAt, hf]
  · simp [tBytes, decodeFixed32At, hf]
  · simp [tBytes, decodeFixed64At, hf]
  · exact (if_pos (by rfl)).symm
  · rename_i h; exact (if_neg h).symm

theorem mapValueAt_len (rec : DecRec) (f : FieldDesc) (hf : f.valType = .bytes) (t : GoType) (typ : WType)
    (b : Bytes) (cur : Val) (d : Int) :
    decodeMapValueAt rec f t typ b cur d = lenThen typ b (fun fb => decodeMapValueLen rec t fb cur d) := by
  unfold decodeMapValueAt lenThen
  split
  · simp [tBytes, decodeVarintAt, hf]
  · simp [tBytes, decodeFixed32At, hf]
  · simp [tBytes, decodeFixed64At, hf]
  · exact (if_pos (by rfl)).symm
  · rename_i h; exact (if_neg h).symm

/-! ## shapes -/

section
variable (D : Descs) (rec : DecRec) (n sl : Nat) (m : Option Nat) (typ : WType) (b : Bytes) (cur : Val) (d : Int)

theorem ptr_single (s : Scalar) :
    decodePtr D rec (descOf ⟨n, sl, m, .single s⟩) typ b cur d
      = decodeValueAt D rec (descOf ⟨n, sl, m, .single s⟩) s.goType typ b cur d := by
  rw [descOf_single]; cases s <;> rfl

theorem ptr_optional (s : Scalar) :
    decodePtr D rec (descOf ⟨n, sl, m, .optional s⟩) typ b cur d
      = decodeValueAt D rec (descOf ⟨n, sl, m, .optional s⟩) s.goType typ b (alloc D s.goType) d
        >>= fun x => pure (.ptr (some x.1), x.2) := by
  rw [descOf_optional]; cases s <;> rfl

theorem elem_scalar (f : FieldDesc) (s : Scalar) : decodeElem D rec f s.goType typ b d
    = decodeValueAt D rec f s.goType typ b (alloc D s.goType) d := by cases s <;> rfl

theorem ptr_list (s : Scalar) :
    decodePtr D rec (descOf ⟨n, sl, m, .list s false⟩) typ b cur d
      = cur.asSlice >>= fun xs =>
        decodeValueAt D rec (descOf ⟨n, sl, m, .list s false⟩) s.goType typ b (alloc D s.goType) d
        >>= fun x => pure (.slice (xs ++ [x.1]), x.2) := by
  rw [descOf_list]
  unfold decodePtr decodeRep
  simp only [elem_scalar]
  exact if_neg (by simp)

theorem ptr_packed (s : Scalar) (hs : s.packable = true) :
    decodePtr D rec (descOf ⟨n, sl, m, .list s true⟩) typ b cur d
      = if typ = tBytes then lenThen typ b (fun fb => decodePackedCoder (coderOf s) s.goType fb)
        else cur.asSlice >>= fun xs =>
          decodeValueAt D rec (descOf ⟨n, sl, m, .list s true⟩) s.goType typ b (alloc D s.goType) d
          >>= fun x => pure (.slice (xs ++ [x.1]), x.2) := by
  rw [descOf_packed _ _ _ _ hs]
  unfold decodePtr decodeRep lenThen
  simp only [elem_scalar, and_true]
  split <;> rfl

theorem ptr_msgPtr (id : Nat) :
    decodePtr D rec (descOf ⟨n, sl, m, .msg id true⟩) typ b cur d
      = lenThen typ b (fun fb => rec (d - 1) fb (D id).empty id) >>= fun x => pure (.ptr (some x.1), x.2) := by
  rw [descOf_msg]
  show decodeValueAt D rec _ _ _ _ _ _ >>= _ = _
  rw [valueAt_len _ _ _ rfl]
  rfl

theorem ptr_msgInline (id : Nat) :
    decodePtr D rec (descOf ⟨n, sl, m, .msg id false⟩) typ b cur d
      = lenThen typ b (fun fb => rec (d - 1) fb cur id) := by
  rw [descOf_msg]
  show decodeValueAt D rec _ _ _ _ _ _ = _
  rw [valueAt_len _ _ _ rfl]
  rfl

theorem ptr_msgListPtr (id : Nat) :
    decodePtr D rec (descOf ⟨n, sl, m, .msgList id true⟩) typ b cur d
      = cur.asSlice >>= fun xs => lenThen typ b (fun fb => rec (d - 1) fb (D id).empty id)
        >>= fun x => pure (.slice (xs ++ [.ptr (some x.1)]), x.2) := by
  rw [descOf_msgList]
  unfold decodePtr decodeRep
  simp only [msgType, if_true, and_false, if_false, reduceCtorEq, decodeElem]
  rw [valueAt_len _ _ _ rfl]
  cases cur <;> try rfl
  simp only [Val.asSlice, bind, Except.bind]
  simp only [decodeLenAt, alloc, GoType.zeroedAlloc, if_true, zeroVal]
  cases lenThen typ b _ <;> rfl

theorem ptr_msgListInline (id : Nat) :
    decodePtr D rec (descOf ⟨n, sl, m, .msgList id false⟩) typ b cur d
      = cur.asSlice >>= fun xs => lenThen typ b (fun fb => rec (d - 1) fb (D id).empty id)
        >>= fun x => pure (.slice (xs ++ [x.1]), x.2) := by
  rw [descOf_msgList]
  unfold decodePtr decodeRep
  simp only [msgType, Bool.false_eq_true, and_false, if_false, decodeElem]
  rw [valueAt_len _ _ _ rfl]
  rfl

theorem ptr_map (k v : Scalar) :
    decodePtr D rec (descOf ⟨n, sl, m, .map k v⟩) typ b cur d
      = lenThen typ b (fun fb =>
        if fastPair k v then decodeMapFast (coderOf k) (coderOf v) k.goType v.goType fb cur
        else decodeMapPair D rec (descOf ⟨n, sl, m, .map k v⟩) k.goType v.goType fb cur (d - 1)) := by
  have h : decodePtr D rec (descOf ⟨n, sl, m, .map k v⟩) typ b cur d
      = decodeValueAt D rec (descOf ⟨n, sl, m, .map k v⟩) (.map k.goType v.goType) typ b cur d := by
    rw [descOf_map]; rfl
  rw [h, valueAt_len _ _ _ (by rw [descOf_map])]
  congr 1
  funext fb
  rw [descOf_map]
  simp only [decodeLenAt, fastPair_iff]
  cases fastPair k v <;> rfl

theorem ptr_mapMsg (k : Scalar) (id : Nat) (p : Bool) :
    decodePtr D rec (descOf ⟨n, sl, m, .mapMsg k id p⟩) typ b cur d
      = lenThen typ b (fun fb =>
        decodeMapPair D rec (descOf ⟨n, sl, m, .mapMsg k id p⟩) k.goType (msgType id p) fb cur (d - 1)) := by
  have h : decodePtr D rec (descOf ⟨n, sl, m, .mapMsg k id p⟩) typ b cur d
      = decodeValueAt D rec (descOf ⟨n, sl, m, .mapMsg k id p⟩) (.map k.goType (msgType id p)) typ b cur d := by
    rw [descOf_mapMsg]; rfl
  rw [h, valueAt_len _ _ _ (by rw [descOf_mapMsg])]
  congr 1
  funext fb
  rw [descOf_mapMsg]
  rfl

end

theorem descOf_tagType (n sl : Nat) (m : Option Nat) (sh : Shape) :
    (descOf ⟨n, sl, m, sh⟩).tagType = tagTypeOfShape sh := by
  cases sh with
  | single s => rw [descOf_single]; rfl
  | msg id p => cases p <;> rfl
  | _ => rfl

/-! ## generic map entries -/

theorem mapValue_reads {D : Descs} {rec : DecRec} {f : FieldDesc} {vt : GoType} {w : WireType} {depth : Int}
    {P : Bytes → Val → Prop} (b : Bytes)
    (h : ∀ typ b', b'.length ≤ b.length →
      Reads (decodeMapValueRef D rec f vt typ b' depth) b' (fun v y => typ = w.code ∧ P v y)) :
    Reads (decodeMapValue D rec f vt b depth) b (fun v y => ∃ u, v = tag 2 w ++ u ∧ P u y) := by
  intro y n
  unfold decodeMapValue
  constructor
  · intro h1
    split at h1
    · cases h1
    · rename_i num typ hb
      split at h1
      · cases h1
      · rename_i hn
        have hn := Decidable.not_not.1 hn
        subst hn
        obtain ⟨⟨x, k⟩, h2, h3⟩ := bind_ok.1 h1
        obtain ⟨v, rest, h4, h5, h6, h7⟩ := (h _ _ (by simp) _ _).1 h2
        subst h6
        obtain ⟨_, h8⟩ := kvTag_sound hb
        have h9 := pure_ok.1 h3
        injection h9 with h9 h10
        refine ⟨tag 2 w ++ v, rest, ?_, ?_, v, rfl, h9 ▸ h7⟩
        · rw [List.append_assoc, ← h4]; exact h8
        · rw [List.length_append, kvTag_len (by omega), ← h10, h5, Nat.add_comm]
  · rintro ⟨_, rest, rfl, rfl, u, rfl, h1⟩
    rw [List.append_assoc, kvTag_complete (by omega)]
    simp only [kvTag_drop (n := 2) (by omega)]
    rw [if_neg (by simp), (h _ _ (by simp) _ _).2 ⟨u, rest, rfl, rfl, rfl, h1⟩, List.length_append, kvTag_len (by omega),
      Nat.add_comm 1]
    rfl

theorem mapPair_ok {D : Descs} {rec : DecRec} {f : FieldDesc} {ks : Scalar} {vt : GoType} {w : WireType}
    {depth : Int} {P : Bytes → Val → Prop} (hf : f.keyType = tagTypeOf ks) (hk : ks.isKey = true)
    (b : Bytes) (h : ∀ typ b', b'.length ≤ b.length →
      Reads (decodeMapValueRef D rec f vt typ b' depth) b' (fun v y => typ = w.code ∧ P v y))
    (cur r : Val) :
    decodeMapPair D rec f ks.goType vt b cur depth = .ok r ↔
      ∃ kb vb rest m k y, b = tag 1 ks.wire ++ kb ++ (tag 2 w ++ vb) ++ rest ∧ cur = .map m ∧
        ScalarDec false ks kb k.toVal ∧ P vb y ∧ r = .map (some (putEntry (m.getD []) k y)) := by
  unfold decodeMapPair
  constructor
  · intro h0
    obtain ⟨m, h1, h0⟩ := bind_ok.1 h0
    obtain ⟨⟨k, n⟩, h2, h0⟩ := bind_ok.1 h0
    obtain ⟨⟨v, n'⟩, h3, h0⟩ := bind_ok.1 h0
    have h0 : (k.toKey >>= fun k' => pure (Val.map (some (mapInsert m k' v)))) = Except.ok r := h0
    obtain ⟨k', h4, h5⟩ := bind_ok.1 h0
    obtain ⟨kb, rest, g1, g2, g3⟩ := mapKey_sound hf h2
    rw [g1, g2, List.drop_left] at h3
    obtain ⟨_, rest', g4, g5, vb, rfl, g6⟩ := (mapValue_reads _ (fun typ b' hb => h typ b' (Nat.le_trans hb (by rw [g1]; simp; omega))) _ _).1 h3
    obtain ⟨o, g7, g8⟩ := asMap_ok h1
    have g9 := toKey_ok h4
    subst g9
    refine ⟨kb, vb, rest', o, k', v, ?_, g7, g3, g6, ?_⟩
    · rw [g1, g4]; simp only [List.append_assoc]
    · rw [← pure_ok.1 h5, mapInsert_eq, g8]
  · rintro ⟨kb, vb, rest, m, k, y, rfl, rfl, h1, h2, rfl⟩
    simp only [Val.asMap, bind, Except.bind]
    rw [List.append_assoc (tag 1 ks.wire ++ kb), mapKey_complete hf hk h1]
    simp only [List.drop_left]
    rw [(mapValue_reads _ (fun typ b' hb => h typ b' (Nat.le_trans hb (by simp; omega))) _ _).2 ⟨_, rest, rfl, rfl, vb, rfl, h2⟩]
    simp only [toKey_toVal, mapInsert_eq]
    rfl

theorem mapPair_safe {D : Descs} {rec : DecRec} {f : FieldDesc} {ks : Scalar} {vt : GoType}
    {depth : Int} (hf : f.keyType = tagTypeOf ks) (hk : ks.isKey = true) (b : Bytes)
    (h : ∀ typ b', b'.length ≤ b.length → Safe (decodeMapValueRef D rec f vt typ b' depth))
    (m : Option (List (Key × Val))) :
    Safe (decodeMapPair D rec f ks.goType vt b (.map m) depth) := by
  unfold decodeMapPair
  refine Safe.bind (Safe.ok _) (fun m h1 => ?_)
  refine Safe.bind (mapKey_safe _ _ _) (fun ⟨k, n⟩ h2 => ?_)
  refine Safe.bind ?_ (fun ⟨v, n'⟩ h3 => ?_)
  · unfold decodeMapValue
    split
    · exact Safe.err nofun nofun
    · split
      · exact Safe.err nofun nofun
      · exact Safe.bind (h _ _ (by simp)) (fun _ _ => Safe.ok _)
  · obtain ⟨kb, rest, g1, g2, g3⟩ := mapKey_sound hf h2
    obtain ⟨k', rfl⟩ := isKey_toKey hk (scalarDec_holds g3)
    show Safe ((Key.toVal k').toKey >>= _)
    rw [toKey_toVal]
    exact Safe.ok _

end Verif.Lemmas
