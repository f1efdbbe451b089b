import Verif.Spec.Decode
import Verif.Lemmas.DescOf
import Verif.Lemmas.Packed
import Verif.Lemmas.Skip
import Verif.Model.Decoder
/-! Helper lemmas: decoding scalars, packed blocks and the parts of map entries. -/
namespace Verif.Lemmas
open Verif.Model Verif.Spec

/-- Not a panic and not a memory fault. -/
def Safe {α : Type} (r : Res α) : Prop := r ≠ .error .panic ∧ r ≠ .error .ub

theorem Safe.ok {α : Type} (a : α) : Safe (.ok a : Res α) := ⟨nofun, nofun⟩
theorem Safe.err {α : Type} {e : Fault} (h1 : e ≠ .panic) (h2 : e ≠ .ub) : Safe (.error e : Res α) :=
  ⟨by intro h; injection h with h; exact h1 h, by intro h; injection h with h; exact h2 h⟩
theorem Safe.bind {α β : Type} {r : Res α} {g : α → Res β} (h : Safe r) (hg : ∀ a, r = .ok a → Safe (g a)) :
    Safe (r >>= g) := by
  cases r with
  | error e =>
    refine Safe.err ?_ ?_
    · rintro rfl; exact h.1 rfl
    · rintro rfl; exact h.2 rfl
  | ok a => exact hg a rfl
theorem Safe.map {α β : Type} {r : Res α} (g : α → β) (h : Safe r) : Safe (g <$> r) := by
  cases r with
  | error e =>
    refine Safe.err ?_ ?_
    · rintro rfl; exact h.1 rfl
    · rintro rfl; exact h.2 rfl
  | ok a => exact Safe.ok _
theorem Safe.liftP {α : Type} (r : Except PErr α) : Safe (liftP r) := by
  cases r with
  | error e => exact Safe.err nofun nofun
  | ok a => exact Safe.ok _

theorem liftP_ok {α : Type} {r : Except PErr α} {a : α} : liftP r = .ok a ↔ r = .ok a := by
  cases r with
  | error e => exact ⟨nofun, nofun⟩
  | ok b => exact ⟨fun h => by injection h with h; rw [h], fun h => by injection h with h; rw [h]; rfl⟩

theorem bind_ok {α β : Type} {r : Res α} {g : α → Res β} {b : β} :
    (r >>= g) = .ok b ↔ ∃ a, r = .ok a ∧ g a = .ok b := by
  cases r with
  | error e => exact ⟨nofun, nofun⟩
  | ok a => exact ⟨fun h => ⟨a, rfl, h⟩, fun ⟨a', h1, h2⟩ => by injection h1 with h1; rw [h1]; exact h2⟩

theorem map_ok {α β : Type} {r : Res α} {g : α → β} {b : β} :
    (g <$> r) = .ok b ↔ ∃ a, r = .ok a ∧ g a = b := by
  cases r with
  | error e => exact ⟨nofun, nofun⟩
  | ok a => exact ⟨fun h => ⟨a, rfl, by injection h⟩,
      fun ⟨a', h1, h2⟩ => by injection h1 with h1; subst h1; subst h2; rfl⟩

theorem pure_ok {α : Type} {a b : α} : (pure a : Res α) = .ok b ↔ a = b :=
  ⟨fun h => by injection h, fun h => by rw [h]; rfl⟩

/-! ## words -/

theorem isVarint64_inj {v : Bytes} {m n : Nat} (h : IsVarint64 v m) (h' : IsVarint64 v n) : m = n :=
  (IsVarint.prefix_unique (r := []) (s := []) h.1 h'.1 rfl).2.1

theorem ofNat64_toNat {n : Nat} (h : n < 2 ^ 64) : (BitVec.ofNat 64 n).toNat = n := by
  rw [BitVec.toNat_ofNat, Nat.mod_eq_of_lt h]

theorem setWidth32_ofNat (n : Nat) : (BitVec.ofNat 64 n).setWidth 32 = BitVec.ofNat 32 n := by
  apply BitVec.eq_of_toNat_eq
  simp only [BitVec.toNat_setWidth, BitVec.toNat_ofNat]
  omega

theorem decodeZigZag_ofNat {n : Nat} (h : n < 2 ^ 64) :
    decodeZigZag (BitVec.ofNat 64 n) = BitVec.ofInt 64 (unzigzag n) := by
  have := decodeZigZag_toInt (BitVec.ofNat 64 n)
  rw [ofNat64_toNat h] at this
  rw [← this, BitVec.ofInt_toInt]

theorem setWidth32_ofInt (i : Int) : (BitVec.ofInt 64 i).setWidth 32 = BitVec.ofInt 32 i := by
  apply BitVec.eq_of_toNat_eq
  simp only [BitVec.toNat_setWidth, BitVec.toNat_ofInt]
  omega

theorem and_one (n : Nat) : (BitVec.ofNat 64 n &&& 1#64 != 0#64) = (n % 2 == 1) := by
  have h : (BitVec.ofNat 64 n &&& 1#64).toNat = n % 2 := by
    rw [BitVec.toNat_and]
    simp only [BitVec.toNat_ofNat]
    rw [show 1 % 2 ^ 64 = 1 from rfl, Nat.and_one_is_mod]
    omega
  by_cases h2 : n % 2 = 1
  · have : BitVec.ofNat 64 n &&& 1#64 ≠ 0#64 := by
      intro h3; rw [h3] at h; simp at h; omega
    simp [this, h2]
  · have : BitVec.ofNat 64 n &&& 1#64 = 0#64 := by
      apply BitVec.eq_of_toNat_eq; rw [h]; simp; omega
    simp [this, h2]

/-! ## single values -/

theorem scalarDec_holds {o : Bool} {s : Scalar} {v : Bytes} {y : Val} (h : ScalarDec o s v y) :
    s.goType.holds y = true := by
  cases s with
  | bool =>
    cases o <;> (obtain ⟨n, _, rfl⟩ := h; rfl)
  | fixed32 => obtain ⟨_, rfl⟩ := h; rfl
  | fixed64 => obtain ⟨_, rfl⟩ := h; rfl
  | sfixed32 => obtain ⟨_, rfl⟩ := h; rfl
  | sfixed64 => obtain ⟨_, rfl⟩ := h; rfl
  | float => obtain ⟨_, rfl⟩ := h; rfl
  | double => obtain ⟨_, rfl⟩ := h; rfl
  | _ => obtain ⟨n, _, rfl⟩ := h; rfl

theorem varintAt_complete {s : Scalar} (hs : s.wire = .varint) {v : Bytes} {y : Val}
    (h : ScalarDec false s v y) (rest : Bytes) (cur : Val) :
    decodeVarintAt (tagTypeOf s) s.goType.kind (v ++ rest) cur = .ok (y, v.length) := by
  cases s <;> first | (cases hs; done) | skip
  all_goals
    obtain ⟨n, h1, rfl⟩ := h
    simp only [decodeVarintAt, tagTypeOf, Scalar.goType, GoType.kind, consumeVarint_isVarint64 h1, liftP,
      bind, Except.bind, pure, Except.pure, setWidth32_ofNat, decodeZigZag_ofNat h1.2.2, setWidth32_ofInt, and_one]

theorem varintAt_sound {s : Scalar} {b : Bytes} {cur y : Val} {n : Nat}
    (h : decodeVarintAt (tagTypeOf s) s.goType.kind b cur = .ok (y, n)) :
    s.wire = .varint ∧ ∃ v rest, b = v ++ rest ∧ n = v.length ∧ ScalarDec false s v y := by
  have hs : s.wire = .varint := by
    cases s <;> first | rfl | cases h
  refine ⟨hs, ?_⟩
  have hb : ∃ u m, consumeVarint b = .ok (u, m) := by
    cases s <;> first | (cases hs; done) | skip
    all_goals
      obtain ⟨⟨u, m⟩, h1, -⟩ := bind_ok.1 h
      exact ⟨u, m, liftP_ok.1 h1⟩
  obtain ⟨u, m, hu⟩ := hb
  obtain ⟨pre, post, rfl, h1, rfl⟩ := consumeVarint_sound64 hu
  obtain ⟨y', hy⟩ : ∃ y', ScalarDec false s pre y' := by
    cases s <;> first | (cases hs; done) | exact ⟨_, _, h1, rfl⟩
  rw [varintAt_complete hs hy] at h
  cases h
  exact ⟨pre, post, rfl, rfl, hy⟩

theorem consumeFixed32_take {v : Bytes} (h : v.length = 4) (rest : Bytes) :
    consumeFixed32 (v ++ rest) = .ok (BitVec.ofNat 32 (leVal v), 4) := by
  rw [consumeFixed32_eq, if_neg (by simp; omega), List.take_append_of_le_length (by omega),
    List.take_of_length_le (by omega)]

theorem consumeFixed64_take {v : Bytes} (h : v.length = 8) (rest : Bytes) :
    consumeFixed64 (v ++ rest) = .ok (BitVec.ofNat 64 (leVal v), 8) := by
  rw [consumeFixed64_eq, if_neg (by simp; omega), List.take_append_of_le_length (by omega),
    List.take_of_length_le (by omega)]

theorem consumeFixed32_sound {b : Bytes} {u : BitVec 32} {n : Nat} (h : consumeFixed32 b = .ok (u, n)) :
    ∃ v rest, b = v ++ rest ∧ v.length = 4 ∧ n = 4 ∧ u = BitVec.ofNat 32 (leVal v) := by
  rw [consumeFixed32_eq] at h
  split at h
  · cases h
  · cases h
    exact ⟨b.take 4, b.drop 4, (List.take_append_drop 4 b).symm, by simp; omega, rfl, rfl⟩

theorem consumeFixed64_sound {b : Bytes} {u : BitVec 64} {n : Nat} (h : consumeFixed64 b = .ok (u, n)) :
    ∃ v rest, b = v ++ rest ∧ v.length = 8 ∧ n = 8 ∧ u = BitVec.ofNat 64 (leVal v) := by
  rw [consumeFixed64_eq] at h
  split at h
  · cases h
  · cases h
    exact ⟨b.take 8, b.drop 8, (List.take_append_drop 8 b).symm, by simp; omega, rfl, rfl⟩

theorem fixed32At_complete {s : Scalar} (hs : s.wire = .i32) {o : Bool} {v : Bytes} {y : Val}
    (h : ScalarDec o s v y) (rest : Bytes) (cur : Val) :
    decodeFixed32At (tagTypeOf s) s.goType.kind (v ++ rest) cur = .ok (y, v.length) := by
  cases s <;> first | (cases hs; done) | skip
  all_goals
    obtain ⟨h1, rfl⟩ := h
    simp only [decodeFixed32At, tagTypeOf, Scalar.goType, GoType.kind, consumeFixed32_take h1, liftP,
      bind, Except.bind, pure, Except.pure, h1]

theorem fixed64At_complete {s : Scalar} (hs : s.wire = .i64) {o : Bool} {v : Bytes} {y : Val}
    (h : ScalarDec o s v y) (rest : Bytes) (cur : Val) :
    decodeFixed64At (tagTypeOf s) s.goType.kind (v ++ rest) cur = .ok (y, v.length) := by
  cases s <;> first | (cases hs; done) | skip
  all_goals
    obtain ⟨h1, rfl⟩ := h
    simp only [decodeFixed64At, tagTypeOf, Scalar.goType, GoType.kind, consumeFixed64_take h1, liftP,
      bind, Except.bind, pure, Except.pure, h1]

theorem fixed32At_sound {s : Scalar} {b : Bytes} {cur y : Val} {n : Nat}
    (h : decodeFixed32At (tagTypeOf s) s.goType.kind b cur = .ok (y, n)) :
    s.wire = .i32 ∧ ∃ v rest, b = v ++ rest ∧ n = v.length ∧ ScalarDec false s v y := by
  have hs : s.wire = .i32 := by
    cases s <;> first | rfl | cases h
  refine ⟨hs, ?_⟩
  have hb : ∃ u m, consumeFixed32 b = .ok (u, m) := by
    cases s <;> first | (cases hs; done) | skip
    all_goals
      obtain ⟨⟨u, m⟩, h1, -⟩ := bind_ok.1 h
      exact ⟨u, m, liftP_ok.1 h1⟩
  obtain ⟨u, m, hu⟩ := hb
  obtain ⟨v, rest, rfl, h1, rfl, rfl⟩ := consumeFixed32_sound hu
  obtain ⟨y', hy⟩ : ∃ y', ScalarDec false s v y' := by
    cases s <;> first | (cases hs; done) | exact ⟨_, h1, rfl⟩
  rw [fixed32At_complete hs hy] at h
  cases h
  exact ⟨v, rest, rfl, rfl, hy⟩

theorem fixed64At_sound {s : Scalar} {b : Bytes} {cur y : Val} {n : Nat}
    (h : decodeFixed64At (tagTypeOf s) s.goType.kind b cur = .ok (y, n)) :
    s.wire = .i64 ∧ ∃ v rest, b = v ++ rest ∧ n = v.length ∧ ScalarDec false s v y := by
  have hs : s.wire = .i64 := by
    cases s <;> first | rfl | cases h
  refine ⟨hs, ?_⟩
  have hb : ∃ u m, consumeFixed64 b = .ok (u, m) := by
    cases s <;> first | (cases hs; done) | skip
    all_goals
      obtain ⟨⟨u, m⟩, h1, -⟩ := bind_ok.1 h
      exact ⟨u, m, liftP_ok.1 h1⟩
  obtain ⟨u, m, hu⟩ := hb
  obtain ⟨v, rest, rfl, h1, rfl, rfl⟩ := consumeFixed64_sound hu
  obtain ⟨y', hy⟩ : ∃ y', ScalarDec false s v y' := by
    cases s <;> first | (cases hs; done) | exact ⟨_, h1, rfl⟩
  rw [fixed64At_complete hs hy] at h
  cases h
  exact ⟨v, rest, rfl, rfl, hy⟩

theorem varintAt_safe (t : TagType) (k : Kind) (b : Bytes) (cur : Val) : Safe (decodeVarintAt t k b cur) := by
  unfold decodeVarintAt
  cases t <;> first
    | exact Safe.err nofun nofun
    | exact Safe.bind (Safe.liftP _) (fun a _ => Safe.ok _)
theorem fixed32At_safe (t : TagType) (k : Kind) (b : Bytes) (cur : Val) : Safe (decodeFixed32At t k b cur) := by
  unfold decodeFixed32At
  cases t <;> first
    | exact Safe.err nofun nofun
    | exact Safe.bind (Safe.liftP _) (fun a _ => Safe.ok _)
theorem fixed64At_safe (t : TagType) (k : Kind) (b : Bytes) (cur : Val) : Safe (decodeFixed64At t k b cur) := by
  unfold decodeFixed64At
  cases t <;> first
    | exact Safe.err nofun nofun
    | exact Safe.bind (Safe.liftP _) (fun a _ => Safe.ok _)

/-! ## a scalar field -/

theorem valueAt_complete (D : Descs) (rec : DecRec) (f : FieldDesc) {s : Scalar} (hf : f.tagType = tagTypeOf s)
    {v : Bytes} {y : Val} (h : ScalarDec false s v y) (rest : Bytes) (cur : Val) (depth : Int) :
    decodeValueAt D rec f s.goType s.wire.code (v ++ rest) cur depth = .ok (y, v.length) := by
  cases hw : s.wire with
  | varint => simp only [decodeValueAt, WireType.code, hf]; exact varintAt_complete hw h rest cur
  | i32 => simp only [decodeValueAt, WireType.code, hf]; exact fixed32At_complete hw h rest cur
  | i64 => simp only [decodeValueAt, WireType.code, hf]; exact fixed64At_complete hw h rest cur
  | len =>
    cases s <;> first | (cases hw; done) | skip
    all_goals
      obtain ⟨p, h1, rfl⟩ := h
      simp only [decodeValueAt, WireType.code, consumeBytes_isLen h1, liftP, bind, Except.bind, decodeLenAt,
        Scalar.goType, pure, Except.pure]
  | sgroup => cases s <;> cases hw
  | egroup => cases s <;> cases hw

theorem valueAt_sound {D : Descs} {rec : DecRec} {f : FieldDesc} {s : Scalar} (hf : f.tagType = tagTypeOf s)
    {typ : WType} {b : Bytes} {cur y : Val} {n : Nat} {depth : Int}
    (h : decodeValueAt D rec f s.goType typ b cur depth = .ok (y, n)) :
    typ = s.wire.code ∧ ∃ v rest, b = v ++ rest ∧ n = v.length ∧ ScalarDec false s v y := by
  unfold decodeValueAt at h
  rw [hf] at h
  split at h
  · obtain ⟨hw, h⟩ := varintAt_sound h
    exact ⟨by rw [hw]; rfl, h⟩
  · obtain ⟨hw, h⟩ := fixed32At_sound h
    exact ⟨by rw [hw]; rfl, h⟩
  · obtain ⟨hw, h⟩ := fixed64At_sound h
    exact ⟨by rw [hw]; rfl, h⟩
  · obtain ⟨⟨fb, m⟩, h1, h⟩ := bind_ok.1 h
    obtain ⟨w, h2, h3⟩ := bind_ok.1 h
    obtain ⟨pre, post, rfl, h4, rfl⟩ := consumeBytes_sound_isLen (liftP_ok.1 h1)
    cases h3
    cases s <;> first | (cases h2; done) | skip
    all_goals
      cases h2
      exact ⟨rfl, pre, post, rfl, rfl, fb, h4, rfl⟩
  · cases h

theorem valueAt_safe (D : Descs) (rec : DecRec) (f : FieldDesc) (s : Scalar) (typ : WType) (b : Bytes)
    (cur : Val) (depth : Int) : Safe (decodeValueAt D rec f s.goType typ b cur depth) := by
  unfold decodeValueAt
  split
  · exact varintAt_safe _ _ _ _
  · exact fixed32At_safe _ _ _ _
  · exact fixed64At_safe _ _ _ _
  · refine Safe.bind (Safe.liftP _) (fun a _ => Safe.bind ?_ (fun _ _ => Safe.ok _))
    cases s <;> first | exact Safe.ok _ | exact Safe.err nofun nofun
  · exact Safe.err nofun nofun

/-! ## packed blocks -/

theorem packedDec_varints {s : Scalar} (conv : Nat → Val)
    (h : ∀ v y, ScalarDec true s v y ↔ ∃ n, IsVarint64 v n ∧ y = conv n) (p : Bytes) (ys : List Val) :
    PackedDec s p ys ↔ ∃ ns, VarintSeq p ns ∧ ys = ns.map conv := by
  constructor
  · intro hp
    induction hp with
    | nil => exact ⟨[], .nil, rfl⟩
    | cons v rest y ys h1 _ ih =>
      obtain ⟨ns, h2, rfl⟩ := ih
      obtain ⟨n, h3, rfl⟩ := (h _ _).1 h1
      exact ⟨n :: ns, .cons _ _ _ _ h3 h2, rfl⟩
  · rintro ⟨ns, hp, rfl⟩
    induction hp with
    | nil => exact .nil
    | cons pre rest n ns h1 _ ih => exact .cons _ _ _ _ ((h _ _).2 ⟨n, h1, rfl⟩) ih

theorem packedLoop_iff {α : Type} (conv : BitVec 64 → α) (p : Bytes) (xs : List α) :
    decodePackedLoop conv p.length p [] = some xs ↔
      ∃ ns, VarintSeq p ns ∧ xs = ns.map (fun n => conv (BitVec.ofNat 64 n)) := by
  constructor
  · intro h
    obtain ⟨ns, h1, h2⟩ := decodePackedLoop_sound conv _ _ _ _ h
    exact ⟨ns, h1, by simpa using h2⟩
  · rintro ⟨ns, h1, rfl⟩
    simpa using decodePackedLoop_complete conv h1 p.length [] (Nat.le_refl _)

theorem packedFixed32_iff (b : Bytes) (acc r : List (BitVec 32)) :
    packedFixed32Loop b acc = some r ↔ ∃ ws, r = acc ++ ws ∧ PackedDec .fixed32 b (ws.map .w32) := by
  fun_induction packedFixed32Loop b acc with
  | case1 acc =>
    constructor
    · intro h; cases h; exact ⟨[], by simp, .nil⟩
    · rintro ⟨ws, rfl, h⟩
      generalize hy : ws.map Val.w32 = ys at h
      generalize hb : ([] : Bytes) = b at h
      cases h with
      | nil => rw [List.map_eq_nil_iff.1 hy, List.append_nil]
      | cons v rest y ys h1 _ =>
        have h2 := h1.1
        have h3 := congrArg List.length hb
        rw [List.length_append, List.length_nil] at h3
        omega
  | case2 b0 b1 b2 b3 rest acc ih =>
    rw [ih]
    constructor
    · rintro ⟨ws, rfl, h⟩
      refine ⟨_ :: ws, by rw [List.append_assoc]; rfl, ?_⟩
      rw [word32_of_bytes]
      exact PackedDec.cons [b0, b1, b2, b3] rest _ _ ⟨rfl, rfl⟩ h
    · rintro ⟨ws, rfl, h⟩
      generalize hy : ws.map Val.w32 = ys at h
      generalize hb : (b0 :: b1 :: b2 :: b3 :: rest : Bytes) = b at h
      cases h with
      | nil => cases hb
      | cons v rest' y ys h1 h2 =>
        obtain ⟨h3, rfl⟩ := h1
        match v, h3 with
        | [c0, c1, c2, c3], _ =>
          simp only [List.cons_append, List.nil_append, List.cons.injEq] at hb
          obtain ⟨rfl, rfl, rfl, rfl, rfl⟩ := hb
          match ws, hy with
          | w :: ws, hy =>
            simp only [List.map_cons, List.cons.injEq, Val.w32.injEq] at hy
            obtain ⟨rfl, rfl⟩ := hy
            exact ⟨ws, by rw [List.append_assoc, word32_of_bytes]; rfl, h2⟩
  | case3 b acc h1 h2 =>
    constructor
    · intro h; cases h
    · rintro ⟨ws, rfl, h⟩
      generalize hy : ws.map Val.w32 = ys at h
      cases h with
      | nil => exact absurd rfl h1
      | cons v rest' y ys h3 _ =>
        match v, h3.1 with
        | [c0, c1, c2, c3], _ => exact absurd rfl (h2 c0 c1 c2 c3 rest')

theorem packedFixed64_iff (b : Bytes) (acc r : List (BitVec 64)) :
    packedFixed64Loop b acc = some r ↔ ∃ ws, r = acc ++ ws ∧ PackedDec .fixed64 b (ws.map .w64) := by
  fun_induction packedFixed64Loop b acc with
  | case1 acc =>
    constructor
    · intro h; cases h; exact ⟨[], by simp, .nil⟩
    · rintro ⟨ws, rfl, h⟩
      generalize hy : ws.map Val.w64 = ys at h
      generalize hb : ([] : Bytes) = b at h
      cases h with
      | nil => rw [List.map_eq_nil_iff.1 hy, List.append_nil]
      | cons v rest y ys h1 _ =>
        have h2 := h1.1
        have h3 := congrArg List.length hb
        rw [List.length_append, List.length_nil] at h3
        omega
  | case2 b0 b1 b2 b3 b4 b5 b6 b7 rest acc ih =>
    rw [ih]
    constructor
    · rintro ⟨ws, rfl, h⟩
      refine ⟨_ :: ws, by rw [List.append_assoc]; rfl, ?_⟩
      rw [word64_of_bytes]
      exact PackedDec.cons [b0, b1, b2, b3, b4, b5, b6, b7] rest _ _ ⟨rfl, rfl⟩ h
    · rintro ⟨ws, rfl, h⟩
      generalize hy : ws.map Val.w64 = ys at h
      generalize hb : (b0 :: b1 :: b2 :: b3 :: b4 :: b5 :: b6 :: b7 :: rest : Bytes) = b at h
      cases h with
      | nil => cases hb
      | cons v rest' y ys h1 h2 =>
        obtain ⟨h3, rfl⟩ := h1
        match v, h3 with
        | [c0, c1, c2, c3, c4, c5, c6, c7], _ =>
          simp only [List.cons_append, List.nil_append, List.cons.injEq] at hb
          obtain ⟨rfl, rfl, rfl, rfl, rfl, rfl, rfl, rfl, rfl⟩ := hb
          match ws, hy with
          | w :: ws, hy =>
            simp only [List.map_cons, List.cons.injEq, Val.w64.injEq] at hy
            obtain ⟨rfl, rfl⟩ := hy
            exact ⟨ws, by rw [List.append_assoc, word64_of_bytes]; rfl, h2⟩
  | case3 b acc h1 h2 =>
    constructor
    · intro h; cases h
    · rintro ⟨ws, rfl, h⟩
      generalize hy : ws.map Val.w64 = ys at h
      cases h with
      | nil => exact absurd rfl h1
      | cons v rest' y ys h3 _ =>
        match v, h3.1 with
        | [c0, c1, c2, c3, c4, c5, c6, c7], _ => exact absurd rfl (h2 c0 c1 c2 c3 c4 c5 c6 c7 rest')

theorem packedDec_len {s : Scalar} {k : Nat} (h : ∀ v y, ScalarDec true s v y → v.length = k) {p : Bytes}
    {ys : List Val} (hp : PackedDec s p ys) : p.length % k = 0 := by
  induction hp with
  | nil => simp
  | cons v rest y ys h1 _ ih =>
    rw [List.length_append, h v y h1]
    simp [ih]

theorem map_some_iff {α β : Type} (o : Option α) (g : α → β) (y : β) :
    o.map g = some y ↔ ∃ x, o = some x ∧ y = g x := by
  cases o with
  | none => exact ⟨nofun, nofun⟩
  | some x => exact ⟨fun h => ⟨x, rfl, (Option.some.inj h).symm⟩, fun ⟨x', h1, h2⟩ => by cases h1; rw [h2]; rfl⟩

theorem packedDec_holds {s : Scalar} {p : Bytes} {ys : List Val} (h : PackedDec s p ys) :
    ∀ y ∈ ys, s.goType.holds y = true := by
  induction h with
  | nil => nofun
  | cons v rest y ys h1 _ ih =>
    intro x hx
    cases hx with
    | head => exact scalarDec_holds h1
    | tail _ hx => exact ih x hx

theorem packedLoop_dec {α : Type} {s : Scalar} (conv : BitVec 64 → α) (C : α → Val)
    (h : ∀ v y, ScalarDec true s v y ↔ ∃ n, IsVarint64 v n ∧ y = C (conv (BitVec.ofNat 64 n))) (p : Bytes)
    (ys : List Val) :
    (decodePackedLoop conv p.length p []).map (·.map C) = some ys ↔ PackedDec s p ys := by
  rw [map_some_iff, packedDec_varints _ h]
  constructor
  · rintro ⟨xs, h1, rfl⟩
    obtain ⟨ns, h2, rfl⟩ := (packedLoop_iff conv p xs).1 h1
    exact ⟨ns, h2, by rw [List.map_map]; rfl⟩
  · rintro ⟨ns, h2, rfl⟩
    exact ⟨_, (packedLoop_iff conv p _).2 ⟨ns, h2, rfl⟩, by rw [List.map_map]; rfl⟩

theorem packedDec_congr {s s' : Scalar} (h : ∀ v y, ScalarDec true s v y ↔ ScalarDec true s' v y) {p : Bytes}
    {ys : List Val} (hp : PackedDec s p ys) : PackedDec s' p ys := by
  induction hp with
  | nil => exact .nil
  | cons v rest y ys h1 _ ih => exact .cons _ _ _ _ ((h _ _).1 h1) ih

theorem packedDec_w32 {p : Bytes} {ys : List Val} (h : PackedDec .fixed32 p ys) :
    ∃ ws : List (BitVec 32), ys = ws.map .w32 := by
  induction h with
  | nil => exact ⟨[], rfl⟩
  | cons v rest y ys h1 _ ih =>
    obtain ⟨ws, rfl⟩ := ih
    obtain ⟨_, rfl⟩ := h1
    exact ⟨_ :: ws, rfl⟩

theorem packedDec_w64 {p : Bytes} {ys : List Val} (h : PackedDec .fixed64 p ys) :
    ∃ ws : List (BitVec 64), ys = ws.map .w64 := by
  induction h with
  | nil => exact ⟨[], rfl⟩
  | cons v rest y ys h1 _ ih =>
    obtain ⟨ws, rfl⟩ := ih
    obtain ⟨_, rfl⟩ := h1
    exact ⟨_ :: ws, rfl⟩

theorem and_3 (n : Nat) : n &&& 3 = n % 4 := Nat.and_two_pow_sub_one_eq_mod n 2
theorem and_7 (n : Nat) : n &&& 7 = n % 8 := Nat.and_two_pow_sub_one_eq_mod n 3

theorem packed32_dec (p : Bytes) (ys : List Val) :
    (decodePackedFixed32 p).map (·.map .w32) = some ys ↔ PackedDec .fixed32 p ys := by
  rw [map_some_iff]
  unfold decodePackedFixed32
  rw [and_3]
  constructor
  · rintro ⟨ws, h1, rfl⟩
    split at h1
    · cases h1
    · obtain ⟨ws', h2, h3⟩ := (packedFixed32_iff _ _ _).1 h1
      rw [h2]; exact h3
  · intro h
    obtain ⟨ws, rfl⟩ := packedDec_w32 h
    refine ⟨ws, ?_, rfl⟩
    rw [if_neg (by rw [packedDec_len (s := .fixed32) (k := 4) (fun v y h => h.1) h]; simp)]
    exact (packedFixed32_iff _ _ _).2 ⟨ws, by simp, h⟩

theorem packed64_dec (p : Bytes) (ys : List Val) :
    (decodePackedFixed64 p).map (·.map .w64) = some ys ↔ PackedDec .fixed64 p ys := by
  rw [map_some_iff]
  unfold decodePackedFixed64
  rw [and_7]
  constructor
  · rintro ⟨ws, h1, rfl⟩
    split at h1
    · cases h1
    · obtain ⟨ws', h2, h3⟩ := (packedFixed64_iff _ _ _).1 h1
      rw [h2]; exact h3
  · intro h
    obtain ⟨ws, rfl⟩ := packedDec_w64 h
    refine ⟨ws, ?_, rfl⟩
    rw [if_neg (by rw [packedDec_len (s := .fixed64) (k := 8) (fun v y h => h.1) h]; simp)]
    exact (packedFixed64_iff _ _ _).2 ⟨ws, by simp, h⟩

theorem packedBool_dec (p : Bytes) (ys : List Val) :
    (decodePackedBool p).map (·.map .bool) = some ys ↔ PackedDec .bool p ys := by
  unfold decodePackedBool
  rw [Option.map_some, Option.some.injEq, List.map_map]
  induction p generalizing ys with
  | nil =>
    constructor
    · rintro rfl; exact .nil
    · intro h
      generalize hb : ([] : Bytes) = b at h
      cases h with
      | nil => rfl
      | cons v rest y ys h1 _ => obtain ⟨c, rfl, rfl⟩ := h1; cases hb
  | cons c p ih =>
    have hc : decide (0 < c.toNat) = (c != 0#8) := by
      by_cases h : c = 0#8
      · subst h; rfl
      · have h0 : c.toNat ≠ 0 := fun h' => h (BitVec.eq_of_toNat_eq (by simpa using h'))
        have h1 : (c != 0#8) = true := bne_iff_ne.2 h
        rw [h1]
        exact decide_eq_true (by omega)
    have hm : List.map (Val.bool ∘ fun c : Byte => decide (0 < c.toNat)) (c :: p)
        = Val.bool (c != 0#8) :: List.map (Val.bool ∘ fun c : Byte => decide (0 < c.toNat)) p := by
      rw [List.map_cons, ← hc]; rfl
    rw [hm]
    constructor
    · rintro rfl
      have h1 : ScalarDec true .bool [c] (.bool (c != 0#8)) := ⟨c, rfl, rfl⟩
      exact PackedDec.cons [c] p _ _ h1 ((ih _).1 rfl)
    · intro h
      generalize hb : c :: p = b at h
      cases h with
      | nil => cases hb
      | cons v rest y ys h1 h2 =>
        obtain ⟨c', rfl, rfl⟩ := h1
        cases hb
        rw [(ih _).2 h2]

/-- The continuation of `decodePackedCoder`. -/
def packedFin (et : GoType) (r : Option (List Val)) : Res Val :=
  match r with
  | none => .error .eof
  | some xs => if xs.all et.holds then .ok (.slice xs) else .error .ub

theorem packedFin_ok {s : Scalar} {p : Bytes} {r : Option (List Val)}
    (h : ∀ ys, r = some ys ↔ PackedDec s p ys) (w : Val) :
    (packedFin s.goType r = .ok w ↔ ∃ ys, w = .slice ys ∧ PackedDec s p ys) ∧ Safe (packedFin s.goType r) := by
  cases r with
  | none =>
    refine ⟨⟨nofun, ?_⟩, Safe.err nofun nofun⟩
    rintro ⟨ys, rfl, h1⟩
    cases (h ys).2 h1
  | some xs =>
    have h1 := (h xs).1 rfl
    have h2 : xs.all s.goType.holds = true := List.all_eq_true.2 (packedDec_holds h1)
    simp only [packedFin, h2, if_true]
    refine ⟨⟨?_, ?_⟩, Safe.ok _⟩
    · intro h; cases h; exact ⟨xs, rfl, h1⟩
    · rintro ⟨ys, rfl, h3⟩
      have := (h ys).2 h3
      cases this; rfl

theorem packedCoder_fin {s : Scalar} (hs : s.packable = true) (p : Bytes) :
    ∃ r, decodePackedCoder (coderOf s) s.goType p = packedFin s.goType r ∧ ∀ ys, r = some ys ↔ PackedDec s p ys := by
  cases s with
  | int32 =>
    refine ⟨_, rfl, packedLoop_dec (fun u => u.setWidth 32) .w32 (fun v y => ?_) p⟩
    simp only [setWidth32_ofNat]; exact Iff.rfl
  | uint32 =>
    refine ⟨_, rfl, packedLoop_dec (fun u => u.setWidth 32) .w32 (fun v y => ?_) p⟩
    simp only [setWidth32_ofNat]; exact Iff.rfl
  | int64 => exact ⟨_, rfl, packedLoop_dec id .w64 (fun v y => Iff.rfl) p⟩
  | uint64 => exact ⟨_, rfl, packedLoop_dec id .w64 (fun v y => Iff.rfl) p⟩
  | sint32 =>
    refine ⟨_, rfl, packedLoop_dec (fun u => (decodeZigZag u).setWidth 32) .w32 (fun v y => ?_) p⟩
    constructor
    · rintro ⟨n, h1, rfl⟩; exact ⟨n, h1, by rw [decodeZigZag_ofNat h1.2.2, setWidth32_ofInt]⟩
    · rintro ⟨n, h1, rfl⟩; exact ⟨n, h1, by rw [decodeZigZag_ofNat h1.2.2, setWidth32_ofInt]⟩
  | sint64 =>
    refine ⟨_, rfl, packedLoop_dec decodeZigZag .w64 (fun v y => ?_) p⟩
    constructor
    · rintro ⟨n, h1, rfl⟩; exact ⟨n, h1, by rw [decodeZigZag_ofNat h1.2.2]⟩
    · rintro ⟨n, h1, rfl⟩; exact ⟨n, h1, by rw [decodeZigZag_ofNat h1.2.2]⟩
  | fixed32 => exact ⟨_, rfl, packed32_dec p⟩
  | sfixed32 => exact ⟨_, rfl, fun ys => (packed32_dec p ys).trans
      ⟨packedDec_congr (s := .fixed32) (s' := .sfixed32) (fun _ _ => Iff.rfl),
        packedDec_congr (s := .sfixed32) (s' := .fixed32) (fun _ _ => Iff.rfl)⟩⟩
  | float => exact ⟨_, rfl, fun ys => (packed32_dec p ys).trans
      ⟨packedDec_congr (s := .fixed32) (s' := .float) (fun _ _ => Iff.rfl),
        packedDec_congr (s := .float) (s' := .fixed32) (fun _ _ => Iff.rfl)⟩⟩
  | fixed64 => exact ⟨_, rfl, packed64_dec p⟩
  | sfixed64 => exact ⟨_, rfl, fun ys => (packed64_dec p ys).trans
      ⟨packedDec_congr (s := .fixed64) (s' := .sfixed64) (fun _ _ => Iff.rfl),
        packedDec_congr (s := .sfixed64) (s' := .fixed64) (fun _ _ => Iff.rfl)⟩⟩
  | double => exact ⟨_, rfl, fun ys => (packed64_dec p ys).trans
      ⟨packedDec_congr (s := .fixed64) (s' := .double) (fun _ _ => Iff.rfl),
        packedDec_congr (s := .double) (s' := .fixed64) (fun _ _ => Iff.rfl)⟩⟩
  | bool => exact ⟨_, rfl, packedBool_dec p⟩
  | string => cases hs
  | bytes => cases hs

theorem packedCoder_ok {s : Scalar} (hs : s.packable = true) (p : Bytes) (w : Val) :
    decodePackedCoder (coderOf s) s.goType p = .ok w ↔ ∃ ys, w = .slice ys ∧ PackedDec s p ys := by
  obtain ⟨r, h1, h2⟩ := packedCoder_fin hs p
  rw [h1]
  exact (packedFin_ok h2 w).1

theorem packedCoder_safe {s : Scalar} (hs : s.packable = true) (p : Bytes) :
    Safe (decodePackedCoder (coderOf s) s.goType p) := by
  obtain ⟨r, h1, h2⟩ := packedCoder_fin hs p
  rw [h1]
  exact (packedFin_ok h2 default).2

end Verif.Lemmas
