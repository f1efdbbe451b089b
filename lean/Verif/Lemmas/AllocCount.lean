import Verif.Lemmas.Extend
import Verif.Spec.Memory
/-! Helper lemmas: how many blocks of memory the decoder allocates. -/
namespace Verif.Lemmas.Alloc
open Verif.Model Verif.Model.Mem Verif.Spec Verif.Lemmas Verif.Lemmas.Trunc

/-- What is known about an outcome when `k` blocks were allocated. -/
def Outcome {α : Type} (Q : α → Nat → Prop) (E : Nat → Prop) (k : Nat) : Res α → Prop
  | .ok a => Q a k
  | .error _ => E k

/-- The memory `h'` results from `h` by `k` allocations. -/
structure Adds (k : Nat) (h h' : Store) : Prop where
  next : h'.next = allotted h k
  skip : h'.skip = h.skip

theorem Adds.refl {h h' : Store} (h1 : h'.next = h.next) (h2 : h'.skip = h.skip) : Adds 0 h h' := ⟨h1, h2⟩

theorem allotted_add (h h' : Store) (k : Nat) (h1 : Adds k h h') : ∀ j, allotted h' j = allotted h (k + j)
  | 0 => h1.next
  | j + 1 => by
    show h'.after (allotted h' j) = h.after (allotted h (k + j))
    rw [allotted_add h h' k h1 j]
    unfold Store.after
    rw [h1.skip]

theorem Adds.trans {h h' h'' : Store} {k j : Nat} (h1 : Adds k h h') (h2 : Adds j h' h'') : Adds (k + j) h h'' :=
  ⟨by rw [h2.next, allotted_add h h' k h1], by rw [h2.skip, h1.skip]⟩

/-- Whatever the memory: the number of blocks that `c` allocates satisfies `Q` (with the result) or `E`
(after an error). -/
def Spend {α : Type} (c : M α) (Q : α → Nat → Prop) (E : Nat → Prop) : Prop :=
  ∀ h, ∃ k, Adds k h (c h).2 ∧ Outcome Q E k (c h).1

theorem Spend.mono {α : Type} {c : M α} {Q Q' : α → Nat → Prop} {E E' : Nat → Prop} (h : Spend c Q E)
    (hQ : ∀ a k, Q a k → Q' a k) (hE : ∀ k, E k → E' k) : Spend c Q' E' := by
  intro s
  obtain ⟨k, h1, h2⟩ := h s
  refine ⟨k, h1, ?_⟩
  cases hc : (c s).1 with
  | ok a => rw [hc] at h2; exact hQ a k h2
  | error e => rw [hc] at h2; exact hE k h2

theorem Spend.pure {α : Type} {a : α} {Q : α → Nat → Prop} {E : Nat → Prop} (h : Q a 0) :
    Spend (pure a : M α) Q E := fun _ => ⟨0, .refl rfl rfl, h⟩

theorem Spend.fail {α : Type} {e : Fault} {Q : α → Nat → Prop} {E : Nat → Prop} (h : E 0) :
    Spend (fail e : M α) Q E := fun _ => ⟨0, .refl rfl rfl, h⟩

theorem Spend.bind {α β : Type} {c : M α} {f : α → M β} {Q : α → Nat → Prop} {E : Nat → Prop}
    {Q' : β → Nat → Prop} {E' : Nat → Prop} (h : Spend c Q E)
    (hf : ∀ a k, Q a k → Spend (f a) (fun b k' => Q' b (k + k')) (fun k' => E' (k + k')))
    (hE : ∀ k, E k → E' k) : Spend (c >>= f) Q' E' := by
  intro s
  obtain ⟨k, h1, h2⟩ := h s
  show ∃ k, Adds k s (M.bind c f s).2 ∧ Outcome Q' E' k (M.bind c f s).1
  unfold M.bind
  cases hc : c s with
  | mk r s' =>
    rw [hc] at h1 h2
    cases r with
    | ok a =>
      obtain ⟨k', h3, h4⟩ := hf a k h2 s'
      refine ⟨k + k', h1.trans h3, ?_⟩
      simp only
      cases hr : (f a s').1 with
      | ok b => rw [hr] at h4; exact h4
      | error e => rw [hr] at h4; exact h4
    | error e => exact ⟨k, h1, hE k h2⟩

theorem Spend.map {α β : Type} {c : M α} {f : α → β} {Q : β → Nat → Prop} {E : Nat → Prop}
    (h : Spend c (fun a k => Q (f a) k) E) : Spend (f <$> c) Q E := by
  have : f <$> c = c >>= fun a => Pure.pure (f a) := rfl
  rw [this]
  exact h.bind (fun a k hq => .pure hq) (fun k h => h)

theorem read_length {h : Store} {v : View} {b : Bytes} (hr : h.read v = .ok b) : b.length = v.len := by
  unfold Store.read at hr
  split at hr
  · split at hr
    · cases hr
      simp only [List.length_take, List.length_drop]; omega
    · cases hr
  · cases hr

theorem spend_parse {α : Type} (v : View) (p : Bytes → Res α) :
    Spend (parse v p) (fun a k => k = 0 ∧ ∃ b, b.length = v.len ∧ p b = .ok a) (fun k => k = 0) := by
  intro h
  refine ⟨0, .refl rfl rfl, ?_⟩
  unfold parse
  simp only
  cases hr : h.read v with
  | error e => exact rfl
  | ok b =>
    simp only [Bind.bind, Except.bind]
    cases hp : p b with
    | error e => exact rfl
    | ok a => exact ⟨rfl, b, read_length hr, hp⟩

theorem spend_new (b : Block) : Spend (new b) (fun _ k => k = 1) (fun _ => False) := fun _ => ⟨1, ⟨rfl, rfl⟩, rfl⟩

theorem spend_put (a : Nat) (b : Block) : Spend (put a b) (fun _ k => k = 0) (fun _ => False) := fun _ => ⟨0, .refl rfl rfl, rfl⟩

theorem spend_loadBytes (a : Nat) : Spend (loadBytes a) (fun _ k => k = 0) (fun k => k = 0) := by
  intro h
  refine ⟨0, ?_, ?_⟩
  · unfold loadBytes; split <;> exact .refl rfl rfl
  · unfold loadBytes; split <;> exact rfl

theorem spend_mapAssign (a : Nat) (k v : MVal) : Spend (mapAssign a k v) (fun _ k => k = 0) (fun k => k = 0) := by
  intro h
  refine ⟨0, ?_, ?_⟩
  · unfold mapAssign; split <;> exact .refl rfl rfl
  · unfold mapAssign; split <;> exact rfl

theorem spend_append (x : Option View) (raw : View) : Spend (appendBytes x raw) (fun _ k => k ≤ 1) (fun k => k ≤ 1) := by
  intro h
  unfold appendBytes
  split
  · exact ⟨1, ⟨rfl, rfl⟩, Nat.le_refl _⟩
  · split
    · split
      · exact ⟨0, .refl rfl rfl, Nat.zero_le _⟩
      · exact ⟨1, ⟨rfl, rfl⟩, Nat.le_refl _⟩
    · exact ⟨0, .refl rfl rfl, Nat.zero_le _⟩
  · exact ⟨0, .refl rfl rfl, Nat.zero_le _⟩

theorem spend_newTarget {D : Descs} {t : GoType} {k : MVal → M (MVal × Nat)} {Q : Nat → Nat → Prop} {E : Nat → Prop}
    (h : ∀ v, Spend (k v) (fun r j => Q r.2 (1 + j)) (fun j => E (1 + j))) :
    Spend (newTarget D t k) (fun r j => Q r.2 j) E := by
  unfold newTarget
  refine (spend_new _).bind (fun o j hj => ?_) (fun _ h => h.elim)
  subst hj
  refine (h _).bind (fun r j hj => ?_) (fun j hj => hj)
  obtain ⟨v, n⟩ := r
  refine (spend_put _ _).bind (fun _ j' hj' => ?_) (fun _ h => h.elim)
  subst hj'
  exact .pure hj

/-! ### lengths -/

theorem drop_len (v : View) (n : Nat) : (v.drop n).len = v.len - n := rfl
theorem take_len (v : View) (n : Nat) : (v.take n).len = min n v.len := rfl

/-- Bounds for the number of bytes of a value. -/
def Eats (p : Bytes → Res (Val × Nat)) : Prop := ∀ b v n, p b = .ok (v, n) → 1 ≤ n ∧ n ≤ b.length

theorem eats_varint (tag : TagType) (k : Kind) (cur : Val) : Eats (fun b => decodeVarintAt tag k b cur) := by
  intro b v n h
  refine ⟨?_, varintAt_le h⟩
  simp only at h
  unfold decodeVarintAt at h
  split at h
  case' h_4 => cases h
  all_goals
    obtain ⟨⟨u, m⟩, h1, h2⟩ := bindOkk h
    cases h2
    exact (consumeVarint_len (liftP_okk h1)).1

theorem eats_fixed32 (tag : TagType) (k : Kind) (cur : Val) : Eats (fun b => decodeFixed32At tag k b cur) := by
  intro b v n h
  refine ⟨?_, fixed32At_le h⟩
  simp only at h
  unfold decodeFixed32At at h
  split at h
  · obtain ⟨⟨u, m⟩, h1, h2⟩ := bindOkk h
    cases h2
    have h3 := liftP_okk h1
    rw [consumeFixed32_eq] at h3
    split at h3
    · cases h3
    · cases h3; omega
  · cases h

theorem eats_fixed64 (tag : TagType) (k : Kind) (cur : Val) : Eats (fun b => decodeFixed64At tag k b cur) := by
  intro b v n h
  refine ⟨?_, fixed64At_le h⟩
  simp only at h
  unfold decodeFixed64At at h
  split at h
  · obtain ⟨⟨u, m⟩, h1, h2⟩ := bindOkk h
    cases h2
    have h3 := liftP_okk h1
    rw [consumeFixed64_eq] at h3
    split at h3
    · cases h3
    · cases h3; omega
  · cases h

/-! ### values -/

/-- Decoding a value from at most `L` bytes, with `j` allocations besides those for its content. -/
def Val (L j : Nat) (c : M (MVal × Nat)) : Prop :=
  Spend c (fun r k => 1 ≤ r.2 ∧ r.2 ≤ L ∧ k + 3 ≤ 4 * r.2 + j) (fun k => k ≤ 4 * L + j)

theorem spend_scalar {p : Bytes → Res (Model.Val × Nat)} (hp : Eats p) (b : View) (cur : MVal) :
    Val b.len 0 (decodeScalarM p b cur) := by
  unfold decodeScalarM
  refine (spend_parse b p).bind ?_ (fun k hk => by omega)
  rintro ⟨x, n⟩ k ⟨rfl, bs, h1, h2⟩
  obtain ⟨h3, h4⟩ := hp _ _ _ h2
  exact .pure ⟨h3, by simp only; omega, by simp only; omega⟩

theorem spend_consumeBytes (b : View) :
    Spend (consumeBytesM b) (fun r k => k = 0 ∧ r.1.len < r.2 ∧ r.2 ≤ b.len) (fun k => k = 0) := by
  unfold consumeBytesM
  refine (spend_parse b _).bind ?_ (fun k hk => hk)
  rintro ⟨fb, n⟩ k ⟨rfl, bs, h1, h2⟩
  have h3 := Trunc.consumeBytes_len (liftP_okk h2)
  refine .pure ⟨rfl, ?_, by simp only; omega⟩
  simp only [drop_len, take_len]; omega

theorem spend_copyString (b : View) : Spend (copyString b) (fun _ k => k ≤ 1) (fun k => k ≤ 1) := by
  unfold copyString
  refine (spend_parse b _).bind ?_ (fun k hk => by omega)
  rintro r k ⟨rfl, _⟩
  split
  · exact .pure (by omega)
  · refine (spend_new _).bind (fun a j hj => ?_) (fun _ h => h.elim)
    subst hj
    exact .pure (by omega)

theorem spend_copyBytes (b : View) : Spend (copyBytes b) (fun _ k => k ≤ 1) (fun k => k ≤ 1) := by
  unfold copyBytes
  refine (spend_parse b _).bind ?_ (fun k hk => by omega)
  rintro r k ⟨rfl, _⟩
  refine (spend_new _).bind (fun a j hj => ?_) (fun _ h => h.elim)
  subst hj
  exact .pure (by omega)

/-- What is assumed of the nested decoder. -/
def RecSpend (rec : DecRecM) : Prop :=
  ∀ d b v id, Spend (rec d b v id) (fun _ k => k ≤ 4 * b.len) (fun k => k ≤ 4 * b.len)

section
variable {D : Descs} {rec : DecRecM} (hr : RecSpend rec)

theorem spend_keyAt (f : FieldDesc) (kt : GoType) (typ : WType) (b : View) :
    Val b.len 0 (decodeMapKeyAtM f kt typ b) := by
  unfold decodeMapKeyAtM
  split
  · exact spend_scalar (eats_varint _ _ _) _ _
  · exact spend_scalar (eats_fixed32 _ _ _) _ _
  · exact spend_scalar (eats_fixed64 _ _ _) _ _
  · split
    · exact .fail (by omega)
    · refine (spend_consumeBytes b).bind ?_ (fun k hk => by omega)
      rintro ⟨fb, n⟩ k ⟨rfl, h1, h2⟩
      simp only at h1 h2
      refine (spend_copyString fb).bind (fun s j hj => ?_) (fun j hj => by omega)
      exact .pure ⟨by simp only; omega, h2, by simp only; omega⟩
  · exact .fail (by omega)

theorem kvTag_length {num : Nat} {b : Bytes} {t : WType} (h : kvTag num b = .ok t) : 1 ≤ b.length := by
  cases b with
  | nil => simp [kvTag, consumeKVTag] at h
  | cons c b => simp

theorem spend_key (f : FieldDesc) (kt : GoType) (b : View) :
    Spend (decodeMapKeyM f kt b) (fun r k => r.2 ≤ b.len ∧ k ≤ 4 * r.2) (fun k => k ≤ 4 * b.len) := by
  unfold decodeMapKeyM
  refine (spend_parse b _).bind ?_ (fun k hk => by omega)
  rintro typ k ⟨rfl, bs, h1, h2⟩
  have h3 := kvTag_length h2
  refine (spend_keyAt f kt typ (b.drop 1)).bind ?_ (fun k hk => by rw [drop_len] at hk; omega)
  rintro ⟨v, n⟩ k ⟨h4, h5, h6⟩
  rw [drop_len] at h5
  simp only at h4 h5 h6
  exact .pure ⟨by simp only; omega, by simp only; omega⟩

include hr

theorem spend_valueLen (t : GoType) (fb : View) (cur : MVal) (d : Int) :
    Spend (decodeMapValueLenM rec t fb cur d) (fun _ k => k ≤ 4 * fb.len + 1) (fun k => k ≤ 4 * fb.len + 1) := by
  unfold decodeMapValueLenM
  split
  · exact .map ((spend_copyBytes fb).mono (fun _ k h => by omega) (fun k h => by omega))
  · exact .map ((spend_copyString fb).mono (fun _ k h => by omega) (fun k h => by omega))
  · exact (hr _ _ _ _).mono (fun _ k h => by omega) (fun k h => by omega)
  · exact .fail (by omega)

theorem spend_valueAt (f : FieldDesc) (t : GoType) (typ : WType) (b : View) (cur : MVal) (d : Int) :
    Val b.len 0 (decodeMapValueAtM rec f t typ b cur d) := by
  unfold decodeMapValueAtM
  split
  · exact spend_scalar (eats_varint _ _ _) _ _
  · exact spend_scalar (eats_fixed32 _ _ _) _ _
  · exact spend_scalar (eats_fixed64 _ _ _) _ _
  · refine (spend_consumeBytes b).bind ?_ (fun k hk => by omega)
    rintro ⟨fb, n⟩ k ⟨rfl, h1, h2⟩
    simp only at h1 h2
    refine (spend_valueLen hr t fb cur d).bind (fun s j hj => ?_) (fun j hj => by omega)
    exact .pure ⟨by simp only; omega, h2, by simp only; omega⟩
  · exact .fail (by omega)

theorem spend_valueRef (f : FieldDesc) (vt : GoType) (typ : WType) (b : View) (d : Int) :
    Val b.len 1 (decodeMapValueRefM D rec f vt typ b d) := by
  unfold decodeMapValueRefM
  split
  · refine (spend_newTarget (Q := fun n j => 1 ≤ n ∧ n ≤ b.len ∧ j + 3 ≤ 4 * n + 1)
      (E := fun j => j ≤ 4 * b.len + 1) (fun v => (spend_valueAt hr _ _ _ _ _ _).mono ?_ ?_)).bind ?_ (fun k hk => hk)
    · rintro ⟨v, n⟩ k ⟨h1, h2, h3⟩
      exact ⟨h1, h2, by omega⟩
    · intro k hk; omega
    · rintro ⟨o, n⟩ k ⟨h1, h2, h3⟩
      exact .pure ⟨h1, h2, by simpa using h3⟩
  · refine (spend_valueAt hr _ _ _ _ _ _).mono ?_ (fun k hk => by omega)
    rintro ⟨v, n⟩ k ⟨h1, h2, h3⟩
    exact ⟨h1, h2, by omega⟩

theorem spend_mapValue (f : FieldDesc) (vt : GoType) (b : View) (d : Int) :
    Spend (decodeMapValueM D rec f vt b d) (fun _ k => k ≤ 4 * b.len) (fun k => k ≤ 4 * b.len) := by
  unfold decodeMapValueM
  refine (spend_parse b _).bind ?_ (fun k hk => by omega)
  rintro typ k ⟨rfl, bs, h1, h2⟩
  have h3 := kvTag_length h2
  refine (spend_valueRef hr f vt typ (b.drop 1) d).bind ?_ (fun k hk => by rw [drop_len] at hk; omega)
  rintro ⟨v, n⟩ k ⟨h4, h5, h6⟩
  rw [drop_len] at h5
  simp only at h4 h5 h6
  exact .pure (by omega)

omit hr in
theorem spend_ensureMap (v : MVal) : Spend (ensureMap v) (fun _ k => k ≤ 1) (fun k => k ≤ 1) := by
  unfold ensureMap
  split
  · exact .pure (by omega)
  · exact (spend_new _).mono (fun _ k h => by omega) (fun _ h => h.elim)
  · exact .fail (by omega)

theorem spend_pair (f : FieldDesc) (kt vt : GoType) (b : View) (cur : MVal) (d : Int) :
    Spend (decodeMapPairM D rec f kt vt b cur d) (fun _ k => k ≤ 4 * b.len + 1) (fun k => k ≤ 4 * b.len + 1) := by
  unfold decodeMapPairM
  refine (spend_ensureMap cur).bind (fun a j hj => ?_) (fun k hk => by omega)
  refine (spend_key f kt b).bind ?_ (fun k hk => by omega)
  rintro ⟨k, n⟩ j2 ⟨h1, h2⟩
  simp only at h1 h2
  refine (spend_mapValue hr f vt (b.drop n) d).bind ?_ (fun k hk => by rw [drop_len] at hk; omega)
  rintro ⟨v, m⟩ j3 h3
  rw [drop_len] at h3
  refine (spend_mapAssign a k v).bind (fun _ j4 h4 => ?_) (fun k hk => by omega)
  exact .pure (by omega)

omit hr in
theorem spend_fast (kc vc : Coder) (kt vt : GoType) (b : View) (cur : MVal) :
    Spend (decodeMapFastM kc vc kt vt b cur) (fun _ k => k ≤ 1) (fun k => k ≤ 1) := by
  unfold decodeMapFastM
  refine (spend_parse b _).bind ?_ (fun k hk => by omega)
  rintro ⟨k, x⟩ j ⟨rfl, _⟩
  refine (spend_ensureMap cur).bind (fun a j hj => ?_) (fun k hk => by omega)
  split
  · refine (spend_mapAssign a _ _).bind (fun _ j4 h4 => ?_) (fun k hk => by omega)
    exact .pure (by omega)
  · exact .fail (by omega)

theorem spend_lenAt (f : FieldDesc) (t : GoType) (fb : View) (cur : MVal) (d : Int) :
    Spend (decodeLenAtM D rec f t fb cur d) (fun _ k => k ≤ 4 * fb.len + 1) (fun k => k ≤ 4 * fb.len + 1) := by
  unfold decodeLenAtM
  split
  · exact .map ((spend_copyBytes fb).mono (fun _ k h => by omega) (fun k h => by omega))
  · exact .map ((spend_copyString fb).mono (fun _ k h => by omega) (fun k h => by omega))
  · split
    · exact (spend_fast _ _ _ _ _ _).mono (fun _ k h => by omega) (fun k h => by omega)
    · split
      · exact spend_pair hr _ _ _ _ _ _
      · exact .fail (by omega)
  · exact (hr _ _ _ _).mono (fun _ k h => by omega) (fun k h => by omega)
  · exact .fail (by omega)

theorem spend_value (f : FieldDesc) (t : GoType) (typ : WType) (b : View) (cur : MVal) (d : Int) :
    Val b.len 0 (decodeValueAtM D rec f t typ b cur d) := by
  unfold decodeValueAtM
  split
  · exact spend_scalar (eats_varint _ _ _) _ _
  · exact spend_scalar (eats_fixed32 _ _ _) _ _
  · exact spend_scalar (eats_fixed64 _ _ _) _ _
  · refine (spend_consumeBytes b).bind ?_ (fun k hk => by omega)
    rintro ⟨fb, n⟩ k ⟨rfl, h1, h2⟩
    simp only at h1 h2
    refine (spend_lenAt hr f t fb cur d).bind (fun s j hj => ?_) (fun j hj => by omega)
    exact .pure ⟨by simp only; omega, h2, by simp only; omega⟩
  · exact .fail (by omega)

omit hr in
/-- A new variable around a value. -/
theorem Val.target {L j : Nat} {t : GoType} {k : MVal → M (MVal × Nat)} (h : ∀ v, Val L j (k v)) :
    Spend (newTarget D t k) (fun r i => 1 ≤ r.2 ∧ r.2 ≤ L ∧ i + 3 ≤ 4 * r.2 + (j + 1))
      (fun i => i ≤ 4 * L + (j + 1)) := by
  refine spend_newTarget (Q := fun n i => 1 ≤ n ∧ n ≤ L ∧ i + 3 ≤ 4 * n + (j + 1)) (fun v => (h v).mono ?_ ?_)
  · rintro ⟨v, n⟩ k ⟨h1, h2, h3⟩
    exact ⟨h1, h2, by omega⟩
  · intro k hk; omega

omit hr in
theorem Val.le {L j j' : Nat} {c : M (MVal × Nat)} (h : Val L j c) (hj : j ≤ j') : Val L j' c := by
  refine Spend.mono h ?_ (fun k hk => by omega)
  rintro ⟨v, n⟩ k ⟨h1, h2, h3⟩
  exact ⟨h1, h2, by omega⟩

theorem spend_elem (f : FieldDesc) (te : GoType) (typ : WType) (b : View) (cur : MVal) (d : Int) :
    Val b.len 1 (decodeElemM D rec f te typ b cur d) := by
  unfold decodeElemM
  split
  · refine (Val.target fun v => spend_value hr _ _ _ _ _ _).bind ?_ (fun k hk => hk)
    rintro ⟨o, n⟩ k ⟨h1, h2, h3⟩
    exact .pure ⟨h1, h2, by simpa using h3⟩
  · exact (spend_value hr _ _ _ _ _ _).le (by omega)

omit hr in
theorem spend_grow (te : GoType) (a : Option Nat) (len : Nat) :
    Spend (growM D te a len) (fun _ k => k ≤ 1) (fun k => k ≤ 1) := by
  intro h
  cases a with
  | none => exact ⟨1, ⟨rfl, rfl⟩, Nat.le_refl _⟩
  | some a =>
    unfold growM
    dsimp only
    split
    · split
      · exact ⟨1, ⟨rfl, rfl⟩, Nat.le_refl _⟩
      · split
        · exact ⟨1, ⟨rfl, rfl⟩, Nat.le_refl _⟩
        · exact ⟨0, .refl rfl rfl, Nat.zero_le _⟩
    · exact ⟨0, .refl rfl rfl, Nat.zero_le _⟩

omit hr in
theorem spend_spare (te : GoType) (a len : Nat) :
    Spend (spareM D te a len) (fun _ k => k = 0) (fun k => k = 0) := by
  intro h
  unfold spareM
  refine ⟨0, ?_, ?_⟩
  · split
    · split <;> exact .refl rfl rfl
    · exact .refl rfl rfl
  · split
    · split <;> exact rfl
    · exact rfl

omit hr in
theorem spend_putElem (a i : Nat) (v : MVal) : Spend (putElem a i v) (fun _ k => k = 0) (fun k => k = 0) := by
  intro h
  unfold putElem
  refine ⟨0, ?_, ?_⟩
  · split <;> exact .refl rfl rfl
  · split <;> exact rfl

omit hr in
theorem spend_packed (c : Coder) (te : GoType) (b : View) :
    Spend (decodePackedM c te b) (fun _ k => k ≤ 1) (fun k => k ≤ 1) := by
  unfold decodePackedM
  refine (spend_parse b _).bind ?_ (fun k hk => by omega)
  rintro x k ⟨rfl, _⟩
  split
  · refine (spend_new _).bind (fun a j hj => ?_) (fun _ h => h.elim)
    exact .pure (by omega)
  · exact .fail (by omega)

theorem spend_rep (f : FieldDesc) (t : GoType) (typ : WType) (b : View) (cur : MVal) (d : Int) :
    Val b.len 2 (decodeRepM D rec f t typ b cur d) := by
  unfold decodeRepM
  split
  · split
    · split
      · exact .fail (by omega)
      · refine (spend_consumeBytes b).bind ?_ (fun k hk => by omega)
        rintro ⟨fb, n⟩ k ⟨rfl, h1, h2⟩
        simp only at h1 h2
        refine (spend_packed _ _ fb).bind (fun s j hj => ?_) (fun j hj => by omega)
        exact .pure ⟨by simp only; omega, h2, by simp only; omega⟩
    · split
      · refine (spend_grow _ _ _).bind (fun a j hj => ?_) (fun k hk => by omega)
        refine (spend_spare _ _ _).bind (fun x j1 hj1 => ?_) (fun k hk => by omega)
        refine (spend_elem hr _ _ _ _ _ _).bind ?_ (fun k hk => by omega)
        rintro ⟨v, n⟩ j2 ⟨h1, h2, h3⟩
        simp only at h1 h2 h3
        refine (spend_putElem _ _ _).bind (fun _ j3 hj3 => ?_) (fun k hk => by omega)
        exact .pure ⟨h1, h2, by simp only; omega⟩
      · exact .fail (by omega)
  · exact (spend_value hr _ _ _ _ _ _).le (by omega)

theorem spend_ptr (f : FieldDesc) (typ : WType) (b : View) (cur : MVal) (d : Int) :
    Val b.len 3 (decodePtrM D rec f typ b cur d) := by
  unfold decodePtrM
  split
  · refine (Val.target fun v => spend_rep hr _ _ _ _ _ _).bind ?_ (fun k hk => hk)
    rintro ⟨o, n⟩ k ⟨h1, h2, h3⟩
    exact .pure ⟨h1, h2, by simpa using h3⟩
  · exact (spend_rep hr _ _ _ _ _ _).le (by omega)

theorem spend_field (f : FieldDesc) (typ : WType) (b : View) (cur : MVal) (d : Int) :
    Val b.len 4 (decodeFieldM D rec f typ b cur d) := by
  unfold decodeFieldM
  split
  · split
    · refine (Val.target fun v => spend_ptr hr _ _ _ _ _).bind ?_ (fun k hk => hk)
      rintro ⟨o, n⟩ k ⟨h1, h2, h3⟩
      exact .pure ⟨h1, h2, by simpa using h3⟩
    · exact .fail (by omega)
  · exact (spend_ptr hr _ _ _ _ _).le (by omega)

omit hr in
theorem spend_reset (s : StructDesc) (fs : List MVal) :
    Spend (resetUnknownM s fs) (fun _ k => k = 0) (fun k => k = 0) := by
  unfold resetUnknownM
  split
  · exact .pure rfl
  · split
    · exact .pure rfl
    · exact .pure rfl
    · refine (spend_loadBytes _).bind (fun x j hj => ?_) (fun k hk => hk)
      refine (spend_put _ _).bind (fun _ j1 hj1 => ?_) (fun _ h => h.elim)
      exact .pure (by omega)
    · exact .fail rfl

omit hr in
theorem spend_unknown (s : StructDesc) (fs : List MVal) (raw : View) :
    Spend (appendUnknownM s fs raw) (fun _ k => k ≤ 2) (fun k => k ≤ 2) := by
  unfold appendUnknownM
  split
  · exact .pure (by omega)
  · split
    · refine (spend_append _ _).bind (fun x j hj => ?_) (fun k hk => by omega)
      exact .pure (by omega)
    · refine (spend_new _).bind (fun o j hj => ?_) (fun _ h => h.elim)
      refine (spend_append _ _).bind (fun x j1 hj1 => ?_) (fun k hk => by omega)
      refine (spend_put _ _).bind (fun _ j2 hj2 => ?_) (fun _ h => h.elim)
      exact .pure (by omega)
    · refine (spend_loadBytes _).bind (fun x j hj => ?_) (fun k hk => by omega)
      refine (spend_append _ _).bind (fun x j1 hj1 => ?_) (fun k hk => by omega)
      refine (spend_put _ _).bind (fun _ j2 hj2 => ?_) (fun _ h => h.elim)
      exact .pure (by omega)
    · exact .fail (by omega)

theorem spend_record (s : StructDesc) (d : Int) (b : View) (fs : List MVal) (last : Option FieldDesc) :
    Spend (decodeRecordM D rec s d b fs last) (fun r k => 1 ≤ r.2.1 ∧ r.2.1 ≤ b.len ∧ k ≤ 4 * r.2.1)
      (fun k => k ≤ 4 * b.len) := by
  unfold decodeRecordM
  refine (spend_parse b _).bind ?_ (fun k hk => by omega)
  rintro ⟨num, typ, n⟩ k ⟨rfl, bs, h1, h2⟩
  obtain ⟨h3, h4⟩ := Trunc.consumeTag_len (liftP_okk h2)
  simp only
  split
  · refine (spend_parse _ _).bind ?_ (fun k hk => by omega)
    rintro m k ⟨rfl, bs', h5, h6⟩
    have h7 := consumeFieldValue_le (liftP_okk h6)
    rw [h5, drop_len] at h7
    refine (spend_unknown s fs _).bind (fun x j hj => ?_) (fun k hk => by omega)
    exact .pure ⟨by simp only; omega, by simp only; omega, by simp only; omega⟩
  · split
    · exact .fail (by omega)
    · refine (spend_field hr _ _ _ _ _).bind ?_ (fun k hk => by rw [drop_len] at hk; omega)
      rintro ⟨v, m⟩ k ⟨h5, h6, h7⟩
      rw [drop_len] at h6
      simp only at h5 h6 h7
      exact .pure ⟨by simp only; omega, by simp only; omega, by simp only; omega⟩

theorem spend_loop (s : StructDesc) (d : Int) : ∀ (fuel : Nat) (b : View) (fs : List MVal) (last : Option FieldDesc),
    Spend (decodeLoopM D rec s d fuel b fs last) (fun _ k => k ≤ 4 * b.len) (fun k => k ≤ 4 * b.len) := by
  intro fuel
  induction fuel with
  | zero =>
    intro b fs last
    unfold decodeLoopM
    split
    · exact .pure (by omega)
    · exact .fail (by omega)
  | succ fuel ih =>
    intro b fs last
    unfold decodeLoopM
    split
    · exact .pure (by omega)
    · refine (spend_record hr s d b fs last).bind ?_ (fun k hk => hk)
      rintro ⟨fs', n, last'⟩ k ⟨h1, h2, h3⟩
      simp only at h1 h2 h3
      refine (ih (b.drop n) fs' last').mono ?_ ?_
      · intro _ k' hk; rw [drop_len] at hk; omega
      · intro k' hk; rw [drop_len] at hk; omega

end

theorem spend_struct (D : Descs) : ∀ fuel, RecSpend (decodeStructM D fuel) := by
  intro fuel
  induction fuel with
  | zero => intro d b v id; exact .fail (by omega)
  | succ fuel ih =>
    intro d b v id
    unfold decodeStructM
    split
    · exact .fail (by omega)
    · split
      · refine (spend_reset _ _).bind (fun fs j hj => ?_) (fun k hk => by omega)
        refine (spend_loop ih _ _ _ _ _ _).bind (fun fs' j1 hj1 => ?_) (fun k hk => by omega)
        exact .pure (by omega)
      · exact .fail (by omega)

theorem spend_into (D : Descs) (b : View) (id a : Nat) :
    Spend (decodeInto D b id a) (fun _ k => k ≤ 4 * b.len) (fun k => k ≤ 4 * b.len) := by
  intro h
  unfold decodeInto
  split
  · rename_i v _
    obtain ⟨k, h1, h2⟩ := spend_struct D (b.len + 1) defaultRecursionMaxDepth b v id h
    refine ⟨k, ?_, ?_⟩
    · split
      · rename_i w h' e
        rw [e] at h1
        exact ⟨h1.next, h1.skip⟩
      · rename_i e' h' e
        rw [e] at h1
        exact ⟨h1.next, h1.skip⟩
    · split
      · rename_i w h' e
        rw [e] at h2
        exact h2
      · rename_i e' h' e
        rw [e] at h2
        exact h2
  · exact ⟨0, .refl rfl rfl, Nat.zero_le _⟩

theorem spend_unmarshal (env : GoEnv) (b : View) (a : MArg) :
    Spend (unmarshalM env b a) (fun _ k => k ≤ 4 * b.len) (fun k => k ≤ 4 * b.len) := by
  unfold unmarshalM
  split
  · exact .fail (by omega)
  · exact .fail (by omega)
  · exact .fail (by omega)
  · have : Spend (lift (parseDescs env)) (fun _ k => k = 0) (fun k => k = 0) := by
      intro h
      refine ⟨0, .refl rfl rfl, ?_⟩
      unfold lift
      cases parseDescs env <;> exact rfl
    refine this.bind (fun D j hj => ?_) (fun k hk => by omega)
    subst hj
    split
    · exact .fail (by omega)
    · refine (spend_into _ _ _ _).mono (fun _ k hk => by omega) (fun k hk => by omega)

end Verif.Lemmas.Alloc
