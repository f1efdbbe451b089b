import Verif.Lemmas.EncRefine
/-! Helper lemmas: the sizer computes the length of `Spec.encode`. -/
namespace Verif.Lemmas
open Verif.Model Verif.Spec

/-- `r` is the length of `e`. -/
def Sz (r : Res Nat) (e : Option Bytes) : Prop :=
  match e with
  | none => r = .error .maxDepth
  | some bs => ∃ n, r = .ok n ∧ (bs.length < 2 ^ 64 → n = bs.length)

theorem Sz.of_adds {w : Nat → Res Nat} {e : Option Bytes} (h : Adds w e) : Sz (w 0) e := by
  cases e with
  | none => exact h 0
  | some bs => obtain ⟨r, hr, hl⟩ := h 0; exact ⟨r, hr, fun h => by rw [hl h]; simp⟩

theorem Adds.of_sz {r : Res Nat} {e : Option Bytes} (h : Sz r e) :
    Adds (fun n => (fun k => n + k) <$> r) e := by
  cases e with
  | none => intro n; dsimp only; rw [h]; rfl
  | some bs =>
    obtain ⟨k, hk, hl⟩ := h
    intro n
    refine ⟨n + k, by dsimp only; rw [hk]; rfl, fun h => by rw [hl h]⟩

theorem Sz.seq {r1 r2 : Res Nat} {e1 e2 : Option Bytes} (h1 : Sz r1 e1) (h2 : Sz r2 e2)
    (f : Nat → Nat → Nat) (g : Bytes → Bytes → Bytes)
    (hg : ∀ a b, a.length ≤ (g a b).length ∧ b.length ≤ (g a b).length)
    (hf : ∀ a b, (g a b).length < 2 ^ 64 → f a.length b.length = (g a b).length) :
    Sz (do let a ← r1; let b ← r2; return f a b) (do let a ← e1; let b ← e2; return g a b) := by
  cases e1 with
  | none => rw [show r1 = _ from h1]; rfl
  | some a =>
    obtain ⟨n, hn, hl⟩ := h1
    cases e2 with
    | none => rw [hn, show r2 = _ from h2]; rfl
    | some b =>
      obtain ⟨n2, hn2, hl2⟩ := h2
      refine ⟨f n n2, by rw [hn, hn2]; rfl, fun h => ?_⟩
      have := hg a b
      rw [hl (by omega), hl2 (by omega), hf a b h]

theorem Sz.map {r : Res Nat} {e : Option Bytes} (h : Sz r e) (f : Nat → Nat) (g : Bytes → Bytes)
    (hg : ∀ a, a.length ≤ (g a).length)
    (hf : ∀ a, (g a).length < 2 ^ 64 → f a.length = (g a).length) :
    Sz (f <$> r) (e.map g) := by
  cases e with
  | none => rw [show r = _ from h]; rfl
  | some a =>
    obtain ⟨n, hn, hl⟩ := h
    refine ⟨f n, by rw [hn]; rfl, fun h => ?_⟩
    have := hg a
    rw [hl (by omega), hf a h]

/-- The recursive call sizes sub-messages. -/
structure SizeRecOK (S : Schema) (enc : Nat → Val → Option Bytes) (rec : SizeRec) : Prop where
  val : ∀ id v, Typed S id v → Sz (rec (some v) id) (enc id v)
  nil : ∀ id, Sz (rec none id) (enc id (S id).zero)

variable {S : Schema} {enc : Nat → Val → Option Bytes} {rec : SizeRec}

theorem elem_sz (h : SizeRecOK S enc rec) {id : Nat} {p : Bool} {v : Val} (hv : RefTyped S id p v) :
    Sz (do let base ← elemBase (msgType id p) v; rec base id) (enc id (deref S id p v)) := by
  cases hv with
  | nil => exact h.nil id
  | ptr id v hv => exact h.val id v hv
  | inline id v hv => exact h.val id v hv

theorem scalar_sz {s : Scalar} {v : Val} (h : s.goType.holds v = true) :
    Sz (sizeCoder (coderOf s) v) (s.encode v) := by
  rw [encode_some h]; exact sizeCoder_eq h

theorem sizeLen (t a : Bytes) (h : (t ++ lenDelim a).length < 2 ^ 64) :
    t.length + sizeBytes a.length = (t ++ lenDelim a).length := by
  have := lenDelim_length_gt a
  rw [List.length_append] at h ⊢
  rw [sizeBytes_eq a (by omega)]

theorem tag_kv_length (i : Nat) (hi : i = 1 ∨ i = 2) (t : WireType) : (tag i t).length = 1 := by
  rcases hi with rfl | rfl
  · have := appendKeyTag_eq [] t
    rw [List.nil_append] at this; rw [← this]; rfl
  · have := appendValTag_eq [] t
    rw [List.nil_append] at this; rw [← this]; rfl

/-- The size of a map entry. -/
theorem entry_sz {n : Nat} (hn : n < 2 ^ 31) (kw vw : WireType) {rk rv : Res Nat}
    {ek ev : Option Bytes} (hk : Sz rk ek) (hv : Sz rv ev) :
    Adds (fun m => do
      let k ← rk
      let x ← rv
      return m + (sizeVarint (wtag n .len) + sizeBytes (1 + k + 1 + x)))
      (do
        let a ← ek
        let b ← ev
        return tag n .len ++ lenDelim (tag 1 kw ++ a ++ (tag 2 vw ++ b))) := by
  have := Adds.of_sz (Sz.seq hk hv (fun k x => sizeVarint (wtag n .len) + sizeBytes (1 + k + 1 + x))
    (fun a b => tag n .len ++ lenDelim (tag 1 kw ++ a ++ (tag 2 vw ++ b)))
    (fun a b => by
      have := lenDelim_length_gt (tag 1 kw ++ a ++ (tag 2 vw ++ b))
      simp only [List.length_append] at this ⊢
      omega)
    (fun a b h => by
      rw [size_wtag hn]
      have e : 1 + a.length + 1 + b.length = (tag 1 kw ++ a ++ (tag 2 vw ++ b)).length := by
        simp only [List.length_append, tag_kv_length 1 (Or.inl rfl), tag_kv_length 2 (Or.inr rfl)]
        omega
      rw [e, sizeLen _ _ h]))
  refine this.congr (fun m => ?_)
  cases rk with
  | error e => rfl
  | ok k => cases rv <;> rfl

theorem list_spec (n : Nat) (t : WireType) (e : Option Bytes) :
    (do return tag n t ++ lenDelim (← e) : Option Bytes) = e.map (fun a => tag n t ++ lenDelim a) := by
  cases e <;> rfl

theorem scalar_spec (n : Nat) (t : WireType) (e : Option Bytes) :
    (do return tag n t ++ (← e) : Option Bytes) = e.map (fun a => tag n t ++ a) := by
  cases e <;> rfl

theorem msg_sz {n : Nat} (hn : n < 2 ^ 31) {r : Res Nat} {e : Option Bytes} (h : Sz r e) :
    Sz ((fun sz => sizeVarint (wtag n .len) + sizeBytes sz) <$> r)
      (do return tag n .len ++ lenDelim (← e)) := by
  rw [list_spec]
  refine h.map _ _ (fun a => ?_) (fun a h => ?_)
  · have := lenDelim_length_gt a
    rw [List.length_append]; omega
  · rw [size_wtag hn, sizeLen _ _ h]

theorem scalarRec_sz {n : Nat} (hn : n < 2 ^ 31) (t : WireType) {r : Res Nat} {e : Option Bytes} (h : Sz r e) :
    Sz ((fun sz => sizeVarint (wtag n t) + sz) <$> r)
      (do return tag n t ++ (← e)) := by
  rw [scalar_spec]
  refine h.map _ _ (fun a => ?_) (fun a h => ?_)
  · rw [List.length_append]; omega
  · rw [size_wtag hn, List.length_append]

theorem map_add (n : Nat) (f : Nat → Nat) (r : Res Nat) :
    (fun k => n + f k) <$> r = (fun k => n + k) <$> (f <$> r) := by
  cases r <;> rfl

/-- A field that is skipped if zero, and counted otherwise. -/
def sizeShape (ssize : Nat → Nat) (rec : SizeRec) (f : FieldDesc) (p : Val) (n : Nat) : Res Nat := do
  if ← skipZero ssize f.t p then return n else sizePresent rec f n p

theorem getMapSize_cases (k v : Scalar) :
    (getMapSize (coderOf k) (coderOf v) = none) ∨
    (getMapSize (coderOf k) (coderOf v) = some (coderOf k, coderOf v)) := by
  unfold getMapSize
  cases h1 : (coderOf k).isSizeMapKey <;> cases h2 : (coderOf v).isScalar <;> simp

theorem mapScalar_sz {n : Nat} (hn : n < 2 ^ 31) {k v : Scalar} {m : List (Key × Val)}
    (hm : ∀ e ∈ m, k.HasKey e.1 ∧ v.goType.holds e.2 = true) {f : Nat → Key × Val → Res Nat}
    (hf : ∀ b, ∀ e ∈ m, f b e = do
      let k ← sizeCoder (coderOf k) e.1.toVal
      let x ← sizeCoder (coderOf v) e.2
      return b + (sizeVarint (wtag n .len) + sizeBytes (1 + k + 1 + x))) :
    Sz (m.foldlM f 0) (concatM (fun e => do
        let a ← k.encode e.1.toVal
        let b ← v.encode e.2
        return tag n .len ++ lenDelim (tag 1 k.wire ++ a ++ (tag 2 v.wire ++ b))) m) := by
  have := Acts.fold isAct_nat (act := fun n bs => n + bs.length) (xs := m) (f := f)
    (g := fun e => do
        let a ← k.encode e.1.toVal
        let b ← v.encode e.2
        return tag n .len ++ lenDelim (tag 1 k.wire ++ a ++ (tag 2 v.wire ++ b)))
    (fun e he => (entry_sz hn k.wire v.wire (scalar_sz (hm e he).1) (scalar_sz (hm e he).2)).congr
      (fun b => hf b e he))
  exact Sz.of_adds this

theorem mapMsg_sz (h : SizeRecOK S enc rec) {n : Nat} (hn : n < 2 ^ 31) {k : Scalar} {id : Nat}
    {p : Bool} {m : List (Key × Val)}
    (hm : ∀ e ∈ m, RefTyped S id p e.2) {f : Nat → Key × Val → Res Nat} {kz : Val → Res Nat}
    (hk : ∀ e ∈ m, Sz (kz e.1.toVal) (k.encode e.1.toVal))
    (hf : ∀ b, ∀ e ∈ m, f b e = do
      let k ← kz e.1.toVal
      let x ← (do let base ← elemBase (msgType id p) e.2; rec base id)
      return b + (sizeVarint (wtag n .len) + sizeBytes (1 + k + 1 + sizeBytes x))) :
    Sz (m.foldlM f 0) (concatM (fun e => do
        let a ← k.encode e.1.toVal
        let b ← enc id (deref S id p e.2)
        return tag n .len ++ lenDelim (tag 1 k.wire ++ a ++ (tag 2 .len ++ lenDelim b))) m) := by
  have := Acts.fold isAct_nat (act := fun n bs => n + bs.length) (xs := m) (f := f)
    (g := fun e => do
        let a ← k.encode e.1.toVal
        let b ← (enc id (deref S id p e.2)).map lenDelim
        return tag n .len ++ lenDelim (tag 1 k.wire ++ a ++ (tag 2 .len ++ b)))
    (fun e he => (entry_sz hn k.wire .len (hk e he) ((elem_sz h (hm e he)).map sizeBytes lenDelim
        (fun a => by have := lenDelim_length_gt a; omega)
        (fun a h => by have := lenDelim_length_gt a; rw [sizeBytes_eq a (by omega)]))).congr
      (fun b => by
        rw [hf b e he]
        cases kz e.1.toVal with
        | error e => rfl
        | ok kk =>
          dsimp only [bind, Except.bind]
          cases (elemBase (msgType id p) e.2 : Res _) with
          | error e => rfl
          | ok base => dsimp only; cases rec base id <;> rfl))
  have h2 := Sz.of_adds this
  have e : concatM (fun e => do
        let a ← k.encode e.1.toVal
        let b ← (enc id (deref S id p e.2)).map lenDelim
        return tag n .len ++ lenDelim (tag 1 k.wire ++ a ++ (tag 2 .len ++ b))) m =
      concatM (fun e => do
        let a ← k.encode e.1.toVal
        let b ← enc id (deref S id p e.2)
        return tag n .len ++ lenDelim (tag 1 k.wire ++ a ++ (tag 2 .len ++ lenDelim b))) m := by
    refine concatM_congr (fun e _ => ?_)
    cases k.encode e.1.toVal <;> cases enc id (deref S id p e.2) <;> rfl
  rw [← e]; exact h2

theorem size_msgType_isPointer (id : Nat) (p : Bool) : (msgType id p).isPointer = p := by
  cases p <;> rfl

theorem sizeKeyU64_eq {k : Scalar} {v : Val} (hk : k.goType.kind = .int64 ∨ k.goType.kind = .uint64)
    (h : k.goType.holds v = true) :
    (fun x => sizeKeyU64 (tagTypeOf k) x) <$> v.asW64 = sizeCoder (coderOf k) v := by
  cases k <;> (try (exfalso; revert hk; decide)) <;> (obtain ⟨x, rfl⟩ := holds64 rfl h) <;> rfl

theorem sizeKeyU32_eq {k : Scalar} {v : Val} (hk : k.goType.kind = .int32 ∨ k.goType.kind = .uint32)
    (h : k.goType.holds v = true) :
    (fun x => sizeKeyU32 (tagTypeOf k) x (k.goType.kind == .int32)) <$> v.asW32 =
      sizeCoder (coderOf k) v := by
  cases k <;> (try (exfalso; revert hk; decide)) <;> (obtain ⟨x, rfl⟩ := holds32 rfl h) <;> rfl

theorem sizeShape_adds (h : SizeRecOK S enc rec) {ssize : Nat → Nat} (hs : SmallOK S ssize)
    {f : Field} (hn : f.num < 2 ^ 31) (hl : f.shape.legal = true) {x : Val}
    (hx : ShapeTyped S f.shape x) :
    Adds (sizeShape ssize rec (descOf f) x) (encodeShape S enc f.num false f.shape x) := by
  obtain ⟨n, sl, m, shape⟩ := f
  dsimp only at *
  cases hx with
  | single s v hv =>
    unfold sizeShape
    rw [descOf_single]
    dsimp only
    rw [skipZero_scalar ssize hv]
    have := Adds.of_sz (scalarRec_sz hn s.wire (scalar_sz hv))
    simp only [encodeShape]
    rw [encode_some hv] at this ⊢
    cases hd : isDefault x with
    | true => exact Acts.nil isAct_nat
    | false =>
      refine this.congr (fun b => ?_)
      have hp : derefField s.goType x = .ok (s.goType, x) := by cases s <;> rfl
      simp only [bind, Except.bind, Bool.false_eq_true, if_false, sizePresent, hp, Option.isSome,
        true_and, if_true, callSize]
      exact map_add b (fun k => sizeVarint (wtag n s.wire) + k) _
  | optionalNil s =>
    unfold sizeShape
    rw [descOf_optional]
    exact Acts.nil isAct_nat
  | optional s v hv =>
    unfold sizeShape
    rw [descOf_optional]
    refine (Adds.of_sz (scalarRec_sz hn s.wire (scalar_sz hv))).congr (fun b => ?_)
    exact map_add b (fun k => sizeVarint (wtag n s.wire) + k) _
  | list s p xs hv =>
    cases p with
    | false =>
      unfold sizeShape
      rw [descOf_list]
      dsimp only
      rw [skip_slice]
      simp only [encodeShape, Bool.false_eq_true, if_false]
      cases xs with
      | nil => exact Acts.nil isAct_nat
      | cons y ys =>
        have := Acts.fold isAct_nat (act := fun n bs => n + bs.length) (xs := y :: ys)
          (f := fun b v => (fun k => b + (sizeVarint (wtag n s.wire) + k)) <$> sizeCoder (coderOf s) v)
          (g := fun v => do return tag n s.wire ++ (← s.encode v))
          (fun v hv' => (Adds.of_sz (scalarRec_sz hn s.wire (scalar_sz (hv v hv')))).congr
            (fun b => map_add b (fun k => sizeVarint (wtag n s.wire) + k) _))
        refine (Adds.of_sz (Sz.of_adds this)).congr (fun b => ?_)
        simp [bind, Except.bind, sizePresent, derefField, sizeListField, Val.asSlice, GoType.elem]
    | true =>
      have hp : s.packable = true := by simpa [Shape.legal] using hl
      unfold sizeShape
      rw [descOf_packed _ _ _ _ hp]
      dsimp only
      rw [skip_slice]
      simp only [encodeShape, if_true]
      cases xs with
      | nil => exact Acts.nil isAct_nat
      | cons y ys =>
        have := Acts.fold isAct_nat (act := fun n bs => n + bs.length) (xs := y :: ys)
          (f := fun b v => (fun k => b + k) <$> callSize (some (coderOf s)) v)
          (g := s.encode)
          (fun v hv' => Adds.of_sz (scalar_sz (hv v hv')))
        refine (Adds.of_sz (msg_sz hn (Sz.of_adds this))).congr (fun b => ?_)
        simp only [bind, Except.bind, sizePresent, derefField, sizeListField, Val.asSlice, GoType.elem,
          List.isEmpty_cons, Bool.false_eq_true, if_false, reduceCtorEq, false_and, if_true]
        cases List.foldlM (fun b v => (fun k => b + k) <$> callSize (some (coderOf s)) v) 0 (y :: ys) <;> rfl
  | msg id p v hv =>
    unfold sizeShape
    rw [descOf_msg]
    dsimp only
    cases hv with
    | nil => exact Acts.nil isAct_nat
    | ptr id v hv =>
      exact (Adds.of_sz (msg_sz hn (h.val id v hv))).congr (fun b =>
        map_add b (fun k => sizeVarint (wtag n .len) + sizeBytes k) _)
    | inline id v hv =>
      simp only [msgType, Bool.false_eq_true, if_false]
      rw [skip_struct hs]
      simp only [encodeShape, Bool.not_false, Bool.and_true]
      cases hz : (S id).small && x.memZero with
      | true => exact Acts.nil isAct_nat
      | false =>
        exact (Adds.of_sz (msg_sz hn (h.val id x hv))).congr (fun b =>
          map_add b (fun k => sizeVarint (wtag n .len) + sizeBytes k) _)
  | msgList id p xs hv =>
    unfold sizeShape
    rw [descOf_msgList]
    dsimp only
    rw [skip_slice]
    cases xs with
    | nil => exact Acts.nil isAct_nat
    | cons y ys =>
      have := Acts.fold isAct_nat (act := fun n bs => n + bs.length) (xs := y :: ys)
        (f := fun b v => do
          let base ← elemBase (msgType id p) v
          let sz ← rec base id
          return b + (sizeVarint (wtag n .len) + sizeBytes sz))
        (g := fun v => do return tag n .len ++ lenDelim (← enc id (deref S id p v)))
        (fun v hv' => (Adds.of_sz (msg_sz hn (elem_sz h (hv v hv')))).congr (fun b => by
          cases (elemBase (msgType id p) v : Res _) with
          | error e => rfl
          | ok base => dsimp only [bind, Except.bind]; cases rec base id <;> rfl))
      refine (Adds.of_sz (Sz.of_adds this)).congr (fun b => ?_)
      simp [bind, Except.bind, sizePresent, derefField, sizeListField, Val.asSlice, GoType.elem,
        elemStruct_msgType]
  | mapNil k v =>
    unfold sizeShape
    rw [descOf_map]
    exact Acts.nil isAct_nat
  | map k v es hnd hv =>
    unfold sizeShape
    rw [descOf_map]
    dsimp only
    rw [skip_map]
    rcases getMapSize_cases k v with he | he
    · refine (Adds.of_sz (mapScalar_sz hn hv (fun b e he => rfl))).congr (fun b => ?_)
      simp only [bind, Except.bind, sizePresent, derefField, sizeMapField, Val.asMap, he, Option.isNone,
        Bool.false_eq_true, if_false, reduceCtorEq, false_and, if_true, Option.getD_some,
        Option.isSome, and_false]
      congr 2
      funext n e
      simp only [sizeEntryGeneric, callSize, bind, Except.bind]
      cases sizeCoder (coderOf k) e.1.toVal with
      | error e => rfl
      | ok a => dsimp only; cases sizeCoder (coderOf v) e.2 with
        | error e => rfl
        | ok b => dsimp only; rw [show 1 + a + (1 + b) = 1 + a + 1 + b by omega]
    · refine (Adds.of_sz (mapScalar_sz hn hv (fun b e he => rfl))).congr (fun b => ?_)
      simp only [bind, Except.bind, sizePresent, derefField, sizeMapField, sizeMapFast, Val.asMap, he, Option.isNone,
        Bool.false_eq_true, if_false, reduceCtorEq, false_and, if_true, Option.getD_some,
        Option.isSome, and_false]
  | mapMsgNil k id p =>
    unfold sizeShape
    rw [descOf_mapMsg]
    exact Acts.nil isAct_nat
  | mapMsg k id p es hnd hk hv =>
    unfold sizeShape
    rw [descOf_mapMsg]
    dsimp only
    rw [skip_map]
    have key : ∀ (f : Nat → Key × Val → Res Nat) (kz : Val → Res Nat),
        (∀ e ∈ es, kz e.1.toVal = sizeCoder (coderOf k) e.1.toVal) →
        (∀ b, ∀ e ∈ es, f b e = do
          let k ← kz e.1.toVal
          let x ← (do let base ← elemBase (msgType id p) e.2; rec base id)
          return b + (sizeVarint (wtag n .len) + sizeBytes (1 + k + 1 + sizeBytes x))) →
        Adds (fun n => (fun k => n + k) <$> es.foldlM f 0)
          (encodeShape S enc n false (.mapMsg k id p) (.map (some es))) := by
      intro f kz hkz hf
      exact Adds.of_sz (mapMsg_sz h hn hv
        (fun e he => by rw [hkz e he]; exact scalar_sz (hk e he)) hf)
    simp only [bind, Except.bind, sizePresent, derefField, sizeMapField, Val.asMap, Option.isNone,
        Bool.false_eq_true, if_false, true_and, if_true, Option.getD_some,
        Option.isSome, and_false, elemStruct_msgType]
    have spec : ∀ (F : FieldDesc) (kz : Val → Res Nat), F.wireTagSize = sizeVarint (wtag n .len) →
        ∀ b, ∀ e ∈ es, sizeStructEntry rec F (msgType id p) id kz b e = do
          let k ← kz e.1.toVal
          let x ← (do let base ← elemBase (msgType id p) e.2; rec base id)
          return b + (sizeVarint (wtag n .len) + sizeBytes (1 + k + 1 + sizeBytes x)) := by
      intro F kz hF b e he
      simp only [sizeStructEntry, bind, Except.bind, hF]
      cases kz e.1.toVal with
      | error e => rfl
      | ok a =>
        dsimp only
        cases (elemBase (msgType id p) e.2 : Res _) <;> rfl
    split
    · rename_i c
      exact key _ (fun x => (fun x => sizeKeyU64 (tagTypeOf k) x) <$> x.asW64) (fun e he => sizeKeyU64_eq c.2 (hk e he)) (fun b e he => spec _ _ rfl b e he)
    · split
      · rename_i c
        exact key _ (fun x => (fun x => sizeKeyU32 (tagTypeOf k) x (k.goType.kind == .int32)) <$> x.asW32) (fun e he => sizeKeyU32_eq c.2 (hk e he)) (fun b e he => spec _ _ rfl b e he)
      · split
        · rename_i c
          have hks : k = .string := by
            have := c.2
            cases k <;> first | rfl | (exact absurd this (by decide))
          subst hks
          exact key _ (fun k => (fun s => sizeBytes s.length) <$> k.asStr) (fun e he => rfl) (fun b e he => spec _ (fun k => (fun s => sizeBytes s.length) <$> k.asStr) rfl b e he)
        · refine key _ (sizeCoder (coderOf k)) (fun e he => rfl) (fun b e he => ?_)
          simp only [sizeEntryGeneric, callSize, elemStruct_msgType, bind, Except.bind]
          cases sizeCoder (coderOf k) e.1.toVal with
          | error e => rfl
          | ok a =>
            dsimp only
            cases (elemBase (msgType id p) e.2 : Res _) with
            | error e => rfl
            | ok base =>
              dsimp only
              cases rec base id with
              | error e => rfl
              | ok c =>
                simp only [pure, Except.pure]
                rw [show 1 + a + (1 + sizeBytes c) = 1 + a + 1 + sizeBytes c by omega]

theorem sizeField_adds (h : SizeRecOK S enc rec) {ssize : Nat → Nat} (hs : SmallOK S ssize)
    {f : Field} (hn : f.num < 2 ^ 31) (hl : f.shape.legal = true) {fs : List Val} {x : Val}
    (hf : fs[f.slot]? = some x) (hx : FieldTyped S f x) :
    Adds (fun n => sizeField ssize rec fs n (descOf f)) (encodeField S false enc fs f) := by
  unfold sizeField encodeField
  rw [descOf_slot, hf]
  simp only [oneofTarget_typed hx, bind, Option.bind, Except.bind]
  cases hc : f.content x with
  | none => exact Acts.nil isAct_nat
  | some d =>
    simp only [Bool.and_false]
    exact sizeShape_adds h hs hn hl (content_typed hx hc)

/-- The sizer computes the length of the encoding. -/
theorem sizeStruct_sz {D : Descs} (hD : DescOK D S) (hW : S.WF) : ∀ (depth : Nat) (id : Nat)
    (base : Option Val), Typed S id (base.getD (S id).zero) →
    Sz (sizeStruct D depth base id) (encode S false depth id (base.getD (S id).zero))
  | 0, id, base, _ => rfl
  | depth + 1, id, base, ht => by
    have hrec : SizeRecOK S (encode S false depth) (sizeStruct D depth) :=
      ⟨fun id v hv => sizeStruct_sz hD hW depth id (some v) hv,
       fun id => sizeStruct_sz hD hW depth id none (typed_zero hW id)⟩
    generalize hv : base.getD (S id).zero = v at *
    cases ht with
    | mk id fs hlen hf hu =>
      have h1 : Adds (fun b => ((S id).fields.map descOf).foldlM (sizeField (fun i => (D i).size)
          (sizeStruct D depth) fs) b)
          (concatM (encodeField S false (encode S false depth) fs) (S id).fields) := by
        have := Acts.fold isAct_nat (act := fun n bs => n + bs.length) (xs := (S id).fields)
          (f := fun b f => sizeField (fun i => (D i).size) (sizeStruct D depth) fs b (descOf f))
          (g := encodeField S false (encode S false depth) fs)
          (fun f hm => by
            have hsl := (hW id).slots f hm
            have hx : fs[f.slot]? = some fs[f.slot] := List.getElem?_eq_getElem (by omega)
            exact sizeField_adds hrec hD.small ((hW id).nums f hm).2 ((hW id).legal f hm) hx
              (hf f hm _ hx))
        refine this.congr (fun b => ?_)
        rw [List.foldlM_map]
      have h2 : Adds (fun b => do let u ← unknownBytes (D id) fs; return b + u.length)
          (some (unknownOf (S id) fs)) := by
        refine Acts.ofSome (fun b => ?_)
        rw [unknownBytes_eq hD hlen (fun s p h => ((hW id).unknown s p h).1) hu]
        rfl
      have h3 := Sz.of_adds (Acts.seq isAct_nat h1 h2)
      simp only [sizeStruct, hD.empty, hv, hD.fields]
      exact h3

end Verif.Lemmas
