import Verif.Lemmas.DescOf
/-! Helper lemmas: the encoder refines `Spec.encode`. -/
namespace Verif.Lemmas
open Verif.Model Verif.Spec

/-- The recursive call encodes sub-messages. -/
structure RecOK (S : Schema) (enc : Nat → Val → Option Bytes) (rec : EncRec) : Prop where
  val : ∀ id v, Typed S id v → Writes (fun b => rec b (some v) id) ((enc id v).map lenDelim)
  nil : ∀ id, Writes (fun b => rec b none id) ((enc id (S id).zero).map lenDelim)

variable {S : Schema} {enc : Nat → Val → Option Bytes} {rec : EncRec}

theorem elemStruct_msgType (id : Nat) (p : Bool) : elemStruct (msgType id p) = .ok id := by
  cases p <;> rfl

theorem elem_writes (h : RecOK S enc rec) {id : Nat} {p : Bool} {v : Val} (hv : RefTyped S id p v) :
    Writes (fun b => do let base ← elemBase (msgType id p) v; rec b base id)
      ((enc id (deref S id p v)).map lenDelim) := by
  cases hv with
  | nil => exact h.nil id
  | ptr id v hv => exact h.val id v hv
  | inline id v hv => exact h.val id v hv

theorem map_map_append (e : Option Bytes) (a : Bytes) (f : Bytes → Bytes) :
    (e.map f).map (a ++ ·) = (do return a ++ f (← e)) := by
  cases e <;> rfl

theorem map_append_eq (e : Option Bytes) (a : Bytes) :
    e.map (a ++ ·) = (do return a ++ (← e)) := by
  cases e <;> rfl

theorem appendListField_writes (h : RecOK S enc rec) {n sl : Nat} {m : Option Nat} {id : Nat}
    {p : Bool} {xs : List Val} (hn : n < 2 ^ 31) (hx : ∀ v ∈ xs, RefTyped S id p v) :
    Writes (fun b => appendListField rec (descOf ⟨n, sl, m, .msgList id p⟩) b (.slice xs))
      (concatM (fun v => do return tag n .len ++ lenDelim (← enc id (deref S id p v))) xs) := by
  rw [descOf_msgList]
  simp only [appendListField, GoType.elem, elemStruct_msgType, Val.asSlice]
  refine Acts.fold isAct_bytes (fun v hv => ?_)
  have := Acts.pre isAct_bytes (fun b => appendVarintSmall b (wtag n .len)) (tag n .len)
    (append_wtag hn .len) (elem_writes h (hx v hv))
  rw [map_map_append] at this
  refine this.congr (fun b => ?_)
  rfl

/-- One map entry: key, then value, in a frame. -/
theorem entry_writes {n : Nat} (hn : n < 2 ^ 31) {wk wv : Bytes → Res Bytes} {ek ev : Option Bytes}
    (hk : Writes wk ek) (hv : Writes wv ev) :
    Writes (fun b => do
      let b0 := lenReserve (appendVarintSmall b (wtag n .len))
      let b1 ← wk b0
      let b2 ← wv b1
      return lenPack b2 (b2.length - b0.length))
      (do
        let a ← ek
        let b ← ev
        return tag n .len ++ lenDelim (a ++ b)) := by
  have := Acts.pre isAct_bytes (fun b => appendVarintSmall b (wtag n .len)) (tag n .len)
    (append_wtag hn .len) (Writes.frame (Acts.seq isAct_bytes hk hv))
  have e : (do let a ← ek; let b ← ev; return tag n .len ++ lenDelim (a ++ b)) =
      (((do let a ← ek; let b ← ev; return a ++ b) : Option Bytes).map lenDelim).map
        (tag n .len ++ ·) := by
    cases ek <;> cases ev <;> rfl
  rw [e]
  refine this.congr (fun b => ?_)
  dsimp only
  cases h : wk (lenReserve (appendVarintSmall b (wtag n .len))) <;> rfl

theorem keyTag_writes (k : Scalar) {w : Bytes → Res Bytes} {e : Option Bytes} (h : Writes w e) :
    Writes (fun b => w (appendKeyTag b (tagTypeOf k).wire)) (e.map (tag 1 k.wire ++ ·)) :=
  Acts.pre isAct_bytes _ _ (fun b => by rw [tagTypeOf_wire, appendKeyTag_eq]) h

theorem valTag_writes (t : WireType) {w : Bytes → Res Bytes} {e : Option Bytes} (h : Writes w e) :
    Writes (fun b => w (appendValTag b t.code)) (e.map (tag 2 t ++ ·)) :=
  Acts.pre isAct_bytes _ _ (fun b => by rw [appendValTag_eq]) h

theorem entry_spec_scalar (n : Nat) (k v : Scalar) (e : Key × Val) :
    (do
      let a ← (k.encode e.1.toVal).map (tag 1 k.wire ++ ·)
      let b ← (v.encode e.2).map (tag 2 v.wire ++ ·)
      return tag n .len ++ lenDelim (a ++ b)) = (do
      let a ← k.encode e.1.toVal
      let b ← v.encode e.2
      return tag n .len ++ lenDelim (tag 1 k.wire ++ a ++ (tag 2 v.wire ++ b)) : Option Bytes) := by
  cases k.encode e.1.toVal <;> cases v.encode e.2 <;> rfl

theorem entry_spec_msg (n : Nat) (k : Scalar) (x : Option Bytes) (e : Key × Val) :
    (do
      let a ← (k.encode e.1.toVal).map (tag 1 k.wire ++ ·)
      let b ← (x.map lenDelim).map (tag 2 .len ++ ·)
      return tag n .len ++ lenDelim (a ++ b)) = (do
      let a ← k.encode e.1.toVal
      let b ← x
      return tag n .len ++ lenDelim (tag 1 k.wire ++ a ++ (tag 2 .len ++ lenDelim b)) :
        Option Bytes) := by
  cases k.encode e.1.toVal <;> cases x <;> rfl

theorem appendMapFast_writes {n : Nat} {k v : Scalar} {m : List (Key × Val)} (hn : n < 2 ^ 31)
    (hk : (coderOf k).isFastMapKey = true) (hv : (coderOf v).isFastMapVal = true)
    (hm : ∀ e ∈ m, k.HasKey e.1 ∧ v.goType.holds e.2 = true) :
    Writes (fun b => appendMapFast (coderOf k) (coderOf v) b (wtag n .len) (.map (some m)))
      (concatM (fun e => do
        let a ← k.encode e.1.toVal
        let b ← v.encode e.2
        return tag n .len ++ lenDelim (tag 1 k.wire ++ a ++ (tag 2 v.wire ++ b))) m) := by
  simp only [appendMapFast, Val.asMap, Option.getD_some]
  refine Acts.fold isAct_bytes (fun e he => ?_)
  rw [← entry_spec_scalar]
  exact entry_writes hn (appendMapKey_writes hk (hm e he).1) (appendMapValue_writes hv (hm e he).2)

theorem bind_assoc' {α β γ : Type} (x : Res α) (f : α → Res β) (g : β → Res γ) :
    (x >>= f) >>= g = x >>= fun a => f a >>= g := by cases x <;> rfl

theorem goType_isPointer (s : Scalar) : s.goType.isPointer = false := by cases s <;> rfl

theorem appendMapField_writes {n sl : Nat} {mem : Option Nat} {k v : Scalar} {m : List (Key × Val)}
    (hn : n < 2 ^ 31) (hm : ∀ e ∈ m, k.HasKey e.1 ∧ v.goType.holds e.2 = true) :
    Writes (fun b => appendMapField rec (descOf ⟨n, sl, mem, .map k v⟩) b (.map (some m)))
      (concatM (fun e => do
        let a ← k.encode e.1.toVal
        let b ← v.encode e.2
        return tag n .len ++ lenDelim (tag 1 k.wire ++ a ++ (tag 2 v.wire ++ b))) m) := by
  rw [descOf_map]
  simp only [appendMapField, Val.asMap, Option.getD_some, reduceCtorEq, false_and, if_false]
  refine Acts.fold isAct_bytes (fun e he => ?_)
  rw [← entry_spec_scalar]
  have := entry_writes hn (keyTag_writes k (appendCoder_writes (hm e he).1))
    (valTag_writes v.wire (appendCoder_writes (hm e he).2))
  refine this.congr (fun b => ?_)
  simp only [appendEntryGeneric, callAppend, tagTypeOf_wire]

theorem appendMapMsg_writes (h : RecOK S enc rec) {n sl : Nat} {mem : Option Nat} {k : Scalar}
    {id : Nat} {p : Bool} {m : List (Key × Val)} (hn : n < 2 ^ 31)
    (hk : ∀ e ∈ m, k.HasKey e.1) (hm : ∀ e ∈ m, RefTyped S id p e.2) :
    Writes (fun b => appendMapField rec (descOf ⟨n, sl, mem, .mapMsg k id p⟩) b (.map (some m)))
      (concatM (fun e => do
        let a ← k.encode e.1.toVal
        let b ← enc id (deref S id p e.2)
        return tag n .len ++ lenDelim (tag 1 k.wire ++ a ++ (tag 2 .len ++ lenDelim b))) m) := by
  rw [descOf_mapMsg]
  -- the generic loop, and the specialised loops, which do the same
  have gen : Writes (fun b => m.foldlM (appendEntryGeneric rec
      { bare n sl mem (.map k.goType (msgType id p)) .bytes .len with
        repeated := true, isMap := true, keyType := tagTypeOf k, valType := .bytes,
        keyAppend := some (.plain (coderOf k)), keySize := some (coderOf k) }
      (msgType id p)) b)
      (concatM (fun e => do
        let a ← k.encode e.1.toVal
        let b ← enc id (deref S id p e.2)
        return tag n .len ++ lenDelim (tag 1 k.wire ++ a ++ (tag 2 .len ++ lenDelim b))) m) := by
    refine Acts.fold isAct_bytes (fun e he => ?_)
    rw [← entry_spec_msg]
    have := entry_writes hn (keyTag_writes k (appendCoder_writes (hk e he)))
      (valTag_writes .len (elem_writes h (hm e he)))
    refine this.congr (fun b => ?_)
    simp only [appendEntryGeneric, callAppend, elemStruct_msgType]
    congr 1
    funext b1
    cases elemBase (msgType id p) e.2 <;> rfl
  have spec : ∀ wk : Bytes → Val → Res Bytes,
      (∀ e ∈ m, Writes (fun b => wk b e.1.toVal) (k.encode e.1.toVal)) →
      Writes (fun b => m.foldlM (appendStructEntry rec
      { bare n sl mem (.map k.goType (msgType id p)) .bytes .len with
        repeated := true, isMap := true, keyType := tagTypeOf k, valType := .bytes,
        keyAppend := some (.plain (coderOf k)), keySize := some (coderOf k) }
      (msgType id p) id wk) b)
      (concatM (fun e => do
        let a ← k.encode e.1.toVal
        let b ← enc id (deref S id p e.2)
        return tag n .len ++ lenDelim (tag 1 k.wire ++ a ++ (tag 2 .len ++ lenDelim b))) m) := by
    intro wk hw
    refine Acts.fold isAct_bytes (fun e he => ?_)
    rw [← entry_spec_msg]
    have := entry_writes hn (keyTag_writes k (hw e he))
      (valTag_writes .len (elem_writes h (hm e he)))
    refine this.congr (fun b => ?_)
    simp only [appendStructEntry]
    congr 1
    funext b1
    cases elemBase (msgType id p) e.2 <;> rfl
  simp only [appendMapField, Val.asMap, Option.getD_some, elemStruct_msgType, true_and]
  by_cases c1 : (msgType id p).isPointer = true ∧
      (k.goType.kind = .int64 ∨ k.goType.kind = .uint64 ∨ k.goType.kind = .int32 ∨ k.goType.kind = .uint32)
  · refine (spec (callAppend (some (.plain (coderOf k)))) (fun e he => appendCoder_writes (hk e he))).congr
      (fun b => ?_)
    dsimp only [bind, Except.bind]
    rw [if_pos c1]
  · by_cases c2 : (msgType id p).isPointer = true ∧ k.goType.kind = .string
    · have hks : k = .string := by cases k <;> first | rfl | (exact absurd c2.2 (by decide))
      refine (spec (fun b k => (appendString b) <$> k.asStr) (fun e he => ?_)).congr (fun b => ?_)
      · subst hks
        exact appendCoder_writes (s := .string) (hk e he)
      · dsimp only [bind, Except.bind]
        rw [if_neg c1, if_pos c2]
    · refine gen.congr (fun b => ?_)
      dsimp only [bind, Except.bind]
      rw [if_neg c1, if_neg c2]

theorem skip_map (ssize : Nat → Nat) (k v : GoType) (m : Option (List (Key × Val))) :
    skipZero ssize (.map k v) (.map m) = .ok m.isNone := rfl

theorem skip_slice (ssize : Nat → Nat) (t : GoType) (xs : List Val) :
    skipZero ssize (.slice t) (.slice xs) = .ok xs.isEmpty := by
  cases xs <;> rfl

/-- Sizes of structs as far as they matter. -/
def SmallOK (S : Schema) (ssize : Nat → Nat) : Prop :=
  ∀ id, (ssize id = 8 ∨ ssize id = 4 ∨ ssize id = 1) ↔ (S id).small = true

theorem skip_struct {ssize : Nat → Nat} (hs : SmallOK S ssize) (id : Nat) (v : Val) :
    skipZero ssize (.struct id) v = .ok ((S id).small && v.memZero) := by
  show (if ssize id = 8 ∨ ssize id = 4 ∨ ssize id = 1 then Except.ok v.memZero else Except.ok false) = _
  by_cases h : ssize id = 8 ∨ ssize id = 4 ∨ ssize id = 1
  · rw [if_pos h, (hs id).1 h]; rfl
  · rw [if_neg h]
    have : (S id).small = false := by
      cases hb : (S id).small with
      | false => rfl
      | true => exact absurd ((hs id).2 hb) h
    rw [this]; rfl

/-- A field that is skipped if zero, and written otherwise. -/
def appendShape (ssize : Nat → Nat) (rec : EncRec) (f : FieldDesc) (p : Val) (b : Bytes) :
    Res Bytes := do
  if ← skipZero ssize f.t p then return b else appendPresent rec f b p

theorem getMapEncoder_cases (k v : Scalar) :
    (getMapEncoder (coderOf k) (coderOf v) = none) ∨
    (getMapEncoder (coderOf k) (coderOf v) = some (coderOf k, coderOf v) ∧
      (coderOf k).isFastMapKey = true ∧ (coderOf v).isFastMapVal = true) := by
  unfold getMapEncoder
  cases h1 : (coderOf k).isFastMapKey <;> cases h2 : (coderOf v).isFastMapVal <;> simp

theorem appendShape_writes (h : RecOK S enc rec) {ssize : Nat → Nat} (hs : SmallOK S ssize)
    {f : Field} (hn : f.num < 2 ^ 31) (hl : f.shape.legal = true) {x : Val}
    (hx : ShapeTyped S f.shape x) :
    Writes (appendShape ssize rec (descOf f) x) (encodeShape S enc f.num false f.shape x) := by
  obtain ⟨n, sl, m, shape⟩ := f
  dsimp only at *
  cases hx with
  | single s v hv =>
    unfold appendShape
    rw [descOf_single]
    dsimp only
    rw [skipZero_scalar ssize hv]
    simp only [encodeShape, encode_some hv]
    cases hd : isDefault x with
    | true => exact Acts.nil isAct_bytes
    | false =>
      have := Acts.pre isAct_bytes _ _ (append_wtag hn s.wire) (appendCoder_writes hv)
      rw [encode_some hv] at this
      refine this.congr (fun b => ?_)
      have hp : derefField s.goType x = .ok (s.goType, x) := by cases s <;> rfl
      simp only [bind, Except.bind, Bool.false_eq_true, if_false, appendPresent, hp, Option.isSome,
        true_and, if_true, callAppend]
  | optionalNil s =>
    unfold appendShape
    rw [descOf_optional]
    exact Acts.nil isAct_bytes
  | optional s v hv =>
    unfold appendShape
    rw [descOf_optional]
    have := Acts.pre isAct_bytes _ _ (append_wtag hn s.wire) (appendCoder_writes hv)
    rw [map_append_eq] at this
    exact this
  | list s p xs hv =>
    cases p with
    | false =>
      unfold appendShape
      rw [descOf_list]
      dsimp only
      rw [skip_slice]
      have := appendListCoder_writes (wtag n s.wire) hv
      rw [varint_wtag hn] at this
      simp only [encodeShape, Bool.false_eq_true, if_false]
      have e : concatM (fun v => (s.encode v).map (tag n s.wire ++ ·)) xs =
          concatM (fun v => do return tag n s.wire ++ (← s.encode v)) xs :=
        concatM_congr (fun v _ => map_append_eq _ _)
      rw [← e]
      cases xs with
      | nil => exact Acts.nil isAct_bytes
      | cons y ys => exact this
    | true =>
      have hp : s.packable = true := by simpa [Shape.legal] using hl
      unfold appendShape
      rw [descOf_packed _ _ _ _ hp]
      dsimp only
      rw [skip_slice]
      simp only [encodeShape, if_true]
      cases xs with
      | nil => exact Acts.nil isAct_bytes
      | cons y ys =>
        have := Acts.pre isAct_bytes _ _ (append_wtag hn .len) (appendPackedCoder_writes hp hv)
        rw [map_map_append] at this
        exact this
  | msg id p v hv =>
    unfold appendShape
    rw [descOf_msg]
    dsimp only
    cases hv with
    | nil => exact Acts.nil isAct_bytes
    | ptr id v hv =>
      have := Acts.pre isAct_bytes _ _ (append_wtag hn .len) (h.val id v hv)
      rw [map_map_append] at this
      exact this
    | inline id v hv =>
      simp only [msgType, Bool.false_eq_true, if_false]
      rw [skip_struct hs]
      simp only [encodeShape, Bool.not_false, Bool.and_true]
      cases hz : (S id).small && x.memZero with
      | true => exact Acts.nil isAct_bytes
      | false =>
        have := Acts.pre isAct_bytes _ _ (append_wtag hn .len) (h.val id x hv)
        rw [map_map_append] at this
        exact this
  | msgList id p xs hv =>
    have := appendListField_writes (rec := rec) h (n := n) (sl := sl) (m := m) hn hv
    unfold appendShape
    rw [descOf_msgList] at this ⊢
    dsimp only
    rw [skip_slice]
    cases xs with
    | nil => exact Acts.nil isAct_bytes
    | cons y ys => exact this
  | mapNil k v =>
    unfold appendShape
    rw [descOf_map]
    exact Acts.nil isAct_bytes
  | map k v es hnd hv =>
    have g := appendMapField_writes (rec := rec) (sl := sl) (mem := m) hn hv
    unfold appendShape
    rw [descOf_map] at g ⊢
    dsimp only
    rw [skip_map]
    rcases getMapEncoder_cases k v with he | ⟨he, hk, hv'⟩
    · refine g.congr (fun b => ?_)
      simp [bind, Except.bind, appendPresent, derefField, he]
    · refine (appendMapFast_writes hn hk hv' hv).congr (fun b => ?_)
      simp [bind, Except.bind, appendPresent, derefField, he]
  | mapMsgNil k id p =>
    unfold appendShape
    rw [descOf_mapMsg]
    exact Acts.nil isAct_bytes
  | mapMsg k id p es hnd hk hv =>
    have g := appendMapMsg_writes h (sl := sl) (mem := m) hn hk hv
    unfold appendShape
    rw [descOf_mapMsg] at g ⊢
    exact g

theorem descOf_slot (f : Field) : (descOf f).slot = f.slot := by
  obtain ⟨n, sl, m, shape⟩ := f
  cases shape <;> simp only [descOf_single, descOf_optional, descOf_msg, descOf_msgList, descOf_map, descOf_mapMsg]
  case list s p => cases p <;> cases s <;> rfl

theorem descOf_oneof (f : Field) : (descOf f).oneof = f.member := by
  obtain ⟨n, sl, m, shape⟩ := f
  cases shape <;> simp only [descOf_single, descOf_optional, descOf_msg, descOf_msgList, descOf_map, descOf_mapMsg]
  case list s p => cases p <;> cases s <;> rfl

theorem oneofTarget_typed {f : Field} {x : Val} (hx : FieldTyped S f x) :
    oneofTarget (descOf f) x = .ok (f.content x) := by
  unfold oneofTarget Field.content
  rw [descOf_oneof]
  cases hx with
  | plain f x hm _ => rw [hm]
  | unset f w hm => rw [hm]
  | nilMember f w w' hm => rw [hm]
  | member f w d hm _ => rw [hm]; dsimp only; split <;> rfl
  | otherMember f w w' d hm hw => rw [hm]; dsimp only; split <;> rfl

theorem content_typed {f : Field} {x d : Val} (hx : FieldTyped S f x) (hc : f.content x = some d) :
    ShapeTyped S f.shape d := by
  unfold Field.content at hc
  cases hx with
  | plain f x hm h => rw [hm] at hc; cases hc; exact h
  | unset f w hm => rw [hm] at hc; cases hc
  | nilMember f w w' hm => rw [hm] at hc; cases hc
  | member f w d hm h => rw [hm] at hc; simp at hc; cases hc; exact h
  | otherMember f w w' d hm hw => rw [hm] at hc; simp [hw] at hc

theorem appendField_writes (h : RecOK S enc rec) {ssize : Nat → Nat} (hs : SmallOK S ssize)
    {f : Field} (hn : f.num < 2 ^ 31) (hl : f.shape.legal = true) {fs : List Val} {x : Val}
    (hf : fs[f.slot]? = some x) (hx : FieldTyped S f x) :
    Writes (fun b => appendField ssize rec fs b (descOf f)) (encodeField S false enc fs f) := by
  unfold appendField encodeField
  rw [descOf_slot, hf]
  simp only [oneofTarget_typed hx, bind, Option.bind, Except.bind]
  cases hc : f.content x with
  | none => exact Acts.nil isAct_bytes
  | some d =>
    simp only [Bool.and_false]
    exact appendShape_writes h hs hn hl (content_typed hx hc)

theorem unknownBytes_eq {D : Descs} (hD : DescOK D S) {id : Nat} {fs : List Val}
    (hl : fs.length = (S id).nslots) (hu : ∀ s p, (S id).unknown = some (s, p) → s < (S id).nslots)
    (ht : ∀ s p x, (S id).unknown = some (s, p) → fs[s]? = some x → UnknownTyped p x) :
    unknownBytes (D id) fs = .ok (unknownOf (S id) fs) := by
  unfold unknownBytes unknownOf
  rw [hD.unknown]
  cases hsp : (S id).unknown with
  | none => rfl
  | some sp =>
    obtain ⟨s, p⟩ := sp
    have hlt := hu s p hsp
    have hx : fs[s]? = some fs[s] := List.getElem?_eq_getElem (by omega)
    have := ht s p _ hsp hx
    dsimp only
    rw [hx]
    cases p with
    | false =>
      obtain ⟨u, hu⟩ := this
      rw [hu]; cases u <;> rfl
    | true =>
      rcases this with hu | ⟨u, hu⟩
      · rw [hu]
      · rw [hu]; cases u <;> rfl

theorem sizeOf_getElem? {xs : List Val} {i : Nat} {x : Val} (h : xs[i]? = some x) :
    sizeOf x < sizeOf xs := by
  have := List.mem_of_getElem? h
  exact List.sizeOf_lt_of_mem this

theorem scalar_zero_holds (s : Scalar) : s.goType.holds s.zero = true := by cases s <;> rfl

/-- The zero value of a message type has that type. -/
theorem zero_typed (hW : S.WF) : ∀ (n : Nat) (id : Nat), sizeOf (S id).zero ≤ n →
    Typed S id (S id).zero
  | 0, id, hn => by
    obtain ⟨zs, hz, _⟩ := (hW id).zero
    rw [hz] at hn; simp at hn
  | n + 1, id, hn => by
    obtain ⟨zs, hz, hlen, hf, hu, hu'⟩ := (hW id).zero
    rw [hz] at hn ⊢
    refine .mk id zs hlen (fun f hm x hx => ?_) (fun s p x hs hx => ?_)
    · have hfz := hf f hm
      rw [hx] at hfz
      have hsz := sizeOf_getElem? hx
      injection hfz with hfz
      rw [hfz] at hx hsz ⊢
      unfold Field.zero at hsz ⊢
      cases hmem : f.member with
      | some w => exact .unset f w hmem
      | none =>
        refine .plain f _ hmem ?_
        rw [hmem] at hsz
        cases hs : f.shape with
        | single s => exact .single s _ (scalar_zero_holds s)
        | optional s => exact .optionalNil s
        | list s p => exact .list s p [] (by simp)
        | msg i p =>
          cases p with
          | true => exact .msg i true _ (.nil i)
          | false =>
            rw [hs] at hsz
            exact .msg i false _ (.inline i _ (zero_typed hW n i (by simp at hn hsz ⊢; omega)))
        | msgList i p => exact .msgList i p [] (by simp)
        | map k v => exact .mapNil k v
        | mapMsg k i p => exact .mapMsgNil k i p
    · cases p with
      | false => exact ⟨none, by have := hu s hs; rw [hx] at this; injection this⟩
      | true => exact Or.inl (by have := hu' s hs; rw [hx] at this; injection this)

theorem typed_zero (hW : S.WF) (id : Nat) : Typed S id (S id).zero := zero_typed hW _ id (Nat.le_refl _)

theorem getD_none {α : Type} (a : α) : (none : Option α).getD a = a := rfl

/-- The encoder writes the encoding of the value. -/
theorem appendStruct_writes {D : Descs} (hD : DescOK D S) (hW : S.WF) : ∀ (depth : Nat) (id : Nat)
    (base : Option Val), Typed S id (base.getD (S id).zero) →
    Writes (fun b => appendStruct D depth b base id false)
      (encode S false depth id (base.getD (S id).zero)) ∧
    Writes (fun b => appendStruct D depth b base id true)
      ((encode S false depth id (base.getD (S id).zero)).map lenDelim)
  | 0, id, base, _ => ⟨fun _ => rfl, fun _ => rfl⟩
  | depth + 1, id, base, ht => by
    have hrec : RecOK S (encode S false depth) (fun b base sid => appendStruct D depth b base sid true) :=
      ⟨fun id v hv => (appendStruct_writes hD hW depth id (some v) hv).2,
       fun id => (appendStruct_writes hD hW depth id none (typed_zero hW id)).2⟩
    generalize hv : base.getD (S id).zero = v at *
    cases ht with
    | mk id fs hlen hf hu =>
      have hfold : Writes (fun b => do
          let b ← ((S id).fields.map descOf).foldlM (appendField (fun i => (D i).size)
            (fun b base sid => appendStruct D depth b base sid true) fs) b
          let u ← unknownBytes (D id) fs
          return b ++ u) (encode S false (depth + 1) id (.struct fs)) := by
        have h1 : Writes (fun b => ((S id).fields.map descOf).foldlM (appendField (fun i => (D i).size)
            (fun b base sid => appendStruct D depth b base sid true) fs) b)
            (concatM (encodeField S false (encode S false depth) fs) (S id).fields) := by
          have := Acts.fold isAct_bytes (act := fun b bs => b ++ bs) (xs := (S id).fields)
            (f := fun b f => appendField (fun i => (D i).size)
              (fun b base sid => appendStruct D depth b base sid true) fs b (descOf f))
            (g := encodeField S false (encode S false depth) fs)
            (fun f hm => by
              have hsl := (hW id).slots f hm
              have hx : fs[f.slot]? = some fs[f.slot] := List.getElem?_eq_getElem (by omega)
              exact appendField_writes hrec hD.small ((hW id).nums f hm).2 ((hW id).legal f hm) hx
                (hf f hm _ hx))
          refine this.congr (fun b => ?_)
          rw [List.foldlM_map]
        have h2 : Writes (fun b => do let u ← unknownBytes (D id) fs; return b ++ u)
            (some (unknownOf (S id) fs)) := by
          refine Acts.ofSome (fun b => ?_)
          rw [unknownBytes_eq hD hlen (fun s p h => ((hW id).unknown s p h).1) hu]
          rfl
        have := Acts.seq isAct_bytes h1 h2
        exact this
      constructor
      · refine hfold.congr (fun b => ?_)
        simp only [appendStruct, hD.empty, hv, hD.fields]
        rfl
      · refine (Writes.frame hfold).congr (fun b => ?_)
        simp only [appendStruct, hD.empty, hv, hD.fields, if_true]
        cases (((S id).fields.map descOf).foldlM (appendField (fun i => (D i).size)
            (fun b base sid => appendStruct D depth b base sid true) fs) (lenReserve b)) with
        | error e => rfl
        | ok b1 =>
          cases unknownBytes (D id) fs <;> rfl

end Verif.Lemmas
