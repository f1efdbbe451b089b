import Verif.Lemmas.Mem.Dec
/-!
# Which memory the decoder writes, and what its results refer to

In contrast to the simulation (`Sim`), nothing is assumed about sharing here.
-/
namespace Verif.Lemmas.Mem
open Verif.Model Verif.Model.Mem Verif.Spec

/-- `OwnIn` in terms of the descriptors. -/
inductive OwnD (W : Blocks) (D : Descs) : GoType → MVal → Prop
  | list (te : GoType) (v : MVal) :
      (∀ a len, v = .slice (some a) len → W a) → OwnD W D (.slice te) v
  | map (k e : GoType) (v : MVal) : (∀ a, v = .map (some a) → W a) → OwnD W D (.map k e) v
  | struct (id : Nat) (v : MVal) :
      (∀ fs, v = .struct fs → ∀ f ∈ (D id).fields, f.oneof = none → ∀ x, fs[f.slot]? = some x →
        OwnD W D f.t x) →
      (∀ fs, v = .struct fs → ∀ slot u, (D id).unknown = some (slot, false) →
        fs[slot]? = some (.bytes (some u)) → W u.addr) →
      (∀ fs, v = .struct fs → ∀ slot a, (D id).unknown = some (slot, true) →
        fs[slot]? = some (.ptr (some a)) → W a) →
      OwnD W D (.struct id) v
  | other (t : GoType) (v : MVal) : (∀ te, t ≠ .slice te) → (∀ k e, t ≠ .map k e) →
      (∀ id, t ≠ .struct id) → OwnD W D t v

/-- All that `v` refers to is in `W`. -/
def Loc (W : Blocks) (v : MVal) : Prop := ∀ x, MemRefers v x → W x

/-- All that `v` refers to is in `W`, if `v` is a struct. -/
def SLoc (W : Blocks) (v : MVal) : Prop := ∀ fs, v = .struct fs → Loc W v

theorem ownD_of_loc {W : Blocks} {D : Descs} : ∀ (v : MVal) (t : GoType), Loc W v → OwnD W D t v
  | v, .slice te, hl => .list _ _ (fun a len he => hl a (he ▸ .slice a len))
  | v, .map k e, hl => .map _ _ _ (fun a he => hl a (he ▸ .map a))
  | v, .struct id, hl => .struct _ _
      (fun fs he f _ _ x hx =>
        have hm : x ∈ fs := List.mem_of_getElem? hx
        have : sizeOf x < sizeOf v := by
          subst he; have := List.sizeOf_lt_of_mem hm; simp; omega
        ownD_of_loc x f.t (fun y hy => hl y (he ▸ .field fs x y hm hy)))
      (fun fs he slot u _ hu => hl _ (he ▸ .field fs _ _ (List.mem_of_getElem? hu) (.bytes u)))
      (fun fs he slot a _ hu => hl _ (he ▸ .field fs _ _ (List.mem_of_getElem? hu) (.ptr a)))
  | v, .int32, _ | v, .int64, _ | v, .uint32, _ | v, .uint64, _ | v, .float32, _
  | v, .float64, _ | v, .bool, _ | v, .string, _ | v, .bytes, _ | v, .ptr _, _
  | v, .iface, _ | v, .other _, _ =>
    .other _ _ (by intros; simp) (by intros; simp) (by intros; simp)
termination_by v => sizeOf v


/-- What a block of `W` holds. -/
structure Fine (W : Blocks) (b : Block) : Prop where
  bytes : ∀ u, b = .object (.bytes (some u)) → W u.addr
  array : ∀ ys, b = .array ys → ∀ y ∈ ys, SLoc W y

/-- All that a block refers to is in `R`. -/
def BLoc (R : Blocks) (b : Block) : Prop := ∀ x, BlockRefers b x → R x

/-- New memory is in `W` and in `R`, and both are closed. -/
structure Inv (W R : Blocks) (h : Store) : Prop where
  new : ∀ x, Coming h x → W x ∧ R x
  fine : ∀ a, W a → Fine W (h.mem a)
  loc : ∀ a, R a → BLoc R (h.mem a)

/-- The computation keeps `Inv` and writes only blocks of `W`; its result satisfies `Q`. -/
def Tri {α : Type} (W R : Blocks) (c : M α) (Q : α → Prop) : Prop :=
  ∀ h, Inv W R h → Inv W R (c h).2 ∧ (∀ x, ¬ W x → (c h).2.mem x = h.mem x) ∧
    h.next ≤ (c h).2.next ∧ ∀ a, (c h).1 = .ok a → Q a

variable {W R : Blocks} {α β : Type}

theorem tri_pure {a : α} {Q : α → Prop} (hq : Q a) : Tri W R (pure a) Q := by
  intro h hi
  refine ⟨hi, fun _ _ => rfl, Nat.le_refl _, fun b hb => ?_⟩
  have : (Except.ok a : Res α) = .ok b := hb
  injection this with this
  exact this ▸ hq

theorem tri_fail {e : Fault} {Q : α → Prop} : Tri W R (fail e) Q := by
  intro h hi
  exact ⟨hi, fun _ _ => rfl, Nat.le_refl _, fun b hb => by cases hb⟩

theorem tri_mono {c : M α} {P Q : α → Prop} (hc : Tri W R c P) (hq : ∀ a, P a → Q a) :
    Tri W R c Q := by
  intro h hi
  obtain ⟨h1, h2, h3, h4⟩ := hc h hi
  exact ⟨h1, h2, h3, fun a ha => hq a (h4 a ha)⟩

theorem tri_bind {c : M α} {f : α → M β} {P : α → Prop} {Q : β → Prop} (hc : Tri W R c P)
    (hf : ∀ a, P a → Tri W R (f a) Q) : Tri W R (c >>= f) Q := by
  intro h hi
  obtain ⟨h1, h2, h3, h4⟩ := hc h hi
  cases hr : c h with
  | mk r h' =>
    rw [hr] at h1 h2 h3 h4
    cases r with
    | error e =>
      rw [bind_err hr]
      exact ⟨h1, h2, h3, fun a ha => by cases ha⟩
    | ok a =>
      rw [bind_ok hr]
      obtain ⟨g1, g2, g3, g4⟩ := hf a (h4 a rfl) h' h1
      exact ⟨g1, fun x hx => (g2 x hx).trans (h2 x hx), Nat.le_trans h3 g3, g4⟩

theorem tri_map {c : M α} {f : α → β} {P : α → Prop} {Q : β → Prop} (hc : Tri W R c P)
    (hf : ∀ a, P a → Q (f a)) : Tri W R (f <$> c) Q :=
  tri_bind hc (fun a ha => tri_pure (hf a ha))

/-- Reading only. -/
theorem tri_read {c : M α} {Q : α → Prop} (hc : ∀ h, Inv W R h → (c h).2 = h ∧
    ∀ a, (c h).1 = .ok a → Q a) : Tri W R c Q := by
  intro h hi
  obtain ⟨h1, h2⟩ := hc h hi
  rw [h1]
  exact ⟨hi, fun _ _ => rfl, Nat.le_refl _, h2⟩

theorem tri_parse {v : View} {p : Bytes → Res α} : Tri W R (parse v p) (fun a => ∃ s, p s = .ok a) := by
  refine tri_read (fun h _ => ⟨rfl, fun a ha => ?_⟩)
  have ha' : (h.read v >>= p) = .ok a := ha
  cases hr : h.read v with
  | error e => rw [hr] at ha'; cases ha'
  | ok s => rw [hr] at ha'; exact ⟨s, ha'⟩

theorem coming_set {h : Store} {a : Nat} {b : Block} {x : Nat} (hx : Coming (h.set a b) x) : Coming h x := by
  induction hx with
  | next => exact .next
  | after y _ ih => exact .after y ih

theorem coming_pushed {h : Store} {b : Block} {x : Nat} (hx : Coming (pushed h b) x) : Coming h x := by
  induction hx with
  | next => exact .after _ .next
  | after y _ ih => exact .after y ih

theorem coming_le {h : Store} {x : Nat} (hx : Coming h x) : h.next ≤ x := by
  induction hx with
  | next => exact Nat.le_refl _
  | after y _ ih => unfold Store.after; omega

theorem inv_set {h : Store} (hi : Inv W R h) {a : Nat} {b : Block} (h1 : W a → Fine W b)
    (h2 : R a → BLoc R b) : Inv W R (h.set a b) := by
  refine ⟨fun x hx => hi.new x (coming_set hx), fun x hx => ?_, fun x hx => ?_⟩
  · by_cases he : x = a
    · subst he; rw [set_mem]; exact h1 hx
    · rw [set_mem_ne _ _ _ he]; exact hi.fine x hx
  · by_cases he : x = a
    · subst he; rw [set_mem]; exact h2 hx
    · rw [set_mem_ne _ _ _ he]; exact hi.loc x hx

theorem new_run {h : Store} (hi : Inv W R h) {b : Block} (h1 : Fine W b) (h2 : BLoc R b) :
    Inv W R (pushed h b) ∧ (∀ x, ¬ W x → (pushed h b).mem x = h.mem x) ∧
      h.next ≤ (pushed h b).next ∧ W h.next ∧ R h.next := by
  have hn := hi.new h.next .next
  refine ⟨?_, fun x hx => ?_, Nat.le_of_succ_le (pushed_next h b), hn.1, hn.2⟩
  · have hs := inv_set hi (a := h.next) (b := b) (fun _ => h1) (fun _ => h2)
    exact ⟨fun x hx => hi.new x (coming_pushed hx), hs.fine, hs.loc⟩
  · have : x ≠ h.next := fun he => hx (he ▸ hn.1)
    exact set_mem_ne _ _ _ this

theorem tri_new {b : Block} (h1 : Fine W b) (h2 : BLoc R b) :
    Tri W R (new b) (fun a => W a ∧ R a) := by
  intro h hi
  obtain ⟨g1, g2, g3, g4, g5⟩ := new_run hi h1 h2
  refine ⟨g1, g2, g3, fun a ha => ?_⟩
  have : (Except.ok h.next : Res Nat) = .ok a := ha
  injection this with this
  exact this ▸ ⟨g4, g5⟩

theorem tri_put {a : Nat} {b : Block} (hw : W a) (h1 : Fine W b) (h2 : BLoc R b) :
    Tri W R (put a b) (fun _ => True) := by
  intro h hi
  refine ⟨inv_set hi (fun _ => h1) (fun _ => h2), fun x hx => ?_, Nat.le_refl _, fun _ _ => trivial⟩
  exact set_mem_ne _ _ _ (fun he => hx (he ▸ hw))

theorem fine_bytes (s : Bytes) : Fine W (.bytes s) :=
  ⟨fun _ h => (by cases h), fun _ h => (by cases h)⟩

theorem bloc_bytes (s : Bytes) : BLoc R (.bytes s) := fun _ h => (by cases h)

theorem fine_table (es : List (MVal × MVal)) : Fine W (.table es) :=
  ⟨fun _ h => (by cases h), fun _ h => (by cases h)⟩

theorem fine_object {v : MVal} (hl : Loc W v) : Fine W (.object v) :=
  ⟨fun u h => by injection h with h; subst h; exact hl _ (.bytes u), fun _ h => (by cases h)⟩

theorem bloc_object {v : MVal} (hl : Loc R v) : BLoc R (.object v) := by
  intro x hx
  cases hx with
  | object _ _ h => exact hl x h

theorem fine_array {ys : List MVal} (hl : ∀ y ∈ ys, SLoc W y) : Fine W (.array ys) :=
  ⟨fun _ h => (by cases h), fun _ h => by injection h with h; subst h; exact hl⟩

theorem bloc_array {ys : List MVal} (hl : ∀ y ∈ ys, Loc R y) : BLoc R (.array ys) := by
  intro x hx
  cases hx with
  | array _ y _ h1 h2 => exact hl y h1 x h2

theorem sloc_of_loc {v : MVal} (hl : Loc W v) : SLoc W v := fun _ _ => hl

mutual
theorem loc_ofFlat : ∀ (v : Val), Loc W (ofFlat v)
  | .w32 _ | .w64 _ | .bool _ | .opaque _ | .undef | .str _ | .bytes _ | .ptr _ | .slice _
  | .map _ | .iface _ => by intro x hx; unfold ofFlat at hx; cases hx
  | .struct fs => by
    intro x hx
    unfold ofFlat at hx
    cases hx with
    | field _ v _ h1 h2 => exact loc_ofFlats fs v h1 x h2
theorem loc_ofFlats : ∀ (vs : List Val), ∀ v ∈ ofFlats vs, Loc W v
  | [], v, hv => by unfold ofFlats at hv; cases hv
  | u :: us, v, hv => by
    unfold ofFlats at hv
    rcases List.mem_cons.1 hv with h | h
    · subst h; exact loc_ofFlat u
    · exact loc_ofFlats us v h
end

theorem loc_undef : Loc W .undef := fun _ h => (by cases h)

/-- A value `v` became `v'`. -/
structure Kept (W R : Blocks) (D : Descs) (t : GoType) (v v' : MVal) : Prop where
  own : OwnD W D t v'
  loc : Loc R v'
  keep : Loc W v → Loc W v'
  skeep : SLoc W v → SLoc W v'

/-- Before. -/
structure Held (W R : Blocks) (D : Descs) (t : GoType) (v : MVal) : Prop where
  own : OwnD W D t v
  loc : Loc R v

variable {D : Descs} {t : GoType} {v : MVal}

theorem kept_refl (hv : Held W R D t v) : Kept W R D t v v := ⟨hv.own, hv.loc, id, id⟩

theorem kept_new {v' : MVal} (h1 : Loc W v') (h2 : Loc R v') : Kept W R D t v v' :=
  ⟨ownD_of_loc _ _ h1, h2, fun _ => h1, fun _ => sloc_of_loc h1⟩

theorem held_new (h1 : Loc W v) (h2 : Loc R v) : Held W R D t v := ⟨ownD_of_loc _ _ h1, h2⟩

theorem kept_flat (x : Val) : Kept W R D t v (ofFlat x) := kept_new (loc_ofFlat x) (loc_ofFlat x)

theorem held_flat (x : Val) : Held W R D t (ofFlat x) := held_new (loc_ofFlat x) (loc_ofFlat x)

theorem kept_ref {v' : MVal} {x : Nat} (hr : ∀ y, MemRefers v' y → y = x) (hw : W x) (hR : R x) :
    Kept W R D t v v' :=
  kept_new (fun y hy => hr y hy ▸ hw) (fun y hy => hr y hy ▸ hR)

theorem tri_scalar (hv : Held W R D t v) (p : Bytes → Res (Val × Nat)) (b : View) :
    Tri W R (decodeScalarM p b v) (fun r => Kept W R D t v r.1) := by
  refine tri_bind tri_parse ?_
  rintro ⟨x, n⟩ _
  refine tri_pure ?_
  show Kept W R D t v (Mem.overwrite v x)
  unfold Mem.overwrite
  split
  · exact kept_refl hv
  · exact kept_flat x

theorem tri_consumeBytes (b : View) : Tri W R (consumeBytesM b) (fun _ => True) :=
  tri_bind tri_parse (fun _ _ => tri_pure trivial)

/-- A view in new memory. -/
def NewView (W R : Blocks) (x : Option View) : Prop := ∀ u, x = some u → W u.addr ∧ R u.addr

theorem tri_copyString (b : View) : Tri W R (copyString b) (NewView W R) := by
  refine tri_bind tri_parse (fun r _ => ?_)
  split
  · exact tri_pure (fun u h => (by cases h))
  · refine tri_bind (tri_new (fine_bytes _) (bloc_bytes _)) (fun a ha => tri_pure ?_)
    intro u hu; injection hu with hu; subst hu; exact ha

theorem tri_copyBytes (b : View) : Tri W R (copyBytes b) (NewView W R) := by
  refine tri_bind tri_parse (fun r _ => ?_)
  refine tri_bind (tri_new (fine_bytes _) (bloc_bytes _)) (fun a ha => tri_pure ?_)
  intro u hu; injection hu with hu; subst hu; exact ha

theorem kept_str {x : Option View} (hx : NewView W R x) : Kept W R D t v (.str x) := by
  cases x with
  | none => exact kept_new (fun _ h => (by cases h)) (fun _ h => (by cases h))
  | some u =>
    obtain ⟨h1, h2⟩ := hx u rfl
    exact kept_ref (x := u.addr) (fun y hy => by cases hy; rfl) h1 h2

theorem kept_bytes {x : Option View} (hx : NewView W R x) : Kept W R D t v (.bytes x) := by
  cases x with
  | none => exact kept_new (fun _ h => (by cases h)) (fun _ h => (by cases h))
  | some u =>
    obtain ⟨h1, h2⟩ := hx u rfl
    exact kept_ref (x := u.addr) (fun y hy => by cases hy; rfl) h1 h2

theorem tri_newTarget {k : MVal → M (MVal × Nat)}
    (hk : ∀ v, Held W R D t v → Tri W R (k v) (fun r => Kept W R D t v r.1)) :
    Tri W R (newTarget D t k) (fun r => W r.1 ∧ R r.1) := by
  unfold newTarget
  have hc : Loc W (cell D t) := loc_ofFlat _
  have hc' : Loc R (cell D t) := loc_ofFlat _
  refine tri_bind (tri_new (fine_object hc) (bloc_object hc')) (fun o ho => ?_)
  refine tri_bind (hk _ (held_new hc hc')) ?_
  rintro ⟨v, n⟩ hv
  refine tri_bind (tri_put ho.1 (fine_object (hv.keep hc)) (bloc_object hv.loc)) (fun _ _ => ?_)
  exact tri_pure ho

theorem kept_ptr {o : Nat} (ho : W o ∧ R o) : Kept W R D t v (.ptr (some o)) :=
  kept_ref (x := o) (fun y hy => by cases hy; rfl) ho.1 ho.2

/-- Nested calls. -/
def RecTri (W R : Blocks) (D : Descs) (rec : DecRecM) : Prop :=
  ∀ (depth : Int) (b : View) (v : MVal) (id : Nat), Held W R D (.struct id) v →
    Tri W R (rec depth b v id) (fun v' => Kept W R D (.struct id) v v')

theorem tri_mapKeyAt (D : Descs) (f : FieldDesc) (kt : GoType) (typ : WType) (b : View) :
    Tri W R (decodeMapKeyAtM f kt typ b) (fun r => Loc R r.1) := by
  have hu : Held W R D .bool .undef := held_new loc_undef loc_undef
  unfold decodeMapKeyAtM
  split
  · exact tri_mono (tri_scalar hu _ _) (fun _ h => h.loc)
  · exact tri_mono (tri_scalar hu _ _) (fun _ h => h.loc)
  · exact tri_mono (tri_scalar hu _ _) (fun _ h => h.loc)
  · split
    · exact tri_fail
    · refine tri_bind (tri_consumeBytes _) ?_
      rintro ⟨fb, n⟩ _
      refine tri_bind (tri_copyString _) (fun s hs => tri_pure ?_)
      exact (kept_str (D := D) (t := .bool) (v := .undef) hs).loc
  · exact tri_fail

theorem tri_mapKey (D : Descs) (f : FieldDesc) (kt : GoType) (b : View) :
    Tri W R (decodeMapKeyM f kt b) (fun r => Loc R r.1) := by
  refine tri_bind tri_parse (fun typ _ => ?_)
  refine tri_bind (tri_mapKeyAt D f kt typ _) ?_
  rintro ⟨k, n⟩ hk
  exact tri_pure hk

theorem tri_mapValueLen {rec : DecRecM} (hrec : RecTri W R D rec) (fb : View) (depth : Int)
    (hv : Held W R D t v) :
    Tri W R (decodeMapValueLenM rec t fb v depth) (fun v' => Kept W R D t v v') := by
  unfold decodeMapValueLenM
  split
  · exact tri_map (tri_copyBytes _) (fun x hx => kept_bytes hx)
  · exact tri_map (tri_copyString _) (fun x hx => kept_str hx)
  · exact hrec _ _ _ _ hv
  · exact tri_fail

theorem tri_mapValueAt {rec : DecRecM} (hrec : RecTri W R D rec) (f : FieldDesc) (typ : WType)
    (b : View) (depth : Int) (hv : Held W R D t v) :
    Tri W R (decodeMapValueAtM rec f t typ b v depth) (fun r => Kept W R D t v r.1) := by
  unfold decodeMapValueAtM
  split
  · exact tri_scalar hv _ _
  · exact tri_scalar hv _ _
  · exact tri_scalar hv _ _
  · refine tri_bind (tri_consumeBytes _) ?_
    rintro ⟨fb, n⟩ _
    exact tri_bind (tri_mapValueLen hrec _ _ hv) (fun _ h => tri_pure h)
  · exact tri_fail

theorem tri_mapValueRef {rec : DecRecM} (hrec : RecTri W R D rec) (f : FieldDesc) (vt : GoType)
    (typ : WType) (b : View) (depth : Int) :
    Tri W R (decodeMapValueRefM D rec f vt typ b depth) (fun r => Loc R r.1) := by
  unfold decodeMapValueRefM
  split
  · refine tri_bind (tri_newTarget (fun v hv => tri_mapValueAt hrec f typ b depth hv)) ?_
    rintro ⟨o, n⟩ ho
    exact tri_pure (kept_ptr (D := D) (t := .bool) (v := .undef) ho).loc
  · exact tri_mono (tri_mapValueAt hrec f typ b depth (held_flat _)) (fun _ h => h.loc)

theorem tri_mapValue {rec : DecRecM} (hrec : RecTri W R D rec) (f : FieldDesc) (vt : GoType)
    (b : View) (depth : Int) :
    Tri W R (decodeMapValueM D rec f vt b depth) (fun r => Loc R r.1) := by
  refine tri_bind tri_parse (fun typ _ => ?_)
  refine tri_bind (tri_mapValueRef hrec f vt typ _ depth) ?_
  rintro ⟨k, n⟩ hk
  exact tri_pure hk

theorem tri_ensureMap {k e : GoType} (hv : Held W R D (.map k e) v) :
    Tri W R (ensureMap v) (fun a => W a ∧ R a) := by
  unfold ensureMap
  split
  · rename_i a
    refine tri_pure ⟨?_, hv.loc _ (.map a)⟩
    cases hv.own with
    | map _ _ _ h => exact h a rfl
    | other _ _ _ h => exact absurd rfl (h k e)
  · refine tri_new (fine_table _) (fun x hx => ?_)
    cases hx with
    | key _ _ _ _ h => cases h
    | val _ _ _ _ h => cases h
  · exact tri_fail

theorem mem_tableInsert {h : Store} {k x : MVal} {es : List (MVal × MVal)} {p : MVal × MVal}
    (hp : p ∈ tableInsert h k x es) : p = (k, x) ∨ p ∈ es := by
  induction es with
  | nil => simpa [tableInsert] using hp
  | cons e es ih =>
    obtain ⟨k', v'⟩ := e
    unfold tableInsert at hp
    split at hp
    · rcases List.mem_cons.1 hp with h | h
      · exact .inl h
      · exact .inr (List.mem_cons_of_mem _ h)
    · rcases List.mem_cons.1 hp with h | h
      · exact .inr (h ▸ List.mem_cons_self)
      · rcases ih h with h | h
        · exact .inl h
        · exact .inr (List.mem_cons_of_mem _ h)

theorem tri_mapAssign {a : Nat} {k x : MVal} (ha : W a ∧ R a) (hk : Loc R k) (hx : Loc R x) :
    Tri W R (mapAssign a k x) (fun _ => True) := by
  intro h hi
  have hb := hi.loc a ha.2
  unfold mapAssign
  split
  · rename_i es _ hm _
    rw [hm] at hb
    refine ⟨inv_set hi (fun _ => fine_table _) (fun _ => ?_), fun y hy => ?_, Nat.le_refl _,
      fun _ _ => trivial⟩
    · intro y hy
      cases hy with
      | key _ k' v' _ h1 h2 =>
        rcases mem_tableInsert h1 with h | h
        · injection h with h3 h4; subst h3; exact hk y h2
        · exact hb y (.key _ _ _ _ h h2)
      | val _ k' v' _ h1 h2 =>
        rcases mem_tableInsert h1 with h | h
        · injection h with h3 h4; subst h4; exact hx y h2
        · exact hb y (.val _ _ _ _ h h2)
    · exact set_mem_ne _ _ _ (fun he => hy (he ▸ ha.1))
  · exact ⟨hi, fun _ _ => rfl, Nat.le_refl _, fun _ h => (by cases h)⟩

theorem kept_map {a : Nat} (ha : W a ∧ R a) : Kept W R D t v (.map (some a)) :=
  kept_ref (x := a) (fun y hy => by cases hy; rfl) ha.1 ha.2

theorem tri_mapPair {rec : DecRecM} (hrec : RecTri W R D rec) (f : FieldDesc) (kt vt : GoType)
    (b : View) (depth : Int) (hv : Held W R D (.map kt vt) v) :
    Tri W R (decodeMapPairM D rec f kt vt b v depth) (fun v' => Kept W R D (.map kt vt) v v') := by
  unfold decodeMapPairM
  refine tri_bind (tri_ensureMap hv) (fun a ha => ?_)
  refine tri_bind (tri_mapKey D f kt b) ?_
  rintro ⟨k, n⟩ hk
  refine tri_bind (tri_mapValue hrec f vt _ depth) ?_
  rintro ⟨x, m⟩ hx
  refine tri_bind (tri_mapAssign ha hk hx) (fun _ _ => tri_pure (kept_map ha))

theorem tri_mapFast (kc vc : Coder) (kt vt : GoType) (b : View) (hv : Held W R D (.map kt vt) v) :
    Tri W R (decodeMapFastM kc vc kt vt b v) (fun v' => Kept W R D (.map kt vt) v v') := by
  unfold decodeMapFastM
  refine tri_bind tri_parse ?_
  rintro ⟨k, x⟩ _
  refine tri_bind (tri_ensureMap hv) (fun a ha => ?_)
  split
  · exact tri_bind (tri_mapAssign ha (loc_ofFlat _) (loc_ofFlat _)) (fun _ _ => tri_pure (kept_map ha))
  · exact tri_fail

theorem tri_lenAt {rec : DecRecM} (hrec : RecTri W R D rec) (f : FieldDesc) (fb : View) (depth : Int)
    (hv : Held W R D t v) :
    Tri W R (decodeLenAtM D rec f t fb v depth) (fun v' => Kept W R D t v v') := by
  unfold decodeLenAtM
  split
  · exact tri_map (tri_copyBytes _) (fun x hx => kept_bytes hx)
  · exact tri_map (tri_copyString _) (fun x hx => kept_str hx)
  · split
    · exact tri_mapFast _ _ _ _ _ hv
    · split
      · exact tri_mapPair hrec _ _ _ _ _ hv
      · exact tri_fail
  · exact hrec _ _ _ _ hv
  · exact tri_fail

theorem tri_valueAt {rec : DecRecM} (hrec : RecTri W R D rec) (f : FieldDesc) (typ : WType)
    (b : View) (depth : Int) (hv : Held W R D t v) :
    Tri W R (decodeValueAtM D rec f t typ b v depth) (fun r => Kept W R D t v r.1) := by
  unfold decodeValueAtM
  split
  · exact tri_scalar hv _ _
  · exact tri_scalar hv _ _
  · exact tri_scalar hv _ _
  · refine tri_bind (tri_consumeBytes _) ?_
    rintro ⟨fb, n⟩ _
    exact tri_bind (tri_lenAt hrec f _ _ hv) (fun _ h => tri_pure h)
  · exact tri_fail

theorem tri_elem {rec : DecRecM} (hrec : RecTri W R D rec) (f : FieldDesc) (typ : WType)
    (b : View) (depth : Int) (hv : Held W R D t v) :
    Tri W R (decodeElemM D rec f t typ b v depth) (fun r => Kept W R D t v r.1) := by
  unfold decodeElemM
  split
  · refine tri_bind (tri_newTarget (fun v hv => tri_valueAt hrec f typ b depth hv)) ?_
    rintro ⟨o, n⟩ ho
    exact tri_pure (kept_ptr ho)
  · exact tri_valueAt hrec f typ b depth hv

theorem tri_grow (te : GoType) {a : Option Nat} (len : Nat) (ha : ∀ x, a = some x → W x ∧ R x) :
    Tri W R (growM D te a len) (fun x => W x ∧ R x) := by
  have fresh : Tri W R (new (.array (List.replicate 8 (cell D te)))) (fun x => W x ∧ R x) := by
    refine tri_new (fine_array (fun y hy => ?_)) (bloc_array (fun y hy => ?_))
    · rw [(List.mem_replicate.1 hy).2]; exact sloc_of_loc (loc_ofFlat _)
    · rw [(List.mem_replicate.1 hy).2]; exact loc_ofFlat _
  unfold growM
  split
  · exact fresh
  · rename_i a
    obtain ⟨h1, h2⟩ := ha a rfl
    intro h hi
    have hf := hi.fine a h1
    have hb := hi.loc a h2
    dsimp only
    split
    · rename_i xs hm
      rw [hm] at hf hb
      split
      · exact fresh h hi
      · split
        · refine tri_new (fine_array (fun y hy => ?_)) (bloc_array (fun y hy => ?_)) h hi
          · rcases List.mem_append.1 hy with hy | hy
            · exact hf.array xs rfl y hy
            · rw [(List.mem_replicate.1 hy).2]; exact sloc_of_loc (loc_ofFlat _)
          · rcases List.mem_append.1 hy with hy | hy
            · exact fun x hx => hb x (.array _ y x hy hx)
            · rw [(List.mem_replicate.1 hy).2]; exact loc_ofFlat _
        · refine ⟨hi, fun _ _ => rfl, Nat.le_refl _, fun x hx => ?_⟩
          injection hx with hx
          exact hx ▸ ⟨h1, h2⟩
    · exact ⟨hi, fun _ _ => rfl, Nat.le_refl _, fun _ h => (by cases h)⟩

/-- The memory of a new element. -/
structure Spare (W R : Blocks) (D : Descs) (t : GoType) (v : MVal) : Prop where
  held : Held W R D t v
  sloc : SLoc W v

theorem tri_spare (te : GoType) {a : Nat} (len : Nat) (ha : W a ∧ R a) :
    Tri W R (spareM D te a len) (Spare W R D te) := by
  refine tri_read (fun h hi => ?_)
  have hf := hi.fine a ha.1
  have hb := hi.loc a ha.2
  unfold spareM
  split
  · rename_i xs hm
    rw [hm] at hf hb
    split
    · rename_i x id hx
      have hmem := List.mem_of_getElem? hx
      refine ⟨rfl, fun y hy => ?_⟩
      injection hy with hy; subst hy
      have hs := hf.array xs rfl x hmem
      refine ⟨⟨?_, fun y hy => hb y (.array _ x y hmem hy)⟩, hs⟩
      by_cases hst : ∃ fs, x = .struct fs
      · obtain ⟨fs, he⟩ := hst
        exact ownD_of_loc _ _ (hs fs he)
      · exact .struct _ _ (fun fs he => absurd ⟨fs, he⟩ hst) (fun fs he => absurd ⟨fs, he⟩ hst)
          (fun fs he => absurd ⟨fs, he⟩ hst)
    · refine ⟨rfl, fun y hy => ?_⟩
      injection hy with hy; subst hy
      exact ⟨held_flat _, sloc_of_loc (loc_ofFlat _)⟩
    · exact ⟨rfl, fun _ h => (by cases h)⟩
  · exact ⟨rfl, fun _ h => (by cases h)⟩

theorem mem_set {β : Type} {l : List β} {i : Nat} {a b : β} (h : b ∈ l.set i a) : b = a ∨ b ∈ l := by
  rcases List.mem_or_eq_of_mem_set h with h | h
  · exact .inr h
  · exact .inl h

theorem tri_putElem {a i : Nat} {x : MVal} (ha : W a ∧ R a) (h1 : SLoc W x) (h2 : Loc R x) :
    Tri W R (putElem a i x) (fun _ => True) := by
  intro h hi
  have hf := hi.fine a ha.1
  have hb := hi.loc a ha.2
  unfold putElem
  split
  · rename_i xs hm
    rw [hm] at hf hb
    refine ⟨inv_set hi (fun _ => fine_array (fun y hy => ?_)) (fun _ => bloc_array (fun y hy => ?_)),
      fun y hy => set_mem_ne _ _ _ (fun he => hy (he ▸ ha.1)), Nat.le_refl _, fun _ _ => trivial⟩
    · rcases mem_set hy with h | h
      · exact h ▸ h1
      · exact hf.array xs rfl y h
    · rcases mem_set hy with h | h
      · exact h ▸ h2
      · exact fun z hz => hb z (.array _ y z h hz)
  · exact ⟨hi, fun _ _ => rfl, Nat.le_refl _, fun _ h => (by cases h)⟩

theorem tri_packed (c : Coder) (te : GoType) (b : View) :
    Tri W R (decodePackedM c te b) (fun v' => Kept W R D t v v') := by
  unfold decodePackedM
  refine tri_bind tri_parse (fun x _ => ?_)
  split
  · rename_i xs
    refine tri_bind (tri_new (fine_array (fun y hy => ?_)) (bloc_array (fun y hy => ?_)))
      (fun a ha => tri_pure (kept_ref (x := a) (fun y hy => by cases hy; rfl) ha.1 ha.2))
    · obtain ⟨u, _, rfl⟩ := List.mem_map.1 hy
      exact sloc_of_loc (loc_ofFlat _)
    · obtain ⟨u, _, rfl⟩ := List.mem_map.1 hy
      exact loc_ofFlat _
  · exact tri_fail

theorem tri_rep {rec : DecRecM} (hrec : RecTri W R D rec) (f : FieldDesc) (typ : WType)
    (b : View) (depth : Int) (hv : Held W R D t v) :
    Tri W R (decodeRepM D rec f t typ b v depth) (fun r => Kept W R D t v r.1) := by
  unfold decodeRepM
  split
  · rename_i te _
    split
    · split
      · exact tri_fail
      · refine tri_bind (tri_consumeBytes _) ?_
        rintro ⟨fb, n⟩ _
        exact tri_bind (tri_packed _ _ _) (fun _ h => tri_pure h)
    · split
      · rename_i a len
        have ha : ∀ x, a = some x → W x ∧ R x := by
          rintro x rfl
          refine ⟨?_, hv.loc _ (.slice x len)⟩
          cases hv.own with
          | list _ _ h => exact h x len rfl
          | other _ _ h => exact absurd rfl (h te)
        refine tri_bind (tri_grow te len ha) (fun a ha => ?_)
        refine tri_bind (tri_spare te len ha) (fun x hx => ?_)
        refine tri_bind (tri_elem hrec f typ b depth hx.held) ?_
        rintro ⟨y, n⟩ hy
        refine tri_bind (tri_putElem ha (hy.skeep hx.sloc) hy.loc) (fun _ _ => tri_pure ?_)
        exact kept_ref (x := a) (fun y hy => by cases hy; rfl) ha.1 ha.2
      · exact tri_fail
  · exact tri_valueAt hrec f typ b depth hv

theorem tri_ptr {rec : DecRecM} (hrec : RecTri W R D rec) (f : FieldDesc) (typ : WType)
    (b : View) (depth : Int) (hv : Held W R D f.t v) :
    Tri W R (decodePtrM D rec f typ b v depth) (fun r => Kept W R D f.t v r.1) := by
  unfold decodePtrM
  split
  · refine tri_bind (tri_newTarget (fun v hv => tri_rep hrec f typ b depth hv)) ?_
    rintro ⟨o, n⟩ ho
    exact tri_pure (kept_ptr ho)
  · exact tri_rep hrec f typ b depth hv

/-- What is known after a field. -/
structure KeptF (W R : Blocks) (D : Descs) (f : FieldDesc) (v v' : MVal) : Prop where
  own : f.oneof = none → OwnD W D f.t v'
  loc : Loc R v'
  keep : Loc W v → Loc W v'

theorem tri_field {rec : DecRecM} (hrec : RecTri W R D rec) (f : FieldDesc) (typ : WType)
    (b : View) (depth : Int) (ho : f.oneof = none → OwnD W D f.t v) (hl : Loc R v) :
    Tri W R (decodeFieldM D rec f typ b v depth) (fun r => KeptF W R D f v r.1) := by
  unfold decodeFieldM
  split
  · split
    · refine tri_bind (tri_newTarget (fun v hv => tri_ptr hrec f typ b depth hv)) ?_
      rintro ⟨o, n⟩ ho
      refine tri_pure ⟨fun hn => ?_, fun y hy => ?_, fun _ y hy => ?_⟩
      · simp_all
      · cases hy; exact ho.2
      · cases hy; exact ho.1
    · exact tri_fail
  · rename_i hn
    exact tri_mono (tri_ptr hrec f typ b depth ⟨ho hn, hl⟩) (fun _ h => ⟨fun _ => h.own, h.loc, h.keep⟩)

/-! ## Messages -/

/-- The fields of a message. -/
structure HeldS (W R : Blocks) (D : Descs) (id : Nat) (fs : List MVal) : Prop where
  own : ∀ f ∈ (D id).fields, f.oneof = none → ∀ x, fs[f.slot]? = some x → OwnD W D f.t x
  bytes : ∀ slot u, (D id).unknown = some (slot, false) → fs[slot]? = some (.bytes (some u)) → W u.addr
  ptr : ∀ slot a, (D id).unknown = some (slot, true) → fs[slot]? = some (.ptr (some a)) → W a
  loc : ∀ x ∈ fs, Loc R x

/-- All that fields refer to stays in `W`. -/
def KeepS (W : Blocks) (fs fs' : List MVal) : Prop := (∀ x ∈ fs, Loc W x) → ∀ x ∈ fs', Loc W x

theorem keepS_set {fs : List MVal} {i : Nat} {x : MVal}
    (h : (∀ x ∈ fs, Loc W x) → Loc W x) : KeepS W fs (fs.set i x) := by
  intro hl y hy
  rcases mem_set hy with rfl | hy
  · exact h hl
  · exact hl y hy

theorem heldS_set (hD : Regular D) {id : Nat} {fs : List MVal} (hs : HeldS W R D id fs) {i : Nat}
    {x : MVal} (h1 : ∀ f ∈ (D id).fields, f.oneof = none → f.slot = i → OwnD W D f.t x)
    (h2 : ∀ u, (D id).unknown = some (i, false) → x = .bytes (some u) → W u.addr)
    (h3 : ∀ a, (D id).unknown = some (i, true) → x = .ptr (some a) → W a) (h4 : Loc R x) :
    HeldS W R D id (fs.set i x) := by
  have key : ∀ (j : Nat) (y : MVal), (fs.set i x)[j]? = some y → (j = i ∧ y = x) ∨ fs[j]? = some y := by
    intro j y hy
    rw [List.getElem?_set] at hy
    split at hy
    · split at hy
      · rename_i hij _
        injection hy with hy
        exact .inl ⟨hij.symm, hy.symm⟩
      · cases hy
    · exact .inr hy
  refine ⟨fun f hf ho y hy => ?_, fun slot u hu hy => ?_, fun slot a hu hy => ?_, fun y hy => ?_⟩
  · rcases key _ _ hy with ⟨hi, rfl⟩ | hy
    · exact h1 f hf ho hi
    · exact hs.own f hf ho y hy
  · rcases key _ _ hy with ⟨rfl, he⟩ | hy
    · exact h2 u hu he.symm
    · exact hs.bytes slot u hu hy
  · rcases key _ _ hy with ⟨rfl, he⟩ | hy
    · exact h3 a hu he.symm
    · exact hs.ptr slot a hu hy
  · rcases mem_set hy with rfl | hy
    · exact h4
    · exact hs.loc y hy

theorem tri_appendBytes {x : Option View} {raw : View} (hx : NewView W R x) :
    Tri W R (appendBytes x raw) (fun w => W w.addr ∧ R w.addr) := by
  intro h hi
  unfold appendBytes
  split
  · rename_i r hr
    obtain ⟨g1, g2, g3, g4⟩ := new_run hi (fine_bytes (r ++ List.replicate (h.slack r.length) 0#8))
      (bloc_bytes _)
    refine ⟨g1, g2, g3, fun w hw => ?_⟩
    injection hw with hw
    exact hw ▸ g4
  · rename_i r v hr
    obtain ⟨h1, h2⟩ := hx v rfl
    split
    · split
      · refine ⟨inv_set hi (fun _ => fine_bytes _) (fun _ => bloc_bytes _),
          fun y hy => set_mem_ne _ _ _ (fun he => hy (he ▸ h1)), Nat.le_refl _, fun w hw => ?_⟩
        injection hw with hw
        exact hw ▸ ⟨h1, h2⟩
      · rename_i blk hm _
        obtain ⟨g1, g2, g3, g4⟩ := new_run hi (fine_bytes ((blk.drop v.off).take v.len ++ r ++
          List.replicate (h.slack (v.len + r.length)) 0#8)) (bloc_bytes _)
        refine ⟨g1, g2, g3, fun w hw => ?_⟩
        injection hw with hw
        exact hw ▸ g4
    · exact ⟨hi, fun _ _ => rfl, Nat.le_refl _, fun _ h => (by cases h)⟩
  · exact ⟨hi, fun _ _ => rfl, Nat.le_refl _, fun _ h => (by cases h)⟩

theorem tri_loadBytes {a : Nat} (ha : W a ∧ R a) : Tri W R (loadBytes a) (NewView W R) := by
  refine tri_read (fun h hi => ?_)
  have hf := hi.fine a ha.1
  have hb := hi.loc a ha.2
  unfold loadBytes
  split
  · rename_i x hm
    rw [hm] at hf hb
    refine ⟨rfl, fun y hy => ?_⟩
    injection hy with hy; subst hy
    rintro u rfl
    exact ⟨hf.bytes u rfl, hb _ (.object _ _ (.bytes u))⟩
  · exact ⟨rfl, fun _ h => (by cases h)⟩

theorem newView_take {x : Option View} (hx : NewView W R x) : NewView W R (x.map (·.take 0)) := by
  intro u hu
  obtain ⟨w, hw, rfl⟩ := Option.map_eq_some_iff.1 hu
  exact hx w hw

theorem loc_view {x : Option View} (hx : NewView W R x) : Loc W (.bytes x) ∧ Loc R (.bytes x) :=
  ⟨(kept_bytes (D := fun _ => default) (t := .bool) (v := .undef) hx).keep loc_undef,
    (kept_bytes (D := fun _ => default) (t := .bool) (v := .undef) hx).loc⟩

/-- The unknown fields are not in the slot of a field. -/
theorem no_field (hD : Regular D) {id slot : Nat} {p : Bool} (hu : (D id).unknown = some (slot, p))
    {x : MVal} : ∀ f ∈ (D id).fields, f.oneof = none → f.slot = slot → OwnD W D f.t x :=
  fun f hf _ hs => absurd hs (hD.unknown id slot p hu f hf)

theorem tri_resetUnknown (hD : Regular D) {id : Nat} {fs : List MVal} (hs : HeldS W R D id fs) :
    Tri W R (resetUnknownM (D id) fs) (fun fs' => HeldS W R D id fs' ∧ KeepS W fs fs') := by
  unfold resetUnknownM
  split
  · exact tri_pure ⟨hs, fun hh => hh⟩
  · rename_i slot isPtr hu
    split
    · rename_i x hx
      have hm := List.mem_of_getElem? hx
      have hn : NewView W R x := by
        rintro u rfl
        exact ⟨hs.bytes slot u hu hx, hs.loc _ hm _ (.bytes u)⟩
      have hl := loc_view (newView_take hn)
      refine tri_pure ⟨heldS_set hD hs (no_field hD hu) (fun u _ he => ?_) (fun a _ he => by cases he)
        hl.2, keepS_set (fun _ => hl.1)⟩
      injection he with he
      exact (newView_take hn u he).1
    · exact tri_pure ⟨hs, fun hh => hh⟩
    · rename_i a hx
      have hm := List.mem_of_getElem? hx
      have ha : W a ∧ R a := ⟨hs.ptr slot a hu hx, hs.loc _ hm _ (.ptr a)⟩
      refine tri_bind (tri_loadBytes ha) (fun x hn => ?_)
      have hl := loc_view (newView_take hn)
      exact tri_bind (tri_put ha.1 (fine_object hl.1) (bloc_object hl.2))
        (fun _ _ => tri_pure ⟨hs, fun hh => hh⟩)
    · exact tri_fail

theorem newView_some {w : View} (hw : W w.addr ∧ R w.addr) : NewView W R (some w) := by
  intro u hu; injection hu with hu; exact hu ▸ hw

theorem tri_appendUnknown (hD : Regular D) {id : Nat} {fs : List MVal} {raw : View}
    (hs : HeldS W R D id fs) :
    Tri W R (appendUnknownM (D id) fs raw) (fun fs' => HeldS W R D id fs' ∧ KeepS W fs fs') := by
  unfold appendUnknownM
  split
  · exact tri_pure ⟨hs, fun hh => hh⟩
  · rename_i slot isPtr hu
    split
    · rename_i x hx
      have hm := List.mem_of_getElem? hx
      have hn : NewView W R x := by
        rintro u rfl
        exact ⟨hs.bytes slot u hu hx, hs.loc _ hm _ (.bytes u)⟩
      refine tri_bind (tri_appendBytes hn) (fun w hw => ?_)
      have hl := loc_view (newView_some hw)
      refine tri_pure ⟨heldS_set hD hs (no_field hD hu) (fun u _ he => ?_) (fun a _ he => by cases he)
        hl.2, keepS_set (fun _ => hl.1)⟩
      injection he with he
      exact (newView_some hw u he).1
    · refine tri_bind (tri_new (fine_object (fun _ h => (by cases h)))
        (bloc_object (fun _ h => (by cases h)))) (fun o ho => ?_)
      refine tri_bind (tri_appendBytes (fun u h => (by cases h))) (fun w hw => ?_)
      have hl := loc_view (newView_some hw)
      refine tri_bind (tri_put ho.1 (fine_object hl.1) (bloc_object hl.2)) (fun _ _ => ?_)
      refine tri_pure ⟨heldS_set hD hs (no_field hD hu) (fun u _ he => by cases he) (fun a _ he => ?_)
        (fun y hy => by cases hy; exact ho.2), keepS_set (fun _ y hy => by cases hy; exact ho.1)⟩
      injection he with he; injection he with he
      exact he ▸ ho.1
    · rename_i a hx
      have hm := List.mem_of_getElem? hx
      have ha : W a ∧ R a := ⟨hs.ptr slot a hu hx, hs.loc _ hm _ (.ptr a)⟩
      refine tri_bind (tri_loadBytes ha) (fun x hn => ?_)
      refine tri_bind (tri_appendBytes hn) (fun w hw => ?_)
      have hl := loc_view (newView_some hw)
      exact tri_bind (tri_put ha.1 (fine_object hl.1) (bloc_object hl.2))
        (fun _ _ => tri_pure ⟨hs, fun hh => hh⟩)
    · exact tri_fail

theorem found_mem (hD : Regular D) {id : Nat} {last : Option FieldDesc} {num : Int}
    {f : FieldDesc} (hl : ∀ g, last = some g → g ∈ (D id).fields)
    (h : lookupField (D id) last num = some f) : f ∈ (D id).fields := by
  unfold lookupField at h
  cases last with
  | none => exact hD.found id _ f h
  | some g =>
    simp only at h
    split at h
    · injection h with h; subst h; exact hl g rfl
    · exact hD.found id _ f h

theorem tri_record (hD : Regular D) {rec : DecRecM} (hrec : RecTri W R D rec) {id : Nat}
    {fs : List MVal} (depth : Int) (b : View) (last : Option FieldDesc)
    (hl : ∀ g, last = some g → g ∈ (D id).fields) (hs : HeldS W R D id fs) :
    Tri W R (decodeRecordM D rec (D id) depth b fs last) (fun r => HeldS W R D id r.1 ∧
      KeepS W fs r.1 ∧ ∀ g, r.2.2 = some g → g ∈ (D id).fields) := by
  unfold decodeRecordM
  refine tri_bind tri_parse ?_
  rintro ⟨num, typ, n⟩ _
  dsimp only
  split
  · refine tri_bind tri_parse (fun m _ => ?_)
    refine tri_bind (tri_appendUnknown hD hs) (fun fs' h => tri_pure ⟨h.1, h.2, ?_⟩)
    intro g hg; cases hg
  · rename_i f hf
    have hfm := found_mem hD hl hf
    split
    · exact tri_fail
    · rename_i cur hc
      have hm := List.mem_of_getElem? hc
      refine tri_bind (tri_field hrec f typ _ depth (fun ho => hs.own f hfm ho cur hc)
        (hs.loc cur hm)) ?_
      rintro ⟨x, m⟩ hx
      refine tri_pure ⟨heldS_set hD hs (fun g hg ho hsl => ?_) (fun u hu _ => ?_) (fun a hu _ => ?_)
        hx.loc, keepS_set (fun hall => hx.keep (hall cur hm)), ?_⟩
      · obtain ⟨k1, k2⟩ := hD.slots id f hfm g hg hsl.symm ho
        exact k2 ▸ hx.own k1
      · exact absurd rfl (hD.unknown id _ _ hu f hfm)
      · exact absurd rfl (hD.unknown id _ _ hu f hfm)
      · intro g hg
        injection hg with hg
        exact hg ▸ hfm

theorem tri_loop (hD : Regular D) {rec : DecRecM} (hrec : RecTri W R D rec) {id : Nat}
    (depth : Int) : ∀ (fuel : Nat) (fs : List MVal) (b : View) (last : Option FieldDesc),
    (∀ g, last = some g → g ∈ (D id).fields) → HeldS W R D id fs →
    Tri W R (decodeLoopM D rec (D id) depth fuel b fs last) (fun fs' => HeldS W R D id fs' ∧
      KeepS W fs fs') := by
  intro fuel
  induction fuel with
  | zero =>
    intro fs b last hl hs
    unfold decodeLoopM
    split
    · exact tri_pure ⟨hs, fun hh => hh⟩
    · exact tri_fail
  | succ fuel ih =>
    intro fs b last hl hs
    unfold decodeLoopM
    split
    · exact tri_pure ⟨hs, fun hh => hh⟩
    · refine tri_bind (tri_record hD hrec depth b last hl hs) ?_
      rintro ⟨fs', n, last'⟩ ⟨h1, h2, h3⟩
      exact tri_mono (ih fs' _ last' h3 h1) (fun _ h => ⟨h.1, fun hall => h.2 (h2 hall)⟩)

theorem loc_struct {fs : List MVal} : Loc W (.struct fs) ↔ ∀ x ∈ fs, Loc W x := by
  constructor
  · intro h x hx y hy
    exact h y (.field fs x y hx hy)
  · intro h y hy
    cases hy with
    | field _ x _ h1 h2 => exact h x h1 y h2

theorem tri_struct (hD : Regular D) : ∀ (fuel : Nat), RecTri W R D (decodeStructM D fuel) := by
  intro fuel
  induction fuel with
  | zero => intro depth b v id hv; exact tri_fail
  | succ fuel ih =>
    intro depth b v id hv
    unfold decodeStructM
    split
    · exact tri_fail
    · split
      · rename_i fs
        have hs : HeldS W R D id fs := by
          cases hv.own with
          | struct _ _ h1 h2 h3 => exact ⟨h1 fs rfl, h2 fs rfl, h3 fs rfl, loc_struct.1 hv.loc⟩
          | other _ _ _ _ h => exact absurd rfl (h id)
        refine tri_bind (tri_resetUnknown hD hs) (fun fs1 h1 => ?_)
        refine tri_bind (tri_loop hD ih depth _ fs1 b none (fun g hg => by cases hg) h1.1)
          (fun fs2 h2 => tri_pure ?_)
        have hk : Loc W (.struct fs) → Loc W (.struct fs2) := fun h =>
          loc_struct.2 (h2.2 (h1.2 (loc_struct.1 h)))
        refine ⟨.struct _ _ ?_ ?_ ?_, loc_struct.2 h2.1.loc, hk, fun h _ _ => hk (h fs rfl)⟩
        · intro fs' he; injection he with he; subst he; exact h2.1.own
        · intro fs' he; injection he with he; subst he; exact h2.1.bytes
        · intro fs' he; injection he with he; subst he; exact h2.1.ptr
      · exact tri_fail

end Verif.Lemmas.Mem
