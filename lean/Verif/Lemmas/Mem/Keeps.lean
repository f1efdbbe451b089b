import Verif.Lemmas.Mem.Interleave
import Verif.Lemmas.Mem.Top
/-!
# The decoder keeps to the memory of its message and its input
-/
namespace Verif.Lemmas.Mem
open Verif.Model Verif.Model.Mem Verif.Spec

variable {W R : Blocks} {α β : Type}

/-- The program keeps to `W` and `R` whenever these are closed. -/
def Keeps (W R : Blocks) (p : Prog α) : Prop := ∀ h, Inv W R h → KeepsTo W R p h

theorem keeps_done (r : Res α) : Keeps W R (.done r) := fun _ _ => trivial

theorem keeps_pure (a : α) : Keeps W R (pure a) := fun _ _ => trivial

theorem keeps_fail (e : Fault) : Keeps W R (failP e : Prog α) := fun _ _ => trivial

theorem keeps_bind {p : Prog α} {f : α → Prog β} {c : M α} {P : α → Prop} (hr : p.run = c)
    (ht : Tri W R c P) (hp : Keeps W R p) (hf : ∀ a, P a → Keeps W R (f a)) : Keeps W R (p >>= f) := by
  intro h hi
  subst hr
  obtain ⟨h1, -, -, h4⟩ := ht h hi
  refine keepsTo_andThen p h (hp h hi) ?_
  cases hq : p.run h with
  | mk r h' =>
    rw [hq] at h1 h4
    cases r with
    | ok a => exact hf a (h4 a rfl) h' h1
    | error e => trivial

theorem keeps_map {p : Prog α} {f : α → β} {c : M α} {P : α → Prop} (hr : p.run = c)
    (ht : Tri W R c P) (hp : Keeps W R p) : Keeps W R (f <$> p) :=
  keeps_bind hr ht hp (fun _ _ => keeps_pure _)

theorem keeps_parse {v : View} (hv : R v.addr) (p : Bytes → Res α) : Keeps W R (parseP v p) :=
  fun _ _ => ⟨hv, trivial⟩

theorem keeps_new (b : Block) : Keeps W R (newP b) := fun _ hi => ⟨(hi.new _ .next).1, trivial⟩

theorem keeps_put {a : Nat} (ha : W a) (b : Block) : Keeps W R (putP a b) := fun _ _ => ⟨ha, trivial⟩

theorem keepsTo_key {k : MVal} (hk : Loc R k) (h : Store) : KeepsTo W R (keyP k) h := by
  unfold keyP
  split <;> first | trivial | exact ⟨hk _ (.str _), trivial⟩

theorem keepsTo_ok {p : Prog α} {f : α → Prog β} {h h' : Store} {a : α} (hr : p.run h = (.ok a, h'))
    (hp : KeepsTo W R p h) (hf : KeepsTo W R (f a) h') : KeepsTo W R (p >>= f) h := by
  refine keepsTo_andThen p h hp ?_
  rw [hr]
  exact hf

theorem keepsTo_tableInsert {h : Store} {k v : MVal} : ∀ {es : List (MVal × MVal)},
    (∀ p ∈ es, Loc R p.1) → KeepsTo W R (tableInsertP (keyContent h k) k v es) h
  | [], _ => trivial
  | (k', v') :: es, he => by
    unfold tableInsertP
    refine keepsTo_ok (run_key k' h) (keepsTo_key (he (k', v') List.mem_cons_self) h) ?_
    split
    · trivial
    · exact keepsTo_ok (run_tableInsert h k v es)
        (keepsTo_tableInsert fun p hp => he p (List.mem_cons_of_mem _ hp)) trivial

theorem keeps_mapAssign {a : Nat} {k v : MVal} (ha : W a ∧ R a) (hk : Loc R k) :
    Keeps W R (mapAssignP a k v) := by
  intro h hi
  have hb := hi.loc a ha.2
  refine ⟨ha.2, ?_⟩
  dsimp only
  split
  · rename_i es hm
    rw [hm] at hb
    refine keepsTo_ok (run_key k h) (keepsTo_key hk h) ?_
    split
    · rename_i c hc
      exact keepsTo_ok (run_tableInsert h k v es)
        (keepsTo_tableInsert fun p hp x hx => hb x (.key es p.1 p.2 x hp hx)) ⟨ha.1, trivial⟩
    · trivial
  · trivial

theorem keeps_appendBytes {x : Option View} {raw : View} (hx : NewView W R x) (hr : R raw.addr) :
    Keeps W R (appendBytesP x raw) := by
  intro h hi
  refine ⟨hr, ?_⟩
  dsimp only
  have hn := (hi.new _ .next).1
  split
  · exact ⟨hn, trivial⟩
  · rename_i v _
    obtain ⟨h1, h2⟩ := hx v rfl
    refine ⟨h2, ?_⟩
    dsimp only
    split
    · split
      · exact ⟨h1, trivial⟩
      · exact ⟨hn, trivial⟩
    · trivial
  · trivial

theorem keeps_loadBytes {a : Nat} (ha : R a) : Keeps W R (loadBytesP a) := by
  intro h hi
  refine ⟨ha, ?_⟩
  dsimp only
  split <;> trivial

theorem keeps_grow {D : Descs} {te : GoType} {a : Option Nat} {len : Nat}
    (ha : ∀ x, a = some x → W x ∧ R x) : Keeps W R (growP D te a len) := by
  intro h hi
  have hn := (hi.new _ .next).1
  cases a with
  | none => exact ⟨hn, trivial⟩
  | some a =>
    refine ⟨(ha a rfl).2, ?_⟩
    dsimp only
    split
    · split
      · exact ⟨hn, trivial⟩
      · split
        · exact ⟨hn, trivial⟩
        · trivial
    · trivial

theorem keeps_spare {D : Descs} {te : GoType} {a len : Nat} (ha : R a) : Keeps W R (spareP D te a len) := by
  intro h hi
  refine ⟨ha, ?_⟩
  dsimp only
  split
  · split <;> trivial
  · trivial

theorem keeps_putElem {a i : Nat} {v : MVal} (ha : W a ∧ R a) : Keeps W R (putElemP a i v) := by
  intro h hi
  refine ⟨ha.2, ?_⟩
  dsimp only
  split
  · exact ⟨ha.1, trivial⟩
  · trivial

variable {D : Descs} {t : GoType} {v : MVal}

theorem tri_new_object : Tri W R (new (.object (cell D t))) (fun a => W a ∧ R a) :=
  tri_new (fine_object (loc_ofFlat _)) (bloc_object (loc_ofFlat _))

theorem keeps_newTarget {k : MVal → Prog (MVal × Nat)} {c : MVal → M (MVal × Nat)}
    (hr : ∀ v, (k v).run = c v)
    (ht : ∀ v, Held W R D t v → Tri W R (c v) (fun r => Kept W R D t v r.1))
    (hk : ∀ v, Held W R D t v → Keeps W R (k v)) : Keeps W R (newTargetP D t k) := by
  have hh : Held W R D t (cell D t) := held_new (loc_ofFlat _) (loc_ofFlat _)
  refine keeps_bind (run_new _) tri_new_object (keeps_new _) (fun o ho => ?_)
  refine keeps_bind (hr _) (ht _ hh) (hk _ hh) ?_
  rintro ⟨v, n⟩ hv
  exact keeps_bind (run_put _ _) (tri_put ho.1 (fine_object (hv.keep (loc_ofFlat _))) (bloc_object hv.loc))
    (keeps_put ho.1 _) (fun _ _ => keeps_pure _)

theorem keeps_scalar (p : Bytes → Res (Val × Nat)) {b : View} (hb : R b.addr) (cur : MVal) :
    Keeps W R (decodeScalarP p b cur) :=
  keeps_bind (run_parse _ _) tri_parse (keeps_parse hb _) (fun _ _ => keeps_pure _)

theorem tri_consumeAddr (b : View) : Tri W R (consumeBytesM b) (fun r => r.1.addr = b.addr) :=
  tri_bind tri_parse (fun _ _ => tri_pure rfl)

theorem keeps_consumeBytes {b : View} (hb : R b.addr) : Keeps W R (consumeBytesP b) :=
  keeps_bind (run_parse _ _) tri_parse (keeps_parse hb _) (fun _ _ => keeps_pure _)

theorem keeps_copyString {b : View} (hb : R b.addr) : Keeps W R (copyStringP b) := by
  refine keeps_bind (run_parse _ _) tri_parse (keeps_parse hb _) (fun r _ => ?_)
  split
  · exact keeps_pure _
  · exact keeps_bind (run_new _) (tri_new (fine_bytes _) (bloc_bytes _)) (keeps_new _) (fun _ _ => keeps_pure _)

theorem keeps_copyBytes {b : View} (hb : R b.addr) : Keeps W R (copyBytesP b) :=
  keeps_bind (run_parse _ _) tri_parse (keeps_parse hb _) (fun _ _ =>
    keeps_bind (run_new _) (tri_new (fine_bytes _) (bloc_bytes _)) (keeps_new _) (fun _ _ => keeps_pure _))

/-- Nested calls. -/
structure RecKeeps (W R : Blocks) (D : Descs) (rp : DecRecP) (rm : DecRecM) : Prop where
  run : RecRun rp rm
  tri : RecTri W R D rm
  keeps : ∀ (depth : Int) (b : View) (v : MVal) (id : Nat), R b.addr → Held W R D (.struct id) v →
    Keeps W R (rp depth b v id)

theorem keeps_mapKeyAt (f : FieldDesc) (kt : GoType) (typ : WType) {b : View} (hb : R b.addr) :
    Keeps W R (decodeMapKeyAtP f kt typ b) := by
  unfold decodeMapKeyAtP
  split
  · exact keeps_scalar _ hb _
  · exact keeps_scalar _ hb _
  · exact keeps_scalar _ hb _
  · split
    · exact keeps_fail _
    · refine keeps_bind (run_consumeBytes _) (tri_consumeAddr _) (keeps_consumeBytes hb) ?_
      rintro ⟨fb, n⟩ hf
      exact keeps_bind (run_copyString _) (tri_copyString _) (keeps_copyString (hf ▸ hb)) (fun _ _ => keeps_pure _)
  · exact keeps_fail _

theorem keeps_mapKey (D : Descs) (f : FieldDesc) (kt : GoType) {b : View} (hb : R b.addr) :
    Keeps W R (decodeMapKeyP f kt b) := by
  refine keeps_bind (run_parse _ _) tri_parse (keeps_parse hb _) (fun typ _ => ?_)
  exact keeps_bind (run_mapKeyAt _ _ _ _) (tri_mapKeyAt D f kt typ _) (keeps_mapKeyAt f kt typ (b := b.drop 1) hb)
    (fun _ _ => keeps_pure _)

section
variable {rp : DecRecP} {rm : DecRecM} (hr : RecKeeps W R D rp rm)
include hr

theorem keeps_mapValueLen {fb : View} (hb : R fb.addr) (d : Int) (hv : Held W R D t v) :
    Keeps W R (decodeMapValueLenP rp t fb v d) := by
  unfold decodeMapValueLenP
  split
  · exact keeps_map (run_copyBytes _) (tri_copyBytes _) (keeps_copyBytes hb)
  · exact keeps_map (run_copyString _) (tri_copyString _) (keeps_copyString hb)
  · exact hr.keeps _ _ _ _ hb hv
  · exact keeps_fail _

theorem keeps_mapValueAt (f : FieldDesc) (typ : WType) {b : View} (hb : R b.addr) (d : Int)
    (hv : Held W R D t v) : Keeps W R (decodeMapValueAtP rp f t typ b v d) := by
  unfold decodeMapValueAtP
  split
  · exact keeps_scalar _ hb _
  · exact keeps_scalar _ hb _
  · exact keeps_scalar _ hb _
  · refine keeps_bind (run_consumeBytes _) (tri_consumeAddr _) (keeps_consumeBytes hb) ?_
    rintro ⟨fb, n⟩ hf
    exact keeps_bind (run_mapValueLen hr.run _ _ _ _) (tri_mapValueLen hr.tri _ _ hv)
      (keeps_mapValueLen hr (hf ▸ hb) _ hv) (fun _ _ => keeps_pure _)
  · exact keeps_fail _

theorem keeps_mapValueRef (f : FieldDesc) (vt : GoType) (typ : WType) {b : View} (hb : R b.addr) (d : Int) :
    Keeps W R (decodeMapValueRefP D rp f vt typ b d) := by
  unfold decodeMapValueRefP
  split
  · exact keeps_bind
      (run_newTarget (c := fun cur => decodeMapValueAtM rm f _ typ b cur d) fun _ => run_mapValueAt hr.run _ _ _ _ _ _)
      (tri_newTarget fun v hv => tri_mapValueAt hr.tri f typ b d hv)
      (keeps_newTarget (fun _ => run_mapValueAt hr.run _ _ _ _ _ _)
        (fun v hv => tri_mapValueAt hr.tri f typ b d hv) (fun v hv => keeps_mapValueAt hr f typ hb d hv))
      (fun _ _ => keeps_pure _)
  · exact keeps_mapValueAt hr f typ hb d (held_flat _)

theorem keeps_mapValue (f : FieldDesc) (vt : GoType) {b : View} (hb : R b.addr) (d : Int) :
    Keeps W R (decodeMapValueP D rp f vt b d) := by
  refine keeps_bind (run_parse _ _) tri_parse (keeps_parse hb _) (fun typ _ => ?_)
  exact keeps_bind (run_mapValueRef hr.run _ _ _ _ _) (tri_mapValueRef hr.tri f vt typ _ d)
    (keeps_mapValueRef hr f vt typ (b := b.drop 1) hb d) (fun _ _ => keeps_pure _)

omit hr in
theorem keeps_ensureMap : Keeps W R (ensureMapP v) := by
  unfold ensureMapP
  split
  · exact keeps_pure _
  · exact keeps_new _
  · exact keeps_fail _

theorem keeps_mapPair (f : FieldDesc) (kt vt : GoType) {b : View} (hb : R b.addr) (d : Int)
    (hv : Held W R D (.map kt vt) v) : Keeps W R (decodeMapPairP D rp f kt vt b v d) := by
  refine keeps_bind (run_ensureMap _) (tri_ensureMap hv) keeps_ensureMap (fun a ha => ?_)
  refine keeps_bind (run_mapKey _ _ _) (tri_mapKey D f kt b) (keeps_mapKey D f kt hb) ?_
  rintro ⟨k, n⟩ hk
  refine keeps_bind (run_mapValue hr.run _ _ _ _) (tri_mapValue hr.tri f vt _ d) (keeps_mapValue hr f vt (b := b.drop n) hb d) ?_
  rintro ⟨x, m⟩ hx
  exact keeps_bind (run_mapAssign _ _ _) (tri_mapAssign ha hk hx) (keeps_mapAssign ha hk) (fun _ _ => keeps_pure _)

omit hr in
theorem keeps_mapFast (kc vc : Coder) (kt vt : GoType) {b : View} (hb : R b.addr)
    (hv : Held W R D (.map kt vt) v) : Keeps W R (decodeMapFastP kc vc kt vt b v) := by
  refine keeps_bind (run_parse _ _) tri_parse (keeps_parse hb _) ?_
  rintro ⟨k, x⟩ _
  refine keeps_bind (run_ensureMap _) (tri_ensureMap hv) keeps_ensureMap (fun a ha => ?_)
  split
  · exact keeps_bind (run_mapAssign _ _ _) (tri_mapAssign ha (loc_ofFlat _) (loc_ofFlat _))
      (keeps_mapAssign ha (loc_ofFlat _)) (fun _ _ => keeps_pure _)
  · exact keeps_fail _

theorem keeps_lenAt (f : FieldDesc) {fb : View} (hb : R fb.addr) (d : Int) (hv : Held W R D t v) :
    Keeps W R (decodeLenAtP D rp f t fb v d) := by
  unfold decodeLenAtP
  split
  · exact keeps_map (run_copyBytes _) (tri_copyBytes _) (keeps_copyBytes hb)
  · exact keeps_map (run_copyString _) (tri_copyString _) (keeps_copyString hb)
  · split
    · exact keeps_mapFast _ _ _ _ hb hv
    · split
      · exact keeps_mapPair hr _ _ _ hb _ hv
      · exact keeps_fail _
  · exact hr.keeps _ _ _ _ hb hv
  · exact keeps_fail _

theorem keeps_valueAt (f : FieldDesc) (typ : WType) {b : View} (hb : R b.addr) (d : Int)
    (hv : Held W R D t v) : Keeps W R (decodeValueAtP D rp f t typ b v d) := by
  unfold decodeValueAtP
  split
  · exact keeps_scalar _ hb _
  · exact keeps_scalar _ hb _
  · exact keeps_scalar _ hb _
  · refine keeps_bind (run_consumeBytes _) (tri_consumeAddr _) (keeps_consumeBytes hb) ?_
    rintro ⟨fb, n⟩ hf
    exact keeps_bind (run_lenAt hr.run _ _ _ _ _) (tri_lenAt hr.tri f _ _ hv)
      (keeps_lenAt hr f (hf ▸ hb) _ hv) (fun _ _ => keeps_pure _)
  · exact keeps_fail _

theorem keeps_elem (f : FieldDesc) (typ : WType) {b : View} (hb : R b.addr) (d : Int)
    (hv : Held W R D t v) : Keeps W R (decodeElemP D rp f t typ b v d) := by
  unfold decodeElemP
  split
  · exact keeps_bind
      (run_newTarget (c := fun cur => decodeValueAtM D rm f _ typ b cur d) fun _ => run_valueAt hr.run _ _ _ _ _ _)
      (tri_newTarget fun v hv => tri_valueAt hr.tri f typ b d hv)
      (keeps_newTarget (fun _ => run_valueAt hr.run _ _ _ _ _ _)
        (fun v hv => tri_valueAt hr.tri f typ b d hv) (fun v hv => keeps_valueAt hr f typ hb d hv))
      (fun _ _ => keeps_pure _)
  · exact keeps_valueAt hr f typ hb d hv

omit hr in
theorem keeps_packed (c : Coder) (te : GoType) {b : View} (hb : R b.addr) : Keeps W R (decodePackedP c te b) := by
  refine keeps_bind (run_parse _ _) tri_parse (keeps_parse hb _) (fun x _ => ?_)
  split
  · intro h hi
    exact ⟨(hi.new _ .next).1, trivial⟩
  · exact keeps_fail _

theorem keeps_rep (f : FieldDesc) (typ : WType) {b : View} (hb : R b.addr) (d : Int)
    (hv : Held W R D t v) : Keeps W R (decodeRepP D rp f t typ b v d) := by
  unfold decodeRepP
  split
  · rename_i te _
    split
    · split
      · exact keeps_fail _
      · refine keeps_bind (run_consumeBytes _) (tri_consumeAddr _) (keeps_consumeBytes hb) ?_
        rintro ⟨fb, n⟩ hf
        exact keeps_bind (run_packed _ _ _) (tri_packed (D := D) (t := .bool) (v := .undef) _ _ _)
          (keeps_packed _ _ (hf ▸ hb)) (fun _ _ => keeps_pure _)
    · split
      · rename_i a len
        have ha : ∀ x, a = some x → W x ∧ R x := by
          rintro x rfl
          refine ⟨?_, hv.loc _ (.slice x len)⟩
          cases hv.own with
          | list _ _ h => exact h x len rfl
          | other _ _ h => exact absurd rfl (h te)
        refine keeps_bind (run_grow _ _ _ _) (tri_grow te len ha) (keeps_grow ha) (fun a ha => ?_)
        refine keeps_bind (run_spare _ _ _ _) (tri_spare te len ha) (keeps_spare ha.2) (fun x hx => ?_)
        refine keeps_bind (run_elem hr.run _ _ _ _ _ _) (tri_elem hr.tri f typ b d hx.held)
          (keeps_elem hr f typ hb d hx.held) ?_
        rintro ⟨y, n⟩ hy
        exact keeps_bind (run_putElem _ _ _) (tri_putElem ha (hy.skeep hx.sloc) hy.loc) (keeps_putElem ha)
          (fun _ _ => keeps_pure _)
      · exact keeps_fail _
  · exact keeps_valueAt hr f typ hb d hv

theorem keeps_ptr (f : FieldDesc) (typ : WType) {b : View} (hb : R b.addr) (d : Int)
    (hv : Held W R D f.t v) : Keeps W R (decodePtrP D rp f typ b v d) := by
  unfold decodePtrP
  split
  · exact keeps_bind
      (run_newTarget (c := fun cur => decodeRepM D rm f _ typ b cur d) fun _ => run_rep hr.run _ _ _ _ _ _)
      (tri_newTarget fun v hv => tri_rep hr.tri f typ b d hv)
      (keeps_newTarget (fun _ => run_rep hr.run _ _ _ _ _ _)
        (fun v hv => tri_rep hr.tri f typ b d hv) (fun v hv => keeps_rep hr f typ hb d hv))
      (fun _ _ => keeps_pure _)
  · exact keeps_rep hr f typ hb d hv

theorem keeps_field (f : FieldDesc) (typ : WType) {b : View} (hb : R b.addr) (d : Int)
    (ho : f.oneof = none → OwnD W D f.t v) (hl : Loc R v) : Keeps W R (decodeFieldP D rp f typ b v d) := by
  unfold decodeFieldP
  split
  · split
    · exact keeps_bind
        (run_newTarget (c := fun cur => decodePtrM D rm f typ b cur d) fun _ => run_ptr hr.run _ _ _ _ _)
        (tri_newTarget fun v hv => tri_ptr hr.tri f typ b d hv)
        (keeps_newTarget (fun _ => run_ptr hr.run _ _ _ _ _)
          (fun v hv => tri_ptr hr.tri f typ b d hv) (fun v hv => keeps_ptr hr f typ hb d hv))
        (fun _ _ => keeps_pure _)
    · exact keeps_fail _
  · rename_i hn
    exact keeps_ptr hr f typ hb d ⟨ho hn, hl⟩

end

theorem keeps_resetUnknown {id : Nat} {fs : List MVal} (hs : HeldS W R D id fs) :
    Keeps W R (resetUnknownP (D id) fs) := by
  unfold resetUnknownP
  split
  · exact keeps_pure _
  · rename_i slot isPtr hu
    split
    · exact keeps_pure _
    · exact keeps_pure _
    · rename_i a hx
      have ha : W a ∧ R a := ⟨hs.ptr slot a hu hx, hs.loc _ (List.mem_of_getElem? hx) _ (.ptr a)⟩
      refine keeps_bind (run_loadBytes _) (tri_loadBytes ha) (keeps_loadBytes ha.2) (fun x hn => ?_)
      have hl := loc_view (newView_take hn)
      exact keeps_bind (run_put _ _) (tri_put ha.1 (fine_object hl.1) (bloc_object hl.2)) (keeps_put ha.1 _)
        (fun _ _ => keeps_pure _)
    · exact keeps_fail _

theorem keeps_appendUnknown {id : Nat} {fs : List MVal} {raw : View} (hb : R raw.addr)
    (hs : HeldS W R D id fs) : Keeps W R (appendUnknownP (D id) fs raw) := by
  unfold appendUnknownP
  split
  · exact keeps_pure _
  · rename_i slot isPtr hu
    split
    · rename_i x hx
      have hn : NewView W R x := by
        rintro u rfl
        exact ⟨hs.bytes slot u hu hx, hs.loc _ (List.mem_of_getElem? hx) _ (.bytes u)⟩
      exact keeps_bind (run_appendBytes _ _) (tri_appendBytes hn) (keeps_appendBytes hn hb) (fun _ _ => keeps_pure _)
    · have hn : NewView W R none := fun u h => (by cases h)
      refine keeps_bind (run_new _) (tri_new (fine_object (fun _ h => (by cases h)))
        (bloc_object (fun _ h => (by cases h)))) (keeps_new _) (fun o ho => ?_)
      refine keeps_bind (run_appendBytes _ _) (tri_appendBytes hn) (keeps_appendBytes hn hb) (fun w hw => ?_)
      have hl := loc_view (newView_some hw)
      exact keeps_bind (run_put _ _) (tri_put ho.1 (fine_object hl.1) (bloc_object hl.2)) (keeps_put ho.1 _)
        (fun _ _ => keeps_pure _)
    · rename_i a hx
      have ha : W a ∧ R a := ⟨hs.ptr slot a hu hx, hs.loc _ (List.mem_of_getElem? hx) _ (.ptr a)⟩
      refine keeps_bind (run_loadBytes _) (tri_loadBytes ha) (keeps_loadBytes ha.2) (fun x hn => ?_)
      refine keeps_bind (run_appendBytes _ _) (tri_appendBytes hn) (keeps_appendBytes hn hb) (fun w hw => ?_)
      have hl := loc_view (newView_some hw)
      exact keeps_bind (run_put _ _) (tri_put ha.1 (fine_object hl.1) (bloc_object hl.2)) (keeps_put ha.1 _)
        (fun _ _ => keeps_pure _)
    · exact keeps_fail _

theorem keeps_record (hD : Regular D) {rp : DecRecP} {rm : DecRecM} (hr : RecKeeps W R D rp rm) {id : Nat}
    {fs : List MVal} (d : Int) {b : View} (hb : R b.addr) (last : Option FieldDesc)
    (hl : ∀ g, last = some g → g ∈ (D id).fields) (hs : HeldS W R D id fs) :
    Keeps W R (decodeRecordP D rp (D id) d b fs last) := by
  refine keeps_bind (run_parse _ _) tri_parse (keeps_parse hb _) ?_
  rintro ⟨num, typ, n⟩ _
  dsimp only
  split
  · refine keeps_bind (run_parse _ _) tri_parse (keeps_parse (v := b.drop n) hb _) (fun m _ => ?_)
    exact keeps_bind (run_appendUnknown _ _ _) (tri_appendUnknown hD hs)
      (keeps_appendUnknown (raw := b.take (n + m)) hb hs)
      (fun _ _ => keeps_pure _)
  · rename_i f hf
    have hfm := found_mem hD hl hf
    split
    · exact keeps_fail _
    · rename_i cur hc
      have hm := List.mem_of_getElem? hc
      exact keeps_bind (run_field hr.run _ _ _ _ _)
        (tri_field hr.tri f typ _ d (fun ho => hs.own f hfm ho cur hc) (hs.loc cur hm))
        (keeps_field hr f typ (b := b.drop n) hb d (fun ho => hs.own f hfm ho cur hc) (hs.loc cur hm)) (fun _ _ => keeps_pure _)

theorem keeps_loop (hD : Regular D) {rp : DecRecP} {rm : DecRecM} (hr : RecKeeps W R D rp rm) {id : Nat}
    (d : Int) : ∀ (fuel : Nat) (fs : List MVal) (b : View) (last : Option FieldDesc), R b.addr →
    (∀ g, last = some g → g ∈ (D id).fields) → HeldS W R D id fs →
    Keeps W R (decodeLoopP D rp (D id) d fuel b fs last) := by
  intro fuel
  induction fuel with
  | zero =>
    intro fs b last hb hl hs
    unfold decodeLoopP
    split
    · exact keeps_pure _
    · exact keeps_fail _
  | succ fuel ih =>
    intro fs b last hb hl hs
    unfold decodeLoopP
    split
    · exact keeps_pure _
    · refine keeps_bind (run_record hr.run _ _ _ _ _) (tri_record hD hr.tri d b last hl hs)
        (keeps_record hD hr d hb last hl hs) ?_
      rintro ⟨fs', n, last'⟩ ⟨h1, h2, h3⟩
      exact ih fs' (b.drop n) last' hb h3 h1

theorem keeps_struct (hD : Regular D) : ∀ (fuel : Nat),
    RecKeeps W R D (decodeStructP D fuel) (decodeStructM D fuel) := by
  intro fuel
  induction fuel with
  | zero => exact ⟨run_struct D 0, tri_struct hD 0, fun _ _ _ _ _ _ => keeps_fail _⟩
  | succ fuel ih =>
    refine ⟨run_struct D _, tri_struct hD _, fun d b v id hb hv => ?_⟩
    unfold decodeStructP
    split
    · exact keeps_fail _
    · split
      · rename_i fs
        have hs : HeldS W R D id fs := by
          cases hv.own with
          | struct _ _ h1 h2 h3 => exact ⟨h1 fs rfl, h2 fs rfl, h3 fs rfl, loc_struct.1 hv.loc⟩
          | other _ _ _ _ h => exact absurd rfl (h id)
        refine keeps_bind (run_resetUnknown _ _) (tri_resetUnknown hD hs) (keeps_resetUnknown hs) (fun fs1 h1 => ?_)
        exact keeps_bind (run_loop ih.run _ _ _ _ _ _)
          (tri_loop hD ih.tri d _ fs1 b none (fun g hg => by cases hg) h1.1)
          (keeps_loop hD ih d _ fs1 b none hb (fun g hg => by cases hg) h1.1) (fun _ _ => keeps_pure _)
      · exact keeps_fail _

/-! ## Messages whose memory is partly known -/

mutual
theorem rep_restrict {h : Store} (hR : ∀ a, R a → BLoc R (h.mem a)) : ∀ {v : MVal} {t : Val} {K : Blocks},
    MemRep h v t K → Loc R v → MemRep h v t (fun x => K x ∧ R x)
  | _, _, _, .w32 v _, _ => .w32 v _
  | _, _, _, .w64 v _, _ => .w64 v _
  | _, _, _, .bool b _, _ => .bool b _
  | _, _, _, .opaque n _, _ => .opaque n _
  | _, _, _, .undef _, _ => .undef _
  | _, _, _, .strNil _, _ => .strNil _
  | _, _, _, .str v s _ h1 h2, hl => .str v s _ h1 ⟨h2, hl _ (.str v)⟩
  | _, _, _, .bytesNil _, _ => .bytesNil _
  | _, _, _, .bytes v s _ h1 h2, hl => .bytes v s _ h1 ⟨h2, hl _ (.bytes v)⟩
  | _, _, _, .ptrNil _, _ => .ptrNil _
  | _, _, _, .ptr a v t F _ h1 h2 h3 h4 h5, hl =>
    have ha : R a := hl _ (.ptr a)
    have hv : Loc R v := fun x hx => hR a ha x (h1 ▸ .object v x hx)
    .ptr a v t _ _ h1 (rep_restrict hR h2 hv) (fun hx => h3 hx.1) ⟨h4, ha⟩ (fun x hx => ⟨h5 x hx.1, hx.2⟩)
  | _, _, _, .sliceNil _, _ => .sliceNil _
  | _, _, _, .slice a len xs ts F _ h1 h2 h3 h4 h5 h6, hl =>
    have ha : R a := hl _ (.slice a len)
    have hv : ∀ y ∈ xs.take len, Loc R y := fun y hy x hx =>
      hR a ha x (h1 ▸ .array xs y x (List.mem_of_mem_take hy) hx)
    .slice a len xs ts _ _ h1 h2 (repList_restrict hR h3 hv) (fun hx => h4 hx.1) ⟨h5, ha⟩
      (fun x hx => ⟨h6 x hx.1, hx.2⟩)
  | _, _, _, .mapNil _, _ => .mapNil _
  | _, _, _, .map a es ts F _ h1 h2 h3 h4 h5, hl =>
    have ha : R a := hl _ (.map a)
    have hv : ∀ p ∈ es, Loc R p.1 ∧ Loc R p.2 := fun p hp =>
      ⟨fun x hx => hR a ha x (h1 ▸ .key es p.1 p.2 x hp hx), fun x hx => hR a ha x (h1 ▸ .val es p.1 p.2 x hp hx)⟩
    .map a es ts _ _ h1 (repTable_restrict hR h2 hv) (fun hx => h3 hx.1) ⟨h4, ha⟩ (fun x hx => ⟨h5 x hx.1, hx.2⟩)
  | _, _, _, .struct fs ts _ h1, hl => .struct fs ts _ (repList_restrict hR h1 (loc_struct.1 hl))
  | _, _, _, .ifaceNil _, _ => .ifaceNil _
  | _, _, _, .ifaceNilPtr w _, _ => .ifaceNilPtr w _
  | _, _, _, .iface w a v t F _ h1 h2 h3 h4 h5, hl =>
    have ha : R a := hl _ (.iface w a)
    have hv : Loc R v := fun x hx => hR a ha x (h1 ▸ .object v x hx)
    .iface w a v t _ _ h1 (rep_restrict hR h2 hv) (fun hx => h3 hx.1) ⟨h4, ha⟩ (fun x hx => ⟨h5 x hx.1, hx.2⟩)
theorem repList_restrict {h : Store} (hR : ∀ a, R a → BLoc R (h.mem a)) : ∀ {vs : List MVal} {ts : List Val}
    {K : Blocks}, MemRepList h vs ts K → (∀ v ∈ vs, Loc R v) → MemRepList h vs ts (fun x => K x ∧ R x)
  | _, _, _, .nil _, _ => .nil _
  | _, _, _, .cons v t vs ts F G _ h1 h2 h3 h4 h5, hl =>
    .cons v t vs ts _ _ _ (rep_restrict hR h1 (hl v List.mem_cons_self))
      (repList_restrict hR h2 (fun u hu => hl u (List.mem_cons_of_mem _ hu)))
      (fun x hx hy => h3 x hx.1 hy.1) (fun x hx => ⟨h4 x hx.1, hx.2⟩) (fun x hx => ⟨h5 x hx.1, hx.2⟩)
theorem repTable_restrict {h : Store} (hR : ∀ a, R a → BLoc R (h.mem a)) : ∀ {es : List (MVal × MVal)}
    {ts : List (Key × Val)} {K : Blocks}, MemRepTable h es ts K → (∀ p ∈ es, Loc R p.1 ∧ Loc R p.2) →
    MemRepTable h es ts (fun x => K x ∧ R x)
  | _, _, _, .nil _, _ => .nil _
  | _, _, _, .cons k c v t es ts E F G _ h1 h2 h3 h4 h5 h6 h7 h8 h9, hl =>
    .cons k c v t es ts _ _ _ _ (rep_restrict hR h1 (hl (k, v) List.mem_cons_self).1)
      (rep_restrict hR h2 (hl (k, v) List.mem_cons_self).2)
      (repTable_restrict hR h3 (fun p hp => hl p (List.mem_cons_of_mem _ hp)))
      (fun x hx hy => h4 x hx.1 hy.1) (fun x hx hy => h5 x hx.1 hy.1) (fun x hx hy => h6 x hx.1 hy.1)
      (fun x hx => ⟨h7 x hx.1, hx.2⟩) (fun x hx => ⟨h8 x hx.1, hx.2⟩) (fun x hx => ⟨h9 x hx.1, hx.2⟩)
end

end Verif.Lemmas.Mem
