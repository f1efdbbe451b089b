import Verif.Lemmas.Gen.Fields
/-!
# Lemmas: the generated struct of a message
-/
namespace Verif.Props.Gen
open Verif.Spec Verif.Spec.Gen Verif.Model Verif.Model.Gen

/-! ## Names of struct fields -/

/-- The name of the struct field that holds a field. -/
def slotName (m : MsgDecl) (x : FieldDecl × Str) : Str :=
  match x.1.oneof with
  | none => x.2
  | some k => oneofFieldName m k

theorem named_inhabited {m : MsgDecl} {x : FieldDecl × Str} {k : Nat} (hx : x ∈ namedFields m) (hk : x.1.oneof = some k) : Gen.Inhabited m k :=
  ⟨x.1, named_fst_mem hx, hk⟩

/-- Names made by `goCamelCase` and underscores are not the names with a special meaning. -/
theorem camel_special {s : Str} (hs : ProtoIdent s) (k : Nat) : goCamelCase s ++ List.replicate k '_' ≠ "unknownFields".toList ∧
    goCamelCase s ++ List.replicate k '_' ≠ "XXX_unrecognized".toList := by
  constructor
  · intro e
    obtain ⟨u, r, e1, hu, _⟩ := C46_exported s hs
    rw [e1] at e
    have : u = 'u' := by
      have := congrArg List.head? e
      simpa using this
    rw [this] at hu
    exact absurd hu (by decide)
  · intro e
    cases k with
    | zero =>
      rw [List.replicate_zero, List.append_nil] at e
      have := C46_idempotent s hs
      rw [e] at this
      exact absurd this (by decide +kernel)
    | succ k =>
      rw [List.replicate_succ', ← List.append_assoc] at e
      have := congrArg List.getLast? e
      rw [List.getLast?_concat] at this
      exact absurd this (by decide +kernel)

theorem slotName_special {W : World} {pkg : Nat → List Str} (hH : Handled W pkg) {f : Nat} {c : Chain} (hc : Around (W.file f).messages c)
    {x : FieldDecl × Str} (hx : x ∈ namedFields c.msg) : slotName c.msg x ≠ "unknownFields".toList ∧ slotName c.msg x ≠ "XXX_unrecognized".toList := by
  have hF := hH.fields f c hc x.1 (named_fst_mem hx)
  unfold slotName
  cases ho : x.1.oneof with
  | none =>
    dsimp only
    obtain ⟨k, e⟩ := named_shape hx
    rw [e]
    exact camel_special hF.name k
  | some k =>
    dsimp only
    have hm := oneofName_mem (named_inhabited hx ho)
    obtain ⟨j, e⟩ := (resolve_oinv c.msg).shape _ hm
    dsimp only at e
    rw [e]
    have hk := (hF.oneof k ho).2.2
    refine camel_special (hH.oneofs f c hc _ ?_) j
    rw [List.getD_eq_getElem?_getD, List.getElem?_eq_getElem hk]
    exact List.getElem_mem hk

theorem slotName_eq {m : MsgDecl} {x y : FieldDecl × Str} (hx : x ∈ namedFields m) (hy : y ∈ namedFields m) (e : slotName m x = slotName m y) :
    x = y ∨ ∃ k, x.1.oneof = some k ∧ y.1.oneof = some k := by
  have hfield : ∀ z ∈ namedFields m, z.2 ∈ (resolveFieldConflicts m).fields := fun z hz => by
    rw [← named_snd]
    exact List.mem_map.2 ⟨z, hz, rfl⟩
  unfold slotName at e
  cases h1 : x.1.oneof with
  | none =>
    rw [h1] at e
    cases h2 : y.1.oneof with
    | none =>
      rw [h2] at e
      exact .inl (named_inj hx hy e)
    | some k =>
      rw [h2] at e
      exact absurd (by rw [← show x.2 = oneofFieldName m k from e]; exact hfield x hx) (oneofName_not_field (named_inhabited hy h2))
  | some k =>
    rw [h1] at e
    cases h2 : y.1.oneof with
    | none =>
      rw [h2] at e
      exact absurd (by rw [show oneofFieldName m k = y.2 from e]; exact hfield y hy) (oneofName_not_field (named_inhabited hx h1))
    | some k' =>
      rw [h2] at e
      have := oneofName_inj (named_inhabited hx h1) (named_inhabited hy h2) e
      exact .inr ⟨k, rfl, by rw [this]⟩

/-! ## Positions -/

/-- The struct field that holds a field. -/
def slotField (W : World) (f : Nat) (c : Chain) (x : FieldDecl × Str) : GenField :=
  match x.1.oneof with
  | none => fieldGen W f c x.1 x.2
  | some k => oneofSlot c k

theorem slotField_name (W : World) (f : Nat) (c : Chain) (x : FieldDecl × Str) : (slotField W f c x).name = slotName c.msg x := by
  unfold slotField slotName
  cases x.1.oneof <;> rfl

/-- The fields of the struct are those that hold fields, and one for unknown fields. -/
theorem struct_mem (W : World) (f : Nat) (c : Chain) (g : GenField) : g ∈ (genStruct W f c).fields ↔
    (∃ x ∈ namedFields c.msg, g = slotField W f c x) ∨ (genUnknownFields (W.file f) c.msg = true ∧ g = Gen.unknownSlot) := by
  unfold genStruct
  dsimp only
  rw [List.mem_append, slots_mem]
  have h2 : g ∈ (if genUnknownFields (W.file f) c.msg then [Gen.unknownSlot] else []) ↔ genUnknownFields (W.file f) c.msg = true ∧ g = Gen.unknownSlot := by
    split
    · rename_i h
      simp [h]
    · rename_i h
      simp [h]
  rw [h2]
  apply or_congr _ Iff.rfl
  constructor
  · rintro (⟨x, hx, ho, rfl⟩ | ⟨x, hx, k, ho, _, rfl⟩)
    · exact ⟨x, hx, by unfold slotField; rw [ho]⟩
    · exact ⟨x, hx, by unfold slotField; rw [ho]⟩
  · rintro ⟨x, hx, rfl⟩
    cases ho : x.1.oneof with
    | none => exact .inl ⟨x, hx, ho, by unfold slotField; rw [ho]⟩
    | some k => exact .inr ⟨x, hx, k, ho, by simp, by unfold slotField; rw [ho]⟩

theorem struct_nodup {W : World} {pkg : Nat → List Str} (hH : Handled W pkg) {f : Nat} {c : Chain} (hc : Around (W.file f).messages c) :
    ((genStruct W f c).fields.map GenField.name).Nodup := by
  have hs : ((genSlots W f c [] (namedFields c.msg)).map GenField.name).Nodup := by
    refine slots_nodup W f c _ _ (by rw [named_snd]; exact fieldNames_nodup _) (fun x hx => ?_) (fun x hx => ?_)
    · cases ho : x.1.oneof with
      | none => exact .inr rfl
      | some k => exact .inl (named_inhabited hx ho)
    · rw [← named_snd]
      exact List.mem_map.2 ⟨x, hx, rfl⟩
  unfold genStruct
  dsimp only
  split
  · rw [List.map_append, List.nodup_append]
    refine ⟨hs, by simp, fun a ha b hb e => ?_⟩
    subst e
    rw [List.map_cons, List.map_nil, List.mem_singleton] at hb
    obtain ⟨g, hg, e⟩ := List.mem_map.1 ha
    have : ∃ x ∈ namedFields c.msg, g = slotField W f c x := by
      rcases (slots_mem W f c g _ _).1 hg with ⟨x, hx, ho, rfl⟩ | ⟨x, hx, k, ho, _, rfl⟩
      · exact ⟨x, hx, by unfold slotField; rw [ho]⟩
      · exact ⟨x, hx, by unfold slotField; rw [ho]⟩
    obtain ⟨x, hx, rfl⟩ := this
    rw [slotField_name, hb] at e
    exact (slotName_special hH hc hx).1 e
  · rw [List.append_nil]
    exact hs

/-- The position of a struct field with a name. -/
def indexOf (l : List GenField) (n : Str) : Nat := l.findIdx fun g => g.name == n

theorem at_index {l : List GenField} (hn : (l.map GenField.name).Nodup) {g : GenField} (hg : g ∈ l) : l[indexOf l g.name]? = some g := by
  have hlt : indexOf l g.name < l.length := List.findIdx_lt_length_of_exists ⟨g, hg, by simp⟩
  rw [List.getElem?_eq_getElem hlt]
  have := List.findIdx_getElem (p := fun x : GenField => x.name == g.name) (xs := l) (w := hlt)
  have e : (l[indexOf l g.name]).name = g.name := beq_iff_eq.1 this
  rw [mem_of_nodup_map hn (List.getElem_mem hlt) hg e]

theorem index_unique {l : List GenField} (hn : (l.map GenField.name).Nodup) {i : Nat} {g : GenField} (hi : l[i]? = some g) : i = indexOf l g.name := by
  obtain ⟨h1, e1⟩ := List.getElem?_eq_some_iff.1 hi
  obtain ⟨h2, e2⟩ := List.getElem?_eq_some_iff.1 (at_index hn (List.mem_of_getElem? hi))
  refine (List.getElem_inj (xs := l.map GenField.name) (i := i) (j := indexOf l g.name) (h₀ := by simpa using h1) (h₁ := by simpa using h2) hn).1 ?_
  rw [List.getElem_map, List.getElem_map, e1, e2]

/-- The position of the struct field that holds a field. -/
def slotOf (W : World) (f : Nat) (c : Chain) (x : FieldDecl × Str) : Nat := indexOf (genStruct W f c).fields (slotName c.msg x)

theorem at_slot {W : World} {pkg : Nat → List Str} (hH : Handled W pkg) {f : Nat} {c : Chain} (hc : Around (W.file f).messages c)
    {x : FieldDecl × Str} (hx : x ∈ namedFields c.msg) : (genStruct W f c).fields[slotOf W f c x]? = some (slotField W f c x) := by
  have := at_index (struct_nodup hH hc) ((struct_mem W f c _).2 (.inl ⟨x, hx, rfl⟩))
  rw [slotField_name] at this
  exact this

theorem slot_eq {W : World} {pkg : Nat → List Str} (hH : Handled W pkg) {f : Nat} {c : Chain} (hc : Around (W.file f).messages c)
    {x y : FieldDecl × Str} (hx : x ∈ namedFields c.msg) (hy : y ∈ namedFields c.msg) (e : slotOf W f c x = slotOf W f c y) :
    x = y ∨ ∃ k, x.1.oneof = some k ∧ y.1.oneof = some k := by
  have h1 := at_slot hH hc hx
  have h2 := at_slot hH hc hy
  rw [e, h2] at h1
  have := congrArg GenField.name (Option.some.inj h1)
  rw [slotField_name, slotField_name] at this
  rcases slotName_eq hy hx this with e | ⟨k, h1, h2⟩
  · exact .inl e.symm
  · exact .inr ⟨k, h2, h1⟩

theorem unknown_last {W : World} {f : Nat} {c : Chain} (h : genUnknownFields (W.file f) c.msg = true) :
    (genStruct W f c).fields[(genStruct W f c).fields.length - 1]? = some Gen.unknownSlot := by
  unfold genStruct
  dsimp only
  rw [h, if_pos rfl]
  simp

theorem slot_ne_unknown {W : World} {pkg : Nat → List Str} (hH : Handled W pkg) {f : Nat} {c : Chain} (hc : Around (W.file f).messages c)
    {x : FieldDecl × Str} (hx : x ∈ namedFields c.msg) (h : genUnknownFields (W.file f) c.msg = true) :
    slotOf W f c x ≠ (genStruct W f c).fields.length - 1 := by
  intro e
  have h1 := at_slot hH hc hx
  rw [e, unknown_last h] at h1
  have := congrArg GenField.name (Option.some.inj h1)
  rw [slotField_name] at this
  exact (slotName_special hH hc hx).1 this.symm

/-! ## Wrappers -/

/-- The wrapper of a oneof field. -/
def wrapperOf (W : World) (f : Nat) (c : Chain) (k : Nat) (x : FieldDecl × Str) : GenWrapper :=
  { name := oneofStructName (goTypeName c.path) (nestedNames c.path c.msg) x.2
    field := fieldGen W f c x.1 x.2
    method := oneofFieldType c k }

theorem wrappers_mem (W : World) (f : Nat) (c : Chain) (w : GenWrapper) : w ∈ genWrappers W f c ↔
    ∃ k, k < c.msg.oneofs.length ∧ ∃ x ∈ namedFields c.msg, x.1.oneof = some k ∧ w = wrapperOf W f c k x := by
  unfold genWrappers
  rw [List.mem_flatMap]
  constructor
  · rintro ⟨k, hk, h⟩
    obtain ⟨x, hx, rfl⟩ := List.mem_map.1 h
    rw [List.mem_filter] at hx
    exact ⟨k, List.mem_range.1 hk, x, hx.1, by simpa using hx.2, rfl⟩
  · rintro ⟨k, hk, x, hx, ho, rfl⟩
    refine ⟨k, List.mem_range.2 hk, List.mem_map.2 ⟨x, ?_, rfl⟩⟩
    rw [List.mem_filter]
    exact ⟨hx, by simpa using ho⟩

theorem wrappers_nodup (W : World) (f : Nat) (c : Chain) : ((genWrappers W f c).map fun w => w.field.name).Nodup := by
  have hn : (namedFields c.msg).Pairwise fun x y => x.2 ≠ y.2 := by
    have : ((namedFields c.msg).map Prod.snd).Nodup := by rw [named_snd]; exact fieldNames_nodup _
    rw [List.nodup_iff_pairwise_ne, List.pairwise_map] at this
    exact this
  rw [List.nodup_iff_pairwise_ne, List.pairwise_map]
  unfold genWrappers
  rw [List.pairwise_flatMap]
  constructor
  · intro k _
    rw [List.pairwise_map]
    exact (hn.filter _).imp fun h => h
  · refine List.Pairwise.imp ?_ (List.nodup_iff_pairwise_ne.1 (List.nodup_range (n := c.msg.oneofs.length)))
    intro k k' hk w hw w' hw' e
    obtain ⟨x, hx, rfl⟩ := List.mem_map.1 hw
    obtain ⟨y, hy, rfl⟩ := List.mem_map.1 hw'
    rw [List.mem_filter] at hx hy
    have := named_inj hx.1 hy.1 e
    subst this
    have h1 : x.1.oneof = some k := by simpa using hx.2
    have h2 : x.1.oneof = some k' := by simpa using hy.2
    rw [h1] at h2
    exact hk (Option.some.inj h2)

/-- The number of the wrapper of a oneof field. -/
def memberOf (W : World) (f : Nat) (c : Chain) (x : FieldDecl × Str) : Nat := (genWrappers W f c).findIdx fun w => w.field.name == x.2

theorem at_member {W : World} {f : Nat} {c : Chain} {k : Nat} {x : FieldDecl × Str} (hk : k < c.msg.oneofs.length) (hx : x ∈ namedFields c.msg)
    (ho : x.1.oneof = some k) : (genWrappers W f c)[memberOf W f c x]? = some (wrapperOf W f c k x) := by
  have hm : wrapperOf W f c k x ∈ genWrappers W f c := (wrappers_mem ..).2 ⟨k, hk, x, hx, ho, rfl⟩
  have hlt : memberOf W f c x < (genWrappers W f c).length := List.findIdx_lt_length_of_exists ⟨_, hm, by simp [wrapperOf, fieldGen]⟩
  rw [List.getElem?_eq_getElem hlt]
  have := List.findIdx_getElem (p := fun w : GenWrapper => w.field.name == x.2) (xs := genWrappers W f c) (w := hlt)
  have e : ((genWrappers W f c)[memberOf W f c x]).field.name = x.2 := beq_iff_eq.1 this
  rw [mem_of_nodup_map (wrappers_nodup W f c) (List.getElem_mem hlt) hm e]

theorem member_inj {W : World} {f : Nat} {c : Chain} {k k' : Nat} {x y : FieldDecl × Str} (hk : k < c.msg.oneofs.length) (hx : x ∈ namedFields c.msg)
    (ho : x.1.oneof = some k) (hk' : k' < c.msg.oneofs.length) (hy : y ∈ namedFields c.msg) (ho' : y.1.oneof = some k')
    (e : memberOf W f c x = memberOf W f c y) : x = y := by
  have h1 := at_member (W := W) (f := f) hk hx ho
  have h2 := at_member (W := W) (f := f) hk' hy ho'
  rw [e, h2] at h1
  have : y.2 = x.2 := congrArg (fun w : GenWrapper => w.field.name) (Option.some.inj h1)
  exact named_inj hx hy this.symm

theorem member_of_index {W : World} {f : Nat} {c : Chain} {j : Nat} {w : GenWrapper} (h : (genWrappers W f c)[j]? = some w) :
    ∃ k, k < c.msg.oneofs.length ∧ ∃ x ∈ namedFields c.msg, x.1.oneof = some k ∧ memberOf W f c x = j := by
  obtain ⟨k, hk, x, hx, ho, rfl⟩ := (wrappers_mem W f c w).1 (List.mem_of_getElem? h)
  refine ⟨k, hk, x, hx, ho, ?_⟩
  obtain ⟨h1, e1⟩ := List.getElem?_eq_some_iff.1 (at_member (W := W) (f := f) hk hx ho)
  obtain ⟨h2, e2⟩ := List.getElem?_eq_some_iff.1 h
  refine (List.getElem_inj (xs := (genWrappers W f c).map fun w => w.field.name) (i := memberOf W f c x) (j := j) (h₀ := by simpa using h1)
    (h₁ := by simpa using h2) (wrappers_nodup W f c)).1 ?_
  rw [List.getElem_map, List.getElem_map, e1, e2]

/-! ## Interfaces -/

theorem fieldGoType_iface (W : World) (f : Nat) (m : MsgDecl) (fd : FieldDecl) (t : Resolved) (n : Str) : fieldGoType W f m fd t ≠ .iface n := by
  unfold fieldGoType
  split
  · intro e; cases e
  · split
    · intro e; cases e
    · split
      · intro e; cases e
      · cases t <;> (intro e; cases e)

theorem oneofType_inj {c : Chain} {k k' : Nat} (h : Gen.Inhabited c.msg k) (h' : Gen.Inhabited c.msg k') (e : oneofFieldType c k = oneofFieldType c k') : k = k' := by
  unfold oneofFieldType at e
  have := List.append_cancel_left e
  exact oneofName_inj h h' (List.cons.inj this).2

theorem filter_singleton {n a : Nat} {p : Nat → Bool} (h : ∀ i, i < n ∧ p i = true ↔ i = a) : (List.range n).filter p = [a] := by
  have hperm : ((List.range n).filter p).Perm [a] := by
    rw [List.perm_ext_iff_of_nodup (List.Pairwise.filter p List.nodup_range) (List.nodup_cons.2 ⟨List.not_mem_nil, List.nodup_nil⟩)]
    intro i
    rw [List.mem_filter, List.mem_range, h, List.mem_singleton]
  exact List.perm_singleton.1 hperm

theorem implementing_slot {W : World} {pkg : Nat → List Str} (hH : Handled W pkg) {f : Nat} {c : Chain} (hc : Around (W.file f).messages c)
    {x : FieldDecl × Str} (hx : x ∈ namedFields c.msg) {k : Nat} (ho : x.1.oneof = some k) :
    implementing (genStruct W f c).fields (oneofFieldType c k) = [slotOf W f c x] := by
  have hslot := at_slot hH hc hx
  have hsf : slotField W f c x = oneofSlot c k := by unfold slotField; rw [ho]
  refine filter_singleton fun i => ?_
  rw [decide_eq_true_eq]
  constructor
  · rintro ⟨hi, ht⟩
    obtain ⟨g, hg⟩ : ∃ g, (genStruct W f c).fields[i]? = some g := ⟨_, List.getElem?_eq_getElem hi⟩
    rw [hg] at ht
    have ht : g.type = .iface (oneofFieldType c k) := Option.some.inj ht
    have hgi := index_unique (struct_nodup hH hc) hg
    rcases (struct_mem W f c g).1 (List.mem_of_getElem? hg) with ⟨y, hy, rfl⟩ | ⟨_, rfl⟩
    · unfold slotField at ht
      cases hy1 : y.1.oneof with
      | none =>
        rw [hy1] at ht
        exact (fieldGoType_iface _ _ _ _ _ _ ht).elim
      | some k' =>
        rw [hy1] at ht
        have ht : GoExpr.iface (oneofFieldType c k') = .iface (oneofFieldType c k) := ht
        have := oneofType_inj (named_inhabited hy hy1) (named_inhabited hx ho) (GoExpr.iface.inj ht)
        subst this
        rw [hgi, slotField_name]
        unfold slotOf slotName
        rw [hy1, ho]
    · cases ht
  · rintro rfl
    refine ⟨(List.getElem?_eq_some_iff.1 hslot).1, ?_⟩
    rw [hslot, hsf]
    rfl

/-! ## Tags of the other struct fields -/

theorem oneofSlot_tags {W : World} {pkg : Nat → List Str} (hH : Handled W pkg) {f : Nat} {c : Chain} (hc : Around (W.file f).messages c) {k : Nat}
    (hk : k < c.msg.oneofs.length) : tagGet (oneofSlot c k).tag "protobuf" = [] ∧ tagGet (oneofSlot c k).tag "protobuf_oneof" ≠ [] := by
  have hm : c.msg.oneofs.getD k [] ∈ c.msg.oneofs := by
    rw [List.getD_eq_getElem?_getD, List.getElem?_eq_getElem hk]
    exact List.getElem_mem hk
  have hid := hH.oneofs f c hc _ hm
  have htag : (oneofSlot c k).tag = [] ++ (tagEntry "protobuf_oneof".toList (c.msg.oneofs.getD k []) ++ []) := by
    unfold oneofSlot tagEntry
    rw [List.nil_append, List.append_nil]
    show "protobuf_oneof:\"".toList ++ _ ++ _ = _
    rw [show "protobuf_oneof:\"".toList = "protobuf_oneof".toList ++ [':', '"'] by decide +kernel]
    simp only [List.append_assoc, List.cons_append, List.nil_append]
  have hl : ∀ (n : Nat) (want : Str), tagLookup (n + 1) (oneofSlot c k).tag want =
      if want = "protobuf_oneof".toList then some (c.msg.oneofs.getD k []) else none := by
    intro n want
    rw [htag, lookup_entry _ [] (by simp) _ _ _ _ (by decide) (by decide) (quiet_of_tame fun c hc => .inl (ident_tame hid c hc)), tagLookup_nil]
  unfold tagGet
  rw [hl, hl, if_neg (by decide), if_pos rfl]
  refine ⟨rfl, ?_⟩
  show c.msg.oneofs.getD k [] ≠ []
  obtain ⟨a, b, e, _⟩ := hid
  rw [e]
  exact List.cons_ne_nil _ _

theorem unknown_tags : tagGet Gen.unknownSlot.tag "protobuf" = [] ∧ tagGet Gen.unknownSlot.tag "protobuf_oneof" = [] := by decide +kernel

end Verif.Props.Gen
