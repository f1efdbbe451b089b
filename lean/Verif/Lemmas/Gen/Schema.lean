import Verif.Lemmas.Gen.Structs
/-!
# Lemmas: the schema that the generated structs implement
-/
namespace Verif.Props.Gen
open Verif.Spec Verif.Spec.Gen Verif.Model Verif.Model.Gen

open Classical in
/-- What a field holds. -/
noncomputable def shapeOf (W : World) (pkg : Nat → List Str) (f : Nat) (c : Chain) (x : FieldDecl × Str) : Shape :=
  if h : ∃ sh, FieldFacts W pkg f c x.1 x.2 sh then h.choose else .single .bool

/-- The schema field of a declared field. -/
noncomputable def mkField (W : World) (pkg : Nat → List Str) (f : Nat) (c : Chain) (x : FieldDecl × Str) : Field where
  num := x.1.number.toNat
  slot := slotOf W f c x
  member := x.1.oneof.map fun _ => memberOf W f c x
  shape := shapeOf W pkg f c x

/-- The message type of a declared message that is compiled to `d`. -/
noncomputable def mkMessage (W : World) (pkg : Nat → List Str) (f : Nat) (c : Chain) (d : StructDecl) : Message where
  fields := ((namedFields c.msg).map (mkField W pkg f c)).mergeSort fun a b => decide (a.num ≤ b.num)
  nslots := (genStruct W f c).fields.length
  unknown := if genUnknownFields (W.file f) c.msg then some ((genStruct W f c).fields.length - 1, false) else none
  small := decide (d.size = 8 ∨ d.size = 4 ∨ d.size = 1)
  zero := d.zero

/-- The schema. -/
noncomputable def mkSchema (W : World) (pkg : Nat → List Str) (env : GoEnv) : Schema := fun i =>
  match (allMessages W)[i]?, env.structs[i]? with
  | some (f, c), some d => mkMessage W pkg f c d
  | _, _ => default

theorem shape_facts {W : World} {pkg : Nat → List Str} (hH : Handled W pkg) (hd : (structNames W ++ genEnums W).Nodup) {f : Nat} {c : Chain}
    (hc : Around (W.file f).messages c) {x : FieldDecl × Str} (hx : x ∈ namedFields c.msg) :
    FieldFacts W pkg f c x.1 x.2 (shapeOf W pkg f c x) := by
  have h := field_facts hH hd hc (named_fst_mem hx) x.2
  unfold shapeOf
  rw [dif_pos h]
  exact h.choose_spec

theorem mem_fields {W : World} {pkg : Nat → List Str} {f : Nat} {c : Chain} {d : StructDecl} {g : Field} :
    g ∈ (mkMessage W pkg f c d).fields ↔ ∃ x ∈ namedFields c.msg, g = mkField W pkg f c x := by
  unfold mkMessage
  dsimp only
  rw [List.mem_mergeSort, List.mem_map]
  constructor
  · rintro ⟨x, h, e⟩
    exact ⟨x, h, e.symm⟩
  · rintro ⟨x, h, e⟩
    exact ⟨x, h, e.symm⟩

theorem distinct_pairwise {α : Type} {l : List α} (h : Distinct l) : l.Pairwise (· ≠ ·) := by
  rw [List.pairwise_iff_getElem]
  intro i j hi hj hij e
  have := h i j l[i] (List.getElem?_eq_getElem hi) (by rw [List.getElem?_eq_getElem hj, e])
  omega

theorem numbers_distinct {W : World} {pkg : Nat → List Str} (hH : Handled W pkg) {f : Nat} {c : Chain} (hc : Around (W.file f).messages c) :
    (namedFields c.msg).Pairwise fun x y => x.1.number ≠ y.1.number := by
  have hw : Within (W.file f).messages c.msg := by
    cases c with
    | nil => cases hc
    | cons a r => obtain ⟨o, m⟩ := a; exact around_within hc
  have hp := distinct_pairwise (((hH.good f (around_file hc)).2 _ hw).1.2)
  rw [← named_fst, List.map_map, List.pairwise_map] at hp
  exact hp

theorem number_inj {W : World} {pkg : Nat → List Str} (hH : Handled W pkg) {f : Nat} {c : Chain} (hc : Around (W.file f).messages c)
    {x y : FieldDecl × Str} (hx : x ∈ namedFields c.msg) (hy : y ∈ namedFields c.msg) (e : x.1.number = y.1.number) : x = y := by
  refine mem_of_nodup_map (g := fun z : FieldDecl × Str => z.1.number) ?_ hx hy e
  rw [List.nodup_iff_pairwise_ne, List.pairwise_map]
  exact numbers_distinct hH hc

theorem toNat_number {W : World} {pkg : Nat → List Str} (hH : Handled W pkg) {f : Nat} {c : Chain} (hc : Around (W.file f).messages c)
    {x : FieldDecl × Str} (hx : x ∈ namedFields c.msg) : ((x.1.number.toNat : Nat) : Int) = x.1.number ∧ 1 ≤ x.1.number.toNat ∧ x.1.number.toNat < 2 ^ 31 := by
  have := (hH.fields f c hc x.1 (named_fst_mem hx)).number
  omega

theorem fields_sorted {W : World} {pkg : Nat → List Str} (hH : Handled W pkg) {f : Nat} {c : Chain} (hc : Around (W.file f).messages c) (d : StructDecl) :
    (mkMessage W pkg f c d).fields.Pairwise fun a b => a.num < b.num := by
  have h1 : (mkMessage W pkg f c d).fields.Pairwise fun a b => (decide (a.num ≤ b.num)) = true := by
    refine List.pairwise_mergeSort ?_ ?_ _
    · intro a b e h1 h2
      rw [decide_eq_true_eq] at *
      omega
    · intro a b
      rw [Bool.or_eq_true, decide_eq_true_eq, decide_eq_true_eq]
      omega
  have h2 : (mkMessage W pkg f c d).fields.Pairwise fun a b => a.num ≠ b.num := by
    refine (List.mergeSort_perm _ _).symm.pairwise ?_ (fun h => Ne.symm h)
    rw [List.pairwise_map]
    refine List.Pairwise.imp_of_mem ?_ (numbers_distinct hH hc)
    intro x y hx hy hne e
    apply hne
    have := toNat_number hH hc hx
    have := toNat_number hH hc hy
    have e : x.1.number.toNat = y.1.number.toNat := e
    omega
  refine (h1.and h2).imp ?_
  rintro a b ⟨h1, h2⟩
  rw [decide_eq_true_eq] at h1
  omega

theorem oneof_lt {W : World} {pkg : Nat → List Str} (hH : Handled W pkg) {f : Nat} {c : Chain} (hc : Around (W.file f).messages c)
    {x : FieldDecl × Str} (hx : x ∈ namedFields c.msg) {k : Nat} (ho : x.1.oneof = some k) : k < c.msg.oneofs.length :=
  ((hH.fields f c hc x.1 (named_fst_mem hx)).oneof k ho).2.2

theorem wrappers_ids (E T : List (Str × Str)) (g : GenStruct) : ((elabWrappers E T g).map Wrapper.id).Nodup := by
  unfold elabWrappers
  rw [List.nodup_iff_pairwise_ne, List.pairwise_iff_getElem]
  intro i j hi hj hij e
  rw [List.getElem_map, List.getElem_map, List.getElem_mapIdx, List.getElem_mapIdx] at e
  dsimp only at e
  omega

theorem implements1 {W : World} {pkg : Nat → List Str} (hH : Handled W pkg) (hd : (structNames W ++ genEnums W).Nodup) {f : Nat} {c : Chain}
    (hc : Around (W.file f).messages c) {d : StructDecl} (hf : d.fields = (genStruct W f c).fields.map (elabField (genEnums W) (structNames W)))
    (hw : d.wrappers = elabWrappers (genEnums W) (structNames W) (genStruct W f c)) : Implements1 d (mkMessage W pkg f c d) := by
  have hat : ∀ (i : Nat) (gf : GoField), d.fields[i]? = some gf → ∃ g, (genStruct W f c).fields[i]? = some g ∧
      gf = elabField (genEnums W) (structNames W) g := by
    intro i gf h
    rw [hf, List.getElem?_map, Option.map_eq_some_iff] at h
    obtain ⟨g, h1, h2⟩ := h
    exact ⟨g, h1, h2.symm⟩
  have hslot : ∀ x ∈ namedFields c.msg, d.fields[slotOf W f c x]? = some (elabField (genEnums W) (structNames W) (slotField W f c x)) := by
    intro x hx
    rw [hf, List.getElem?_map, at_slot hH hc hx]
    rfl
  have hmem : ∀ (i : Nat) (g : GenField), (genStruct W f c).fields[i]? = some g →
      (∃ x ∈ namedFields c.msg, i = slotOf W f c x ∧ g = slotField W f c x) ∨ (genUnknownFields (W.file f) c.msg = true ∧ g = Gen.unknownSlot) := by
    intro i g h
    have hi := index_unique (struct_nodup hH hc) h
    rcases (struct_mem W f c g).1 (List.mem_of_getElem? h) with ⟨x, hx, e⟩ | h
    · refine .inl ⟨x, hx, ?_, e⟩
      rw [hi, e, slotField_name]
      rfl
    · exact .inr h
  refine ⟨?_, rfl, ?_, ?_, ?_, ?_, ?_, ?_, ?_⟩
  · rw [hf, List.length_map]
    rfl
  · unfold mkMessage
    rw [decide_eq_true_eq]
  · intro i gf h ht
    obtain ⟨g, h1, rfl⟩ := hat i gf h
    have ht : tagGet g.tag "protobuf" ≠ [] := ht
    rcases hmem i g h1 with ⟨x, hx, e1, e2⟩ | ⟨_, rfl⟩
    · refine ⟨mkField W pkg f c x, mem_fields.2 ⟨x, hx, rfl⟩, e1.symm, ?_⟩
      show x.1.oneof.map _ = none
      cases ho : x.1.oneof with
      | none => rfl
      | some k =>
        have : g = oneofSlot c k := by rw [e2]; unfold slotField; rw [ho]
        rw [this] at ht
        exact absurd (oneofSlot_tags hH hc (oneof_lt hH hc hx ho)).1 ht
    · exact absurd unknown_tags.1 ht
  · intro g hg hm
    obtain ⟨x, hx, rfl⟩ := mem_fields.1 hg
    have ho : x.1.oneof = none := by
      have hm : x.1.oneof.map _ = none := hm
      rwa [Option.map_eq_none_iff] at hm
    refine ⟨_, hslot x hx, ?_⟩
    have : slotField W f c x = fieldGen W f c x.1 x.2 := by unfold slotField; rw [ho]
    rw [this]
    exact (shape_facts hH hd hc hx).declares _ _
  · intro w h
    rw [hw] at h
    unfold elabWrappers at h
    obtain ⟨i, hi, rfl⟩ := List.mem_mapIdx.1 h
    obtain ⟨k, hk, x, hx, ho, e⟩ := member_of_index (W := W) (f := f) (c := c) (List.getElem?_eq_getElem hi)
    refine ⟨mkField W pkg f c x, mem_fields.2 ⟨x, hx, rfl⟩, ?_⟩
    show x.1.oneof.map (fun _ => memberOf W f c x) = some i
    rw [ho, ← e]
    rfl
  · intro g hg w hm
    obtain ⟨x, hx, rfl⟩ := mem_fields.1 hg
    have hm : x.1.oneof.map (fun _ => memberOf W f c x) = some w := hm
    rw [Option.map_eq_some_iff] at hm
    obtain ⟨k, ho, rfl⟩ := hm
    have hk := oneof_lt hH hc hx ho
    obtain ⟨hlt, he⟩ := List.getElem?_eq_some_iff.1 (at_member (W := W) (f := f) hk hx ho)
    refine ⟨⟨memberOf W f c x, implementing (genStruct W f c).fields (wrapperOf W f c k x).method,
      [elabField (genEnums W) (structNames W) (wrapperOf W f c k x).field]⟩, ?_, rfl, ?_, ⟨_, rfl, ?_⟩, ?_⟩
    · rw [hw]
      unfold elabWrappers
      refine List.mem_mapIdx.2 ⟨memberOf W f c x, hlt, ?_⟩
      exact congrArg (fun w : GenWrapper => (⟨memberOf W f c x, implementing (genStruct W f c).fields w.method,
        [elabField (genEnums W) (structNames W) w.field]⟩ : Wrapper)) he
    · exact implementing_slot hH hc hx ho
    · exact (shape_facts hH hd hc hx).declares _ _
    · refine ⟨_, hslot x hx, ?_⟩
      have : slotField W f c x = oneofSlot c k := by unfold slotField; rw [ho]
      rw [this]
      exact oneofSlot_tags hH hc hk
  · rw [hw]
    exact wrappers_ids ..
  · unfold mkMessage
    dsimp only
    cases hu : genUnknownFields (W.file f) c.msg with
    | true =>
      rw [if_pos rfl]
      refine .inl ⟨⟨elabField (genEnums W) (structNames W) Gen.unknownSlot, ?_, rfl, ?_⟩, ?_⟩
      · rw [hf, List.getElem?_map, unknown_last hu]
        rfl
      · show basicGoType "[]byte".toList = _
        decide
      · intro j gf hj h e
        obtain ⟨g, h1, rfl⟩ := hat j gf h
        have e : g.name = Gen.unknownSlot.name := e
        have i1 := index_unique (struct_nodup hH hc) h1
        have i2 := index_unique (struct_nodup hH hc) (unknown_last hu)
        rw [e, ← i2] at i1
        omega
    | false =>
      rw [if_neg (by simp)]
      intro gf h
      obtain ⟨i, hi, e⟩ := List.mem_iff_getElem.1 h
      obtain ⟨g, h1, rfl⟩ := hat i gf (by rw [List.getElem?_eq_getElem hi, e])
      rcases hmem i g h1 with ⟨x, hx, _, e2⟩ | ⟨h, _⟩
      · have := slotName_special hH hc hx
        rw [← slotField_name W f c, ← e2] at this
        exact this
      · rw [hu] at h
        cases h

/-! ## Zero values -/

theorem scalar_zero (structs : List StructDecl) (s : Scalar) : goZero structs s.goType = s.zero := by cases s <;> rfl

theorem zero_shape {S : Schema} {structs : List StructDecl} (hS : ∀ id, (S id).zero = (structs[id]?.map StructDecl.zero).getD (.struct [])) (f : Field)
    (hm : f.member = none) : goZero structs f.shape.goType = f.zero S := by
  unfold Field.zero
  rw [hm]
  dsimp only
  cases hs : f.shape with
  | single s => exact scalar_zero structs s
  | optional s => rfl
  | list s p => rfl
  | msg id p =>
    cases p with
    | true => rfl
    | false =>
      dsimp only
      rw [hS]
      rfl
  | msgList id p => rfl
  | map k v => rfl
  | mapMsg k id p => rfl

theorem schema_zero {W : World} {pkg : Nat → List Str} {env : GoEnv} (hC : env.structs.length = (allMessages W).length) (id : Nat) :
    (mkSchema W pkg env id).zero = (env.structs[id]?.map StructDecl.zero).getD (.struct []) := by
  unfold mkSchema
  cases h1 : (allMessages W)[id]? with
  | none =>
    have : env.structs[id]? = none := by
      rw [List.getElem?_eq_none_iff] at *
      omega
    rw [this]
    rfl
  | some x =>
    cases h2 : env.structs[id]? with
    | none => rfl
    | some d => rfl

theorem message_wf {W : World} {pkg : Nat → List Str} (hH : Handled W pkg) (hd : (structNames W ++ genEnums W).Nodup) {f : Nat} {c : Chain}
    (hc : Around (W.file f).messages c) {d : StructDecl} {S : Schema} {structs : List StructDecl}
    (hf : d.fields = (genStruct W f c).fields.map (elabField (genEnums W) (structNames W)))
    (hS : ∀ id, (S id).zero = (structs[id]?.map StructDecl.zero).getD (.struct []))
    (hz : d.zero = .struct (d.fields.map fun g => goZero structs g.type)) : (mkMessage W pkg f c d).WF S := by
  have hlt : ∀ x ∈ namedFields c.msg, slotOf W f c x < (genStruct W f c).fields.length := fun x hx =>
    (List.getElem?_eq_some_iff.1 (at_slot hH hc hx)).1
  refine ⟨?_, fields_sorted hH hc d, ?_, ?_, ?_, ?_, ?_, ?_⟩
  · intro g hg
    obtain ⟨x, hx, rfl⟩ := mem_fields.1 hg
    exact (toNat_number hH hc hx).2
  · intro g hg
    obtain ⟨x, hx, rfl⟩ := mem_fields.1 hg
    exact hlt x hx
  · intro g hg g' hg' hne he
    obtain ⟨x, hx, rfl⟩ := mem_fields.1 hg
    obtain ⟨y, hy, rfl⟩ := mem_fields.1 hg'
    rcases slot_eq hH hc hx hy he with rfl | ⟨k, h1, h2⟩
    · exact absurd rfl hne
    · refine ⟨memberOf W f c x, memberOf W f c y, ?_, ?_, ?_⟩
      · show x.1.oneof.map _ = _
        rw [h1]
        rfl
      · show y.1.oneof.map _ = _
        rw [h2]
        rfl
      · intro e
        have := member_inj (oneof_lt hH hc hx h1) hx h1 (oneof_lt hH hc hy h2) hy h2 e
        subst this
        exact hne rfl
  · intro g hg
    obtain ⟨x, hx, rfl⟩ := mem_fields.1 hg
    exact (shape_facts hH hd hc hx).legal
  · intro g hg hm
    obtain ⟨x, hx, rfl⟩ := mem_fields.1 hg
    refine (shape_facts hH hd hc hx).member fun e => hm ?_
    show x.1.oneof.map _ = none
    rw [e]
    rfl
  · intro s p h
    unfold mkMessage at h
    dsimp only at h
    split at h
    · rename_i hu
      simp only [Option.some.injEq, Prod.mk.injEq] at h
      obtain ⟨rfl, rfl⟩ := h
      refine ⟨(List.getElem?_eq_some_iff.1 (unknown_last hu)).1, ?_⟩
      intro g hg
      obtain ⟨x, hx, rfl⟩ := mem_fields.1 hg
      exact slot_ne_unknown hH hc hx hu
    · cases h
  · refine ⟨_, hz, ?_, ?_, ?_, ?_⟩
    · rw [List.length_map, hf, List.length_map]
      rfl
    · intro g hg
      obtain ⟨x, hx, rfl⟩ := mem_fields.1 hg
      show (List.map _ d.fields)[slotOf W f c x]? = _
      rw [hf, List.getElem?_map, List.getElem?_map, at_slot hH hc hx]
      show some (goZero structs (elabField (genEnums W) (structNames W) (slotField W f c x)).type) = _
      cases ho : x.1.oneof with
      | none =>
        have hm : (mkField W pkg f c x).member = none := by
          show x.1.oneof.map _ = none
          rw [ho]
          rfl
        rw [← zero_shape hS _ hm]
        have : slotField W f c x = fieldGen W f c x.1 x.2 := by unfold slotField; rw [ho]
        rw [this, ((shape_facts hH hd hc hx).declares 0 none).type]
        rfl
      | some k =>
        have : slotField W f c x = oneofSlot c k := by unfold slotField; rw [ho]
        rw [this]
        unfold Field.zero
        have hm : (mkField W pkg f c x).member = some (memberOf W f c x) := by
          show x.1.oneof.map _ = _
          rw [ho]
          rfl
        rw [hm]
        rfl
    · intro s h
      unfold mkMessage at h
      dsimp only at h
      split at h
      · rename_i hu
        simp only [Option.some.injEq, Prod.mk.injEq, and_true] at h
        subst h
        rw [hf, List.getElem?_map, List.getElem?_map, unknown_last hu]
        show some (goZero structs (basicGoType "[]byte".toList)) = _
        rw [show basicGoType "[]byte".toList = .bytes by decide]
        rfl
      · cases h
    · intro s h
      unfold mkMessage at h
      dsimp only at h
      split at h
      · simp at h
      · cases h

end Verif.Props.Gen
