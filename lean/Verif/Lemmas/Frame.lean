import Verif.Lemmas.Steps
/-! # What a record leaves alone -/
namespace Verif.Lemmas
open Verif.Spec Verif.Model

variable {S : Schema}

theorem declares_iff {m : Message} {num : Nat} : m.declares num = true ↔ ∃ f ∈ m.fields, f.num = num := by
  simp [Message.declares]

theorem declares_false {m : Message} {num : Nat} : m.declares num = false ↔ ∀ f ∈ m.fields, f.num ≠ num := by
  simp [Message.declares]

theorem agree_refl (m : Message) (xs : List Val) : AgreeKnown m xs xs := ⟨rfl, fun _ _ => rfl⟩
theorem agree_symm {m : Message} {xs ys : List Val} (h : AgreeKnown m xs ys) : AgreeKnown m ys xs :=
  ⟨h.1.symm, fun i hi => (h.2 i hi).symm⟩
theorem agree_trans {m : Message} {xs ys zs : List Val} (h : AgreeKnown m xs ys) (h' : AgreeKnown m ys zs) :
    AgreeKnown m xs zs := ⟨h.1.trans h'.1, fun i hi => (h.2 i hi).trans (h'.2 i hi)⟩

theorem agree_set {m : Message} {xs ys : List Val} (h : AgreeKnown m xs ys) (i : Nat) (y : Val) :
    AgreeKnown m (xs.set i y) (ys.set i y) := by
  refine ⟨by simp [h.1], fun j hj => ?_⟩
  rw [List.getElem?_set, List.getElem?_set, h.1, h.2 j hj]

theorem agree_set_unknown {m : Message} {xs : List Val} {s : Nat} {p : Bool} (h : m.unknown = some (s, p)) (y : Val) :
    AgreeKnown m xs (xs.set s y) := by
  refine ⟨by simp, fun j hj => ?_⟩
  rw [List.getElem?_set_ne]
  rintro rfl
  exact hj p h

theorem agree_add (m : Message) (xs : List Val) (raw : Bytes) : AgreeKnown m xs (addUnknown m xs raw) := by
  unfold addUnknown
  split
  · exact agree_refl _ _
  · rename_i h; exact agree_set_unknown h _
  · rename_i h; exact agree_set_unknown h _

theorem agree_clear (m : Message) (xs : List Val) : AgreeKnown m xs (clearUnknown m xs) := by
  unfold clearUnknown
  split
  · exact agree_refl _ _
  · rename_i h
    split
    · exact agree_set_unknown h _
    · exact agree_set_unknown h _
    · exact agree_refl _ _

theorem agree_eq {m : Message} (h : m.unknown = none) {xs ys : List Val} (ha : AgreeKnown m xs ys) : xs = ys :=
  List.ext_getElem? fun i => ha.2 i (by simp [h])

theorem unknownOf_add {m : Message} {xs : List Val} (hs : ∀ s p, m.unknown = some (s, p) → s < xs.length) (raw : Bytes) :
    unknownOf m (addUnknown m xs raw) = if m.unknown.isSome then unknownOf m xs ++ raw else [] := by
  cases h : m.unknown with
  | none => simp [unknownOf, h]
  | some sp =>
    obtain ⟨s, p⟩ := sp
    have := hs s p h
    cases p <;> simp [unknownOf, addUnknown, h, this]

theorem unknownOf_clear {m : Message} {xs : List Val} : unknownOf m (clearUnknown m xs) = [] := by
  unfold clearUnknown
  cases h : m.unknown with
  | none => simp [unknownOf, h]
  | some sp =>
    obtain ⟨s, p⟩ := sp
    dsimp only
    split
    · rename_i h2
      have hs : s < xs.length := by
        rcases Nat.lt_or_ge s xs.length with h' | h'
        · exact h'
        · rw [List.getElem?_eq_none h'] at h2; cases h2
      simp [unknownOf, h, hs]
    · rename_i h2
      have hs : s < xs.length := by
        rcases Nat.lt_or_ge s xs.length with h' | h'
        · exact h'
        · rw [List.getElem?_eq_none h'] at h2; cases h2
      simp [unknownOf, h, hs]
    · rename_i h1 h2
      unfold unknownOf
      rw [h]
      dsimp only
      split
      · rename_i u hu; exact absurd hu (h1 u)
      · rename_i u hu; exact absurd hu (h2 u)
      · rfl

theorem unknownOf_set {m : Message} {xs : List Val} {i : Nat} (hi : ∀ s p, m.unknown = some (s, p) → i ≠ s) (y : Val) :
    unknownOf m (xs.set i y) = unknownOf m xs := by
  unfold unknownOf
  cases h : m.unknown with
  | none => rfl
  | some sp =>
    obtain ⟨s, p⟩ := sp
    dsimp only
    rw [List.getElem?_set_ne (hi s p h)]

/-- The unknown fields among some records. -/
def unknownRaw (m : Message) (rs : List Rec) : Bytes :=
  if m.unknown.isSome then rawOf (rs.filter (fun r => !m.declares r.num)) else []

theorem unknownRaw_cons (m : Message) (r : Rec) (rs : List Rec) :
    unknownRaw m (r :: rs) = (if m.unknown.isSome ∧ m.declares r.num = false then r.raw else []) ++ unknownRaw m rs := by
  unfold unknownRaw
  cases m.unknown.isSome
  · simp
  · cases h : m.declares r.num <;> simp [h, List.filter_cons]

section
variable (hW : S.WF) {d : Int} {id : Nat}
include hW

theorem slot_known {f : Field} (hf : f ∈ (S id).fields) : ∀ p, (S id).unknown ≠ some (f.slot, p) :=
  fun p h => ((hW id).unknown f.slot p h).2 f hf rfl

theorem unknown_ne_slot {f : Field} (hf : f ∈ (S id).fields) : ∀ s p, (S id).unknown = some (s, p) → f.slot ≠ s :=
  fun s p h => ((hW id).unknown s p h).2 f hf

/-- A record acts alike on struct values that differ in their unknown fields only. -/
theorem stepRec_frame {r : Rec} {xs ys xs' : List Val} (hl : xs.length = (S id).nslots) (h : StepRec S d id r xs ys)
    (ha : AgreeKnown (S id) xs xs') :
    ∃ ys', StepRec S d id r xs' ys' ∧ AgreeKnown (S id) ys ys' ∧
      unknownOf (S id) ys = unknownOf (S id) xs ++ unknownRaw (S id) [r] ∧
      unknownOf (S id) ys' = unknownOf (S id) xs' ++ unknownRaw (S id) [r] := by
  have hl' : xs'.length = (S id).nslots := ha.1 ▸ hl
  have key : ∀ (zs : List Val), zs.length = (S id).nslots → (∀ f ∈ (S id).fields, f.num ≠ r.num) →
      unknownOf (S id) (addUnknown (S id) zs r.raw) = unknownOf (S id) zs ++ unknownRaw (S id) [r] := by
    intro zs hz h1
    rw [unknownOf_add (fun s p hs => by rw [hz]; exact ((hW id).unknown s p hs).1), unknownRaw_cons]
    cases hu : (S id).unknown with
    | none => simp [unknownOf, unknownRaw, hu]
    | some sp => simp [declares_false.2 h1, unknownRaw]
  rcases h with ⟨h1, h2, rfl⟩ | ⟨f, hf, h0, x, y, h1, h2, rfl⟩
  · exact ⟨_, .inl ⟨h1, h2, rfl⟩, agree_trans (agree_symm (agree_add _ _ _)) (agree_trans ha (agree_add _ _ _)),
      key xs hl h1, key xs' hl' h1⟩
  · have hd : unknownRaw (S id) [r] = [] := by
      have : (S id).declares r.num = true := declares_iff.2 ⟨f, hf, h0⟩
      rw [unknownRaw_cons]; simp [this, unknownRaw]
    refine ⟨_, .inr ⟨f, hf, h0, x, y, ?_, h2, rfl⟩, agree_set ha _ _, ?_, ?_⟩
    · rw [← ha.2 f.slot (slot_known hW hf)]; exact h1
    · rw [unknownOf_set (unknown_ne_slot hW hf), hd, List.append_nil]
    · rw [unknownOf_set (unknown_ne_slot hW hf), hd, List.append_nil]

omit hW in
theorem addUnknown_length (m : Message) (xs : List Val) (raw : Bytes) : (addUnknown m xs raw).length = xs.length :=
  (agree_add m xs raw).1.symm

omit hW in
theorem stepRec_length {r : Rec} {xs ys : List Val} (h : StepRec S d id r xs ys) : ys.length = xs.length := by
  rcases h with ⟨_, _, rfl⟩ | ⟨f, _, _, x, y, _, _, rfl⟩
  · exact addUnknown_length _ _ _
  · simp

theorem steps_frame : ∀ {rs : List Rec} {xs ys xs' : List Val}, xs.length = (S id).nslots → Steps S d id rs xs ys →
    AgreeKnown (S id) xs xs' →
    ∃ ys', Steps S d id rs xs' ys' ∧ AgreeKnown (S id) ys ys' ∧
      unknownOf (S id) ys = unknownOf (S id) xs ++ unknownRaw (S id) rs ∧
      unknownOf (S id) ys' = unknownOf (S id) xs' ++ unknownRaw (S id) rs
  | [], xs, ys, xs', hl, h, ha => by
    cases h
    exact ⟨xs', rfl, ha, by simp [unknownRaw], by simp [unknownRaw]⟩
  | r :: rs, xs, ys, xs', hl, h, ha => by
    obtain ⟨zs, h1, h2⟩ := h
    obtain ⟨zs', h3, h4, h5, h6⟩ := stepRec_frame hW hl h1 ha
    obtain ⟨ys', h7, h8, h9, h10⟩ := steps_frame (rs := rs) (xs' := zs') ((stepRec_length h1).trans hl) h2 h4
    refine ⟨ys', ⟨zs', h3, h7⟩, h8, ?_, ?_⟩
    · rw [h9, h5, unknownRaw_cons (S id) r rs, unknownRaw_cons _ r []]; simp [unknownRaw]
    · rw [h10, h6, unknownRaw_cons _ r rs, unknownRaw_cons _ r []]; simp [unknownRaw]

theorem steps_unknown {rs : List Rec} {xs ys : List Val} (hl : xs.length = (S id).nslots) (h : Steps S d id rs xs ys) :
    unknownOf (S id) ys = unknownOf (S id) xs ++ unknownRaw (S id) rs :=
  let ⟨_, _, _, h, _⟩ := steps_frame hW hl h (agree_refl _ _)
  h

/-- Records of undeclared fields can be left out. -/
theorem steps_filter : ∀ {rs : List Rec} {xs ys xs' : List Val}, xs.length = (S id).nslots → Steps S d id rs xs ys →
    AgreeKnown (S id) xs xs' →
    ∃ ys', Steps S d id (rs.filter (fun r => (S id).declares r.num)) xs' ys' ∧ AgreeKnown (S id) ys ys'
  | [], xs, ys, xs', hl, h, ha => by
    cases h
    exact ⟨xs', rfl, ha⟩
  | r :: rs, xs, ys, xs', hl, h, ha => by
    obtain ⟨zs, h1, h2⟩ := h
    have hl' := (stepRec_length h1).trans hl
    cases hr : (S id).declares r.num with
    | false =>
      rw [List.filter_cons_of_neg (by simp [hr])]
      refine steps_filter hl' h2 ?_
      rcases h1 with ⟨_, _, rfl⟩ | ⟨f, hf, h0, _⟩
      · exact agree_trans (agree_symm (agree_add _ _ _)) ha
      · exact absurd h0 (declares_false.1 hr f hf)
    | true =>
      rw [List.filter_cons_of_pos (by simp [hr])]
      obtain ⟨zs', h3, h4, _⟩ := stepRec_frame hW hl h1 ha
      obtain ⟨ys', h5, h6⟩ := steps_filter hl' h2 h4
      exact ⟨ys', ⟨zs', h3, h5⟩, h6⟩

/-- Well-formed records of undeclared fields can be put in. -/
theorem steps_unfilter : ∀ {rs : List Rec} {xs ys xs' : List Val}, xs.length = (S id).nslots →
    Steps S d id (rs.filter (fun r => (S id).declares r.num)) xs ys →
    (∀ r ∈ rs, (S id).declares r.num = false → IsValue 10001 r.num r.typ r.val) →
    AgreeKnown (S id) xs xs' → ∃ ys', Steps S d id rs xs' ys' ∧ AgreeKnown (S id) ys ys'
  | [], xs, ys, xs', hl, h, hu, ha => by
    cases h
    exact ⟨xs', rfl, ha⟩
  | r :: rs, xs, ys, xs', hl, h, hu, ha => by
    have hu' : ∀ r ∈ rs, (S id).declares r.num = false → IsValue 10001 r.num r.typ r.val :=
      fun r hr => hu r (by simp [hr])
    cases hr : (S id).declares r.num with
    | false =>
      rw [List.filter_cons_of_neg (by simp [hr])] at h
      obtain ⟨ys', h1, h2⟩ := steps_unfilter (xs' := addUnknown (S id) xs' r.raw) hl h hu' (agree_trans ha (agree_add _ _ _))
      exact ⟨ys', ⟨_, .inl ⟨declares_false.1 hr, hu r (by simp) hr, rfl⟩, h1⟩, h2⟩
    | true =>
      rw [List.filter_cons_of_pos (by simp [hr])] at h
      obtain ⟨zs, h1, h2⟩ := h
      obtain ⟨zs', h3, h4, _⟩ := stepRec_frame hW hl h1 ha
      obtain ⟨ys', h5, h6⟩ := steps_unfilter ((stepRec_length h1).trans hl) h2 hu' h4
      exact ⟨ys', ⟨zs', h3, h5⟩, h6⟩

omit hW in
theorem steps_values {rs : List Rec} {xs ys : List Val} (h : Steps S d id rs xs ys) :
    ∀ r ∈ rs, (S id).declares r.num = false → IsValue 10001 r.num r.typ r.val := by
  induction rs generalizing xs with
  | nil => nofun
  | cons r rs ih =>
    obtain ⟨zs, h1, h2⟩ := h
    intro r' hr' hd
    rcases List.mem_cons.1 hr' with rfl | hr'
    · rcases h1 with ⟨_, h, _⟩ | ⟨f, hf, h0, _⟩
      · exact h
      · exact absurd h0 (declares_false.1 hd f hf)
    · exact ih h2 r' hr' hd

/-- A record only touches the Go struct fields of declarations with its number. -/
theorem stepRec_slot {r : Rec} {xs ys : List Val} (h : StepRec S d id r xs ys) {f : Field} (hf : f ∈ (S id).fields)
    (hn : ∀ g ∈ (S id).fields, g.slot = f.slot → g.num ≠ r.num) : ys[f.slot]? = xs[f.slot]? := by
  rcases h with ⟨_, _, rfl⟩ | ⟨g, hg, h0, x, y, h1, h2, rfl⟩
  · exact ((agree_add (S id) xs r.raw).2 f.slot (slot_known hW hf)).symm
  · exact List.getElem?_set_ne fun e => hn g hg e h0

theorem steps_slot : ∀ {rs : List Rec} {xs ys : List Val}, Steps S d id rs xs ys → ∀ {f : Field}, f ∈ (S id).fields →
    (∀ g ∈ (S id).fields, g.slot = f.slot → ∀ r ∈ rs, r.num ≠ g.num) → ys[f.slot]? = xs[f.slot]?
  | [], xs, ys, h, f, hf, hn => by cases h; rfl
  | r :: rs, xs, ys, h, f, hf, hn => by
    obtain ⟨zs, h1, h2⟩ := h
    rw [steps_slot h2 hf (fun g hg e r' hr' => hn g hg e r' (by simp [hr'])),
      stepRec_slot hW h1 hf (fun g hg e e' => hn g hg e r (by simp) e'.symm)]

/-- Adjacent records that touch different places can be swapped. -/
theorem stepRec_swap {r1 r2 : Rec} {xs ys zs : List Val}
    (hne : ∀ f ∈ (S id).fields, f.num = r1.num → ∀ g ∈ (S id).fields, g.num = r2.num → f.slot ≠ g.slot)
    (hd : (S id).declares r1.num = true ∨ (S id).declares r2.num = true)
    (h1 : StepRec S d id r1 xs ys) (h2 : StepRec S d id r2 ys zs) :
    ∃ ys', StepRec S d id r2 xs ys' ∧ StepRec S d id r1 ys' zs := by
  have comm : ∀ (f : Field), f ∈ (S id).fields → ∀ (xs : List Val) (y : Val) (raw : Bytes),
      addUnknown (S id) (xs.set f.slot y) raw = (addUnknown (S id) xs raw).set f.slot y := by
    intro f hf xs y raw
    unfold addUnknown
    rw [unknownOf_set (unknown_ne_slot hW hf)]
    split
    · rfl
    · rename_i s h
      exact List.set_comm _ _ ((unknown_ne_slot hW hf) _ _ h)
    · rename_i s h
      exact List.set_comm _ _ ((unknown_ne_slot hW hf) _ _ h)
  have get : ∀ (f : Field), f ∈ (S id).fields → ∀ (xs : List Val) (raw : Bytes),
      (addUnknown (S id) xs raw)[f.slot]? = xs[f.slot]? :=
    fun f hf xs raw => ((agree_add (S id) xs raw).2 f.slot (slot_known hW hf)).symm
  rcases h1 with ⟨a1, a2, rfl⟩ | ⟨f, hf, a0, x, y, a1, a2, rfl⟩
  · rcases h2 with ⟨b1, b2, rfl⟩ | ⟨g, hg, b0, x', y', b1, b2, rfl⟩
    · rcases hd with hd | hd
      · obtain ⟨f, hf, e⟩ := declares_iff.1 hd; exact absurd e (a1 f hf)
      · obtain ⟨f, hf, e⟩ := declares_iff.1 hd; exact absurd e (b1 f hf)
    · rw [get g hg] at b1
      exact ⟨_, .inr ⟨g, hg, b0, x', y', b1, b2, rfl⟩, .inl ⟨a1, a2, (comm g hg _ _ _).symm⟩⟩
  · rcases h2 with ⟨b1, b2, rfl⟩ | ⟨g, hg, b0, x', y', b1, b2, rfl⟩
    · exact ⟨_, .inl ⟨b1, b2, rfl⟩, .inr ⟨f, hf, a0, x, y, by rw [get f hf]; exact a1, a2, comm f hf _ _ _⟩⟩
    · have hs := hne f hf a0 g hg b0
      rw [List.getElem?_set_ne hs] at b1
      exact ⟨_, .inr ⟨g, hg, b0, x', y', b1, b2, rfl⟩,
        .inr ⟨f, hf, a0, x, y, by rw [List.getElem?_set_ne (Ne.symm hs)]; exact a1, a2, List.set_comm _ _ hs⟩⟩

end

end Verif.Lemmas
