import Verif.Spec.Round
import Verif.Lemmas.Frame
import Verif.Lemmas.Steps
/-! Helper lemmas: the unknown fields kept by a decoded message are whole records. -/
namespace Verif.Lemmas
open Verif.Model Verif.Spec

variable {S : Schema}

/-- Like `ShapeSub`, but messages held by value always count. -/
inductive ShapeSub' (S : Schema) : Shape → Val → Nat → Val → Prop
  | ptr (id : Nat) (m : Val) : ShapeSub' S (.msg id true) (.ptr (some m)) id m
  | inline (id : Nat) (m : Val) : ShapeSub' S (.msg id false) m id m
  | list (id : Nat) (p : Bool) (xs : List Val) (x : Val) : x ∈ xs →
      ShapeSub' S (.msgList id p) (.slice xs) id (deref S id p x)
  | map (k : Scalar) (id : Nat) (p : Bool) (m : List (Key × Val)) (e : Key × Val) : e ∈ m →
      ShapeSub' S (.mapMsg k id p) (.map (some m)) id (deref S id p e.2)

/-- Like `FieldSub`. -/
def FieldSub' (S : Schema) (slots : List Val) (f : Field) (id : Nat) (v : Val) : Prop :=
  ∃ x d, slots[f.slot]? = some x ∧ f.content x = some d ∧ ShapeSub' S f.shape d id v

/-- Like `Reach`. -/
inductive Reach' (S : Schema) : Nat → Val → Nat → Val → Prop
  | refl (id : Nat) (v : Val) : Reach' S id v id v
  | step (id : Nat) (slots : List Val) (f : Field) (id' : Nat) (v' : Val) (id'' : Nat) (v'' : Val) :
      f ∈ (S id).fields → FieldSub' S slots f id' v' → Reach' S id' v' id'' v'' → Reach' S id (.struct slots) id'' v''

theorem reach'_of_reach {id id' : Nat} {v v' : Val} (h : Reach S id v id' v') : Reach' S id v id' v' := by
  induction h with
  | refl => exact .refl _ _
  | step id v id1 v1 id2 v2 hs _ ih =>
    cases hs with
    | mk _ f _ _ hf hs =>
      obtain ⟨x, d, hx, hc, hs⟩ := hs
      refine .step _ _ f _ _ _ _ hf ⟨x, d, hx, hc, ?_⟩ ih
      generalize f.shape = sh at hs
      cases hs with
      | ptr => exact .ptr _ _
      | inline => exact .inline _ _
      | list _ _ _ _ h => exact .list _ _ _ _ h
      | map _ _ _ _ _ h => exact .map _ _ _ _ _ h

/-- The unknown fields of the message and of all messages held by it are whole records. -/
def AllUnk (S : Schema) (id : Nat) (v : Val) : Prop := ∀ id' v', Reach' S id v id' v' → UnknownOK S id' v'

/-- The same for a struct value, spelled out. -/
structure SlotsUnk (S : Schema) (id : Nat) (xs : List Val) : Prop where
  len : xs.length = (S id).nslots
  own : ∃ rs, Splits (unknownOf (S id) xs) rs ∧
    ∀ r ∈ rs, (∀ f ∈ (S id).fields, f.num ≠ r.num) ∧ IsValue 10001 r.num r.typ r.val
  sub : ∀ f ∈ (S id).fields, ∀ id' v', FieldSub' S xs f id' v' → AllUnk S id' v'

theorem allUnk_of_slots {id : Nat} {xs : List Val} (h : SlotsUnk S id xs) : AllUnk S id (.struct xs) := by
  intro id' v' hr
  cases hr with
  | refl => intro slots e; cases e; exact h.own
  | step _ _ f id1 v1 _ _ hf hs hr => exact h.sub f hf _ _ hs _ _ hr

theorem slots_of_allUnk {id : Nat} {xs : List Val} (hl : xs.length = (S id).nslots) (h : AllUnk S id (.struct xs)) : SlotsUnk S id xs :=
  ⟨hl, h _ _ (.refl _ _) xs rfl, fun f hf _ _ hs _ _ hr => h _ _ (.step _ _ f _ _ _ _ hf hs hr)⟩

theorem reach_zero (hW : S.WF) {id id' : Nat} {v v' : Val} (hr : Reach' S id v id' v') : v = (S id).zero → v' = (S id').zero := by
  induction hr with
  | refl => exact fun h => h
  | step id slots f id1 v1 id2 v2 hf hs _ ih =>
    intro e
    refine ih ?_
    obtain ⟨zs, z1, z2, z3, -⟩ := (hW id).zero
    rw [z1] at e
    cases e
    obtain ⟨x, d, hx, hc, hs⟩ := hs
    rw [z3 f hf] at hx
    cases hx
    cases hm : f.member with
    | some w => simp [Field.content, Field.zero, hm] at hc
    | none =>
      simp only [Field.content, Field.zero, hm, Option.some.injEq] at hc
      generalize f.shape = sh at hc hs
      cases hs with
      | ptr => cases hc
      | inline => exact hc.symm
      | list _ _ xs x hx => cases hc; cases hx
      | map => cases hc

theorem allUnk_zero (hW : S.WF) (id : Nat) : AllUnk S id (S id).zero := by
  intro id' v' hr slots e
  have := reach_zero hW hr rfl
  obtain ⟨zs, z1, z2, z3, z4, z5⟩ := (hW id').zero
  rw [e, z1] at this
  cases this
  refine ⟨[], ?_, (fun r hr => by cases hr)⟩
  have : unknownOf (S id') slots = [] := by
    unfold unknownOf
    cases hu : (S id').unknown with
    | none => rfl
    | some sp =>
      obtain ⟨s, p⟩ := sp
      cases p with
      | false => simp [z4 s hu]
      | true => simp [z5 s hu]
  rw [this]
  exact splits_nil

theorem shapeSub_zero (hW : S.WF) {sh : Shape} {id : Nat} {v : Val} (h : ShapeSub' S sh (Shape.zero S sh) id v) :
    AllUnk S id v := by
  generalize hz : Shape.zero S sh = z at h
  cases h with
  | ptr => cases hz
  | inline => cases hz; exact allUnk_zero hW _
  | list _ _ _ _ hx => cases hz; cases hx
  | map => cases hz

theorem slots_agree (hW : S.WF) {id : Nat} {xs ys : List Val} (h : SlotsUnk S id xs) (ha : AgreeKnown (S id) xs ys)
    (ho : ∃ rs, Splits (unknownOf (S id) ys) rs ∧
      ∀ r ∈ rs, (∀ f ∈ (S id).fields, f.num ≠ r.num) ∧ IsValue 10001 r.num r.typ r.val) : SlotsUnk S id ys := by
  refine ⟨by rw [← ha.1]; exact h.len, ho, fun f hf id' v' hs => h.sub f hf id' v' ?_⟩
  obtain ⟨x, d, hx, hc, hs⟩ := hs
  exact ⟨x, d, by rw [ha.2 f.slot (fun p hp => ((hW id).unknown _ p hp).2 f hf rfl)]; exact hx, hc, hs⟩

theorem allUnk_deref_ptr {id : Nat} {m : Val} (h : AllUnk S id m) : AllUnk S id (deref S id true (.ptr (some m))) := h

mutual
theorem decodes_unk (hW : S.WF) {d : Int} {id : Nat} {b : Bytes} {v w : Val} :
    Decodes S d id b v w → Typed S id v → AllUnk S id v → AllUnk S id w
  | .mk _ _ _ xs _ _ h, ht, hu => by
    have hl : xs.length = (S id).nslots := by cases ht with | mk _ _ h _ _ => exact h
    refine allUnk_of_slots (decRecs_unk hW h (typed_clear (hW id) ht) (slots_agree hW (slots_of_allUnk hl hu) (agree_clear _ _) ?_))
    rw [unknownOf_clear]
    exact ⟨[], splits_nil, (fun r hr => by cases hr)⟩
theorem decRecs_unk (hW : S.WF) {d : Int} {id : Nat} {b : Bytes} {xs ys : List Val} :
    DecRecs S d id b xs ys → Typed S id (.struct xs) → SlotsUnk S id xs → SlotsUnk S id ys
  | .nil _ _ _, _, hu => hu
  | .unknown _ _ num t k v _ _ _ hk hn hv h, ht, hu => by
    refine decRecs_unk hW h (typed_add (hW id) ht _) (slots_agree hW hu (agree_add _ _ _) ?_)
    rw [unknownOf_add (fun s p h => by rw [hu.len]; exact ((hW id).unknown s p h).1)]
    split
    · obtain ⟨rs, h1, h2⟩ := hu.own
      refine ⟨rs ++ [⟨num, t, k, v⟩], splits_append h1 ?_, fun r hr => ?_⟩
      · have := splits_cons (r := ⟨num, t, k, v⟩) ⟨hk, _, hv⟩ splits_nil
        rw [List.append_nil] at this
        exact this
      · rcases List.mem_append.1 hr with hr | hr
        · exact h2 r hr
        · rw [List.mem_singleton.1 hr]
          exact ⟨hn, hv⟩
    · exact ⟨[], splits_nil, (fun r hr => by cases hr)⟩
  | .field _ _ f _ _ _ _ xs x y _ hf _ hx hd h, ht, hu => by
    have hft : FieldTyped S f x := by cases ht with | mk _ _ _ h2 _ => exact h2 f hf x hx
    have key := decField_unk hW hd hft (fun e he id' v' hs => hu.sub f hf id' v' ⟨x, e, hx, he, hs⟩)
    refine decRecs_unk hW h (typed_set_field (hW id) ht hf ?_ ?_) ⟨by rw [List.length_set]; exact hu.len, ?_, ?_⟩
    · exact decField_typed hW hd hft
    · cases hd with
      | plain _ _ _ _ _ _ hm _ => exact .inl hm
      | member _ _ _ _ w _ y hm _ => exact .inr ⟨w, y, hm, rfl⟩
    · rw [unknownOf_set (fun s p h e => ((hW id).unknown s p h).2 f hf e)]
      exact hu.own
    · intro g hg id' v' hs
      obtain ⟨z, e, hz, hc, hs⟩ := hs
      by_cases hgs : g.slot = f.slot
      · rw [hgs, List.getElem?_set_self (by
          have := (List.getElem?_eq_some_iff.1 hx).1; exact this)] at hz
        cases hz
        have hgf : g = f := by
          by_cases hnum : g.num = f.num
          · exact field_inj (hW id) hg hf hnum
          · obtain ⟨w1, w2, m1, m2, hne⟩ := (hW id).disjoint g hg f hf hnum hgs
            cases hd with
            | plain _ _ _ _ _ _ hm _ => rw [hm] at m2; cases m2
            | member _ _ _ _ w _ y hm _ =>
              rw [hm] at m2
              cases m2
              simp [Field.content, m1, hne] at hc
        subst hgf
        exact key e hc id' v' hs
      · rw [List.getElem?_set_ne (fun h => hgs h.symm)] at hz
        exact hu.sub g hg id' v' ⟨z, e, hz, hc, hs⟩
theorem decField_unk (hW : S.WF) {d : Int} {f : Field} {t : WireType} {v : Bytes} {x y : Val} :
    DecField S d f t v x y → FieldTyped S f x →
      (∀ e, f.content x = some e → ∀ id' v', ShapeSub' S f.shape e id' v' → AllUnk S id' v') →
      ∀ e, f.content y = some e → ∀ id' v', ShapeSub' S f.shape e id' v' → AllUnk S id' v'
  | .plain _ _ _ _ x y hm h, ht, hu, e, hc, id', v', hs => by
    have hc' : ∀ z, f.content z = some z := fun z => by simp [Field.content, hm]
    rw [hc'] at hc
    cases hc
    refine decShape_unk hW h (.inr ⟨?_, hu x (hc' x)⟩) id' v' hs
    cases ht with
    | plain _ _ _ ht => exact ht
    | unset _ _ hm' => rw [hm] at hm'; cases hm'
    | nilMember _ _ _ hm' => rw [hm] at hm'; cases hm'
    | member _ _ _ hm' _ => rw [hm] at hm'; cases hm'
    | otherMember _ _ _ _ hm' _ => rw [hm] at hm'; cases hm'
  | .member _ _ _ _ w _ y hm h, _, _, e, hc, id', v', hsub => by
    have : e = y := by simpa [Field.content, hm, eq_comm] using hc
    rw [this] at hsub
    exact decShape_unk hW h (.inr ⟨shapeTyped_zero hW _, fun _ _ hs => shapeSub_zero hW hs⟩) id' v' hsub
theorem decShape_unk (hW : S.WF) {d : Int} {sh : Shape} {t : WireType} {v : Bytes} {x y : Val} :
    DecShape S d sh t v x y → Shape.fresh sh ∨ (ShapeTyped S sh x ∧ ∀ id' v', ShapeSub' S sh x id' v' → AllUnk S id' v') →
      ∀ id' v', ShapeSub' S sh y id' v' → AllUnk S id' v'
  | .single _ _ _ _ _ _, _, _, _, hs => by cases hs
  | .optional _ _ _ _ _ _, _, _, _, hs => by cases hs
  | .elem _ _ _ _ _ _ _, _, _, _, hs => by cases hs
  | .packed _ _ _ _ _ _ _ _, _, _, _, hs => by cases hs
  | .msgPtr _ id _ _ _ m _ h, _, _, _, hs => by
    have := decodes_unk hW h (typed_zero hW _) (allUnk_zero hW _)
    cases hs with
    | ptr => exact this
  | .msgInline _ id _ _ x m _ h, ht, _, _, hs => by
    rcases ht with ht | ⟨ht, hu⟩
    · exact ht.elim
    · cases ht with
      | msg _ _ _ h1 =>
        cases h1 with
        | inline _ _ h1 =>
          have := decodes_unk hW h h1 (hu _ _ (.inline _ _))
          cases hs with
          | inline => exact this
  | .msgElemPtr _ id _ _ xs m _ h, ht, _, _, hs => by
    rcases ht with ht | ⟨ht, hu⟩
    · exact ht.elim
    · have := decodes_unk hW h (typed_zero hW _) (allUnk_zero hW _)
      cases hs with
      | list _ _ _ z hz =>
        rcases List.mem_append.1 hz with hz | hz
        · exact hu _ _ (.list _ _ _ _ hz)
        · rw [List.mem_singleton.1 hz]; exact this
  | .msgElemInline _ id _ _ xs m _ h, ht, _, _, hs => by
    rcases ht with ht | ⟨ht, hu⟩
    · exact ht.elim
    · have := decodes_unk hW h (typed_zero hW _) (allUnk_zero hW _)
      cases hs with
      | list _ _ _ z hz =>
        rcases List.mem_append.1 hz with hz | hz
        · exact hu _ _ (.list _ _ _ _ hz)
        · rw [List.mem_singleton.1 hz]; exact this
  | .entry _ _ _ _ _ _ _ _ _ _ _ _ _, _, _, _, hs => by cases hs
  | .entryPtr _ _ id _ _ _ _ _ mm _ y _ _ _ hv, ht, _, _, hs => by
    rcases ht with ht | ⟨ht, hu⟩
    · exact ht.elim
    · have := decodes_unk hW hv (typed_zero hW _) (allUnk_zero hW _)
      cases hs with
      | map _ _ _ _ e he =>
        rcases mem_putEntry he with rfl | he
        · exact this
        · cases mm with
          | none => cases he
          | some mm => exact hu _ _ (.map _ _ _ _ _ he)
  | .entryInline _ _ id _ _ _ _ _ mm _ y _ _ _ hv, ht, _, _, hs => by
    rcases ht with ht | ⟨ht, hu⟩
    · exact ht.elim
    · have := decodes_unk hW hv (typed_zero hW _) (allUnk_zero hW _)
      cases hs with
      | map _ _ _ _ e he =>
        rcases mem_putEntry he with rfl | he
        · exact this
        · cases mm with
          | none => cases he
          | some mm => exact hu _ _ (.map _ _ _ _ _ he)
end

end Verif.Lemmas
