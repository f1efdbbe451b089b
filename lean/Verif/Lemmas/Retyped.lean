import Verif.Spec.Retyped
import Verif.Lemmas.Lift
/-! # Fields with changed types: the encoding is the same -/
namespace Verif.Lemmas.Retype
open Verif.Spec Verif.Model

variable {S T : Schema}

theorem int_mod_toNat (v : BitVec 64) : (v.toInt % 2 ^ 64).toNat = v.toNat := by
  have := v.isLt
  rw [BitVec.toInt_eq_toNat_cond]
  split <;> omega

theorem signExtend_toInt (v : BitVec 32) : (v.signExtend 64).toInt = v.toInt := BitVec.toInt_signExtend_of_le (by decide)

theorem signExtend_toNat (v : BitVec 32) : (v.signExtend 64).toNat = (v.toInt % 2 ^ 64).toNat := by
  rw [← int_mod_toNat, signExtend_toInt]

theorem setWidth_toNat (v : BitVec 32) : (v.setWidth 64).toNat = v.toNat := by
  have := v.isLt
  simp only [BitVec.toNat_setWidth]
  omega

theorem widen_encode {s t : Scalar} (h : Widens s t = true) {x : Val} (hx : s.goType.holds x = true) :
    t.encode (widen s t x) = s.encode x := by
  cases s <;> cases t <;> (first | (cases h; done) | skip) <;> cases x <;> (first | (cases hx; done) | skip) <;>
    simp only [widen, Scalar.encode, int_mod_toNat, signExtend_toInt, signExtend_toNat, setWidth_toNat, Option.getD_some]
  all_goals (rename_i b; cases b <;> rfl)

theorem widen_wire {s t : Scalar} (h : Widens s t = true) : t.wire = s.wire := by
  cases s <;> cases t <;> first | rfl | cases h

theorem widen_default {s t : Scalar} (h : Widens s t = true) {x : Val} (hx : s.goType.holds x = true) :
    isDefault (widen s t x) = isDefault x := by
  cases s <;> cases t <;> (first | (cases h; done) | skip) <;> cases x <;> (first | (cases hx; done) | skip) <;>
    simp only [widen, isDefault, Option.getD_some]
  all_goals first
    | (rename_i b; cases b <;> rfl)
    | (rename_i v; rw [Bool.eq_iff_iff, beq_iff_eq, beq_iff_eq, ← BitVec.toInt_inj, ← BitVec.toInt_inj, signExtend_toInt]; rfl)
    | (rename_i v; rw [Bool.eq_iff_iff, beq_iff_eq, beq_iff_eq, ← BitVec.toNat_inj, ← BitVec.toNat_inj, setWidth_toNat]; rfl)

theorem widen_holds {s t : Scalar} (h : Widens s t = true) {x : Val} (hx : s.goType.holds x = true) :
    t.goType.holds (widen s t x) = true := by
  cases s <;> cases t <;> (first | (cases h; done) | skip) <;> cases x <;> first | rfl | cases hx

theorem concatM_pairs {α β : Type} {g : α → Option Bytes} {g' : β → Option Bytes} : ∀ {xs : List α} {ys : List β}, xs.length = ys.length →
    (∀ p ∈ xs.zip ys, g p.1 = g' p.2) → concatM g xs = concatM g' ys
  | [], [], _, _ => rfl
  | x :: xs, y :: ys, hl, h => by
    have h1 : g x = g' y := h (x, y) (by simp)
    have h2 := concatM_pairs (xs := xs) (ys := ys) (by simpa using hl) (fun p hp => h p (by simp [hp]))
    simp only [concatM, h1, h2]

theorem concatM_same {α β γ : Type} {g : α → Option Bytes} {g' : β → Option Bytes} {a : γ → α} {b : γ → β} : ∀ {zs : List γ},
    (∀ z ∈ zs, g (a z) = g' (b z)) → concatM g (zs.map a) = concatM g' (zs.map b)
  | [], _ => rfl
  | z :: zs, h => by
    have h2 := concatM_same (zs := zs) (fun z hz => h z (by simp [hz]))
    simp only [List.map_cons, concatM, h z (by simp), h2]

theorem shape_encode {enc enc' : Nat → Val → Option Bytes} (henc : ∀ id v w, Wide S T id v w → enc id v = enc' id w) (num : Nat) (keep : Bool)
    {a b : Shape} (hc : ShapeChange a b) {d e : Val} (h : WideShape S T a b d e) (hk : keep = true → ∃ w, (∃ s, b = .single s) ∨ b = .msg w true) :
    encodeShape S enc num keep a d = encodeShape T enc' num keep b e := by
  cases h with
  | single s t x hx =>
    cases hc with | single _ _ hw =>
    simp only [encodeShape, widen_encode hw hx, widen_wire hw, widen_default hw hx]
  | absent => rfl
  | optional s t x hx =>
    cases hc with | optional _ _ hw =>
    simp only [encodeShape, widen_encode hw hx, widen_wire hw]
  | list s t p xs hx =>
    cases hc with | list _ _ _ hw =>
    have h1 : concatM s.encode xs = concatM t.encode (xs.map (widen s t)) := by
      have := concatM_same (g := s.encode) (g' := t.encode) (a := id) (b := widen s t) (zs := xs) (fun z hz => (widen_encode hw (hx z hz)).symm)
      simpa using this
    have h2 := concatM_same (g := fun v => do return tag num s.wire ++ (← s.encode v)) (g' := fun v => do return tag num t.wire ++ (← t.encode v))
      (a := id) (b := widen s t) (zs := xs) (fun z hz => by simp only [id, widen_encode hw (hx z hz), widen_wire hw])
    simp only [List.map_id_fun, id] at h2
    simp only [encodeShape, h1, h2, List.isEmpty_map]
  | noPresence s t x hx hd =>
    cases keep with
    | true => obtain ⟨w, ⟨s, h⟩ | h⟩ := hk rfl <;> cases h
    | false =>
      have ha := encode_some hx
      simp [encodeShape, hd, ha]
  | presence s t x hx hd =>
    cases hc with | presence _ _ hw =>
    simp [encodeShape, hd, widen_encode hw hx, widen_wire hw]
  | noElem s t x hx hd =>
    cases keep with
    | true => obtain ⟨w, ⟨s, h⟩ | h⟩ := hk rfl <;> cases h
    | false =>
      have ha := encode_some hx
      simp [encodeShape, hd, ha, concatM]
  | elem s t x hx hd =>
    cases hc with | singleList _ _ hw =>
    have ha := encode_some hx
    simp [encodeShape, hd, widen_encode hw hx, widen_wire hw, concatM, ha]
  | absentElem => rfl
  | optionalElem s t x hx =>
    cases hc with | optionalList _ _ hw =>
    have ha := encode_some hx
    simp [encodeShape, widen_encode hw hx, widen_wire hw, concatM, ha]
  | noMsg => rfl
  | msg id v w h => simp only [encodeShape, henc id v w h]
  | noMsgElem id =>
    cases keep with
    | true => obtain ⟨w, ⟨s, h⟩ | h⟩ := hk rfl <;> cases h
    | false => rfl
  | msgElem id v w h =>
    simp only [encodeShape, henc id v w h, concatM, deref, if_true]
    cases enc' id w <;> simp
  | msgList id p zs h => exact concatM_same (fun z hz => by simp only [henc id _ _ (h z hz)])
  | map k v => cases d <;> rfl
  | nilMap => rfl
  | mapMsg k id p zs h => exact concatM_same (fun z hz => by simp only [henc id _ _ (h z hz)])

theorem no_inline (a : Shape) (i : Nat) : ¬ ShapeChange a (.msg i false) := by intro h; cases h

/-- The encoding of a message does not change. -/
theorem wide_encode (hT : T.WF) (hR : Retyped S T) (keep : Bool) : ∀ (n id : Nat) (v w : Val), Wide S T id v w →
    encode S keep n id v = encode T keep n id w
  | 0, _, _, _, _ => rfl
  | n + 1, id, _, _, .mk _ xs ys h1 h2 h3 h4 => by
    have hf : concatM (encodeField S keep (encode S keep n) xs) (S id).fields = concatM (encodeField T keep (encode T keep n) ys) (T id).fields := by
      refine concatM_pairs (hR.length id) (fun p hp => ?_)
      obtain ⟨q1, q2, q3, q4⟩ := hR.fields id p hp
      have hg := (List.of_mem_zip (a := p.1) (b := p.2) hp).2
      have hl : p.2.slot < ys.length := h2 ▸ (hT id).slots _ hg
      have hl' : p.1.slot < xs.length := by rw [h1, hR.nslots id, ← q2, ← h2]; exact hl
      have e := List.getElem?_eq_getElem hl
      have e' := List.getElem?_eq_getElem hl'
      have := h3 p.1 p.2 hp _ _ e' e
      simp only [encodeField, e, e']
      cases this with
      | unset _ _ _ _ a b => simp [a, b]
      | set _ _ _ _ d d' a b c =>
        simp only [a, b, Option.bind_eq_bind, Option.bind_some, q1, q3]
        refine shape_encode (wide_encode hT hR keep n) _ _ q4 c (fun hk => ?_)
        have hm : p.2.member ≠ none := by
          intro h
          rw [q3] at h
          simp [h] at hk
        rcases (hT id).members _ hg hm with ⟨s, h⟩ | ⟨i, q, h⟩
        · exact ⟨0, .inl ⟨s, h⟩⟩
        · cases q with
          | true => exact ⟨i, .inr h⟩
          | false => rw [h] at q4; exact absurd q4 (no_inline _ _)
    simp only [encode, hf, h4]

/-! ## every message can be converted -/

theorem zip_right {bs : List Field} : ∀ {as : List Field}, as.length = bs.length → ∀ g ∈ bs, ∃ f, (f, g) ∈ as.zip bs := by
  induction bs with
  | nil => intro as _ g hg; cases hg
  | cons b bs ih =>
    intro as hl g hg
    cases as with
    | nil => cases hl
    | cons a as =>
      rcases List.mem_cons.1 hg with rfl | hg
      · exact ⟨a, by simp⟩
      · obtain ⟨f, hf⟩ := ih (as := as) (by simpa using hl) g hg
        exact ⟨f, by simp [hf]⟩

theorem unknown_same (hR : Retyped S T) (id : Nat) (xs : List Val) : unknownOf (S id) xs = unknownOf (T id) xs := by
  simp only [unknownOf, hR.unknown id]

theorem exists_firsts {R : Val → Val → Prop} : ∀ xs : List Val, (∀ x ∈ xs, ∃ y, R x y) →
    ∃ zs : List (Val × Val), xs = zs.map (·.1) ∧ ∀ z ∈ zs, R z.1 z.2
  | [], _ => ⟨[], rfl, by simp⟩
  | x :: xs, h => by
    obtain ⟨zs, h1, h2⟩ := exists_firsts xs (fun y hy => h y (by simp [hy]))
    obtain ⟨y, hy⟩ := h x (by simp)
    refine ⟨(x, y) :: zs, by simp [h1], fun z hz => ?_⟩
    rcases List.mem_cons.1 hz with rfl | hz
    · exact hy
    · exact h2 z hz

theorem exists_entries {R : Val → Val → Prop} : ∀ m : List (Key × Val), (∀ e ∈ m, ∃ y, R e.2 y) →
    ∃ zs : List (Key × Val × Val), m = zs.map (fun z => (z.1, z.2.1)) ∧ ∀ z ∈ zs, R z.2.1 z.2.2
  | [], _ => ⟨[], rfl, by simp⟩
  | e :: m, h => by
    obtain ⟨zs, h1, h2⟩ := exists_entries m (fun e he => h e (by simp [he]))
    obtain ⟨y, hy⟩ := h e (by simp)
    refine ⟨(e.1, e.2, y) :: zs, by simp [h1], fun z hz => ?_⟩
    rcases List.mem_cons.1 hz with rfl | hz
    · exact hy
    · exact h2 z hz

theorem wide_zero (hS : S.WF) (hT : T.WF) (hR : Retyped S T) (id : Nat) : Wide S T id (S id).zero (T id).zero := by
  obtain ⟨zs, e, _⟩ := (hS id).zero
  obtain ⟨zs', e', _⟩ := (hT id).zero
  obtain ⟨_, a2, a3, a4⟩ := zero_slots hS e
  obtain ⟨_, b2, b3, b4⟩ := zero_slots hT e'
  rw [e, e']
  refine .mk _ _ _ a3 b3 (fun f g hp x y hx hy => ?_) (by rw [a2, b2])
  obtain ⟨hf, hg⟩ := List.of_mem_zip hp
  obtain ⟨q1, q2, q3, q4⟩ := hR.fields id _ hp
  rw [a4 f hf] at hx
  rw [b4 g hg] at hy
  cases hx; cases hy
  simp only at q3 q4
  cases hm : f.member with
  | some w =>
    rw [hm] at q3
    exact .unset _ _ _ _ (by simp only [Field.zero, Field.content, hm]) (by simp only [Field.zero, Field.content, q3])
  | none =>
    rw [hm] at q3
    refine .set _ _ _ _ (f.zero S) (g.zero T) (by simp only [Field.content, hm]) (by simp only [Field.content, q3]) ?_
    simp only [Field.zero, hm, q3]
    generalize f.shape = a at q4
    generalize g.shape = b at q4
    have hz : ∀ s : Scalar, s.goType.holds s.zero = true := fun s => by cases s <;> rfl
    have hd : ∀ s : Scalar, isDefault s.zero = true := fun s => by cases s <;> rfl
    cases q4 with
    | single s t h =>
      have : t.zero = widen s t s.zero := by cases s <;> cases t <;> first | rfl | cases h
      simp only [this]
      exact .single _ _ _ (hz s)
    | optional => exact .absent _ _
    | list s t p => exact .list _ _ _ [] (by simp)
    | presence s => exact .noPresence _ _ _ (hz s) (hd s)
    | singleList s => exact .noElem _ _ _ (hz s) (hd s)
    | optionalList => exact .absentElem _ _
    | msg => exact .noMsg _
    | oneToList => exact .noMsgElem _
    | msgList id p => exact .msgList _ _ [] (by simp)
    | map => exact .map _ _ _
    | mapMsg => exact .nilMap _ _ _

section
variable (hS : S.WF) (hT : T.WF) (hR : Retyped S T)
include hS hT hR

mutual
theorem wide_msg {id : Nat} {v : Val} : Typed S id v → ∃ w, Typed T id w ∧ Wide S T id v w
  | .mk _ xs h1 h2 h3 => by
    have hlf := fun f hf x hx => wide_field (h2 f hf x hx)
    have slot : ∀ i < (T id).nslots, ∃ y, (∀ f g, (f, g) ∈ (S id).fields.zip (T id).fields → f.slot = i → ∀ x, xs[i]? = some x →
        FieldTyped T g y ∧ WideField S T f g x y) ∧ ((∀ f ∈ (S id).fields, f.slot ≠ i) → xs[i]? = some y) := by
      intro i hi
      have hl : i < xs.length := by rw [h1, hR.nslots id]; exact hi
      have hx : xs[i]? = some xs[i] := List.getElem?_eq_getElem hl
      generalize xs[i] = x at hx
      by_cases hC : ∃ f g e, (f, g) ∈ (S id).fields.zip (T id).fields ∧ f.slot = i ∧ f.content x = some e
      · obtain ⟨f, g, e, hp, hfi, hce⟩ := hC
        obtain ⟨hf, hg⟩ := List.of_mem_zip hp
        obtain ⟨q1, q2, q3, q4⟩ := hR.fields id _ hp
        simp only at q1 q2 q3 q4
        obtain ⟨e', r1, r2⟩ := hlf f hf x (by rw [hfi]; exact hx) e g.shape hce q4
        have inj : ∀ f' g', (f', g') ∈ (S id).fields.zip (T id).fields → f.num = f'.num → f' = f ∧ g' = g := by
          intro f' g' hp' hn
          obtain ⟨hf', hg'⟩ := List.of_mem_zip hp'
          obtain ⟨p1, _⟩ := hR.fields id _ hp'
          simp only at p1
          exact ⟨(fields_num_inj (hS id) hf hf' hn).symm, (fields_num_inj (hT id) hg hg' (by rw [q1, p1, hn])).symm⟩
        cases hm : f.member with
        | none =>
          have hye : e = x := by simpa [Field.content, hm] using hce.symm
          subst hye
          refine ⟨e', fun f' g' hp' hs' x' hx' => ?_, fun h => absurd hfi (h f hf)⟩
          rw [hx] at hx'; cases hx'
          by_cases hn : f.num = f'.num
          · obtain ⟨rfl, rfl⟩ := inj f' g' hp' hn
            rw [hm] at q3
            exact ⟨.plain _ _ q3 r1, .set _ _ _ _ _ _ hce (by simp only [Field.content, q3]) r2⟩
          · obtain ⟨w, w', e1, e2, e3⟩ := (hS id).disjoint f hf f' (List.of_mem_zip hp').1 hn (hfi.trans hs'.symm)
            rw [hm] at e1; cases e1
        | some w =>
          have hyw : x = .iface (some (w, some e)) := by
            simp only [Field.content, hm] at hce
            split at hce
            · split at hce
              · rename_i hw; cases hce; rw [hw]
              · cases hce
            · cases hce
          subst hyw
          refine ⟨.iface (some (w, some e')), fun f' g' hp' hs' x' hx' => ?_, fun h => absurd hfi (h f hf)⟩
          rw [hx] at hx'; cases hx'
          by_cases hn : f.num = f'.num
          · obtain ⟨rfl, rfl⟩ := inj f' g' hp' hn
            rw [hm] at q3
            exact ⟨.member _ _ _ q3 r1, .set _ _ _ _ _ _ hce (by simp only [Field.content, q3, if_true]) r2⟩
          · obtain ⟨w1, w', e1, e2, e3⟩ := (hS id).disjoint f hf f' (List.of_mem_zip hp').1 hn (hfi.trans hs'.symm)
            rw [hm] at e1; cases e1
            have p3 := (hR.fields id _ hp').2.2.1
            simp only at p3
            rw [e2] at p3
            exact ⟨.otherMember _ _ _ _ p3 (Ne.symm e3), .unset _ _ _ _ (by simp [Field.content, e2, Ne.symm e3]) (by simp [Field.content, p3, Ne.symm e3])⟩
      · have hnone : ∀ f g, (f, g) ∈ (S id).fields.zip (T id).fields → f.slot = i → f.content x = none := by
          intro f g hp hs'
          cases hc : f.content x with
          | none => rfl
          | some e => exact absurd ⟨f, g, e, hp, hs', hc⟩ hC
        refine ⟨x, fun f g hp hs' x' hx' => ?_, fun _ => hx⟩
        rw [hx] at hx'; cases hx'
        have hcn := hnone f g hp hs'
        obtain ⟨hf, hg⟩ := List.of_mem_zip hp
        obtain ⟨q1, q2, q3, q4⟩ := hR.fields id _ hp
        simp only at q3
        have hft := h2 f hf x (by rw [hs']; exact hx)
        cases hm : f.member with
        | none => simp [Field.content, hm] at hcn
        | some w =>
          rw [hm] at q3
          have hcg : g.content x = none := by simpa only [Field.content, hm, q3] using hcn
          refine ⟨?_, .unset _ _ _ _ hcn hcg⟩
          cases hft with
          | plain _ _ h => rw [hm] at h; cases h
          | unset _ w' h => exact .unset _ _ q3
          | nilMember _ w' w'' h => exact .nilMember _ _ _ q3
          | member _ w' d h => simp [Field.content, h] at hcn
          | otherMember _ w' w'' d h hne =>
            rw [hm] at h; cases h
            exact .otherMember _ _ _ _ q3 hne
    obtain ⟨ys, hyl, hq⟩ := exists_list _ _ slot
    have hlx : xs.length = ys.length := by rw [h1, hyl, hR.nslots id]
    have old : ∀ i, (∀ f ∈ (S id).fields, f.slot ≠ i) → ys[i]? = xs[i]? := by
      intro i h
      by_cases hi : i < ys.length
      · have := List.getElem?_eq_getElem hi
        rw [this, (hq i _ this).2 h]
      · rw [List.getElem?_eq_none (by omega), List.getElem?_eq_none (by omega)]
    have hunk : ∀ s p, (S id).unknown = some (s, p) → ys[s]? = xs[s]? := fun s p hu =>
      old s (fun f hf => unknown_ne_slot hS hf s p hu)
    refine ⟨.struct ys, .mk _ _ hyl (fun g hg y hy => ?_) (fun s p y hu hy => ?_), .mk _ _ _ h1 hyl (fun f g hp x y hx hy => ?_) ?_⟩
    · obtain ⟨f, hp⟩ := zip_right (hR.length id) g hg
      have q2 := (hR.fields id _ hp).2.1
      simp only at q2
      have hl : f.slot < xs.length := by rw [h1]; exact (hS id).slots f (List.of_mem_zip hp).1
      exact ((hq _ y hy).1 f g hp q2.symm _ (by rw [q2]; exact List.getElem?_eq_getElem hl)).1
    · rw [← hR.unknown id] at hu
      rw [hunk s p hu] at hy
      exact h3 s p y hu hy
    · have q2 := (hR.fields id _ hp).2.1
      simp only at q2
      rw [q2] at hy
      exact ((hq _ y hy).1 f g hp rfl x hx).2
    · rw [← unknown_same hR]
      cases hu : (S id).unknown with
      | none => simp [unknownOf, hu]
      | some sp => simp only [unknownOf, hu, hunk sp.1 sp.2 hu]
theorem wide_field {f : Field} {x : Val} : FieldTyped S f x → ∀ e b, f.content x = some e → ShapeChange f.shape b →
    ∃ e', ShapeTyped T b e' ∧ WideShape S T f.shape b e e'
  | .plain _ _ hm h => fun e b hc hch => by
    simp only [Field.content, hm, Option.some.injEq] at hc
    have hr := wide_shape h
    subst hc
    exact hr b hch
  | .unset _ _ hm => fun e b hc => by simp [Field.content, hm] at hc
  | .nilMember _ _ _ hm => fun e b hc => by simp [Field.content, hm] at hc
  | .member _ _ _ hm h => fun e b hc hch => by
    simp only [Field.content, hm, if_true, Option.some.injEq] at hc
    have hr := wide_shape h
    subst hc
    exact hr b hch
  | .otherMember _ _ _ _ hm hn => fun e b hc => by simp [Field.content, hm, hn] at hc
theorem wide_shape {a : Shape} {x : Val} : ShapeTyped S a x → ∀ b, ShapeChange a b → ∃ y, ShapeTyped T b y ∧ WideShape S T a b x y
  | .single s v h => fun b hc => by
    cases hc with
    | single _ t hw => exact ⟨_, .single _ _ (widen_holds hw h), .single _ _ _ h⟩
    | presence _ t hw =>
      cases hd : isDefault v with
      | true => exact ⟨_, .optionalNil _, .noPresence _ _ _ h hd⟩
      | false => exact ⟨_, .optional _ _ (widen_holds hw h), .presence _ _ _ h hd⟩
    | singleList _ t hw =>
      cases hd : isDefault v with
      | true => exact ⟨_, .list _ _ [] (by simp), .noElem _ _ _ h hd⟩
      | false => exact ⟨_, .list _ _ [_] (by simpa using widen_holds hw h), .elem _ _ _ h hd⟩
  | .optionalNil s => fun b hc => by
    cases hc with
    | optional _ t hw => exact ⟨_, .optionalNil _, .absent _ _⟩
    | optionalList _ t hw => exact ⟨_, .list _ _ [] (by simp), .absentElem _ _⟩
  | .optional s v h => fun b hc => by
    cases hc with
    | optional _ t hw => exact ⟨_, .optional _ _ (widen_holds hw h), .optional _ _ _ h⟩
    | optionalList _ t hw => exact ⟨_, .list _ _ [_] (by simpa using widen_holds hw h), .optionalElem _ _ _ h⟩
  | .list s p xs h => fun b hc => by
    cases hc with
    | list _ t _ hw =>
      refine ⟨_, .list _ _ _ (fun v hv => ?_), .list _ _ _ _ h⟩
      obtain ⟨u, hu, rfl⟩ := List.mem_map.1 hv
      exact widen_holds hw (h u hu)
  | .mapNil k v => fun b hc => by cases hc; exact ⟨_, .mapNil _ _, .map _ _ _⟩
  | .map k v m h h' => fun b hc => by cases hc; exact ⟨_, .map _ _ _ h h', .map _ _ _⟩
  | .mapMsgNil k id p => fun b hc => by cases hc; exact ⟨_, .mapMsgNil _ _ _, .nilMap _ _ _⟩
  | .msg id p v h => fun b hc => by
    obtain ⟨y, r1, r2, r3⟩ := wide_ref h
    cases hc with
    | msg =>
      refine ⟨y, .msg _ _ _ r1, ?_⟩
      rcases r3 with ⟨_, rfl, rfl⟩ | ⟨a, b, _, rfl, rfl⟩ | h
      · exact .noMsg _
      · exact .msg _ _ _ r2
      · cases h
    | oneToList =>
      rcases r3 with ⟨_, rfl, rfl⟩ | ⟨a, b, _, rfl, rfl⟩ | h
      · exact ⟨_, .msgList _ _ [] (by simp), .noMsgElem _⟩
      · exact ⟨.slice [.ptr (some b)], .msgList _ _ _ (by simpa using r1), .msgElem _ _ _ r2⟩
      · cases h
  | .msgList id p xs h => fun b hc => by
    cases hc
    obtain ⟨zs, rfl, hz⟩ := exists_firsts (R := fun x y => RefTyped T id p y ∧ Wide S T id (deref S id p x) (deref T id p y)) xs
      (fun x hx => by
        obtain ⟨y, r1, r2, _⟩ := wide_ref (h x hx)
        exact ⟨y, r1, r2⟩)
    refine ⟨.slice (zs.map (·.2)), .msgList _ _ _ (fun v hv => ?_), .msgList _ _ zs (fun z h => (hz z h).2)⟩
    obtain ⟨z, hzz, rfl⟩ := List.mem_map.1 hv
    exact (hz z hzz).1
  | .mapMsg k id p m hn hk h => fun b hc => by
    cases hc
    obtain ⟨zs, rfl, hz⟩ := exists_entries (R := fun x y => RefTyped T id p y ∧ Wide S T id (deref S id p x) (deref T id p y)) m
      (fun e he => by
        obtain ⟨y, r1, r2, _⟩ := wide_ref (h e he)
        exact ⟨y, r1, r2⟩)
    refine ⟨.map (some (zs.map (fun z => (z.1, z.2.2)))), .mapMsg _ _ _ _ (by simpa [List.map_map, Function.comp_def] using hn) (fun e he => ?_)
      (fun e he => ?_), .mapMsg _ _ _ zs (fun z h => (hz z h).2)⟩
    · obtain ⟨z, hzz, rfl⟩ := List.mem_map.1 he
      exact hk (z.1, z.2.1) (List.mem_map.2 ⟨z, hzz, rfl⟩)
    · obtain ⟨z, hzz, rfl⟩ := List.mem_map.1 he
      exact (hz z hzz).1
theorem wide_ref {id : Nat} {p : Bool} {x : Val} : RefTyped S id p x → ∃ y, RefTyped T id p y ∧ Wide S T id (deref S id p x) (deref T id p y) ∧
    ((p = true ∧ x = .ptr none ∧ y = .ptr none) ∨ (∃ a b, p = true ∧ x = .ptr (some a) ∧ y = .ptr (some b)) ∨ p = false)
  | .nil _ => ⟨.ptr none, .nil _, wide_zero hS hT hR id, .inl ⟨rfl, rfl, rfl⟩⟩
  | .ptr _ v h => by
    obtain ⟨w, h1, h2⟩ := wide_msg h
    exact ⟨_, .ptr _ _ h1, h2, .inr (.inl ⟨_, _, rfl, rfl, rfl⟩)⟩
  | .inline _ v h => by
    obtain ⟨w, h1, h2⟩ := wide_msg h
    exact ⟨_, .inline _ _ h1, h2, .inr (.inr rfl)⟩
end
end

/-! ## what holds for the message holds for the converted one -/

theorem change_hop {a b : Shape} (h : ShapeChange a b) : b.hop = a.hop := by cases h <;> rfl

theorem shape_sub {a b : Shape} {d e : Val} (h : WideShape S T a b d e) {i : Nat} {w' : Val} (hs : ShapeSub T b e i w') :
    ∃ v', ShapeSub S a d i v' ∧ Wide S T i v' w' := by
  cases h with
  | msg id v w h => cases hs; exact ⟨_, .ptr _ _, h⟩
  | msgElem id v w h =>
    cases hs with
    | list _ _ _ x hx =>
      simp only [List.mem_singleton] at hx
      subst hx
      exact ⟨_, .ptr _ _, h⟩
  | msgList id p zs h =>
    cases hs with
    | list _ _ _ x hx =>
      obtain ⟨z, hz, rfl⟩ := List.mem_map.1 hx
      exact ⟨_, .list _ _ _ _ (List.mem_map.2 ⟨z, hz, rfl⟩), h z hz⟩
  | mapMsg k id p zs h =>
    cases hs with
    | map _ _ _ _ x hx =>
      obtain ⟨z, hz, rfl⟩ := List.mem_map.1 hx
      exact ⟨_, .map _ _ _ _ _ (List.mem_map.2 ⟨z, hz, rfl⟩), h z hz⟩
  | noMsgElem => cases hs with | list _ _ _ x hx => cases hx
  | _ => cases hs

theorem field_sub (hR : Retyped S T) {id : Nat} {xs ys : List Val} (h : Wide S T id (.struct xs) (.struct ys)) {g : Field}
    (hg : g ∈ (T id).fields) {i : Nat} {w' : Val} (hs : FieldSub T ys g i w') :
    ∃ f ∈ (S id).fields, ∃ v', FieldSub S xs f i v' ∧ Wide S T i v' w' ∧ f.shape.hop = g.shape.hop := by
  obtain ⟨f, hp⟩ := zip_right (hR.length id) g hg
  obtain ⟨q1, q2, q3, q4⟩ := hR.fields id _ hp
  simp only at q2 q4
  obtain ⟨y, e, hy, hc, hs⟩ := hs
  cases h with
  | mk _ _ _ h1 h2 h3 h4 =>
    have hl : f.slot < xs.length := by
      rw [h1, hR.nslots id, ← h2, ← q2]
      exact (List.getElem?_eq_some_iff.1 hy).1
    have hx := List.getElem?_eq_getElem hl
    cases h3 f g hp _ _ hx hy with
    | unset _ _ _ _ a b => rw [hc] at b; cases b
    | set _ _ _ _ d e' a b c =>
      rw [hc] at b; cases b
      obtain ⟨v', r1, r2⟩ := shape_sub c hs
      exact ⟨f, (List.of_mem_zip hp).1, v', ⟨_, _, hx, a, r1⟩, r2, (change_hop q4).symm⟩

theorem wide_struct {id : Nat} {v : Val} {ys : List Val} (h : Wide S T id v (.struct ys)) : ∃ xs, v = .struct xs := by
  cases h; exact ⟨_, rfl⟩

theorem nested_back (hR : Retyped S T) : ∀ {c id : Nat} {v w : Val}, NestedBy T c id w → Wide S T id v w → NestedBy S c id v
  | _, _, _, _, .zero _ _, _ => .zero _ _
  | _, id, v, _, .step c _ ys g i w' hg hs h, hw => by
    obtain ⟨xs, rfl⟩ := wide_struct hw
    obtain ⟨f, hf, v', r1, r2, r3⟩ := field_sub hR hw hg hs
    have := nested_back hR h r2
    rw [← r3]
    exact .step _ _ _ _ _ _ hf r1 this

theorem reach_back (hR : Retyped S T) : ∀ {id i : Nat} {v w u : Val}, Reach T id w i u → Wide S T id v w → ∃ v', Reach S id v i v' ∧ Wide S T i v' u
  | _, _, v, _, _, .refl _ _, hw => ⟨v, .refl _ _, hw⟩
  | _, _, v, _, _, .step _ _ _ w' _ _ (.mk _ ys g _ _ hg hs) h, hw => by
    obtain ⟨xs, rfl⟩ := wide_struct hw
    obtain ⟨f, hf, v', r1, r2, r3⟩ := field_sub hR hw hg hs
    obtain ⟨u', a1, a2⟩ := reach_back hR h r2
    exact ⟨u', .step _ _ _ _ _ _ (.mk _ _ f _ _ hf r1) a1, a2⟩

theorem unknown_back (hR : Retyped S T) {id : Nat} {v w : Val} (h : Wide S T id v w) (hu : UnknownOK S id v) : UnknownOK T id w := by
  cases h with
  | mk _ xs ys h1 h2 h3 h4 =>
    intro slots e
    cases e
    obtain ⟨rs, a1, a2⟩ := hu xs rfl
    refine ⟨rs, h4 ▸ a1, fun r hr => ⟨fun g hg => ?_, (a2 r hr).2⟩⟩
    obtain ⟨f, hp⟩ := zip_right (hR.length id) g hg
    have q1 := (hR.fields id _ hp).1
    simp only at q1
    rw [q1]
    exact (a2 r hr).1 f (List.of_mem_zip hp).1

theorem count_member {a b : Shape} (hc : ShapeChange a b) (hb : (∃ s, b = .single s) ∨ (∃ i p, b = .msg i p)) {d e : Val} (h : WideShape S T a b d e) :
    recordCount T b e = recordCount S a d := by
  cases h with
  | single s t x hx =>
    cases hc with | single _ _ hw =>
    simp only [recordCount, widen_default hw hx]
  | noMsg => rfl
  | msg => rfl
  | _ => rcases hb with ⟨s, h⟩ | ⟨i, p, h⟩ <;> cases h

theorem members_back (hT : T.WF) (hR : Retyped S T) {id : Nat} {v w : Val} (h : Wide S T id v w) (hm : MembersShown S id v) : MembersShown T id w := by
  cases h with
  | mk _ xs ys h1 h2 h3 h4 =>
    intro slots e g hg hgm y d hy hc
    cases e
    obtain ⟨f, hp⟩ := zip_right (hR.length id) g hg
    obtain ⟨q1, q2, q3, q4⟩ := hR.fields id _ hp
    simp only at q2 q3 q4
    have hl : f.slot < xs.length := by
      rw [h1, hR.nslots id, ← h2, ← q2]
      exact (List.getElem?_eq_some_iff.1 hy).1
    have hx := List.getElem?_eq_getElem hl
    cases h3 f g hp _ _ hx hy with
    | unset _ _ _ _ a b => rw [hc] at b; cases b
    | set _ _ _ _ d' e' a b c =>
      rw [hc] at b; cases b
      rw [count_member q4 ((hT id).members g hg hgm) c]
      exact hm xs rfl f (List.of_mem_zip hp).1 (by rw [← q3]; exact hgm) _ _ hx a

end Verif.Lemmas.Retype
