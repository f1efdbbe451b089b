import Verif.Lemmas.Rearranged
import Verif.Lemmas.Narrowed
/-! # Messages read from the same input by programs whose Go fields have another order are written the same -/
namespace Verif.Lemmas.Relayed
open Verif.Spec Verif.Model Verif.Lemmas.Retype Verif.Lemmas.Narrow

variable {S T : Schema}

theorem narrows_refl (t : Scalar) : Narrows t t = true := by cases t <;> rfl

theorem cut_self (t : Scalar) (x : Val) : cut t t x = x := by
  cases t <;> cases x <;> rfl

theorem cut_same {t : Scalar} {x y : Val} (h : Cut t t x y) : SameScalar x y := by
  unfold Cut at h
  rw [narrows_refl, cut_self] at h
  exact h

theorem same_encode {x y : Val} (h : SameScalar x y) (s : Scalar) : s.encode x = s.encode y ∧ isDefault x = isDefault y := by
  cases x <;> cases y <;> first
    | (simp only [SameScalar] at h; first | (cases h; done) | (cases h; exact ⟨rfl, rfl⟩))
    | (rename_i a b
       have h : a.getD [] = b.getD [] := h
       cases a <;> cases b <;> simp only [Option.getD_none, Option.getD_some] at h <;> subst_vars <;> cases s <;> exact ⟨rfl, rfl⟩)

theorem cut_deref (hT : T.WF) (hS : S.WF) (hN : Narrowed T S) {id : Nat} {p : Bool} {x y : Val} (h : CutRef T S id p x y) :
    CutMsg T S id (deref T id p x) (deref S id p y) := by
  cases h with
  | nil => exact cut_zero hT hS hN id
  | ptr _ _ _ h => exact h
  | inline _ _ _ h => exact h

theorem shape_same (hT : T.WF) (hS : S.WF) (hN : Narrowed T S) {enc enc' : Nat → Val → Option Bytes}
    (henc : ∀ id v w, CutMsg T S id v w → enc id v = enc' id w) (num : Nat)
    {a b : Shape} (hp : ∀ i, a ≠ .msg i false) (e : b = a) {d d' : Val} (h : CutShape T S a b d d') :
    encodeShape T enc num false a d = encodeShape S enc' num false b d' := by
  cases h <;> (try (cases e; done))
  case single t s h =>
    cases e
    obtain ⟨h1, h2⟩ := same_encode (cut_same h) t
    simp only [encodeShape, h1, h2]
  case absent => cases e; rfl
  case optional t s x y h =>
    cases e
    simp only [encodeShape, (same_encode (cut_same h) t).1]
  case list t s p q zs h =>
    cases e
    have h1 := concatM_same (g := t.encode) (g' := t.encode) (a := (·.1)) (b := (·.2)) (zs := zs) (fun z hz => (same_encode (cut_same (h z hz)) t).1)
    have h2 := concatM_same (g := fun v => do return tag num t.wire ++ (← t.encode v)) (g' := fun v => do return tag num t.wire ++ (← t.encode v))
      (a := (·.1)) (b := (·.2)) (zs := zs) (fun z hz => by simp only [(same_encode (cut_same (h z hz)) t).1])
    simp only [encodeShape, h1, h2, List.isEmpty_map]
  case noEntries => cases e; rfl
  case map k t s zs h =>
    cases e
    exact concatM_same (fun z hz => by simp only [(same_encode (cut_same (h z hz)) t).1])
  case msg id p h =>
    cases p with
    | false => exact absurd rfl (hp id)
    | true =>
      cases h with
      | nil => rfl
      | ptr _ v w h => simp only [encodeShape, henc id v w h]
  case msgList id p zs h => exact concatM_same (fun z hz => by simp only [henc id _ _ (cut_deref hT hS hN (h z hz))])
  case nilMap => rfl
  case mapMsg k id p zs h => exact concatM_same (fun z hz => by simp only [henc id _ _ (cut_deref hT hS hN (h z hz))])

theorem cut_encode (hT : T.WF) (hS : S.WF) (hR : Reordered T S) (hu : ∀ id, (T id).unknown.isSome = (S id).unknown.isSome)
    (hp : ∀ id, ∀ f ∈ (T id).fields, ∀ i, f.shape ≠ .msg i false) : ∀ (n id : Nat) (v w : Val), CutMsg T S id v w →
    encode T false n id v = encode S false n id w
  | 0, _, _, _, _ => rfl
  | n + 1, id, _, _, .mk _ xs ys h1 h2 h3 h4 => by
    have hN := Rearrange.reordered_narrowed hR
    have hf : concatM (encodeField T false (encode T false n) xs) (T id).fields = concatM (encodeField S false (encode S false n) ys) (S id).fields := by
      refine concatM_pairs (hR.length id) (fun p hpz => ?_)
      obtain ⟨q1, q2, q3⟩ := hR.fields id p hpz
      have hm := List.of_mem_zip (a := p.1) (b := p.2) hpz
      obtain ⟨y, e⟩ : ∃ y, ys[p.2.slot]? = some y := ⟨_, List.getElem?_eq_getElem (h2 ▸ (hS id).slots _ hm.2 : p.2.slot < ys.length)⟩
      obtain ⟨x, e'⟩ : ∃ x, xs[p.1.slot]? = some x := ⟨_, List.getElem?_eq_getElem (h1 ▸ (hT id).slots _ hm.1 : p.1.slot < xs.length)⟩
      have h := h3 p.1 p.2 hpz _ _ e' e
      have hs := fun {d d' : Val} (hc : CutShape T S p.1.shape p.2.shape d d') =>
        shape_same hT hS hN (cut_encode hT hS hR hu hp n) p.1.num (hp id _ hm.1) q3 hc
      simp only [encodeField, e, e', Field.content, q2, Option.bind_eq_bind, Option.bind_some, q1, Bool.and_false]
      cases h with
      | plain _ _ _ _ hm _ hc => simp only [hm]; exact hs hc
      | moveUnset _ _ hm hg => exact absurd (q2.trans hm) hg
      | moveSet _ _ w _ _ hm hg => rw [q2, hm] at hg; cases hg
      | unset _ _ hm =>
        cases hm' : p.1.member with
        | none => exact absurd hm' hm
        | some w => rfl
      | nilCase _ _ w hm =>
        cases hm' : p.1.member with
        | none => exact absurd hm' hm
        | some w => rfl
      | set _ _ w x y hm hc => simp only [hm, if_true]; exact hs hc
      | other _ _ w w' x y hm hne => simp only [hm, if_neg (Ne.symm hne)]
    have hk : unknownOf (T id) xs = unknownOf (S id) ys := by
      cases ht : (T id).unknown with
      | none =>
        have hs : (S id).unknown = none := by have := hu id; rw [ht] at this; cases h : (S id).unknown <;> simp_all
        simp [unknownOf, ht, hs]
      | some p => exact h4 (by rw [ht]; rfl) (by rw [← hu id, ht]; rfl)
    simp only [encode, hf, hk]

theorem cut_scalar_symm {t : Scalar} {x y : Val} (h : Cut t t x y) : Cut t t y x := by
  have h := cut_same h
  unfold Cut
  rw [narrows_refl, cut_self]
  cases x <;> cases y <;> first | exact Eq.symm h | cases h

theorem zip_swap {as : List Field} : ∀ {bs : List Field} {p : Field × Field}, p ∈ as.zip bs → (p.2, p.1) ∈ bs.zip as := by
  induction as with
  | nil => intro bs p hp; cases bs <;> cases hp
  | cons a as ih =>
    intro bs p hp
    cases bs with
    | nil => cases hp
    | cons b bs =>
      rcases List.mem_cons.1 hp with rfl | hp
      · exact .head _
      · exact .tail _ (ih hp)

section
variable (hR : Reordered T S)
include hR
mutual
theorem cut_symm {id : Nat} {v w : Val} : CutMsg T S id v w → CutMsg S T id w v
  | .mk _ xs ys h1 h2 h3 h4 => .mk _ ys xs h2 h1
      (fun g f hp y x ey ex => field_symm (h3 f g (zip_swap hp) x y ex ey) (hR.fields id _ (zip_swap hp)).2.1 (hR.fields id _ (zip_swap hp)).2.2)
      (fun a b => (h4 b a).symm)
theorem field_symm {f g : Field} {x y : Val} : CutField T S f g x y → g.member = f.member → g.shape = f.shape → CutField S T g f y x
  | .plain _ _ _ _ hm hg h, em, es => .plain _ _ _ _ hg hm (shape_symm h es)
  | .moveUnset _ _ hm hg, em, _ => absurd (em.trans hm) hg
  | .moveSet _ _ w _ _ hm hg _, em, _ => absurd ((hg.symm.trans em).trans hm) (by simp)
  | .unset _ _ hm, em, _ => .unset _ _ (em ▸ hm)
  | .nilCase _ _ w hm, em, _ => .nilCase _ _ w (em ▸ hm)
  | .set _ _ w _ _ hm h, em, es => .set _ _ w _ _ (em.trans hm) (shape_symm h es)
  | .other _ _ w w' _ _ hm hn, em, _ => .other _ _ w w' _ _ (em.trans hm) hn
theorem shape_symm {a b : Shape} {x y : Val} : CutShape T S a b x y → b = a → CutShape S T b a y x
  | .single t s _ _ h, e => by cases e; exact .single _ _ _ _ (cut_scalar_symm h)
  | .absent t s, _ => .absent _ _
  | .optional t s _ _ h, e => by cases e; exact .optional _ _ _ _ (cut_scalar_symm h)
  | .list t s p q zs h, e => by
    cases e
    have := CutShape.list t t p p (zs.map (fun z => (z.2, z.1))) (T := S) (S := T) (fun z hz => by
      obtain ⟨z', hz', rfl⟩ := List.mem_map.1 hz
      exact cut_scalar_symm (h z' hz'))
    simpa [List.map_map, Function.comp_def] using this
  | .noSingle _ _, e => by cases e
  | .lastSingle _ _ _ _ _ _, e => by cases e
  | .noOptional _ _, e => by cases e
  | .lastOptional _ _ _ _ _ _, e => by cases e
  | .noMsg _, e => by cases e
  | .lastMsg _ _ _ _ _, e => by cases e
  | .dropNone _ _, e => by cases e
  | .dropSome _ _ _ _ _, e => by cases e
  | .addNone _ _, e => by cases e
  | .addSome _ _ _ _ _, e => by cases e
  | .singleNone _ _ _, e => by cases e
  | .singleList _ _ _ _ _ _ _, e => by cases e
  | .optionalNone _ _ _, e => by cases e
  | .optionalList _ _ _ _ _ _ _, e => by cases e
  | .msgNone _, e => by cases e
  | .oneToList _ _ _ _ _, e => by cases e
  | .rawNone _, e => by cases e
  | .raw _ _ _ _, e => by cases e
  | .rawList _ _ _, e => by cases e
  | .noEntries k t s, e => .noEntries _ _ _
  | .map k t s zs h, e => by
    cases e
    have := CutShape.map k t t (zs.map (fun z => (z.1, z.2.2, z.2.1))) (T := S) (S := T) (fun z hz => by
      obtain ⟨z', hz', rfl⟩ := List.mem_map.1 hz
      exact cut_scalar_symm (h z' hz'))
    simpa [List.map_map, Function.comp_def] using this
  | .msg id p _ _ h, _ => .msg _ _ _ _ (ref_symm h)
  | .msgList id p zs h, _ => by
    have := CutShape.msgList id p (zs.map (fun z => (z.2, z.1))) (T := S) (S := T) (fun z hz => by
      obtain ⟨z', hz', rfl⟩ := List.mem_map.1 hz
      exact ref_symm (h z' hz'))
    simpa [List.map_map, Function.comp_def] using this
  | .nilMap k id p, _ => .nilMap _ _ _
  | .mapMsg k id p zs h, _ => by
    have := CutShape.mapMsg k id p (zs.map (fun z => (z.1, z.2.2, z.2.1))) (T := S) (S := T) (fun z hz => by
      obtain ⟨z', hz', rfl⟩ := List.mem_map.1 hz
      exact ref_symm (h z' hz'))
    simpa [List.map_map, Function.comp_def] using this
theorem ref_symm {id : Nat} {p : Bool} {x y : Val} : CutRef T S id p x y → CutRef S T id p y x
  | .nil _ => .nil _
  | .ptr _ _ _ h => .ptr _ _ _ (cut_symm h)
  | .inline _ _ _ h => .inline _ _ _ (cut_symm h)
end
end

end Verif.Lemmas.Relayed
