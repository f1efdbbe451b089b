import Verif.Spec.Rearranged
import Verif.Lemmas.Retyped
/-! # Go types that differ in the order of their fields: the encoding is the same -/
namespace Verif.Lemmas.Rearrange
open Verif.Spec Verif.Model Verif.Lemmas.Retype

variable {S T : Schema}

theorem moved_encode (hS : S.WF) (hT : T.WF) (hR : Rearranged S T) : ∀ (n id : Nat) (v w : Val), Wide S T id v w →
    encode S false n id v = encode T false n id w
  | 0, _, _, _, _ => rfl
  | n + 1, id, _, _, .mk _ xs ys h1 h2 h3 h4 => by
    have hf : concatM (encodeField S false (encode S false n) xs) (S id).fields = concatM (encodeField T false (encode T false n) ys) (T id).fields := by
      refine concatM_pairs (hR.length id) (fun p hp => ?_)
      obtain ⟨q1, q4⟩ := hR.fields id p hp
      have hm := List.of_mem_zip (a := p.1) (b := p.2) hp
      have e := List.getElem?_eq_getElem (h2 ▸ (hT id).slots _ hm.2 : p.2.slot < ys.length)
      have e' := List.getElem?_eq_getElem (h1 ▸ (hS id).slots _ hm.1 : p.1.slot < xs.length)
      have := h3 p.1 p.2 hp _ _ e' e
      simp only [encodeField, e, e']
      cases this with
      | unset _ _ _ _ a b => simp [a, b]
      | set _ _ _ _ d d' a b c =>
        simp only [a, b, Option.bind_eq_bind, Option.bind_some, q1, Bool.and_false]
        exact shape_encode (moved_encode hS hT hR n) _ _ q4 c (fun hk => by cases hk)
    simp only [encode, hf, h4]

theorem narrows_self (T : Schema) (a : Shape) : ShapeNarrows T a a := by
  have h : ∀ s, Compat s s := fun s => by cases s <;> rfl
  cases a with
  | single s => exact .single _ _ (h s)
  | optional s => exact .optional _ _ (h s)
  | list s p => exact .list _ _ _ _ (h s) id
  | msg => exact .msg _ _
  | msgList => exact .msgList _ _
  | map k s => exact .map _ _ _ (h s) (fun _ => rfl)
  | mapMsg => exact .mapMsg _ _ _

theorem reordered_narrowed (h : Reordered T S) : Narrowed T S :=
  ⟨h.length, fun id p hp => ⟨(h.fields id p hp).1, .inl (h.fields id p hp).2.1, by rw [(h.fields id p hp).2.2]; exact narrows_self _ _⟩, h.oneofs⟩

theorem reordered_symm (h : Reordered T S) : Reordered S T := by
  have swap : ∀ {as bs : List Field} {p : Field × Field}, p ∈ as.zip bs → (p.2, p.1) ∈ bs.zip as := by
    intro as
    induction as with
    | nil => intro bs p hp; cases bs <;> cases hp
    | cons a as ih =>
      intro bs p hp
      cases bs with
      | nil => cases hp
      | cons b bs =>
        rcases List.mem_cons.1 hp with rfl | hp
        · exact .head _
        · exact .tail _ (ih hp)
  refine ⟨fun id => (h.length id).symm, fun id p hp => ?_, fun id p hp q hq => (h.oneofs id _ (swap hp) _ (swap hq)).symm⟩
  obtain ⟨h1, h2, h3⟩ := h.fields id _ (swap hp)
  exact ⟨h1.symm, h2.symm, h3.symm⟩

end Verif.Lemmas.Rearrange
