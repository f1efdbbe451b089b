import Verif.Lemmas.SameMsg
/-! # Two messages that are the same as a third are the same -/
namespace Verif.Lemmas
open Verif.Model Verif.Spec

variable {S : Schema}

theorem sameScalar_eq {a c : Val} (hc : ∀ z, c ≠ .bytes z) (h : SameScalar a c) : a = c := by
  cases a with
  | bytes x => cases c <;> first | exact h | exact absurd rfl (hc _)
  | _ => exact h

theorem sameScalar_join {a b c : Val} (h : SameScalar a c) (h' : SameScalar b c) : SameScalar a b := by
  by_cases hc : ∃ z, c = .bytes z
  · obtain ⟨z, rfl⟩ := hc
    cases a with
    | bytes x =>
      cases b with
      | bytes y => exact Eq.trans (show x.getD [] = z.getD [] from h) (Eq.symm (show y.getD [] = z.getD [] from h'))
      | _ => cases h'
    | _ => cases h
  · have hc : ∀ z, c ≠ .bytes z := fun z e => hc ⟨z, e⟩
    rw [sameScalar_eq hc h, sameScalar_eq hc h']
    cases c <;> rfl

section
variable (hW : S.WF)
include hW

mutual
theorem same_join {id : Nat} {v u : Val} : Same S false id v u → ∀ w, Same S false id w u → Same S false id v w
  | .mk _ xs ys a1 a2 a3 a4 => fun w hw => by
    cases hw with
    | mk _ zs _ b1 b2 b3 b4 =>
      refine .mk _ _ _ a1 b1 (fun f hf x z hx hz => ?_) (a4.trans b4.symm)
      have hy := List.getElem?_eq_getElem (l := ys) (i := f.slot) (a2 ▸ (hW id).slots f hf)
      exact sameField_join (a3 f hf x _ hx hy) z (b3 f hf z _ hz hy)
theorem sameField_join {f : Field} {x y : Val} : SameField S false f x y → ∀ z, SameField S false f z y → SameField S false f x z
  | .unset _ _ _ h1 h2 => fun z hz => by
    cases hz with
    | unset _ _ _ h3 h4 => exact .unset _ _ _ h1 h3
    | set _ _ _ d e h3 h4 h5 => rw [h2] at h4; cases h4
    | lost _ _ _ _ h => cases h
  | .set _ _ _ d e h1 h2 h3 => fun z hz => by
    have hr := sameShape_join h3
    cases hz with
    | unset _ _ _ h4 h5 => rw [h2] at h5; cases h5
    | set _ _ _ d' e' h4 h5 h6 =>
      rw [h2] at h5
      cases h5
      exact .set _ _ _ d d' h1 h4 (hr _ h6)
    | lost _ _ _ _ h => cases h
  | .lost _ _ _ _ h _ _ _ _ => nomatch h
theorem sameShape_join {sh : Shape} {x y : Val} : SameShape S false sh x y → ∀ z, SameShape S false sh z y → SameShape S false sh x z
  | .single _ _ _ h => fun z hz => by
    cases hz with
    | single _ _ _ h' => exact .single _ _ _ (sameScalar_join h h')
  | .absent _ => fun z hz => by
    cases hz with
    | absent => exact .absent _
  | .optional _ _ _ h => fun z hz => by
    cases hz with
    | optional _ _ _ h' => exact .optional _ _ _ (sameScalar_join h h')
  | .list _ _ xs ys hl h => fun z hz => by
    cases hz with
    | list _ _ zs _ hl' h' =>
      refine .list _ _ _ _ (hl.trans hl'.symm) (fun i a c ha hc => ?_)
      have hb := List.getElem?_eq_getElem (l := ys) (i := i) (hl ▸ (List.getElem?_eq_some_iff.1 ha).1)
      exact sameScalar_join (h i a _ ha hb) (h' i c _ hc hb)
  | .noMsg _ => fun z hz => by
    cases hz with
    | noMsg => exact .noMsg _
  | .msgPtr _ _ _ h => fun z hz => by
    have hr := same_join h
    cases hz with
    | msgPtr _ _ _ h' => exact .msgPtr _ _ _ (hr _ h')
  | .msgInline _ _ _ h => fun z hz => by
    have hr := same_join h
    cases hz with
    | msgInline _ _ _ h' => exact .msgInline _ _ _ (hr _ h')
  | .msgList _ _ xs ys hl h => fun z hz => by
    have hr := fun i a b ha hb => same_join (h i a b ha hb)
    cases hz with
    | msgList _ _ zs _ hl' h' =>
      refine .msgList _ _ _ _ (hl.trans hl'.symm) (fun i a c ha hc => ?_)
      have hb := List.getElem?_eq_getElem (l := ys) (i := i) (hl ▸ (List.getElem?_eq_some_iff.1 ha).1)
      exact hr i a _ ha hb _ (h' i c _ hc hb)
  | .map _ _ m m1 m' h1 h2 h3 => fun z hz => by
    cases hz with
    | map _ _ n n1 _ g1 g2 g3 =>
      have hl := length_of_map_eq (h2.trans g2.symm)
      obtain ⟨m2, r1, r2, r3⟩ := pointwise_perm hl g1.symm
      have key : ∀ (i : Nat) (a c : Key × Val), m2[i]? = some a → (n.getD [])[i]? = some c →
          ∃ (j : Nat) (b : Key × Val), (m1.getD [])[j]? = some a ∧ (n1.getD [])[j]? = some c ∧ (m'.getD [])[j]? = some b := by
        intro i a c ha hc
        obtain ⟨j, j1, j2⟩ := r3 i a c ha hc
        have hlj : j < (m'.getD []).length := by
          have := (List.getElem?_eq_some_iff.1 j1).1
          rwa [length_of_map_eq h2] at this
        exact ⟨j, _, j1, j2, List.getElem?_eq_getElem hlj⟩
      refine .map _ _ _ (some m2) _ (h1.trans r1) ?_ (fun i a c ha hc => ?_)
      · refine map_ext_idx _ _ _ _ r2 (fun i a c ha hc => ?_)
        obtain ⟨j, b, j1, j2, j3⟩ := key i a c ha hc
        have e1 := congrArg (fun l => l[j]?) (h2.trans g2.symm)
        simpa [j1, j2] using e1
      · obtain ⟨j, b, j1, j2, j3⟩ := key i a c ha hc
        exact sameScalar_join (h3 j a b j1 j3) (g3 j c b j2 j3)
  | .mapMsg _ _ _ m m1 m' h1 h2 h3 => fun z hz => by
    have hr := fun j a b ha hb => same_join (h3 j a b ha hb)
    cases hz with
    | mapMsg _ _ _ n n1 _ g1 g2 g3 =>
      have hl := length_of_map_eq (h2.trans g2.symm)
      obtain ⟨m2, r1, r2, r3⟩ := pointwise_perm hl g1.symm
      have key : ∀ (i : Nat) (a c : Key × Val), m2[i]? = some a → (n.getD [])[i]? = some c →
          ∃ (j : Nat) (b : Key × Val), (m1.getD [])[j]? = some a ∧ (n1.getD [])[j]? = some c ∧ (m'.getD [])[j]? = some b := by
        intro i a c ha hc
        obtain ⟨j, j1, j2⟩ := r3 i a c ha hc
        have hlj : j < (m'.getD []).length := by
          have := (List.getElem?_eq_some_iff.1 j1).1
          rwa [length_of_map_eq h2] at this
        exact ⟨j, _, j1, j2, List.getElem?_eq_getElem hlj⟩
      refine .mapMsg _ _ _ _ (some m2) _ (h1.trans r1) ?_ (fun i a c ha hc => ?_)
      · refine map_ext_idx _ _ _ _ r2 (fun i a c ha hc => ?_)
        obtain ⟨j, b, j1, j2, j3⟩ := key i a c ha hc
        have e1 := congrArg (fun l => l[j]?) (h2.trans g2.symm)
        simpa [j1, j2] using e1
      · obtain ⟨j, b, j1, j2, j3⟩ := key i a c ha hc
        exact hr j a b j1 j3 _ (g3 j c b j2 j3)
end
end

end Verif.Lemmas
