import Verif.Lemmas.RoundMsg
/-! # A message is the same as itself -/
namespace Verif.Lemmas
open Verif.Spec Verif.Model

variable {S : Schema} {l : Bool}

theorem same_zero_le (hS : S.WF) : ∀ (n : Nat) (id : Nat), sizeOf (S id).zero ≤ n → Same S l id (S id).zero (S id).zero
  | 0, id, h => by
    obtain ⟨zs, e, _⟩ := (hS id).zero
    rw [e] at h
    simp at h
  | n + 1, id, h => by
    obtain ⟨zs, e, e1, e2, _⟩ := (hS id).zero
    rw [e]
    refine .mk _ _ _ e1 e1 (fun f hf x y ex ey => ?_) rfl
    rw [ex] at ey
    cases ey
    have hx := e2 f hf
    rw [ex] at hx
    injection hx with hx
    have hlt : sizeOf x ≤ n := by
      have : x ∈ zs := List.mem_of_getElem? ex
      have := List.sizeOf_lt_of_mem this
      rw [e] at h
      simp at h
      omega
    rcases hm : f.member with _ | w
    · refine .set _ _ _ x x (by simp [Field.content, hm]) (by simp [Field.content, hm]) ?_
      simp only [Field.zero, hm] at hx
      cases hs : f.shape <;> simp only [hs] at hx
      case single => exact .single _ _ _ (sameScalar_refl _)
      case optional => subst hx; exact .absent _
      case list => subst hx; exact .list _ _ _ _ rfl (by simp)
      case map => subst hx; exact .map _ _ _ none _ (.refl _) rfl (by simp)
      case mapMsg => subst hx; exact .mapMsg _ _ _ _ none _ (.refl _) rfl (by simp)
      case msgList => subst hx; exact .msgList _ _ _ _ rfl (by simp)
      case msg id' p =>
        cases p
        · simp only at hx
          subst hx
          exact .msgInline _ _ _ (same_zero_le hS n id' hlt)
        · simp only at hx
          subst hx
          exact .noMsg _
    · simp only [Field.zero, hm] at hx
      subst hx
      exact .unset _ _ _ (by simp [Field.content, hm]) (by simp [Field.content, hm])

theorem same_zero (hS : S.WF) (id : Nat) : Same S l id (S id).zero (S id).zero := same_zero_le hS _ id (Nat.le_refl _)

section
variable (hS : S.WF)
include hS

mutual
theorem same_self {id : Nat} {v : Val} : Typed S id v → Same S l id v v
  | .mk _ _ h1 h2 h3 => .mk _ _ _ h1 h1 (fun f hf x y hx hy => by
      rw [hx] at hy; cases hy
      exact sameField_self (h2 f hf x hx)) rfl
theorem sameField_self {f : Field} {x : Val} : FieldTyped S f x → SameField S l f x x
  | .plain _ _ hm h => .set _ _ _ x x (by simp [Field.content, hm]) (by simp [Field.content, hm]) (sameShape_self h)
  | .unset _ _ hm => .unset _ _ _ (by simp [Field.content, hm]) (by simp [Field.content, hm])
  | .nilMember _ _ _ hm => .unset _ _ _ (by simp [Field.content, hm]) (by simp [Field.content, hm])
  | .member _ w d hm h => .set _ _ _ d d (by simp [Field.content, hm]) (by simp [Field.content, hm]) (sameShape_self h)
  | .otherMember _ _ _ _ hm hn => .unset _ _ _ (by simp [Field.content, hm, hn]) (by simp [Field.content, hm, hn])
theorem sameShape_self {sh : Shape} {x : Val} : ShapeTyped S sh x → SameShape S l sh x x
  | .single _ _ _ => .single _ _ _ (sameScalar_refl _)
  | .optionalNil _ => .absent _
  | .optional _ _ _ => .optional _ _ _ (sameScalar_refl _)
  | .list _ _ _ _ => .list _ _ _ _ rfl (fun i a b ha hb => by rw [ha] at hb; cases hb; exact sameScalar_refl _)
  | .msg _ _ _ h => sameRef_self h
  | .msgList id p xs h => .msgList _ _ _ _ rfl (fun i a b ha hb => by
      rw [ha] at hb; cases hb
      exact same_deref (h a (List.mem_of_getElem? ha)))
  | .mapNil _ _ => .map _ _ _ none _ (.refl _) rfl (by simp)
  | .map _ _ m _ _ => .map _ _ _ (some m) _ (.refl _) rfl (fun i a b ha hb => by rw [ha] at hb; cases hb; exact sameScalar_refl _)
  | .mapMsgNil _ _ _ => .mapMsg _ _ _ _ none _ (.refl _) rfl (by simp)
  | .mapMsg _ _ _ m _ _ h => .mapMsg _ _ _ _ (some m) _ (.refl _) rfl (fun i a b ha hb => by
      rw [ha] at hb; cases hb
      exact same_deref (h a (List.mem_of_getElem? ha)))
theorem sameRef_self {id : Nat} {p : Bool} {x : Val} : RefTyped S id p x → SameShape S l (.msg id p) x x
  | .nil _ => .noMsg _
  | .ptr _ _ h => .msgPtr _ _ _ (same_self h)
  | .inline _ _ h => .msgInline _ _ _ (same_self h)
theorem same_deref {id : Nat} {p : Bool} {x : Val} : RefTyped S id p x → Same S l id (deref S id p x) (deref S id p x)
  | .nil _ => same_zero hS id
  | .ptr _ _ h => same_self h
  | .inline _ _ h => same_self h
end
end

end Verif.Lemmas
