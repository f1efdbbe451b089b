import Verif.Spec.Round
import Verif.Lemmas.MapPerm
/-! Helper lemmas: equal messages (`Spec.Same`) and the order of map entries. -/
namespace Verif.Lemmas
open Verif.Model Verif.Spec

variable {S : Schema} {l : Bool}

theorem perm_map_lift {α β : Type} (f : α → β) {k k' : List β} (h : k.Perm k') :
    ∀ xs : List α, xs.map f = k → ∃ ys : List α, xs.Perm ys ∧ ys.map f = k' := by
  induction h with
  | nil => exact fun xs h => ⟨xs, .refl _, h⟩
  | cons a _ ih =>
    intro xs h
    match xs, h with
    | x :: xs, h =>
      simp only [List.map_cons, List.cons.injEq] at h
      obtain ⟨ys, h1, h2⟩ := ih xs h.2
      exact ⟨x :: ys, .cons _ h1, by simp [h.1, h2]⟩
  | swap a b l =>
    intro xs h
    match xs, h with
    | x :: y :: xs, h =>
      simp only [List.map_cons, List.cons.injEq] at h
      exact ⟨y :: x :: xs, .swap _ _ _, by simp [h.1, h.2.1, h.2.2]⟩
  | trans _ _ ih1 ih2 =>
    intro xs h
    obtain ⟨ys, h1, h2⟩ := ih1 xs h
    obtain ⟨zs, h3, h4⟩ := ih2 ys h2
    exact ⟨zs, h1.trans h3, h4⟩

/-- Rearranging the right-hand list of a pointwise relation. -/
theorem pointwise_perm {α : Type} {xs ys ys' : List α} (hl : xs.length = ys.length) (h : ys.Perm ys') :
    ∃ xs', xs.Perm xs' ∧ xs'.length = ys'.length ∧ ∀ (i : Nat) (x y : α), xs'[i]? = some x → ys'[i]? = some y →
      ∃ j : Nat, xs[j]? = some x ∧ ys[j]? = some y := by
  obtain ⟨zs, h1, h2⟩ := perm_map_lift Prod.snd h (xs.zip ys) (List.map_snd_zip (by omega))
  refine ⟨zs.map Prod.fst, ?_, by rw [← h2]; simp, fun i x y hx hy => ?_⟩
  · have := h1.map Prod.fst
    rwa [List.map_fst_zip (by omega)] at this
  · rw [← h2] at hy
    rw [List.getElem?_map] at hx hy
    cases hz : zs[i]? with
    | none => rw [hz] at hx; cases hx
    | some z =>
      rw [hz] at hx hy
      have hm : z ∈ xs.zip ys := h1.mem_iff.2 (List.mem_of_getElem? hz)
      obtain ⟨j, hj⟩ := List.getElem?_of_mem hm
      rw [List.getElem?_zip_eq_some] at hj
      cases hx
      cases hy
      exact ⟨j, hj.1, hj.2⟩

theorem recordCount_perm {sh : Shape} {d e : Val} (hd : ShapeTyped S sh d) (hp : MapPerm d e) :
    recordCount S sh d = recordCount S sh e := by
  cases hp with
  | refl => rfl
  | ptr a b h =>
    cases hd with
    | single s v h => cases s <;> cases h
    | optional s v h => rfl
    | msg id p v h => cases h with
      | ptr => rfl
      | inline _ _ h => cases h
  | slice xs ys hl h =>
    cases hd with
    | single s v h => cases s <;> cases h
    | list s p xs h =>
      cases p with
      | true =>
        simp only [recordCount, List.isEmpty_iff_length_eq_zero, hl]
      | false => exact hl
    | msg id p v h => cases h with
      | inline _ _ h => cases h
    | msgList => exact hl
  | map m m1 m' h1 h2 h3 =>
    have hl : m.length = m'.length := h1.length_eq.trans (length_of_map_eq h2)
    cases hd with
    | single s v h => cases s <;> cases h
    | map => exact hl
    | mapMsg => exact hl
    | msg id p v h => cases h with
      | inline _ _ h => cases h
  | struct xs ys hl h =>
    cases hd with
    | single s v h => cases s <;> cases h
    | msg id p v h' => cases h' with
      | inline _ _ h' =>
        simp only [recordCount, memZero_perm _ _ (.struct xs ys hl h)]
  | iface w a b h =>
    cases hd with
    | single s v h => cases s <;> cases h
    | msg id p v h => cases h with
      | inline _ _ h => cases h

/-- What is proved by induction below. -/
def PermSame (S : Schema) (l : Bool) (v v' : Val) : Prop :=
  (∀ id w, Typed S id v → Same S l id v' w → Same S l id v w) ∧
  (∀ sh w, ShapeTyped S sh v → SameShape S l sh v' w → SameShape S l sh v w) ∧
  (∀ f w, FieldTyped S f v → SameField S l f v' w → SameField S l f v w)

theorem permSame_refl (v : Val) : PermSame S l v v := ⟨fun _ _ _ h => h, fun _ _ _ h => h, fun _ _ _ h => h⟩

theorem permSame_deref {id : Nat} {p : Bool} {x y w : Val} (hp : MapPerm x y) (h : PermSame S l x y) (ht : RefTyped S id p x)
    (hs : Same S l id (deref S id p y) w) : Same S l id (deref S id p x) w := by
  cases ht with
  | nil => cases hp with | refl => exact hs
  | ptr _ v hv =>
    cases hp with
    | refl => exact hs
    | ptr _ b hp =>
      have := h.2.1 (.msg id true) (.ptr (some w)) (.msg _ _ _ (.ptr _ _ hv)) (.msgPtr _ _ _ hs)
      cases this with
      | msgPtr _ _ _ h => exact h
  | inline _ _ hv => exact h.1 _ _ hv hs

/-- The field part follows from the shape part when the value is not an interface. -/
theorem permSame_field {v v' : Val} (hn : ∀ w, v ≠ .iface w)     (h : ∀ sh w, ShapeTyped S sh v → SameShape S l sh v' w → SameShape S l sh v w) :
    ∀ f w, FieldTyped S f v → SameField S l f v' w → SameField S l f v w := by
  intro f w ht hs
  cases ht with
  | plain _ _ hm ht =>
    cases hs with
    | unset _ _ _ h1 h2 => simp [Field.content, hm] at h1
    | set _ _ _ d e h1 h2 h3 =>
      simp only [Field.content, hm, Option.some.injEq] at h1
      subst h1
      exact .set _ _ _ v e (by simp [Field.content, hm]) h2 (h _ _ ht h3)
    | lost _ _ _ d h1 h2 => exact absurd hm h2
  | unset => exact absurd rfl (hn _)
  | nilMember => exact absurd rfl (hn _)
  | member => exact absurd rfl (hn _)
  | otherMember => exact absurd rfl (hn _)

theorem permSame {v v' : Val} (hp : MapPerm v v') : PermSame S l v v' := by
  induction hp with
  | refl v => exact permSame_refl v
  | ptr a b hp ih =>
    have h2 : ∀ sh w, ShapeTyped S sh (.ptr (some a)) → SameShape S l sh (.ptr (some b)) w → SameShape S l sh (.ptr (some a)) w := by
      intro sh w ht hs
      cases ht with
      | single s _ h => cases s <;> cases h
      | optional s _ h =>
        have := scalar_perm h hp
        subst this
        exact hs
      | msg id p _ h => cases h with
        | ptr _ _ hv => cases hs with
          | msgPtr _ _ w h => exact .msgPtr _ _ _ (ih.1 _ _ hv h)
        | inline _ _ h => cases h
    exact ⟨(fun _ _ h => by cases h), h2, permSame_field (by simp) h2⟩
  | slice xs ys hl hp ih =>
    have h2 : ∀ sh w, ShapeTyped S sh (.slice xs) → SameShape S l sh (.slice ys) w → SameShape S l sh (.slice xs) w := by
      intro sh w ht hs
      cases ht with
      | single s _ h => cases s <;> cases h
      | list s p _ h =>
        have : ys = xs := by
          have := map_ext_idx id id ys xs hl.symm (fun i y x hy hx =>
            scalar_perm (h x (perm_idx_mem hx)) (hp i x y hx hy))
          simpa using this
        rw [this] at hs
        exact hs
      | msg id p _ h => cases h with
        | inline _ _ h => cases h
      | msgList id p _ h =>
        cases hs with
        | msgList _ _ _ zs hl' hz =>
          refine .msgList _ _ _ _ (hl.trans hl') (fun i x z hx hz' => ?_)
          have hi : i < ys.length := by
            have := (List.getElem?_eq_some_iff.1 hx).1
            omega
          have hy := List.getElem?_eq_getElem hi
          exact permSame_deref (hp i x _ hx hy) (ih i x _ hx hy) (h x (perm_idx_mem hx)) (hz i _ z hy hz')
    exact ⟨(fun _ _ h => by cases h), h2, permSame_field (by simp) h2⟩
  | struct xs ys hl hp ih =>
    have h1 : ∀ id w, Typed S id (.struct xs) → Same S l id (.struct ys) w → Same S l id (.struct xs) w := by
      intro id w ht hs
      cases ht with
      | mk _ _ t1 t2 t3 =>
        cases hs with
        | mk _ _ zs s1 s2 s3 s4 =>
          refine .mk _ _ _ t1 s2 (fun f hf x z hx hz => ?_) ?_
          · have hi : f.slot < ys.length := by
              have := (List.getElem?_eq_some_iff.1 hx).1
              omega
            have hy := List.getElem?_eq_getElem hi
            exact (ih f.slot x _ hx hy).2.2 f z (t2 f hf x hx) (s3 f hf _ z hy hz)
          · rw [← s4]
            exact unknown_perm t3 hl hp
    have h2 : ∀ sh w, ShapeTyped S sh (.struct xs) → SameShape S l sh (.struct ys) w → SameShape S l sh (.struct xs) w := by
      intro sh w ht hs
      cases ht with
      | single s _ h => cases s <;> cases h
      | msg id p _ h => cases h with
        | inline _ _ h => cases hs with
          | msgInline _ _ _ hs => exact .msgInline _ _ _ (h1 _ _ h hs)
    exact ⟨h1, h2, permSame_field (by simp) h2⟩
  | iface w a b hp ih =>
    refine ⟨(fun _ _ h => by cases h), fun sh w ht hs => ?_, fun f z ht hs => ?_⟩
    · cases ht with
      | single s _ h => cases s <;> cases h
      | msg id p _ h => cases h with
        | inline _ _ h => cases h
    · cases ht with
      | plain _ _ hm ht =>
        generalize f.shape = sh at ht
        cases ht with
        | single s _ h => cases s <;> cases h
        | msg id p _ h => cases h with
          | inline _ _ h => cases h
      | member _ _ _ hm ht =>
        have hc : ∀ c, f.content (.iface (some (w, some c))) = some c := fun c => by simp [Field.content, hm]
        cases hs with
        | unset _ _ _ h1 h2 => rw [hc] at h1; cases h1
        | set _ _ _ d e h1 h2 h3 =>
          rw [hc] at h1
          cases h1
          exact .set _ _ _ _ _ (hc a) h2 (ih.2.1 _ _ ht h3)
        | lost _ _ _ d h1 h2 h3 h4 h5 =>
          rw [hc] at h3
          cases h3
          exact .lost _ _ _ _ h1 h2 (hc a) (by rw [recordCount_perm ht hp]; exact h4) h5
      | otherMember _ w' _ _ hm hne =>
        have hc : ∀ c, f.content (.iface (some (w, some c))) = none := fun c => by simp [Field.content, hm, hne]
        cases hs with
        | unset _ _ _ h1 h2 => exact .unset _ _ _ (hc a) h2
        | set _ _ _ d e h1 h2 h3 => rw [hc] at h1; cases h1
        | lost _ _ _ d h1 h2 h3 h4 h5 => rw [hc] at h3; cases h3
  | map m m1 m' hperm hkeys hp ih =>
    have hl : m1.length = m'.length := length_of_map_eq hkeys
    have hkey : ∀ (j : Nat) (a b : Key × Val), m1[j]? = some a → m'[j]? = some b → a.1 = b.1 := by
      intro j a b ha hb
      have := congrArg (fun l => l[j]?) hkeys
      simpa [ha, hb] using this
    have keysOf : ∀ (m2 m3 : List (Key × Val)), m2.length = m3.length →
        (∀ (i : Nat) (x y : Key × Val), m2[i]? = some x → m3[i]? = some y → ∃ j : Nat, m1[j]? = some x ∧ m'[j]? = some y) →
        m2.map (·.1) = m3.map (·.1) := by
      intro m2 m3 h1 h2
      refine map_ext_idx _ _ _ _ h1 (fun i x y hx hy => ?_)
      obtain ⟨j, hj1, hj2⟩ := h2 i x y hx hy
      exact hkey j x y hj1 hj2
    have h2 : ∀ sh w, ShapeTyped S sh (.map (some m)) → SameShape S l sh (.map (some m')) w → SameShape S l sh (.map (some m)) w := by
      intro sh w ht hs
      cases ht with
      | single s _ h => cases s <;> cases h
      | msg id p _ h => cases h with
        | inline _ _ h => cases h
      | map k v _ hn h =>
        cases hs with
        | map _ _ _ n1 n2 q1 q2 q3 =>
          obtain ⟨m2, r1, r2, r3⟩ := pointwise_perm hl q1
          refine .map _ _ _ (some m2) _ (hperm.trans r1) ((keysOf m2 _ r2 r3).trans q2) (fun i a c ha hc => ?_)
          have hi : i < (n1.getD []).length := by
            have := (List.getElem?_eq_some_iff.1 ha).1
            rw [← r2]; exact this
          have hb := List.getElem?_eq_getElem hi
          obtain ⟨j, j1, j2⟩ := r3 i a _ ha hb
          have e := scalar_perm (h a (hperm.mem_iff.2 (perm_idx_mem j1))).2 (hp j _ _ j1 j2)
          rw [← e]
          exact q3 i _ c hb hc
      | mapMsg k id p _ hn hk hr =>
        cases hs with
        | mapMsg _ _ _ _ n1 n2 q1 q2 q3 =>
          obtain ⟨m2, r1, r2, r3⟩ := pointwise_perm hl q1
          refine .mapMsg _ _ _ _ (some m2) _ (hperm.trans r1) ((keysOf m2 _ r2 r3).trans q2) (fun i a c ha hc => ?_)
          have hi : i < (n1.getD []).length := by
            have := (List.getElem?_eq_some_iff.1 ha).1
            rw [← r2]; exact this
          have hb := List.getElem?_eq_getElem hi
          obtain ⟨j, j1, j2⟩ := r3 i a _ ha hb
          exact permSame_deref (hp j _ _ j1 j2) (ih j _ _ j1 j2) (hr a (hperm.mem_iff.2 (perm_idx_mem j1))) (q3 i _ c hb hc)
    exact ⟨(fun _ _ h => by cases h), h2, permSame_field (by simp) h2⟩

theorem same_perm {id : Nat} {v v' w : Val} (hv : Typed S id v) (hp : MapPerm v v') (hs : Same S l id v' w) :
    Same S l id v w := (permSame hp).1 id w hv hs

end Verif.Lemmas

namespace Verif.Lemmas
open Verif.Model Verif.Spec

variable {S : Schema} {l : Bool}

/-- Same length, and the same bytes if `c`. -/
def Alike (c : Prop) (a b : Option Bytes) : Prop := olen a = olen b ∧ (c → a = b)

theorem Alike.rfl {c : Prop} {a : Option Bytes} : Alike c a a := ⟨Eq.refl _, fun _ => Eq.refl _⟩

theorem alike_of_eq {c : Prop} {a b : Option Bytes} (h : a = b) : Alike c a b := by rw [h]; exact .rfl

theorem sameScalar_encode {s : Scalar} {a b : Val} (ha : s.goType.holds a = true) (hb : s.goType.holds b = true)
    (h : SameScalar a b) : s.encode a = s.encode b ∧ isDefault a = isDefault b := by
  unfold SameScalar at h
  split at h
  · rename_i x y
    cases s <;> first | cases ha | skip
    refine ⟨by simp only [Scalar.encode, h], by simp only [isDefault, h]⟩
  · rw [h]; exact ⟨rfl, rfl⟩

theorem alike_frame {c : Prop} {a b : Option Bytes} (h : Alike c a b) (p : Bytes) :
    Alike c (do return p ++ lenDelim (← a)) (do return p ++ lenDelim (← b)) :=
  ⟨olen_frame _ _ h.1 _, fun hc => by rw [h.2 hc]⟩

theorem alike_concat {α : Type} {c : Prop} (g h : α → Option Bytes) {xs ys : List α} (hl : xs.length = ys.length)
    (hp : ∀ (i : Nat) (x y : α), xs[i]? = some x → ys[i]? = some y → Alike c (g x) (h y)) :
    Alike c (concatM g xs) (concatM h ys) := by
  refine ⟨?_, fun hc => ?_⟩
  · rw [olen_concatM, olen_concatM]
    congr 1
    exact map_ext_idx _ _ _ _ hl (fun i x y hx hy => (hp i x y hx hy).1)
  · have key : ∀ (xs ys : List α), xs.length = ys.length →
        (∀ (i : Nat) (x y : α), xs[i]? = some x → ys[i]? = some y → g x = h y) → concatM g xs = concatM h ys := by
      intro xs
      induction xs with
      | nil => intro ys hl _; cases ys with | nil => rfl | cons => cases hl
      | cons x xs ih =>
        intro ys hl hp
        cases ys with
        | nil => cases hl
        | cons y ys =>
          simp only [concatM]
          rw [hp 0 x y rfl rfl, ih ys (by simpa using hl) (fun i a b ha hb => hp (i + 1) a b (by simpa using ha) (by simpa using hb))]
    exact key xs ys hl (fun i x y hx hy => (hp i x y hx hy).2 hc)

theorem small_map_perm {m m1 : List (Key × Val)} (hn : m.length ≤ 1) (hp : m.Perm m1) : m1 = m := by
  match m, hn with
  | [], _ => rw [List.nil_perm] at hp; exact hp
  | [e], _ => rw [List.singleton_perm] at hp; exact hp.symm

theorem alike_perm {α : Type} {c : Prop} (g : α → Option Bytes) {xs ys : List α} (h : xs.Perm ys) (hc : c → ys = xs) :
    Alike c (concatM g xs) (concatM g ys) := by
  refine ⟨?_, fun h => by rw [hc h]⟩
  rw [olen_concatM, olen_concatM, osum_perm (h.map _)]

theorem Alike.trans {c : Prop} {a b d : Option Bytes} (h : Alike c a b) (h' : Alike c b d) : Alike c a d :=
  ⟨h.1.trans h'.1, fun hc => (h.2 hc).trans (h'.2 hc)⟩

theorem Alike.weaken {c c' : Prop} {a b : Option Bytes} (h : Alike c a b) (hc : c' → c) : Alike c' a b := ⟨h.1, fun x => h.2 (hc x)⟩

theorem encodeShape_same {enc : Nat → Val → Option Bytes} {c : Prop} (hW : S.WF) (num : Nat) {sh : Shape} {d e : Val}
    (hB : ∀ i, sh = .msg i false → (S i).small = false)
    (hc : c → ∀ m, d = .map (some m) → m.length ≤ 1)
    (hrec : ∀ id a b, ShapeSub S sh d id a → Typed S id a → Typed S id b → Same S l id a b → Alike c (enc id a) (enc id b))
    (hd : ShapeTyped S sh d) (he : ShapeTyped S sh e) (hs : SameShape S l sh d e) :
    Alike c (encodeShape S enc num false sh d) (encodeShape S enc num false sh e) := by
  cases hs with
  | single s a b h =>
    cases hd with | single _ _ h1 => cases he with | single _ _ h2 =>
    obtain ⟨h3, h4⟩ := sameScalar_encode h1 h2 h
    exact alike_of_eq (by simp only [encodeShape, h3, h4])
  | absent => exact .rfl
  | optional s a b h =>
    cases hd with | optional _ _ h1 => cases he with | optional _ _ h2 =>
    exact alike_of_eq (by simp only [encodeShape, (sameScalar_encode h1 h2 h).1])
  | list s p xs ys hl h =>
    cases hd with | list _ _ _ h1 => cases he with | list _ _ _ h2 =>
    have hx : ∀ (i : Nat) (x y : Val), xs[i]? = some x → ys[i]? = some y → s.encode x = s.encode y :=
      fun i x y hx hy => (sameScalar_encode (h1 x (perm_idx_mem hx)) (h2 y (perm_idx_mem hy)) (h i x y hx hy)).1
    cases p with
    | false =>
      simp only [encodeShape, Bool.false_eq_true, if_false]
      exact alike_concat _ _ hl (fun i x y h1 h2 => alike_of_eq (by rw [hx i x y h1 h2]))
    | true =>
      simp only [encodeShape, if_true, List.isEmpty_iff_length_eq_zero, hl]
      split
      · exact .rfl
      · exact alike_frame (alike_concat _ _ hl (fun i x y h1 h2 => alike_of_eq (hx i x y h1 h2))) _
  | noMsg => exact .rfl
  | msgPtr id a b h =>
    cases hd with | msg _ _ _ h1 => cases he with | msg _ _ _ h2 =>
    cases h1 with | ptr _ _ h1 => cases h2 with | ptr _ _ h2 =>
    exact alike_frame (hrec id a b (.ptr _ _) h1 h2 h) _
  | msgInline id a b h =>
    cases hd with | msg _ _ _ h1 => cases he with | msg _ _ _ h2 =>
    cases h1 with | inline _ _ h1 => cases h2 with | inline _ _ h2 =>
    have hb := hB id rfl
    simp only [encodeShape, hb, Bool.false_and, Bool.false_eq_true, if_false]
    exact alike_frame (hrec id _ _ (.inline _ _ (by simp [hb])) h1 h2 h) _
  | msgList id p xs ys hl h =>
    cases hd with | msgList _ _ _ h1 => cases he with | msgList _ _ _ h2 =>
    exact alike_concat _ _ hl (fun i x y hx hy => alike_frame (hrec id _ _ (.list _ _ _ _ (perm_idx_mem hx))
      (deref_typed hW (h1 x (perm_idx_mem hx))) (deref_typed hW (h2 y (perm_idx_mem hy))) (h i x y hx hy)) _)
  | map k v m m1 m' h1 h2 h3 =>
    have t1 : ∀ x ∈ m.getD [], k.HasKey x.1 ∧ v.goType.holds x.2 = true := by
      cases hd with
      | mapNil => intro x hx; cases hx
      | map _ _ _ _ h => exact h
    have t2 : ∀ x ∈ m'.getD [], k.HasKey x.1 ∧ v.goType.holds x.2 = true := by
      cases he with
      | mapNil => intro x hx; cases hx
      | map _ _ _ _ h => exact h
    simp only [encodeShape]
    refine (alike_perm _ h1 (fun hh => small_map_perm ?_ h1)).trans
      (alike_concat _ _ (length_of_map_eq h2) (fun i a b ha hb => alike_of_eq ?_))
    · cases m with
      | none => simp
      | some m => exact hc hh m rfl
    · have e1 : a.1 = b.1 := by
        have := congrArg (fun l => l[i]?) h2
        simpa [ha, hb] using this
      have e2 := (sameScalar_encode (t1 a (h1.mem_iff.2 (perm_idx_mem ha))).2 (t2 b (perm_idx_mem hb)).2 (h3 i a b ha hb)).1
      rw [e1, e2]
  | mapMsg k id p m m1 m' h1 h2 h3 =>
    have t1 : ∀ x ∈ m.getD [], RefTyped S id p x.2 := by
      cases hd with
      | mapMsgNil => intro x hx; cases hx
      | mapMsg _ _ _ _ _ _ h => exact h
    have t2 : ∀ x ∈ m'.getD [], RefTyped S id p x.2 := by
      cases he with
      | mapMsgNil => intro x hx; cases hx
      | mapMsg _ _ _ _ _ _ h => exact h
    have t3 : ∀ x ∈ m'.getD [], k.HasKey x.1 := by
      cases he with
      | mapMsgNil => intro x hx; cases hx
      | mapMsg _ _ _ _ _ h _ => exact h
    simp only [encodeShape]
    refine (alike_perm _ h1 (fun hh => small_map_perm ?_ h1)).trans
      (alike_concat _ _ (length_of_map_eq h2) (fun i a b ha hb => ?_))
    · cases m with
      | none => simp
      | some m => exact hc hh m rfl
    · have e1 : a.1 = b.1 := by
        have := congrArg (fun l => l[i]?) h2
        simpa [ha, hb] using this
      have hm := h1.mem_iff.2 (perm_idx_mem ha)
      have hsub : ShapeSub S (.mapMsg k id p) (.map m) id (deref S id p a.2) := by
        cases m with
        | none => cases hm
        | some m => exact .map _ _ _ _ _ hm
      have e2 := hrec id _ _ hsub (deref_typed hW (t1 a hm)) (deref_typed hW (t2 b (perm_idx_mem hb))) (h3 i a b ha hb)
      rw [e1, encode_some (t3 b (perm_idx_mem hb))]
      refine ⟨?_, fun hh => by rw [e2.2 hh]⟩
      have e3 := e2.1
      revert e3
      cases enc id (deref S id p a.2) <;> cases enc id (deref S id p b.2) <;> simp [olen]
      intro h
      simp [lenDelim, h]

theorem encode_same (hW : S.WF) (hB : NoSmallInline S) : ∀ (n id : Nat) (v w : Val), Typed S id v → Typed S id w →
    Same S l id v w → Alike (MapsSmall S id v) (encode S false n id v) (encode S false n id w)
  | 0, _, _, _, _, _, _ => .rfl
  | n + 1, id, v, w, hv, hw, hs => by
    cases hs with
    | mk _ xs ys s1 s2 s3 s4 =>
      simp only [encode, s4]
      have h1 : Alike (MapsSmall S id (.struct xs)) (concatM (encodeField S false (encode S false n) xs) (S id).fields)
          (concatM (encodeField S false (encode S false n) ys) (S id).fields) := by
        refine alike_concat _ _ rfl (fun i f g hf hg => ?_)
        rw [hf] at hg
        cases hg
        have hf := perm_idx_mem hf
        obtain ⟨x, hx, hft⟩ := typed_slot hW hv hf
        obtain ⟨y, hy, hft'⟩ := typed_slot hW hw hf
        simp only [encodeField, hx, hy, bind, Option.bind_some]
        cases s3 f hf x y hx hy with
        | unset _ _ _ h1 h2 => rw [h1, h2]; exact .rfl
        | set _ _ _ d e h1 h2 h3 =>
          rw [h1, h2]
          simp only [Bool.and_false]
          refine encodeShape_same hW f.num (hB id f hf) ?_ (fun id' a b hsub ha hb hab => ?_) (content_typed hft h1) (content_typed hft' h2) h3
          · intro hm m hd
            subst hd
            exact hm _ _ (.refl _ _) xs rfl f hf x m hx h1
          · refine (encode_same hW hB n id' a b ha hb hab).weaken (fun hm id'' v'' hr => hm _ _ (.step _ _ _ _ _ _ ?_ hr))
            exact .mk _ _ f _ _ hf ⟨x, d, hx, h1, hsub⟩
        | lost _ _ _ d h0 h1 h2 h3 h4 =>
          rw [h2, h4]
          simp only [Bool.and_false]
          have : encodeShape S (encode S false n) f.num false f.shape d = some [] := by
            rcases (hW id).members f hf h1 with ⟨s, hs⟩ | ⟨id', p, hs⟩
            · rw [hs] at h3 ⊢
              have ht := content_typed hft h2
              rw [hs] at ht
              cases ht with
              | single _ _ ht =>
                have hdef : isDefault d = true := by
                  simp only [recordCount] at h3
                  split at h3
                  · assumption
                  · cases h3
                simp only [encodeShape, hdef, Bool.not_false, Bool.and_self, if_true]
                rw [encode_some ht]; rfl
            · rw [hs] at h3 ⊢
              have ht := content_typed hft h2
              rw [hs] at ht
              cases ht with
              | msg _ _ _ ht => cases ht with
                | nil => rfl
                | ptr => cases h3
                | inline =>
                  simp only [recordCount] at h3
                  simp only [encodeShape, Bool.not_false, Bool.and_true]
                  split at h3
                  · rename_i hz; rw [if_pos hz]
                  · cases h3
          exact alike_of_eq this
      refine ⟨?_, fun hc => by rw [h1.2 hc]⟩
      have h1 := h1.1
      revert h1
      cases concatM (encodeField S false (encode S false n) xs) (S id).fields <;>
        cases concatM (encodeField S false (encode S false n) ys) (S id).fields <;> simp [olen]

end Verif.Lemmas
