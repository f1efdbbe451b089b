import Verif.Lemmas.MapPerm
/-! Helper lemmas: listing the entries of maps in another order does not change the type of a value. -/
namespace Verif.Lemmas
open Verif.Model Verif.Spec

variable {S : Schema}

/-- The types of `v` are types of `w`. -/
structure PermTyped (S : Schema) (v w : Val) : Prop where
  msg : ∀ id, Typed S id v → Typed S id w
  ref : ∀ id p, RefTyped S id p v → RefTyped S id p w
  shape : ∀ sh, ShapeTyped S sh v → ShapeTyped S sh w
  field : ∀ f, FieldTyped S f v → FieldTyped S f w

theorem mem_idx {α β : Type} {xs : List α} {ys : List β} (hl : xs.length = ys.length) {y : β} (hy : y ∈ ys) :
    ∃ (i : Nat) (x : α), xs[i]? = some x ∧ ys[i]? = some y := by
  obtain ⟨i, hi, rfl⟩ := List.getElem_of_mem hy
  exact ⟨i, xs[i]'(by omega), List.getElem?_eq_getElem _, List.getElem?_eq_getElem _⟩

theorem unknownTyped_perm {p : Bool} {v w : Val} (h : UnknownTyped p v) (hp : MapPerm v w) : UnknownTyped p w := by
  cases p with
  | false =>
    obtain ⟨u, rfl⟩ := h
    cases hp
    exact ⟨u, rfl⟩
  | true =>
    rcases h with rfl | ⟨u, rfl⟩
    · cases hp; exact .inl rfl
    · cases hp with
      | refl => exact .inr ⟨u, rfl⟩
      | ptr _ _ h => cases h; exact .inr ⟨u, rfl⟩

/-- A value of a struct type is a struct. -/
theorem ref_of_msg {v w : Val} (h : ∀ id, Typed S id v → Typed S id w) (hn : v ≠ .ptr none)
    (hq : ∀ x, v ≠ .ptr (some x)) : ∀ id p, RefTyped S id p v → RefTyped S id p w := by
  intro id p hr
  cases hr with
  | nil => exact absurd rfl hn
  | ptr _ x _ => exact absurd rfl (hq x)
  | inline _ _ ht => exact .inline _ _ (h id ht)

theorem permTyped {v w : Val} (hp : MapPerm v w) : PermTyped S v w := by
  induction hp with
  | refl v => exact ⟨fun _ h => h, fun _ _ h => h, fun _ h => h, fun _ h => h⟩
  | ptr a b hp ih =>
    have href : ∀ id p, RefTyped S id p (.ptr (some a)) → RefTyped S id p (.ptr (some b)) := by
      intro id p hr
      cases hr with
      | ptr _ _ ht => exact .ptr _ _ (ih.msg id ht)
      | inline _ _ ht => cases ht
    have hsh : ∀ sh, ShapeTyped S sh (.ptr (some a)) → ShapeTyped S sh (.ptr (some b)) := by
      intro sh hs
      cases hs with
      | single s _ h => cases s <;> cases h
      | optional s _ h => rw [scalar_perm h hp]; exact .optional _ _ h
      | msg id p _ h => exact .msg _ _ _ (href id p h)
    refine ⟨fun id ht => (by cases ht), href, hsh, fun f hf => ?_⟩
    cases hf with
    | plain _ _ hm h => exact .plain _ _ hm (hsh _ h)
  | slice xs ys hl hp ih =>
    have hsh : ∀ sh, ShapeTyped S sh (.slice xs) → ShapeTyped S sh (.slice ys) := by
      intro sh hs
      cases hs with
      | single s _ h => cases s <;> cases h
      | list s p _ h =>
        refine .list _ _ _ (fun y hy => ?_)
        obtain ⟨i, x, hx, hy⟩ := mem_idx hl hy
        have := h x (List.mem_of_getElem? hx)
        rw [scalar_perm this (hp i x y hx hy)]
        exact this
      | msg id p _ h => cases h with | inline _ _ ht => cases ht
      | msgList id p _ h =>
        refine .msgList _ _ _ (fun y hy => ?_)
        obtain ⟨i, x, hx, hy⟩ := mem_idx hl hy
        exact (ih i x y hx hy).ref id p (h x (List.mem_of_getElem? hx))
    refine ⟨fun id ht => (by cases ht), ref_of_msg (fun id ht => (by cases ht)) nofun nofun, hsh, fun f hf => ?_⟩
    cases hf with
    | plain _ _ hm h => exact .plain _ _ hm (hsh _ h)
  | map m m1 m' hpm hk hp ih =>
    have hl : m1.length = m'.length := by simpa using congrArg List.length hk
    have hnd : (m.map (·.1)).Nodup → (m'.map (·.1)).Nodup := fun h => hk ▸ (hpm.map _).nodup_iff.1 h
    have hmem : ∀ e' ∈ m', ∃ e ∈ m, e.1 = e'.1 ∧ MapPerm e.2 e'.2 ∧ PermTyped S e.2 e'.2 := by
      intro e' he'
      obtain ⟨i, e, he, he'⟩ := mem_idx hl he'
      refine ⟨e, hpm.mem_iff.2 (List.mem_of_getElem? he), ?_, hp i e e' he he', ih i e e' he he'⟩
      have h1 := congrArg (·[i]?) hk
      simpa [he, he'] using h1
    have hsh : ∀ sh, ShapeTyped S sh (.map (some m)) → ShapeTyped S sh (.map (some m')) := by
      intro sh hs
      cases hs with
      | single s _ h => cases s <;> cases h
      | msg id p _ h => cases h with | inline _ _ ht => cases ht
      | map k v _ h1 h2 =>
        refine .map _ _ _ (hnd h1) (fun e' he' => ?_)
        obtain ⟨e, he, hk, hp, -⟩ := hmem e' he'
        obtain ⟨g1, g2⟩ := h2 e he
        rw [← hk, scalar_perm g2 hp]
        exact ⟨g1, g2⟩
      | mapMsg k id p _ h1 h2 h3 =>
        refine .mapMsg _ _ _ _ (hnd h1) (fun e' he' => ?_) (fun e' he' => ?_)
        · obtain ⟨e, he, hk, -⟩ := hmem e' he'
          exact hk ▸ h2 e he
        · obtain ⟨e, he, -, -, ht⟩ := hmem e' he'
          exact ht.ref id p (h3 e he)
    refine ⟨fun id ht => (by cases ht), ref_of_msg (fun id ht => (by cases ht)) nofun nofun, hsh, fun f hf => ?_⟩
    cases hf with
    | plain _ _ hm h => exact .plain _ _ hm (hsh _ h)
  | struct xs ys hl hp ih =>
    have hmsg : ∀ id, Typed S id (.struct xs) → Typed S id (.struct ys) := by
      intro id ht
      cases ht with
      | mk _ _ h1 h2 h3 =>
        have hx : ∀ {i : Nat} {y : Val}, ys[i]? = some y → ∃ x, xs[i]? = some x := by
          intro i y hy
          have hi := (List.getElem?_eq_some_iff.1 hy).1
          exact ⟨xs[i]'(by omega), List.getElem?_eq_getElem _⟩
        refine .mk _ _ (hl ▸ h1) (fun f hf y hy => ?_) (fun s p y hs hy => ?_)
        · obtain ⟨x, hx⟩ := hx hy
          exact (ih _ x y hx hy).field f (h2 f hf x hx)
        · obtain ⟨x, hx⟩ := hx hy
          exact unknownTyped_perm (h3 s p x hs hx) (hp _ x y hx hy)
    have href := ref_of_msg (S := S) hmsg nofun nofun
    have hsh : ∀ sh, ShapeTyped S sh (.struct xs) → ShapeTyped S sh (.struct ys) := by
      intro sh hs
      cases hs with
      | single s _ h => cases s <;> cases h
      | msg id p _ h => exact .msg _ _ _ (href id p h)
    refine ⟨hmsg, href, hsh, fun f hf => ?_⟩
    cases hf with
    | plain _ _ hm h => exact .plain _ _ hm (hsh _ h)
  | iface w a b hp ih =>
    have hsh : ∀ sh, ShapeTyped S sh (.iface (some (w, some a))) → ShapeTyped S sh (.iface (some (w, some b))) := by
      intro sh hs
      cases hs with
      | single s _ h => cases s <;> cases h
      | msg id p _ h => cases h with | inline _ _ ht => cases ht
    refine ⟨fun id ht => (by cases ht), ref_of_msg (fun id ht => (by cases ht)) nofun nofun, hsh, fun f hf => ?_⟩
    cases hf with
    | plain _ _ hm h => exact .plain _ _ hm (hsh _ h)
    | member _ _ _ hm h => exact .member _ _ _ hm (ih.shape _ h)
    | otherMember _ w0 _ _ hm h => exact .otherMember _ _ _ _ hm h

theorem typed_perm {id : Nat} {v w : Val} (h : Typed S id v) (hp : MapPerm v w) : Typed S id w :=
  (permTyped hp).msg id h

end Verif.Lemmas
