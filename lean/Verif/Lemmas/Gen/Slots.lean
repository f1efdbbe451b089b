import Verif.Spec.Gen.Describes
import Verif.Props.Gen.GoNames
import Verif.Props.Gen.Verify
import Verif.Props.Gen.StructTag
/-!
# Lemmas: the fields of generated structs
-/
namespace Verif.Props.Gen
open Verif.Spec.Gen Verif.Model.Gen

/-! ## Names of oneofs -/

/-- What the loop over the fields keeps of the names of oneofs. -/
structure OInv (on : Nat → Str) (fs : List FieldDecl) (σ : Names) : Prop where
  keys : (σ.oneofs.map Prod.fst).Nodup
  covers : ∀ f ∈ fs, ∀ k, f.oneof = some k → k ∈ σ.oneofs.map Prod.fst
  shape : ∀ p ∈ σ.oneofs, ∃ j, p.2 = on p.1 ++ List.replicate j '_'

theorem nameField_oinv (on : Nat → Str) (fs : List FieldDecl) (σ : Names) (f : FieldDecl) (h : OInv on fs σ) : OInv on (fs ++ [f]) (nameField on σ f) := by
  have hc : ∀ k', f.oneof = some k' → (∀ l : List (Nat × Str), (∀ p ∈ σ.oneofs, p ∈ l) → k' ∈ l.map Prod.fst →
      ∀ g ∈ fs ++ [f], ∀ k, g.oneof = some k → k ∈ l.map Prod.fst) := by
    intro k' hk' l hl hkl g hg k hk
    rcases List.mem_append.1 hg with hg | hg
    · obtain ⟨p, hp, e⟩ := List.mem_map.1 (h.covers g hg k hk)
      exact List.mem_map.2 ⟨p, hl p hp, e⟩
    · rw [List.mem_singleton.1 hg, hk'] at hk
      cases hk
      exact hkl
  unfold nameField
  dsimp only
  cases hf : f.oneof with
  | none =>
    refine ⟨h.keys, fun g hg k hk => ?_, h.shape⟩
    rcases List.mem_append.1 hg with hg | hg
    · exact h.covers g hg k hk
    · rw [List.mem_singleton.1 hg, hf] at hk
      cases hk
  | some k =>
    dsimp only
    split
    · rename_i ha
      refine ⟨h.keys, hc k hf _ (fun p hp => hp) ?_, h.shape⟩
      rw [List.any_eq_true] at ha
      obtain ⟨p, hp, e⟩ := ha
      exact List.mem_map.2 ⟨p, hp, by simpa using e⟩
    · rename_i ha
      refine ⟨?_, hc k hf _ (fun p hp => List.mem_append_left _ hp) ?_, ?_⟩
      · rw [List.map_append, List.nodup_append]
        refine ⟨h.keys, by simp, fun a h1 b h2 e => ?_⟩
        subst e
        apply ha
        rw [List.any_eq_true]
        obtain ⟨p, hp, e⟩ := List.mem_map.1 h1
        refine ⟨p, hp, ?_⟩
        rw [List.map_cons, List.map_nil, List.mem_singleton] at h2
        simp [e, h2]
      · simp
      · intro p hp
        rcases List.mem_append.1 hp with hp | hp
        · exact h.shape p hp
        · rw [List.mem_singleton.1 hp]
          exact dodge_shape _ _ _

theorem resolve_oinv (m : MsgDecl) : OInv (fun k => goCamelCase (m.oneofs.getD k [])) m.fields (resolveFieldConflicts m) := by
  have go : ∀ (gs fs : List FieldDecl) (σ : Names), OInv (fun k => goCamelCase (m.oneofs.getD k [])) fs σ →
      OInv (fun k => goCamelCase (m.oneofs.getD k [])) (fs ++ gs) (gs.foldl (nameField fun k => goCamelCase (m.oneofs.getD k [])) σ) := by
    intro gs
    induction gs with
    | nil => intro fs σ h; simpa using h
    | cons g gs ih =>
      intro fs σ h
      have := ih (fs ++ [g]) _ (nameField_oinv _ fs σ g h)
      simpa using this
  have := go m.fields [] ⟨methodNames, [], []⟩ ⟨by simp, by simp, by simp⟩
  rw [List.nil_append] at this
  exact this

/-- A oneof that has fields. -/
def Inhabited (m : MsgDecl) (k : Nat) : Prop := ∃ f ∈ m.fields, f.oneof = some k

theorem oneofName_mem {m : MsgDecl} {k : Nat} (h : Inhabited m k) : (k, oneofFieldName m k) ∈ (resolveFieldConflicts m).oneofs := by
  obtain ⟨f, hf, hk⟩ := h
  have hc := (resolve_oinv m).covers f hf k hk
  unfold oneofFieldName
  cases hl : (resolveFieldConflicts m).oneofs.lookup k with
  | none =>
    rw [List.lookup_eq_none_iff] at hl
    obtain ⟨p, hp, e⟩ := List.mem_map.1 hc
    have := hl p hp
    rw [e] at this
    simp at this
  | some n => exact lookup_mem hl

theorem oneofName_inj {m : MsgDecl} {k k' : Nat} (h : Inhabited m k) (h' : Inhabited m k') (e : oneofFieldName m k = oneofFieldName m k') : k = k' := by
  have h1 := oneofName_mem h
  have h2 := oneofName_mem h'
  have hn : ((resolveFieldConflicts m).oneofs.map Prod.snd).Nodup := (List.nodup_append.1 (C45_partial m).1).2.1
  obtain ⟨i, hi, e1⟩ := List.getElem_of_mem h1
  obtain ⟨j, hj, e2⟩ := List.getElem_of_mem h2
  have hij : i = j := by
    refine (List.getElem_inj (xs := (resolveFieldConflicts m).oneofs.map Prod.snd) (i := i) (j := j) (h₀ := by simpa using hi) (h₁ := by simpa using hj) hn).1 ?_
    rw [List.getElem_map, List.getElem_map, e1, e2]
    exact e
  subst hij
  rw [e1] at e2
  exact congrArg Prod.fst e2

theorem fieldNames_nodup (m : MsgDecl) : (resolveFieldConflicts m).fields.Nodup := by
  have h := (C45_partial m).1
  rw [List.nodup_append, List.nodup_append, List.nodup_append] at h
  exact h.1.1.2.1

theorem oneofName_not_field {m : MsgDecl} {k : Nat} (h : Inhabited m k) : oneofFieldName m k ∉ (resolveFieldConflicts m).fields := by
  intro hm
  have hn := (C45_partial m).1
  have := (List.nodup_append.1 hn).2.2 (oneofFieldName m k) (by
    apply List.mem_append_left
    apply List.mem_append_right
    exact hm) _ (List.mem_map.2 ⟨_, oneofName_mem h, rfl⟩)
  exact this rfl

/-! ## Fields with their names -/

theorem named_fst (m : MsgDecl) : (namedFields m).map Prod.fst = m.fields := by
  unfold namedFields
  rw [List.map_fst_zip]
  rw [(C45_partial m).2]
  exact Nat.le_refl _

theorem named_snd (m : MsgDecl) : (namedFields m).map Prod.snd = (resolveFieldConflicts m).fields := by
  unfold namedFields
  rw [List.map_snd_zip]
  rw [(C45_partial m).2]
  exact Nat.le_refl _

theorem named_fst_mem {m : MsgDecl} {x : FieldDecl × Str} (h : x ∈ namedFields m) : x.1 ∈ m.fields := by
  rw [← named_fst m]
  exact List.mem_map.2 ⟨x, h, rfl⟩

theorem named_of {m : MsgDecl} {f : FieldDecl} (h : f ∈ m.fields) : ∃ n, (f, n) ∈ namedFields m := by
  rw [← named_fst m] at h
  obtain ⟨⟨a, n⟩, hx, rfl⟩ := List.mem_map.1 h
  exact ⟨n, hx⟩

theorem mem_of_nodup_map {α β : Type} {l : List α} {g : α → β} (hn : (l.map g).Nodup) {a b : α} (ha : a ∈ l) (hb : b ∈ l) (e : g a = g b) : a = b := by
  obtain ⟨i, hi, e1⟩ := List.getElem_of_mem ha
  obtain ⟨j, hj, e2⟩ := List.getElem_of_mem hb
  have hij : i = j := by
    refine (List.getElem_inj (xs := l.map g) (i := i) (j := j) (h₀ := by simpa using hi) (h₁ := by simpa using hj) hn).1 ?_
    rw [List.getElem_map, List.getElem_map, e1, e2]
    exact e
  subst hij
  rw [← e1, ← e2]

theorem named_inj {m : MsgDecl} {x y : FieldDecl × Str} (hx : x ∈ namedFields m) (hy : y ∈ namedFields m) (e : x.2 = y.2) : x = y :=
  mem_of_nodup_map (g := Prod.snd) (by rw [named_snd]; exact fieldNames_nodup m) hx hy e

theorem named_shape {m : MsgDecl} {x : FieldDecl × Str} (h : x ∈ namedFields m) : ∃ k, x.2 = goCamelCase x.1.name ++ List.replicate k '_' := by
  obtain ⟨ks, hl, e⟩ := C45_shape m
  unfold namedFields at h
  rw [e] at h
  obtain ⟨i, hi, e⟩ := List.getElem_of_mem h
  subst e
  rw [List.getElem_zip, List.getElem_zipWith]
  exact ⟨_, rfl⟩

/-! ## The fields of the struct -/

theorem slots_mem (W : World) (p : Nat) (c : Chain) (g : GenField) : ∀ (l : List (FieldDecl × Str)) (seen : List Nat),
    g ∈ genSlots W p c seen l ↔ (∃ x ∈ l, x.1.oneof = none ∧ g = fieldGen W p c x.1 x.2) ∨
      (∃ x ∈ l, ∃ k, x.1.oneof = some k ∧ k ∉ seen ∧ g = oneofSlot c k)
  | [], seen => by simp [genSlots]
  | (f, n) :: rest, seen => by
    rw [genSlots]
    cases hf : f.oneof with
    | none =>
      dsimp only
      rw [List.mem_cons, slots_mem W p c g rest seen]
      simp only [List.mem_cons, exists_eq_or_imp, hf, or_assoc, true_and, false_and, exists_false, false_or]
      simp
    | some k =>
      dsimp only
      split
      · rename_i hs
        rw [List.contains_iff_mem] at hs
        rw [slots_mem W p c g rest seen]
        simp only [List.mem_cons, exists_eq_or_imp, hf]
        constructor
        · rintro (h | h)
          · exact .inl (.inr h)
          · exact .inr (.inr h)
        · rintro ((h | h) | (h | h))
          · cases h.1
          · exact .inl h
          · obtain ⟨k', e, h, _⟩ := h
            cases e
            exact absurd hs h
          · exact .inr h
      · rename_i hs
        rw [List.contains_iff_mem] at hs
        rw [List.mem_cons, slots_mem W p c g rest (k :: seen)]
        simp only [List.mem_cons, exists_eq_or_imp, hf]
        constructor
        · rintro (h | h | ⟨x, hx, k', e, h1, h2⟩)
          · exact .inr (.inl ⟨k, rfl, hs, h⟩)
          · exact .inl (.inr h)
          · exact .inr (.inr ⟨x, hx, k', e, fun hh => h1 (.inr hh), h2⟩)
        · rintro ((h | h) | (h | ⟨x, hx, k', e, h1, h2⟩))
          · cases h.1
          · exact .inr (.inl h)
          · obtain ⟨k', e, h, h2⟩ := h
            cases e
            exact .inl h2
          · by_cases hk : k' = k
            · subst hk
              exact .inl h2
            · refine .inr (.inr ⟨x, hx, k', e, ?_, h2⟩)
              rintro (h | h)
              · exact hk h
              · exact h1 h

theorem slots_nodup (W : World) (p : Nat) (c : Chain) : ∀ (l : List (FieldDecl × Str)) (seen : List Nat), (l.map Prod.snd).Nodup →
    (∀ x ∈ l, Gen.Inhabited c.msg x.1.oneof.get! ∨ x.1.oneof = none) → (∀ x ∈ l, x.2 ∈ (resolveFieldConflicts c.msg).fields) →
    ((genSlots W p c seen l).map GenField.name).Nodup
  | [], seen, _, _, _ => by simp [genSlots]
  | (f, n) :: rest, seen, hn, hi, hm => by
    rw [List.map_cons, List.nodup_cons] at hn
    have ih := fun seen => slots_nodup W p c rest seen hn.2 (fun x hx => hi x (List.mem_cons_of_mem _ hx)) (fun x hx => hm x (List.mem_cons_of_mem _ hx))
    rw [genSlots]
    cases hf : f.oneof with
    | none =>
      dsimp only
      rw [List.map_cons, List.nodup_cons]
      refine ⟨fun h => ?_, ih seen⟩
      obtain ⟨g, hg, e⟩ := List.mem_map.1 h
      rcases (slots_mem W p c g rest seen).1 hg with ⟨x, hx, _, rfl⟩ | ⟨x, hx, k, hk, _, rfl⟩
      · exact hn.1 (List.mem_map.2 ⟨x, hx, e⟩)
      · have e : oneofFieldName c.msg k = n := e
        have := hi x (List.mem_cons_of_mem _ hx)
        rw [hk] at this
        rcases this with h | h
        · exact oneofName_not_field h (by
            show oneofFieldName c.msg k ∈ _
            rw [e]
            exact hm _ (List.mem_cons_self ..))
        · cases h
    | some k =>
      dsimp only
      split
      · exact ih seen
      · rw [List.map_cons, List.nodup_cons]
        refine ⟨fun h => ?_, ih _⟩
        have hik : Gen.Inhabited c.msg k := by
          have := hi _ (List.mem_cons_self ..)
          dsimp only at this
          rw [hf] at this
          rcases this with h | h
          · exact h
          · cases h
        obtain ⟨g, hg, e⟩ := List.mem_map.1 h
        rcases (slots_mem W p c g rest _).1 hg with ⟨x, hx, _, rfl⟩ | ⟨x, hx, k', hk, hs, rfl⟩
        · have e : x.2 = oneofFieldName c.msg k := e
          exact oneofName_not_field hik (by rw [← e]; exact hm _ (List.mem_cons_of_mem _ hx))
        · have e : oneofFieldName c.msg k' = oneofFieldName c.msg k := e
          have := hi x (List.mem_cons_of_mem _ hx)
          rw [hk] at this
          rcases this with h | h
          · have := oneofName_inj h hik e
            exact hs (by rw [show k' = k from this]; exact List.mem_cons_self ..)
          · cases h

end Verif.Props.Gen
