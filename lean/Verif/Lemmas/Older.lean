import Verif.Spec.Older
import Verif.Lemmas.Frame
/-! # Decoding with an older version of the schema -/
namespace Verif.Lemmas
open Verif.Spec Verif.Model

variable {O S : Schema} {σ : Nat → Nat → Nat}

theorem kept_agree {id : Nat} {xs xs' ys ys' : List Val} (hS : S.WF) (hO : O.WF) (h : Kept O S σ id (.struct xs) (.struct ys))
    (hx : AgreeKnown (S id) xs xs') (hy : AgreeKnown (O id) ys ys') : Kept O S σ id (.struct xs') (.struct ys') := by
  cases h with
  | mk _ _ _ h1 h2 h3 =>
    refine .mk _ _ _ (hx.1 ▸ h1) (hy.1 ▸ h2) fun f hf hg x y ex ey => h3 f hf hg x y ?_ ?_
    · rw [hx.2 _ (slot_known hS hf)]; exact ex
    · exact (hy.2 _ (slot_known hO hg)).trans ey

theorem kept_zero_le (hS : S.WF) (hO : O.WF) (hV : Older O S σ) : ∀ (n : Nat) (id : Nat), sizeOf (S id).zero ≤ n →
    Kept O S σ id (S id).zero (O id).zero
  | 0, id, h => by
    obtain ⟨zs, e, _⟩ := (hS id).zero
    rw [e] at h
    simp at h
  | n + 1, id, h => by
    obtain ⟨zs, e, e1, e2, _⟩ := (hS id).zero
    obtain ⟨zs', e', e1', e2', _⟩ := (hO id).zero
    rw [e, e']
    refine .mk _ _ _ e1 e1' fun f hf hg x y ex ey => ?_
    have hx := e2 f hf
    have hy := e2' _ hg
    rw [ex] at hx
    have hy : some y = some (Field.zero O (f.at (σ id f.slot))) := ey.symm.trans hy
    injection hx with hx
    injection hy with hy
    have hlt : sizeOf x ≤ n := by
      have : x ∈ zs := List.mem_of_getElem? ex
      have := List.sizeOf_lt_of_mem this
      rw [e] at h
      simp at h
      omega
    subst hy
    rcases hm : f.member with _ | w
    · refine .plain _ _ _ hm ?_
      simp only [Field.zero, hm] at hx
      simp only [Field.at, Field.zero, hm]
      cases hs : f.shape <;> simp only [hs] at hx ⊢
      case single => subst hx; exact .single _ _
      case optional => subst hx; exact .optional _ _
      case list => subst hx; exact .list _ _ _
      case map => subst hx; exact .map _ _ _
      case mapMsg => subst hx; exact .nilMap _ _ _
      case msgList => subst hx; exact .msgList _ _ _ _ rfl (by simp)
      case msg id' p =>
        cases p
        · simp only at hx ⊢
          subst hx
          exact .inline _ _ _ (kept_zero_le hS hO hV n id' hlt)
        · simp only at hx ⊢
          subst hx
          exact .nilPtr _
    · simp only [Field.zero, hm] at hx
      simp only [Field.at, Field.zero, hm]
      subst hx
      exact .unset _ (by simp [hm])

theorem kept_zero (hS : S.WF) (hO : O.WF) (hV : Older O S σ) (id : Nat) : Kept O S σ id (S id).zero (O id).zero :=
  kept_zero_le hS hO hV _ id (Nat.le_refl _)

theorem keptShape_zero (hS : S.WF) (hO : O.WF) (hV : Older O S σ) (sh : Shape) :
    KeptShape O S σ sh (sh.zero S) (sh.zero O) := by
  cases sh
  case single => exact .single _ _
  case optional => exact .optional _ _
  case list => exact .list _ _ _
  case map => exact .map _ _ _
  case mapMsg => exact .nilMap _ _ _
  case msgList => exact .msgList _ _ _ _ rfl (by simp)
  case msg id' p =>
    cases p
    · exact .inline _ _ _ (kept_zero hS hO hV id')
    · exact .nilPtr _

theorem kept_snoc {id : Nat} {p : Bool} {xs : List Val} {x' x y : Val} (h : KeptShape O S σ (.msgList id p) (.slice xs) x')
    (hx : KeptShape O S σ (.msg id p) x y) :
    ∃ ys, x' = .slice ys ∧ KeptShape O S σ (.msgList id p) (.slice (xs ++ [x])) (.slice (ys ++ [y])) := by
  cases h with
  | msgList _ _ _ ys hl h =>
    refine ⟨ys, rfl, .msgList _ _ _ _ (by simp [hl]) fun i a b ha hb => ?_⟩
    rcases Nat.lt_trichotomy i xs.length with hi | hi | hi
    · rw [List.getElem?_append_left hi] at ha
      rw [List.getElem?_append_left (hl ▸ hi)] at hb
      exact h i a b ha hb
    · subst hi
      rw [List.getElem?_concat_length] at ha
      rw [hl, List.getElem?_concat_length] at hb
      cases ha; cases hb
      exact hx
    · rw [List.getElem?_eq_none (by simp; omega)] at ha
      cases ha

/-- Related maps. -/
def KeptEntries (O S : Schema) (σ : Nat → Nat → Nat) (id : Nat) (p : Bool) (m m' : List (Key × Val)) : Prop :=
  m.map (·.1) = m'.map (·.1) ∧
  ∀ (i : Nat) (e e' : Key × Val), m[i]? = some e → m'[i]? = some e' → KeptShape O S σ (.msg id p) e.2 e'.2

theorem keptEntries_cons {id : Nat} {p : Bool} {e e' : Key × Val} {m m' : List (Key × Val)} (he : e.1 = e'.1)
    (hs : KeptShape O S σ (.msg id p) e.2 e'.2) (h : KeptEntries O S σ id p m m') :
    KeptEntries O S σ id p (e :: m) (e' :: m') := by
  refine ⟨by simp [he, h.1], fun i a b ha hb => ?_⟩
  cases i with
  | zero => cases ha; cases hb; exact hs
  | succ i => exact h.2 i a b ha hb

theorem kept_put {id : Nat} {p : Bool} {k : Key} {y y' : Val} (hy : KeptShape O S σ (.msg id p) y y') :
    ∀ {m m' : List (Key × Val)}, KeptEntries O S σ id p m m' → KeptEntries O S σ id p (putEntry m k y) (putEntry m' k y')
  | [], m', h => by
    have : m' = [] := by simpa using h.1.symm
    subst this
    exact keptEntries_cons rfl hy h
  | e :: m, [], h => by simp [KeptEntries] at h
  | e :: m, e' :: m', h => by
    have h0 : e.1 = e'.1 := by have := h.1; simp at this; exact this.1
    have h1 : KeptEntries O S σ id p m m' :=
      ⟨by have := h.1; simp at this; exact this.2, fun i a b ha hb => h.2 (i + 1) a b ha hb⟩
    have h2 := h.2 0 e e' rfl rfl
    simp only [putEntry]
    rw [← h0]
    split
    · exact keptEntries_cons rfl hy h1
    · exact keptEntries_cons h0 h2 (kept_put hy h1)

theorem kept_entry {ks : Scalar} {id : Nat} {p : Bool} {m : Option (List (Key × Val))} {x' y y' : Val} {k : Key}
    (h : KeptShape O S σ (.mapMsg ks id p) (.map m) x') (hy : KeptShape O S σ (.msg id p) y y') :
    ∃ m', x' = .map m' ∧ KeptShape O S σ (.mapMsg ks id p) (.map (some (putEntry (m.getD []) k y)))
      (.map (some (putEntry (m'.getD []) k y'))) := by
  cases h with
  | nilMap =>
    have := kept_put (k := k) hy (m := []) (m' := []) ⟨rfl, by simp⟩
    exact ⟨none, rfl, .mapMsg _ _ _ _ _ this.1 this.2⟩
  | mapMsg _ _ _ m m' h1 h2 =>
    have := kept_put (k := k) hy (m := m) (m' := m') ⟨h1, h2⟩
    exact ⟨some m', rfl, .mapMsg _ _ _ _ _ this.1 this.2⟩

theorem keptField_iface {f : Field} {x y : Val} {w : Nat} (hm : f.member = some w) (h : KeptField O S σ f x y) :
    ∃ y', y = .iface y' := by
  cases h with
  | plain _ _ _ h => simp [h] at hm
  | unset => exact ⟨_, rfl⟩
  | setNil => exact ⟨_, rfl⟩
  | set => exact ⟨_, rfl⟩
  | other => exact ⟨_, rfl⟩

theorem keptField_plain {f : Field} {x y : Val} (hm : f.member = none) (h : KeptField O S σ f x y) :
    KeptShape O S σ f.shape x y := by
  cases h
  case plain => assumption
  all_goals simp_all

section
variable (hS : S.WF) (hO : O.WF) (hV : Older O S σ)
include hS hO hV

omit hO in
/-- A field the older version does not have: no field of it has that number. -/
theorem older_absent {id : Nat} {f : Field} (hf : f ∈ (S id).fields) (hg : f.at (σ id f.slot) ∉ (O id).fields) :
    ∀ g ∈ (O id).fields, g.num ≠ f.num := by
  intro g h1 h2
  obtain ⟨f', hf', rfl⟩ := hV.fields id g h1
  have : f' = f := fields_num_inj (hS id) hf' hf h2
  exact hg (this ▸ h1)

omit hO in
/-- Setting a field both versions have. -/
theorem kept_set {id : Nat} {f : Field} (hf : f ∈ (S id).fields) {xs ys : List Val} {x y : Val}
    (hs : ∀ w, f.member = some w → ∃ a, x = .iface (some (w, some a)))
    (hk : ∀ w, f.member = some w → ∃ a, y = .iface a)
    (h : Kept O S σ id (.struct xs) (.struct ys)) (hx : KeptField O S σ f x y) :
    Kept O S σ id (.struct (xs.set f.slot x)) (.struct (ys.set (σ id f.slot) y)) := by
  cases h with
  | mk _ _ _ h1 h2 h3 =>
    refine .mk _ _ _ (by simpa using h1) (by simpa using h2) fun f' hf' hg a b ha hb => ?_
    by_cases e : f.slot = f'.slot
    · have hl : f.slot < xs.length := h1 ▸ (hS id).slots f hf
      rw [← e, List.getElem?_set_self hl] at ha
      have hl' : σ id f.slot < ys.length := by
        rw [e]
        rcases Nat.lt_or_ge (σ id f'.slot) ys.length with h | h
        · exact h
        · rw [List.getElem?_eq_none (by simpa using h)] at hb; cases hb
      rw [← e, List.getElem?_set_self hl'] at hb
      cases ha; cases hb
      by_cases en : f.num = f'.num
      · rw [← fields_num_inj (hS id) hf hf' en]; exact hx
      · obtain ⟨w, w', e1, e2, e3⟩ := (hS id).disjoint f hf f' hf' en e
        obtain ⟨c, rfl⟩ := hs w e1
        obtain ⟨c', rfl⟩ := hk w e1
        exact .other _ w' w _ _ e2 e3
    · rw [List.getElem?_set_ne e] at ha
      rw [List.getElem?_set_ne (fun h => e (hV.apart id f hf f' hf' h))] at hb
      exact h3 f' hf' hg a b ha hb

omit hO hV in
/-- Setting a field only the newer version has. -/
theorem kept_drop {id : Nat} {f : Field} (hf : f ∈ (S id).fields) (hg : f.at (σ id f.slot) ∉ (O id).fields)
    {xs ys : List Val} {x : Val} (hs : ∀ w, f.member = some w → ∃ a, x = .iface (some (w, some a)))
    (h : Kept O S σ id (.struct xs) (.struct ys)) : Kept O S σ id (.struct (xs.set f.slot x)) (.struct ys) := by
  cases h with
  | mk _ _ _ h1 h2 h3 =>
    refine .mk _ _ _ (by simpa using h1) h2 fun f' hf' hg' a b ha hb => ?_
    by_cases e : f.slot = f'.slot
    · have hl : f.slot < xs.length := h1 ▸ (hS id).slots f hf
      rw [← e, List.getElem?_set_self hl] at ha
      cases ha
      by_cases en : f.num = f'.num
      · exact absurd (fields_num_inj (hS id) hf hf' en ▸ hg') hg
      · obtain ⟨w, w', e1, e2, e3⟩ := (hS id).disjoint f hf f' hf' en e
        obtain ⟨c, rfl⟩ := hs w e1
        have : xs[f'.slot]? = some xs[f'.slot] := List.getElem?_eq_getElem (e ▸ hl)
        obtain ⟨c', rfl⟩ := keptField_iface e2 (h3 f' hf' hg' _ b this hb)
        exact .other _ w' w _ _ e2 e3
    · rw [List.getElem?_set_ne e] at ha
      exact h3 f' hf' hg' a b ha hb

mutual
theorem decodes_kept {d : Int} {id : Nat} {b : Bytes} {v w : Val} :
    Decodes S d id b v w → ∀ v', Kept O S σ id v v' → ∃ w', Decodes O d id b v' w' ∧ Kept O S σ id w w'
  | .mk _ _ _ xs ys h0 h => fun v' hk => by
    obtain ⟨ys0, rfl⟩ : ∃ ys0, v' = .struct ys0 := by cases hk; exact ⟨_, rfl⟩
    obtain ⟨zs, h1, h2⟩ := decRecs_kept h _ (kept_agree hS hO hk (agree_clear _ _) (agree_clear _ _))
    exact ⟨_, .mk _ _ _ _ _ h0 h1, h2⟩
theorem decRecs_kept {d : Int} {id : Nat} {b : Bytes} {xs zs : List Val} :
    DecRecs S d id b xs zs → ∀ ys, Kept O S σ id (.struct xs) (.struct ys) →
    ∃ zs', DecRecs O d id b ys zs' ∧ Kept O S σ id (.struct zs) (.struct zs')
  | .nil _ _ _ => fun ys hk => ⟨ys, .nil _ _ _, hk⟩
  | .unknown _ _ num t k v rest _ _ h1 h2 h3 h4 => fun ys hk => by
    obtain ⟨zs', a1, a2⟩ := decRecs_kept h4 (addUnknown (O id) ys (k ++ v)) (kept_agree hS hO hk (agree_add _ _ _) (agree_add _ _ _))
    refine ⟨zs', .unknown _ _ num t k v rest _ _ h1 (fun g hg => ?_) h3 a1, a2⟩
    obtain ⟨f', hf', rfl⟩ := hV.fields id g hg
    exact h2 f' hf'
  | .field _ _ f t k v rest _ x y _ hf h1 h2 h3 h4 => fun ys hk => by
    have hs : ∀ w, f.member = some w → ∃ a, y = .iface (some (w, some a)) := by
      intro w hm
      cases h3 with
      | plain _ _ _ _ _ _ h => simp [h] at hm
      | member _ _ _ _ w' _ y h => rw [h] at hm; cases hm; exact ⟨_, rfl⟩
    by_cases hg : f.at (σ id f.slot) ∈ (O id).fields
    · have hys : ys.length = (O id).nslots := by cases hk; assumption
      have hl : σ id f.slot < ys.length := hys ▸ (hO id).slots _ hg
      have e : ys[σ id f.slot]? = some ys[σ id f.slot] := List.getElem?_eq_getElem hl
      have hkf : KeptField O S σ f x ys[σ id f.slot] := by
        cases hk with
        | mk _ _ _ _ _ h => exact h f hf hg _ _ h2 e
      obtain ⟨y', b1, b2⟩ := decField_kept h3 (σ id f.slot) _ hkf
      have hk' := kept_set hS hV hf hs (fun w hm => keptField_iface hm b2) hk b2
      obtain ⟨zs', a1, a2⟩ := decRecs_kept h4 _ hk'
      exact ⟨zs', .field _ _ _ t k v rest _ _ _ _ hg h1 e b1 a1, a2⟩
    · have hk' := kept_agree hS hO (kept_drop hS hf hg hs hk) (agree_refl _ _) (agree_add _ _ (k ++ v))
      obtain ⟨zs', a1, a2⟩ := decRecs_kept h4 _ hk'
      exact ⟨zs', .unknown _ _ f.num t k v rest _ _ h1 (older_absent hS hV hf hg)
        (isValue_le (decField_isValue h3) _ (Nat.zero_le _)) a1, a2⟩
theorem decField_kept {d : Int} {f : Field} {t : WireType} {v : Bytes} {x y : Val} :
    DecField S d f t v x y → ∀ (slot : Nat) (x' : Val), KeptField O S σ f x x' →
    ∃ y', DecField O d (f.at slot) t v x' y' ∧ KeptField O S σ f y y'
  | .plain _ _ _ _ _ _ hm h => fun slot x' hk => by
    have hk' := keptField_plain hm hk
    obtain ⟨y', h1, h2⟩ := decShape_kept h x' hk'
    exact ⟨y', .plain _ (f.at slot) _ _ _ _ hm h1, .plain _ _ _ hm h2⟩
  | .member _ _ _ _ w x0 y hm h => fun slot x' hk => by
    obtain ⟨x1, rfl⟩ := keptField_iface hm hk
    obtain ⟨y', h1, h2⟩ := decShape_kept h _ (keptShape_zero hS hO hV f.shape)
    exact ⟨_, .member _ (f.at slot) _ _ w x1 y' hm h1, .set _ _ _ _ hm h2⟩
theorem decShape_kept {d : Int} {sh : Shape} {t : WireType} {v : Bytes} {x y : Val} :
    DecShape S d sh t v x y → ∀ x', KeptShape O S σ sh x x' →
    ∃ y', DecShape O d sh t v x' y' ∧ KeptShape O S σ sh y y'
  | .single _ s _ _ _ h => fun x' hk => by
    exact ⟨_, .single _ s _ _ _ h, .single _ _⟩
  | .optional _ s _ _ _ h => fun x' hk => by
    exact ⟨_, .optional _ s _ _ _ h, .optional _ _⟩
  | .elem _ s p _ _ _ h => fun x' hk => by
    cases hk; exact ⟨_, .elem _ s p _ _ _ h, .list _ _ _⟩
  | .packed _ s _ p _ _ h h' => fun x' hk => by
    exact ⟨_, .packed _ s _ p _ _ h h', .list _ _ _⟩
  | .msgPtr _ id _ p _ m h h' => fun x' hk => by
    obtain ⟨w', a1, a2⟩ := decodes_kept h' _ (kept_zero hS hO hV id)
    exact ⟨_, .msgPtr _ id _ p _ _ h a1, .ptr _ _ _ a2⟩
  | .msgInline _ id _ p _ m h h' => fun x' hk => by
    cases hk with
    | inline _ _ _ hk =>
      obtain ⟨w', a1, a2⟩ := decodes_kept h' _ hk
      exact ⟨_, .msgInline _ id _ p _ _ h a1, .inline _ _ _ a2⟩
  | .msgElemPtr _ id _ p _ m h h' => fun x' hk => by
    obtain ⟨w', a1, a2⟩ := decodes_kept h' _ (kept_zero hS hO hV id)
    obtain ⟨ys, rfl, a3⟩ := kept_snoc hk (.ptr _ _ _ a2)
    exact ⟨_, .msgElemPtr _ id _ p _ _ h a1, a3⟩
  | .msgElemInline _ id _ p _ m h h' => fun x' hk => by
    obtain ⟨w', a1, a2⟩ := decodes_kept h' _ (kept_zero hS hO hV id)
    obtain ⟨ys, rfl, a3⟩ := kept_snoc hk (.inline _ _ _ a2)
    exact ⟨_, .msgElemInline _ id _ p _ _ h a1, a3⟩
  | .entry _ ks vs _ kb vb rest m k y h1 h2 h3 => fun x' hk => by
    cases hk; exact ⟨_, .entry _ ks vs _ kb vb rest m k y h1 h2 h3, .map _ _ _⟩
  | .entryPtr _ ks id _ kb vb rest p m k y h1 h2 h3 h' => fun x' hk => by
    obtain ⟨w', a1, a2⟩ := decodes_kept h' _ (kept_zero hS hO hV id)
    obtain ⟨m', rfl, a3⟩ := kept_entry (k := k) hk (.ptr _ _ _ a2)
    exact ⟨_, .entryPtr _ ks id _ kb vb rest p m' k _ h1 h2 h3 a1, a3⟩
  | .entryInline _ ks id _ kb vb rest p m k y h1 h2 h3 h' => fun x' hk => by
    obtain ⟨w', a1, a2⟩ := decodes_kept h' _ (kept_zero hS hO hV id)
    obtain ⟨m', rfl, a3⟩ := kept_entry (k := k) hk (.inline _ _ _ a2)
    exact ⟨_, .entryInline _ ks id _ kb vb rest p m' k _ h1 h2 h3 a1, a3⟩
end
end

end Verif.Lemmas
