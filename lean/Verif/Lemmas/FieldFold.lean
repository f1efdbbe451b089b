import Verif.Lemmas.Frame
/-! # The records of one field -/
namespace Verif.Lemmas
open Verif.Spec Verif.Model

variable {S : Schema}

/-- The effect of the records of one field on its Go struct field. -/
def Fold (P : WireType → Bytes → Val → Val → Prop) : List Rec → Val → Val → Prop
  | [], x, y => x = y
  | r :: rs, x, y => ∃ z, P r.typ r.val x z ∧ Fold P rs z y

theorem fold_append {P : WireType → Bytes → Val → Val → Prop} : ∀ {rs rs' : List Rec} {x y : Val},
    Fold P (rs ++ rs') x y ↔ ∃ z, Fold P rs x z ∧ Fold P rs' z y
  | [], rs', xs, ys => ⟨fun h => ⟨xs, rfl, h⟩, fun ⟨zs, h, h'⟩ => by cases h; exact h'⟩
  | r :: rs, rs', xs, ys => by
    simp only [List.cons_append, Fold]
    constructor
    · rintro ⟨zs, h1, h2⟩
      obtain ⟨us, h3, h4⟩ := fold_append.1 h2
      exact ⟨us, ⟨zs, h1, h3⟩, h4⟩
    · rintro ⟨us, ⟨zs, h1, h3⟩, h4⟩
      exact ⟨zs, h1, fold_append.2 ⟨us, h3, h4⟩⟩

/-- The records with a given number. -/
def recsOf (num : Nat) (rs : List Rec) : List Rec := rs.filter (fun r => r.num == num)

theorem recsOf_cons_eq {r : Rec} {rs : List Rec} : recsOf r.num (r :: rs) = r :: recsOf r.num rs := by
  simp [recsOf, List.filter_cons]

theorem recsOf_cons_ne {num : Nat} {r : Rec} (h : r.num ≠ num) {rs : List Rec} : recsOf num (r :: rs) = recsOf num rs := by
  simp [recsOf, List.filter_cons, h]

theorem recsOf_append (num : Nat) (rs rs' : List Rec) : recsOf num (rs ++ rs') = recsOf num rs ++ recsOf num rs' := by
  simp [recsOf]

theorem recsOf_none {num : Nat} {rs : List Rec} (h : ∀ r ∈ rs, r.num ≠ num) : recsOf num rs = [] := by
  simpa [recsOf] using h

/-- A field that is not a oneof member is alone in its Go struct field. -/
theorem plain_alone (hW : S.WF) {id : Nat} {f g : Field} (hf : f ∈ (S id).fields) (hg : g ∈ (S id).fields)
    (hm : f.member = none) (h : g.slot = f.slot) : g = f := by
  by_cases hn : g.num = f.num
  · exact field_inj (hW id) hg hf hn
  · obtain ⟨w, w', _, h2, _⟩ := (hW id).disjoint g hg f hf hn h
    rw [hm] at h2; cases h2

theorem steps_plain (hW : S.WF) {d : Int} {id : Nat} {f : Field} (hf : f ∈ (S id).fields) (hm : f.member = none) :
    ∀ {rs : List Rec} {xs ys : List Val}, Steps S d id rs xs ys → ∀ {x}, xs[f.slot]? = some x →
    ∃ y, ys[f.slot]? = some y ∧ Fold (DecShape S d f.shape) (recsOf f.num rs) x y
  | [], xs, ys, h, x, hx => by cases h; exact ⟨x, hx, rfl⟩
  | r :: rs, xs, ys, h, x, hx => by
    obtain ⟨zs, h1, h2⟩ := h
    by_cases hn : r.num = f.num
    · rcases h1 with ⟨a1, _, _⟩ | ⟨g, hg, a0, x', y, a1, a2, rfl⟩
      · exact absurd hn.symm (a1 f hf)
      · have : g = f := field_inj (hW id) hg hf (a0.trans hn)
        subst this
        rw [hx] at a1; cases a1
        have hlt : g.slot < xs.length := by
          rcases Nat.lt_or_ge g.slot xs.length with h' | h'
          · exact h'
          · rw [List.getElem?_eq_none h'] at hx; cases hx
        obtain ⟨z, h3, h4⟩ := steps_plain hW hf hm h2 (x := y) (by simp [hlt])
        rw [← hn, recsOf_cons_eq, hn]
        cases a2 with
        | plain _ _ _ _ _ _ _ h => exact ⟨z, h3, y, h, h4⟩
        | member _ _ _ _ _ _ _ h _ => rw [hm] at h; cases h
    · have := stepRec_slot hW h1 hf (fun g hg e e' => by
        have := plain_alone hW hf hg hm e
        subst this; exact hn e'.symm)
      obtain ⟨z, h3, h4⟩ := steps_plain hW hf hm h2 (x := x) (by rw [this]; exact hx)
      rw [recsOf_cons_ne hn]
      exact ⟨z, h3, h4⟩

theorem slot_of_typed (hW : S.WF) {id : Nat} {xs : List Val} (ht : Typed S id (.struct xs)) {f : Field}
    (hf : f ∈ (S id).fields) : ∃ x, xs[f.slot]? = some x ∧ (clearUnknown (S id) xs)[f.slot]? = some x := by
  obtain ⟨x, hx, _⟩ := typed_slot hW ht hf
  refine ⟨x, hx, ?_⟩
  rw [← (agree_clear (S id) xs).2 f.slot (slot_known hW hf)]; exact hx

theorem scalarDec_det {b : Bool} {s : Scalar} {v : Bytes} {y y' : Val} (h : ScalarDec b s v y) (h' : ScalarDec b s v y') :
    y = y' := by
  have hv : ∀ {n n' : Nat}, IsVarint64 v n → IsVarint64 v n' → n = n' := by
    intro n n' h h'
    have h1 := consumeVarint_isVarint64 h []
    rw [consumeVarint_isVarint64 h' []] at h1
    injection h1 with h1
    injection h1 with h1 _
    have := congrArg BitVec.toNat h1
    simp [Nat.mod_eq_of_lt h.2.2, Nat.mod_eq_of_lt h'.2.2] at this
    exact this.symm
  have hl : ∀ {p p' : Bytes}, IsLen v p → IsLen v p' → p = p' := by
    intro p p' h h'
    have h1 := consumeBytes_isLen h []
    rw [consumeBytes_isLen h' []] at h1
    injection h1 with h1
    injection h1 with h1 _
    exact h1.symm
  cases s
  case bool =>
    simp only [ScalarDec] at h h'
    split at h
    · rename_i hb
      rw [if_pos hb] at h'
      obtain ⟨c, e, rfl⟩ := h
      obtain ⟨c', e', rfl⟩ := h'
      rw [e] at e'
      injection e' with e'
      rw [e']
    · rename_i hb
      rw [if_neg hb] at h'
      obtain ⟨n, h, rfl⟩ := h
      obtain ⟨n', h', rfl⟩ := h'
      rw [hv h h']
  all_goals
    first
      | (obtain ⟨n, h, rfl⟩ := h; obtain ⟨n', h', rfl⟩ := h'; rw [hv h h'])
      | (obtain ⟨_, rfl⟩ := h; obtain ⟨_, rfl⟩ := h'; rfl)
      | (obtain ⟨p, h, rfl⟩ := h; obtain ⟨p', h', rfl⟩ := h'; rw [hl h h'])

/-! ## maps -/

theorem lookup_cons_if (e : Key × Val) (m : List (Key × Val)) (k : Key) :
    (e :: m).lookup k = if k = e.1 then some e.2 else m.lookup k := by
  obtain ⟨a, b⟩ := e
  rw [List.lookup_cons]
  by_cases h : k = a
  · subst h; simp
  · have : (k == a) = false := by simpa using h
    simp [this, h]

theorem lookup_putEntry (m : List (Key × Val)) (k : Key) (v : Val) (k' : Key) :
    (putEntry m k v).lookup k' = if k' = k then some v else m.lookup k' := by
  induction m with
  | nil => simp only [putEntry, lookup_cons_if]
  | cons e m ih =>
    unfold putEntry
    split
    · rename_i he
      subst he
      simp only [lookup_cons_if]
      split <;> rfl
    · rename_i he
      simp only [lookup_cons_if, ih]
      by_cases h : k' = e.1
      · have : ¬ k' = k := fun h' => he (h.symm.trans h')
        rw [if_pos h, if_neg this, if_pos h]
      · rw [if_neg h, if_neg h]

theorem lookup_puts (es : List (Key × Val)) (m : List (Key × Val)) (k : Key) :
    (es.foldl (fun m e => putEntry m e.1 e.2) m).lookup k = (es.reverse.lookup k).or (m.lookup k) := by
  induction es generalizing m with
  | nil => simp
  | cons e es ih =>
    rw [List.foldl_cons, ih, lookup_putEntry, List.reverse_cons, List.lookup_append]
    cases es.reverse.lookup k with
    | some v => simp
    | none =>
      rw [lookup_cons_if]
      by_cases h : k = e.1 <;> simp [h]

end Verif.Lemmas
