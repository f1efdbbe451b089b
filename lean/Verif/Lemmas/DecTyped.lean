import Verif.Lemmas.EncRefine
import Verif.Lemmas.DecMap
/-! Helper lemmas: decoding preserves the types of Go values. -/
namespace Verif.Lemmas
open Verif.Model Verif.Spec

theorem field_inj {S : Schema} {id : Nat} (hW : (S id).WF S) {f g : Field} (hf : f ∈ (S id).fields)
    (hg : g ∈ (S id).fields) (h : f.num = g.num) : f = g := by
  have hs := hW.sorted
  generalize (S id).fields = l at hf hg hs
  induction hs with
  | nil => cases hf
  | cons h1 _ ih =>
    cases hf with
    | head => cases hg with
      | head => rfl
      | tail _ hg => exact absurd h (Nat.ne_of_lt (h1 _ hg))
    | tail _ hf => cases hg with
      | head => exact absurd h.symm (Nat.ne_of_lt (h1 _ hf))
      | tail _ hg => exact ih hf hg

theorem set_get_cases {α : Type} {xs : List α} {i j : Nat} {y x : α} (h : (xs.set i y)[j]? = some x) :
    (j = i ∧ x = y) ∨ (j ≠ i ∧ xs[j]? = some x) := by
  rw [List.getElem?_set] at h
  split at h
  · rename_i hij
    split at h
    · cases h; exact .inl ⟨hij.symm, rfl⟩
    · cases h
  · rename_i hij; exact .inr ⟨fun h => hij h.symm, h⟩

theorem typed_set_field {S : Schema} {id : Nat} (hW : (S id).WF S) {xs : List Val} (h : Typed S id (.struct xs))
    {f : Field} (hf : f ∈ (S id).fields) {y : Val} (hy : FieldTyped S f y)
    (hm : f.member = none ∨ ∃ w d, f.member = some w ∧ y = .iface (some (w, some d))) :
    Typed S id (.struct (xs.set f.slot y)) := by
  cases h with
  | mk _ _ h1 h2 h3 =>
    refine .mk _ _ (by rw [List.length_set]; exact h1) ?_ ?_
    · intro g hg x hx
      rcases set_get_cases hx with ⟨e1, rfl⟩ | ⟨_, hx⟩
      · by_cases hn : g.num = f.num
        · rw [field_inj hW hg hf hn]; exact hy
        · obtain ⟨w, w', e2, e3, e4⟩ := hW.disjoint g hg f hf hn e1
          rcases hm with hm | ⟨w'', d, e5, rfl⟩
          · rw [hm] at e3; cases e3
          · rw [e5] at e3
            injection e3 with e3
            subst e3
            exact .otherMember g w _ d e2 e4
      · exact h2 g hg x hx
    · intro s p x hs hx
      rcases set_get_cases hx with ⟨e1, rfl⟩ | ⟨_, hx⟩
      · exact absurd e1.symm ((hW.unknown s p hs).2 f hf)
      · exact h3 s p x hs hx

theorem typed_set_unknown {S : Schema} {id : Nat} (hW : (S id).WF S) {xs : List Val} (h : Typed S id (.struct xs))
    {s : Nat} {p : Bool} (hs : (S id).unknown = some (s, p)) {y : Val} (hy : UnknownTyped p y) :
    Typed S id (.struct (xs.set s y)) := by
  cases h with
  | mk _ _ h1 h2 h3 =>
    refine .mk _ _ (by rw [List.length_set]; exact h1) ?_ ?_
    · intro g hg x hx
      rcases set_get_cases hx with ⟨e1, rfl⟩ | ⟨_, hx⟩
      · exact absurd e1 ((hW.unknown s p hs).2 g hg)
      · exact h2 g hg x hx
    · intro s' p' x hs' hx
      rw [hs] at hs'
      injection hs' with hs'
      injection hs' with e1 e2
      subst e1 e2
      rcases set_get_cases hx with ⟨_, rfl⟩ | ⟨e, _⟩
      · exact hy
      · exact absurd rfl e

theorem typed_clear {S : Schema} {id : Nat} (hW : (S id).WF S) {xs : List Val} (h : Typed S id (.struct xs)) :
    Typed S id (.struct (clearUnknown (S id) xs)) := by
  unfold clearUnknown
  split
  · exact h
  · rename_i s p hu
    split
    · rename_i u hx
      refine typed_set_unknown hW h hu ?_
      cases h with
      | mk _ _ h1 h2 h3 =>
        have := h3 _ _ _ hu hx
        cases p with
        | false => exact ⟨_, rfl⟩
        | true => rcases this with e | ⟨_, e⟩ <;> cases e
    · rename_i u hx
      refine typed_set_unknown hW h hu ?_
      cases h with
      | mk _ _ h1 h2 h3 =>
        have := h3 _ _ _ hu hx
        cases p with
        | false => obtain ⟨_, e⟩ := this; cases e
        | true => exact .inr ⟨_, rfl⟩
    · exact h

theorem typed_add {S : Schema} {id : Nat} (hW : (S id).WF S) {xs : List Val} (h : Typed S id (.struct xs))
    (raw : Bytes) : Typed S id (.struct (addUnknown (S id) xs raw)) := by
  unfold addUnknown
  split
  · exact h
  · rename_i s hu; exact typed_set_unknown hW h hu ⟨_, rfl⟩
  · rename_i s hu; exact typed_set_unknown hW h hu (.inr ⟨_, rfl⟩)

theorem mem_putEntry {m : List (Key × Val)} {k : Key} {v : Val} {e : Key × Val} (h : e ∈ putEntry m k v) :
    e = (k, v) ∨ e ∈ m := by
  induction m with
  | nil => simp [putEntry] at h; exact .inl h
  | cons a m ih =>
    simp only [putEntry] at h
    split at h
    · cases h with
      | head => exact .inl rfl
      | tail _ h => exact .inr (.tail _ h)
    · cases h with
      | head => exact .inr (.head _)
      | tail _ h => exact (ih h).imp id (.tail _)

theorem nodup_putEntry {m : List (Key × Val)} (k : Key) (v : Val) (h : (m.map (·.1)).Nodup) :
    ((putEntry m k v).map (·.1)).Nodup := by
  induction m with
  | nil => simp [putEntry]
  | cons a m ih =>
    simp only [List.map_cons, List.nodup_cons] at h
    simp only [putEntry]
    split
    · rename_i e
      simp only [List.map_cons, List.nodup_cons]
      exact ⟨e ▸ h.1, h.2⟩
    · rename_i e
      simp only [List.map_cons, List.nodup_cons]
      refine ⟨?_, ih h.2⟩
      intro hm
      obtain ⟨x, hx, e2⟩ := List.mem_map.1 hm
      rcases mem_putEntry hx with rfl | hx
      · exact e e2.symm
      · exact h.1 (List.mem_map.2 ⟨x, hx, e2⟩)

theorem shapeTyped_put {S : Schema} {ks vs : Scalar} {m : Option (List (Key × Val))}
    (h : ShapeTyped S (.map ks vs) (.map m)) {k : Key} {y : Val} (hk : ks.HasKey k) (hy : vs.goType.holds y = true) :
    ShapeTyped S (.map ks vs) (.map (some (putEntry (m.getD []) k y))) := by
  cases h with
  | mapNil =>
    refine .map _ _ _ (by simp [putEntry]) ?_
    intro e he
    simp [putEntry] at he
    rw [he]; exact ⟨hk, hy⟩
  | map _ _ m h1 h2 =>
    refine .map _ _ _ (nodup_putEntry _ _ h1) ?_
    intro e he
    rcases mem_putEntry he with rfl | he
    · exact ⟨hk, hy⟩
    · exact h2 e he

theorem shapeTyped_putMsg {S : Schema} {ks : Scalar} {id : Nat} {p : Bool} {m : Option (List (Key × Val))}
    (h : ShapeTyped S (.mapMsg ks id p) (.map m)) {k : Key} {y : Val} (hk : ks.HasKey k) (hy : RefTyped S id p y) :
    ShapeTyped S (.mapMsg ks id p) (.map (some (putEntry (m.getD []) k y))) := by
  cases h with
  | mapMsgNil =>
    refine .mapMsg _ _ _ _ (by simp [putEntry]) ?_ ?_
    · intro e he
      simp [putEntry] at he
      rw [he]; exact hk
    · intro e he
      simp [putEntry] at he
      rw [he]; exact hy
  | mapMsg _ _ _ m h1 h2 h3 =>
    refine .mapMsg _ _ _ _ (nodup_putEntry _ _ h1) ?_ ?_
    · intro e he
      rcases mem_putEntry he with rfl | he
      · exact hk
      · exact h2 e he
    · intro e he
      rcases mem_putEntry he with rfl | he
      · exact hy
      · exact h3 e he

/-- Shapes whose content does not depend on what was there before. -/
def Shape.fresh : Shape → Prop
  | .single _ => True
  | .msg _ true => True
  | _ => False

/-- The zero value of a shape is a value of its type. -/
theorem shapeTyped_zero {S : Schema} (hW : S.WF) : ∀ sh : Shape, ShapeTyped S sh (Shape.zero S sh)
  | .single s => .single _ _ (by cases s <;> rfl)
  | .optional _ => .optionalNil _
  | .list _ _ => .list _ _ _ (fun _ h => by cases h)
  | .msg _ true => .msg _ _ _ (.nil _)
  | .msg _ false => .msg _ _ _ (.inline _ _ (typed_zero hW _))
  | .msgList _ _ => .msgList _ _ _ (fun _ h => by cases h)
  | .map _ _ => .mapNil _ _
  | .mapMsg _ _ _ => .mapMsgNil _ _ _

mutual
theorem decodes_typed {S : Schema} (hW : S.WF) {d : Int} {id : Nat} {b : Bytes} {v w : Val} :
    Decodes S d id b v w → Typed S id v → Typed S id w
  | .mk _ _ _ _ _ _ h, ht => decRecs_typed hW h (typed_clear (hW id) ht)
theorem decRecs_typed {S : Schema} (hW : S.WF) {d : Int} {id : Nat} {b : Bytes} {xs ys : List Val} :
    DecRecs S d id b xs ys → Typed S id (.struct xs) → Typed S id (.struct ys)
  | .nil _ _ _, ht => ht
  | .unknown _ _ _ _ _ _ _ _ _ _ _ _ h, ht => decRecs_typed hW h (typed_add (hW id) ht _)
  | .field _ _ f _ _ _ _ _ x y _ hf _ hx hd h, ht => by
    refine decRecs_typed hW h (typed_set_field (hW id) ht hf ?_ ?_)
    · cases ht with
      | mk _ _ h1 h2 h3 => exact decField_typed hW hd (h2 f hf x hx)
    · cases hd with
      | plain _ _ _ _ _ _ hm _ => exact .inl hm
      | member _ _ _ _ w _ y hm _ => exact .inr ⟨w, y, hm, rfl⟩
theorem decField_typed {S : Schema} (hW : S.WF) {d : Int} {f : Field} {t : WireType} {v : Bytes} {x y : Val} :
    DecField S d f t v x y → FieldTyped S f x → FieldTyped S f y
  | .plain _ _ _ _ _ _ hm h, ht => by
    refine .plain _ _ hm (decShape_typed hW h (.inr ?_))
    cases ht with
    | plain _ _ _ ht => exact ht
    | unset _ _ hm' => rw [hm] at hm'; cases hm'
    | nilMember _ _ _ hm' => rw [hm] at hm'; cases hm'
    | member _ _ _ hm' _ => rw [hm] at hm'; cases hm'
    | otherMember _ _ _ _ hm' _ => rw [hm] at hm'; cases hm'
  | .member _ _ _ _ w _ y hm h, _ => .member _ _ _ hm (decShape_typed hW h (.inr (shapeTyped_zero hW _)))
theorem decShape_typed {S : Schema} (hW : S.WF) {d : Int} {sh : Shape} {t : WireType} {v : Bytes} {x y : Val} :
    DecShape S d sh t v x y → Shape.fresh sh ∨ ShapeTyped S sh x → ShapeTyped S sh y
  | .single _ _ _ _ _ h, _ => .single _ _ (scalarDec_holds h)
  | .optional _ _ _ _ _ h, _ => .optional _ _ (scalarDec_holds h)
  | .elem _ s p _ xs y h, ht => by
    rcases ht with ht | ht
    · exact ht.elim
    · cases ht with
      | list _ _ _ h1 =>
        refine .list _ _ _ ?_
        intro z hz
        rcases List.mem_append.1 hz with hz | hz
        · exact h1 z hz
        · rw [List.mem_singleton.1 hz]; exact scalarDec_holds h
  | .packed _ _ _ _ _ _ _ h, _ => .list _ _ _ (packedDec_holds h)
  | .msgPtr _ _ _ _ _ _ _ h, _ => .msg _ _ _ (.ptr _ _ (decodes_typed hW h (typed_zero hW _)))
  | .msgInline _ _ _ _ _ _ _ h, ht => by
    rcases ht with ht | ht
    · exact ht.elim
    · cases ht with
      | msg _ _ _ h1 =>
        cases h1 with
        | inline _ _ h1 => exact .msg _ _ _ (.inline _ _ (decodes_typed hW h h1))
  | .msgElemPtr _ _ _ _ xs _ _ h, ht => by
    rcases ht with ht | ht
    · exact ht.elim
    · cases ht with
      | msgList _ _ _ h1 =>
        refine .msgList _ _ _ ?_
        intro z hz
        rcases List.mem_append.1 hz with hz | hz
        · exact h1 z hz
        · rw [List.mem_singleton.1 hz]; exact .ptr _ _ (decodes_typed hW h (typed_zero hW _))
  | .msgElemInline _ _ _ _ xs _ _ h, ht => by
    rcases ht with ht | ht
    · exact ht.elim
    · cases ht with
      | msgList _ _ _ h1 =>
        refine .msgList _ _ _ ?_
        intro z hz
        rcases List.mem_append.1 hz with hz | hz
        · exact h1 z hz
        · rw [List.mem_singleton.1 hz]; exact .inline _ _ (decodes_typed hW h (typed_zero hW _))
  | .entry _ _ _ _ _ _ _ _ _ _ _ hk hv, ht => by
    rcases ht with ht | ht
    · exact ht.elim
    · exact shapeTyped_put ht (scalarDec_holds hk) (scalarDec_holds hv)
  | .entryPtr _ _ _ _ _ _ _ _ _ _ _ _ hk _ hv, ht => by
    rcases ht with ht | ht
    · exact ht.elim
    · exact shapeTyped_putMsg ht (scalarDec_holds hk) (.ptr _ _ (decodes_typed hW hv (typed_zero hW _)))
  | .entryInline _ _ _ _ _ _ _ _ _ _ _ _ hk _ hv, ht => by
    rcases ht with ht | ht
    · exact ht.elim
    · exact shapeTyped_putMsg ht (scalarDec_holds hk) (.inline _ _ (decodes_typed hW hv (typed_zero hW _)))
end

end Verif.Lemmas
