import Verif.Lemmas.Gen.GrammarFile
/-! Helper lemmas: for every tree there is one that is written alike and is not written like another one. -/
namespace Verif.Lemmas.Gen
open Verif.Model.Gen Verif.Spec.Gen

theorem normal_list {α : Type} {sp : α → List Str} {P : α → Prop} : ∀ {xs : List α}, (∀ x ∈ xs, ∃ y, P y ∧ sp y = sp x) →
    ∃ ys : List α, (∀ y ∈ ys, P y) ∧ ys.flatMap sp = xs.flatMap sp
  | [], _ => ⟨[], by simp, rfl⟩
  | x :: xs, h => by
    obtain ⟨y, h1, h2⟩ := h x (by simp)
    obtain ⟨ys, h3, h4⟩ := normal_list (xs := xs) fun z hz => h z (by simp [hz])
    refine ⟨y :: ys, ?_, by simp [h2, h4]⟩
    intro z hz
    rcases List.mem_cons.1 hz with rfl | hz
    · exact h1
    · exact h3 z hz

/-- A path of more than one name. -/
theorem type_tail {t : Str} {r : List Str} (h : TypeToks (t :: r)) (ht : t ≠ ".".toList) (hr : r ≠ []) : ∃ p, r = ".".toList :: p ∧ PathToks p := by
  cases h with
  | plain _ hp =>
    cases hp with
    | one => exact absurd rfl hr
    | dot _ p _ hp => exact ⟨p, rfl, hp⟩
  | rooted => exact absurd rfl ht

theorem normal_field {f : RawField} (h : WFField f) : ∃ g, (WFField g ∧ ProperField g) ∧ spellField g = spellField f := by
  by_cases hp : ProperField f
  · exact ⟨f, ⟨h, hp⟩, rfl⟩
  · simp only [ProperField, Classical.not_forall] at hp
    obtain ⟨hl, t, r, e, ht, hr⟩ := hp
    obtain ⟨⟨h1, h2⟩, h3⟩ := h
    rw [e] at h1
    obtain ⟨p, rfl, hpath⟩ := type_tail h1 (by rcases ht with rfl | rfl <;> decide) hr
    have hspell : ∀ l, spellLabel (some l) = [t] → spellField { f with label := some l, typ := ".".toList :: p } = spellField f := by
      intro l el
      rw [spellField, spellField]
      dsimp only
      rw [hl, h3, el, e]
      simp [spellLabel]
    rcases ht with rfl | rfl
    · exact ⟨{ f with label := some .optional, typ := ".".toList :: p }, ⟨⟨⟨.rooted p hpath, h2⟩, h3⟩, fun hn => by cases hn⟩, hspell .optional rfl⟩
    · exact ⟨{ f with label := some .repeated, typ := ".".toList :: p }, ⟨⟨⟨.rooted p hpath, h2⟩, h3⟩, fun hn => by cases hn⟩, hspell .repeated rfl⟩

theorem normal_oneofElem {x : RawOneofElem} (h : WFOneofElem x) : ∃ y, (WFOneofElem y ∧ ProperOneofElem y) ∧ spellOneofElem y = spellOneofElem x := by
  cases x with
  | option o => exact ⟨.option o, ⟨h, trivial⟩, rfl⟩
  | empty => exact ⟨.empty, ⟨h, trivial⟩, rfl⟩
  | field f =>
    by_cases hp : f.typ = ["option".toList] ∧ f.options = []
    · obtain ⟨h1, h2, h3⟩ := h
      refine ⟨.option ⟨[f.name], [f.number]⟩, ⟨⟨.plain _ (.one _ h1.2.1), .num _ (.inl h1.2.2.1)⟩, trivial⟩, ?_⟩
      rw [spellOneofElem, spellOneofElem, spellField, h2, h3, hp.1, hp.2]
      simp [spellOptionStmt, spellOption, spellLabel, spellBrackets]
    · exact ⟨.field f, ⟨h, hp⟩, rfl⟩

theorem normal_extend {t : List Str} {fs : List (Option RawField)} (h : WFExtend t fs) :
    ∃ gs, (WFExtend t gs ∧ ProperExtend gs) ∧ spellExtend t gs = spellExtend t fs := by
  obtain ⟨gs, h1, h2⟩ := normal_list (sp := spellExtendElem) (P := fun x => ∀ f, x = some f → WFField f ∧ ProperField f) (xs := fs) (by
    intro x hx
    cases x with
    | none => exact ⟨none, fun f e => (by cases e), rfl⟩
    | some f =>
      obtain ⟨g, h1, h2⟩ := normal_field (h.2 f hx)
      exact ⟨some g, fun f e => (by cases e; exact h1), h2⟩)
  exact ⟨gs, ⟨⟨h.1, fun f hf => (h1 _ hf f rfl).1⟩, fun f hf => (h1 _ hf f rfl).2⟩, by rw [spellExtend, spellExtend, h2]⟩

theorem normal_elem : ∀ (n : Nat) {e : RawElem}, (spellElem e).length ≤ n → WFElem e → ∃ e', (WFElem e' ∧ ProperElem e') ∧ spellElem e' = spellElem e
  | 0, e, hn, h => absurd (List.length_eq_zero_iff.1 (Nat.le_zero.1 hn)) (opens_ne (elem_opens h))
  | n + 1, .field f, _, h => by
    obtain ⟨g, h1, h2⟩ := normal_field h
    exact ⟨.field g, h1, h2⟩
  | n + 1, .message m es, hn, h => by
    rw [WFElem, wfElems_iff] at h
    obtain ⟨ys, h1, h2⟩ := normal_list (sp := spellElem) (P := fun x => WFElem x ∧ ProperElem x) (xs := es) (fun x hx =>
      normal_elem n (by
        have := length_elem hx
        rw [spellElem, spellElems_eq] at hn
        simp only [spellBlock, List.length_cons, List.length_append] at hn
        omega) (h.2 x hx))
    refine ⟨.message m ys, ⟨?_, ?_⟩, ?_⟩
    · rw [WFElem, wfElems_iff]; exact ⟨h.1, fun y hy => (h1 y hy).1⟩
    · rw [ProperElem, properElems_iff]; exact fun y hy => (h1 y hy).2
    · rw [spellElem, spellElem, spellElems_eq, spellElems_eq, h2]
  | n + 1, .extend t fs, _, h => by
    obtain ⟨gs, h1, h2⟩ := normal_extend h
    exact ⟨.extend t gs, h1, h2⟩
  | n + 1, .option o, _, h => by
    by_cases hp : ProperMsgOption o
    · exact ⟨.option o, ⟨h, hp⟩, rfl⟩
    · obtain ⟨m, v, h1, h2, h3⟩ := Classical.not_not.1 hp
      have hm : NameTok m := by
        have := h.1
        rw [h1] at this
        generalize hx : [m] = x at this
        cases this with
        | plain _ hpath =>
          subst hx
          cases hpath with
          | one _ hm => exact hm
        | ext p hpath => cases p <;> cases hx
        | extDot p q hpath hq => cases p <;> cases hx
      refine ⟨.field ⟨none, none, ["option".toList], m, v, []⟩, ⟨⟨⟨.plain _ (.one _ (name_of (by decide))), hm, h3, by simp⟩, rfl⟩, ?_⟩, ?_⟩
      · intro _ t r e ht
        cases e
        rfl
      · rw [spellElem, spellElem, spellOptionStmt, spellOption, h1, h2]
        simp [spellField, spellLabel, spellBrackets]
  | n + 1, .oneof m es, _, h => by
    obtain ⟨ys, h1, h2⟩ := normal_list (sp := spellOneofElem) (P := fun x => WFOneofElem x ∧ ProperOneofElem x) (xs := es) (fun x hx =>
      normal_oneofElem (h.2 x hx))
    exact ⟨.oneof m ys, ⟨⟨h.1, fun y hy => (h1 y hy).1⟩, fun y hy => (h1 y hy).2⟩, by rw [spellElem, spellElem, h2]⟩
  | n + 1, .enum e, _, h => ⟨.enum e, ⟨h, trivial⟩, rfl⟩
  | n + 1, .mapField f, _, h => ⟨.mapField f, ⟨h, trivial⟩, rfl⟩
  | n + 1, .reserved rr, _, h => ⟨.reserved rr, ⟨h, trivial⟩, rfl⟩
  | n + 1, .reservedNames ss, _, h => ⟨.reservedNames ss, ⟨h, trivial⟩, rfl⟩
  | n + 1, .extensions rr os, _, h => ⟨.extensions rr os, ⟨h, trivial⟩, rfl⟩
  | n + 1, .empty, _, h => ⟨.empty, ⟨h, trivial⟩, rfl⟩

theorem normal_rpcType {b : Bool} {t : List Str} (h : TypeToks t) : ∃ b' t', TypeToks t' ∧ ProperRpcType b' t' ∧ spellRpcType b' t' = spellRpcType b t := by
  by_cases hp : ProperRpcType b t
  · exact ⟨b, t, h, hp, rfl⟩
  · simp only [ProperRpcType, Classical.not_forall] at hp
    obtain ⟨hb, r, rfl, hr⟩ := hp
    obtain ⟨p, rfl, hpath⟩ := type_tail h (by decide) hr
    exact ⟨true, ".".toList :: p, .rooted p hpath, fun hf => (by cases hf), by rw [hb]; rfl⟩

theorem normal_serviceElem {x : RawServiceElem} (h : WFServiceElem x) :
    ∃ y, (WFServiceElem y ∧ ProperServiceElem y) ∧ spellServiceElem y = spellServiceElem x := by
  cases x with
  | option o => exact ⟨.option o, ⟨h, trivial⟩, rfl⟩
  | empty => exact ⟨.empty, ⟨h, trivial⟩, rfl⟩
  | rpc r =>
    obtain ⟨h1, h2, h3, h4⟩ := h
    obtain ⟨b1, t1, w1, p1, e1⟩ := normal_rpcType (b := r.requestStream) h2
    obtain ⟨b2, t2, w2, p2, e2⟩ := normal_rpcType (b := r.returnStream) h3
    refine ⟨.rpc ⟨r.name, b1, t1, b2, t2, r.body⟩, ⟨⟨h1, w1, w2, h4⟩, p1, p2⟩, ?_⟩
    rw [spellServiceElem, spellServiceElem, spellRpc, spellRpc, e1, e2]

theorem normal_top {e : RawTop} (h : WFTop e) : ∃ e', (WFTop e' ∧ ProperTop e') ∧ spellTop e' = spellTop e := by
  cases e with
  | importStmt k p => exact ⟨.importStmt k p, ⟨h, trivial⟩, rfl⟩
  | package p => exact ⟨.package p, ⟨h, trivial⟩, rfl⟩
  | option o => exact ⟨.option o, ⟨h, trivial⟩, rfl⟩
  | enum e => exact ⟨.enum e, ⟨h, trivial⟩, rfl⟩
  | empty => exact ⟨.empty, ⟨h, trivial⟩, rfl⟩
  | message m es =>
    obtain ⟨ys, h1, h2⟩ := normal_list (sp := spellElem) (P := fun x => WFElem x ∧ ProperElem x) (xs := es) (fun x hx =>
      normal_elem _ (Nat.le_refl _) ((wfElems_iff es).1 h.2 x hx))
    refine ⟨.message m ys, ⟨⟨h.1, (wfElems_iff _).2 fun y hy => (h1 y hy).1⟩, (properElems_iff _).2 fun y hy => (h1 y hy).2⟩, ?_⟩
    rw [spellTop, spellTop, spellElems_eq, spellElems_eq, h2]
  | extend t fs =>
    obtain ⟨gs, h1, h2⟩ := normal_extend h
    exact ⟨.extend t gs, h1, h2⟩
  | service m es =>
    obtain ⟨ys, h1, h2⟩ := normal_list (sp := spellServiceElem) (P := fun x => WFServiceElem x ∧ ProperServiceElem x) (xs := es) (fun x hx =>
      normal_serviceElem (h.2 x hx))
    exact ⟨.service m ys, ⟨⟨h.1, fun y hy => (h1 y hy).1⟩, fun y hy => (h1 y hy).2⟩, by rw [spellTop, spellTop, h2]⟩

theorem normal_proto {p : RawProto} (h : WFProto p) : ∃ q, (WFProto q ∧ ProperProto q) ∧ spellProto q = spellProto p := by
  obtain ⟨ys, h1, h2⟩ := normal_list (sp := spellTop) (P := fun x => WFTop x ∧ ProperTop x) (xs := p.elems) (fun x hx => normal_top (h.2 x hx))
  exact ⟨⟨p.edition, ys⟩, ⟨⟨h.1, fun y hy => (h1 y hy).1⟩, fun y hy => (h1 y hy).2⟩, by rw [spellProto, spellProto, h2]⟩

end Verif.Lemmas.Gen
