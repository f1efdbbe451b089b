import Verif.Lemmas.Gen.FieldTypes
/-!
# Lemmas: generated struct fields declare what the proto file declares
-/
namespace Verif.Props.Gen
open Verif.Spec Verif.Spec.Gen Verif.Model Verif.Model.Gen

theorem content_cases (x : Content) : (∃ s, x.asScalar = some s ∧ Content.goType x = s.goType ∧ (Content.kind x).word = s.word ∧
    (Content.kind x).packable = s.packable ∧ ∀ id, x ≠ .message id) ∨ ∃ id, x = .message id := by
  cases x with
  | scalar s => exact .inl ⟨s, rfl, rfl, rfl, rfl, fun id e => by cases e⟩
  | enum => exact .inl ⟨.int32, rfl, rfl, rfl, rfl, fun id e => by cases e⟩
  | message id => exact .inr ⟨id, rfl⟩

/-- The Go type of elements. -/
def Content.elem (byPtr : Bool) : Content → GoType
  | .message id => msgType id byPtr
  | .scalar s => s.goType
  | .enum => .int32

theorem bool_of_not_iff {b : Bool} {P : Prop} (h : b = true ↔ P) : (!b) = true ↔ ¬ P := by
  rw [← h]
  cases b <;> simp

/-- What is shown of each field. -/
structure FieldFacts (W : World) (pkg : Nat → List Str) (f : Nat) (c : Chain) (fd : FieldDecl) (n : Str) (sh : Shape) : Prop where
  shape : ∃ x, Denotes W pkg (allMessages W) f c fd.typ x ∧ ShapeIs (W.file f) c.msg fd x sh
  legal : sh.legal = true
  declares : ∀ slot member, Spec.Declares (elabField (genEnums W) (structNames W) (fieldGen W f c fd n)) ⟨fd.number.toNat, slot, member, sh⟩
  member : fd.oneof ≠ none → (∃ s, sh = .single s) ∨ ∃ id p, sh = .msg id p
  tag : tagGet (fieldGen W f c fd n).tag "protobuf_oneof" = []

theorem tag_ne {t enc : List Char} {num : Nat} {rep packed : Bool} (h : TagSays t enc num rep packed) (he : enc ≠ []) : t ≠ [] := by
  obtain ⟨ws, rfl, _, _, hm, _⟩ := h
  intro e
  cases ws with
  | nil => cases hm
  | cons w ws =>
    cases ws with
    | nil =>
      rw [List.mem_singleton] at hm
      subst hm
      exact he e
    | cons w' ws =>
      have : w ++ ',' :: joinComma (w' :: ws) = [] := e
      cases w <;> cases this

/-- The parts of a generated field. -/
theorem elab_field (W : World) (f : Nat) (c : Chain) (fd : FieldDecl) (n : Str) (E T : List (Str × Str)) : ∃ gf, elabField E T (fieldGen W f c fd n) = gf ∧
    gf.type = elabType E T (fieldGoType W f c.msg fd (fieldType W f c fd)) ∧
    gf.tag = tagGet (fieldStructTag (W.file f) fd (fieldType W f c fd)) "protobuf" ∧
    gf.keyTag = tagGet (fieldStructTag (W.file f) fd (fieldType W f c fd)) "protobuf_key" ∧
    gf.valTag = tagGet (fieldStructTag (W.file f) fd (fieldType W f c fd)) "protobuf_val" ∧
    tagGet (fieldGen W f c fd n).tag "protobuf_oneof" = tagGet (fieldStructTag (W.file f) fd (fieldType W f c fd)) "protobuf_oneof" := by
  refine ⟨_, rfl, ?_, ?_, ?_, ?_, ?_⟩
  · unfold elabField fieldGen
    dsimp only
  · unfold elabField fieldGen
    dsimp only
  · unfold elabField fieldGen
    dsimp only
  · unfold elabField fieldGen
    dsimp only
  · unfold fieldGen
    dsimp only

theorem elab_ptr (E T : List (Str × Str)) (e : GoExpr) : elabType E T (.ptr e) = .ptr (elabType E T e) := rfl

theorem field_facts {W : World} {pkg : Nat → List Str} (hH : Handled W pkg) (hd : (structNames W ++ genEnums W).Nodup) {f : Nat} {c : Chain}
    (hc : Around (W.file f).messages c) {fd : FieldDecl} (hf : fd ∈ c.msg.fields) (n : Str) :
    ∃ sh, FieldFacts W pkg f c fd n sh := by
  have hF := hH.fields f c hc fd hf
  obtain ⟨x, hT⟩ := type_facts hH hd hc hf
  have hnp := noPointer_iff (m := c.msg) (fd := fd)
  have hnpb := bool_of_not_iff hnp
  have hnum : 0 ≤ fd.number := by have := hF.number; omega
  have hkey : ∀ y, fd.key = some y → fd.repeated = false ∧ ∃ s, y = keyword s := fun y hy => by
    obtain ⟨h1, _, s, _, h2⟩ := hF.key y hy
    exact ⟨h1, s, h2⟩
  obtain ⟨gf, hgf, htype, htag, hktag, hvtag, hotag⟩ := elab_field W f c fd n (genEnums W) (structNames W)
  suffices hs : ∃ sh : Shape, (∃ x, Denotes W pkg (allMessages W) f c fd.typ x ∧ ShapeIs (W.file f) c.msg fd x sh) ∧ sh.legal = true ∧
      (∀ slot member, Spec.Declares gf ⟨fd.number.toNat, slot, member, sh⟩) ∧ (fd.oneof ≠ none → (∃ s, sh = .single s) ∨ ∃ id p, sh = .msg id p) ∧
      tagGet (fieldGen W f c fd n).tag "protobuf_oneof" = [] by
    obtain ⟨sh, h1, h2, h3, h4, h5⟩ := hs
    exact ⟨sh, h1, h2, by rw [hgf]; exact h3, h4, h5⟩
  have helem : elabType (genEnums W) (structNames W) (elemTypeName W f (fieldType W f c fd) (genNoPointer c.msg fd)) =
      (Content.elem (!genNoPointer c.msg fd) x) := by
    unfold elemTypeName
    cases hm : (fieldType W f c fd).isMessage with
    | true =>
      obtain ⟨id, rfl⟩ := hT.message.1 hm
      cases genNoPointer c.msg fd with
      | true => exact hT.type
      | false =>
        show GoType.ptr _ = _
        rw [hT.type]
        rfl
    | false =>
      have : ∀ id, x ≠ .message id := fun id e => by
        have := hT.message.2 ⟨id, e⟩
        rw [hm] at this
        cases this
      rw [if_neg (by simp)]
      cases x with
      | message id => exact absurd rfl (this id)
      | scalar s => exact hT.type
      | enum => exact hT.type
  cases hk : fd.key with
  | some y =>
    obtain ⟨hrep, hone, ks, hks, rfl⟩ := hF.key y hk
    obtain ⟨_, t2, t3, _, t5⟩ := C42_tag_partial (W.file f) fd (fieldType W f c fd) (Content.kind x) true hT.kind hF.name hnum hkey
      (fun h => by rw [hrep] at h; cases h)
    rw [hk, hrep, ← htag] at t2
    rw [← hotag] at t5
    simp only [Option.isSome_some, if_true, Bool.or_true, Bool.false_and] at t2
    rw [← hktag, ← hvtag] at t3
    obtain ⟨g, g1, g2, _⟩ := keyword_go ks
    have hgo : elabType (genEnums W) (structNames W) (fieldGoType W f c.msg fd (fieldType W f c fd)) =
        .map ks.goType (Content.elem (!genNoPointer c.msg fd) x) := by
      unfold fieldGoType
      rw [hk]
      show GoType.map (basicGoType ((scalarTypes.lookup (keyword ks)).getD [])) _ = _
      rw [g1, ← g2, helem]
      rfl
    rcases content_cases x with ⟨s, h1, h2, h3, _, h5⟩ | ⟨id, rfl⟩
    · refine ⟨.map ks s, ⟨x, hT.denotes, .map ks s hk h1⟩, hks, fun slot member => ⟨?_, t2, ?_, ?_⟩, fun h => absurd hone h, t5⟩
      · rw [htype, hgo]
        show _ = GoType.map ks.goType s.goType
        rw [← h2]
        cases x with
        | message id => exact absurd rfl (h5 id)
        | scalar s => rfl
        | enum => rfl
      · intro k v e
        cases e
        have := t3 ks hk
        rw [h3] at this
        exact this
      · intro k id p e
        cases e
    · refine ⟨.mapMsg ks id (!genNoPointer c.msg fd), ⟨_, hT.denotes, .mapMsg ks id _ hk rfl hnpb⟩, hks, fun slot member => ⟨?_, t2, ?_, ?_⟩,
        fun h => absurd hone h, t5⟩
      · rw [htype, hgo]
        rfl
      · intro k v e
        cases e
      · intro k id p e
        cases e
        exact t3 ks hk
  | none =>
    cases hrep : fd.repeated with
    | true =>
      have hone : fd.oneof = none := by
        cases ho : fd.oneof with
        | none => rfl
        | some k =>
          have := (hF.oneof k ho).1
          rw [hrep] at this
          cases this
      obtain ⟨b, hb, hb3⟩ := hF.packing hrep
      obtain ⟨_, t2, _, _, t5⟩ := C42_tag_partial (W.file f) fd (fieldType W f c fd) (Content.kind x) b hT.kind hF.name hnum hkey
        (fun h => ⟨hb, hb3, fun _ => hT.dot⟩)
      rw [hk, hrep, ← htag] at t2
      rw [← hotag] at t5
      simp only [Option.isSome_none, Bool.false_eq_true, if_false, Bool.or_false, Bool.false_and, Bool.true_and] at t2
      have hgo : elabType (genEnums W) (structNames W) (fieldGoType W f c.msg fd (fieldType W f c fd)) =
          .slice (Content.elem (!genNoPointer c.msg fd) x) := by
        unfold fieldGoType
        rw [hk, hrep]
        show GoType.slice _ = _
        rw [helem]
      rcases content_cases x with ⟨s, h1, h2, h3, h4, h5⟩ | ⟨id, rfl⟩
      · refine ⟨.list s (s.packable && b), ⟨x, hT.denotes, .list s b hk hrep h1 hb⟩, ?_, fun slot member => ⟨?_, ?_, ?_, ?_⟩, fun h => absurd hone h, t5⟩
        · show (!(s.packable && b) || s.packable) = true
          cases s.packable <;> cases b <;> rfl
        · rw [htype, hgo]
          show _ = GoType.slice s.goType
          rw [← h2]
          cases x with
          | message id => exact absurd rfl (h5 id)
          | scalar s => rfl
          | enum => rfl
        · rw [h3, h4] at t2
          exact t2
        · intro k v e
          cases e
        · intro k v p e
          cases e
      · refine ⟨.msgList id (!genNoPointer c.msg fd), ⟨_, hT.denotes, .msgList id _ hk hrep rfl hnpb⟩, rfl, fun slot member => ⟨?_, t2, ?_, ?_⟩,
          fun h => absurd hone h, t5⟩
        · rw [htype, hgo]
          rfl
        · intro k v e
          cases e
        · intro k v p e
          cases e
    | false =>
      obtain ⟨_, t2, _, _, t5⟩ := C42_tag_partial (W.file f) fd (fieldType W f c fd) (Content.kind x) true hT.kind hF.name hnum hkey
        (fun h => by rw [hrep] at h; cases h)
      rw [hk, hrep, ← htag] at t2
      rw [← hotag] at t5
      simp only [Option.isSome_none, Bool.false_eq_true, if_false, Bool.or_false, Bool.false_and, Bool.true_and] at t2
      have hgo : fieldGoType W f c.msg fd (fieldType W f c fd) = if isPointer W f c.msg fd (fieldType W f c fd) then
          .ptr (typeGoName W f (fieldType W f c fd)) else typeGoName W f (fieldType W f c fd) := by
        unfold fieldGoType
        rw [hk, hrep]
        rfl
      rcases content_cases x with ⟨s, h1, h2, h3, h4, h5⟩ | ⟨id, rfl⟩
      · have hmsg : (fieldType W f c fd).isMessage = false := by
          cases hm : (fieldType W f c fd).isMessage with
          | false => rfl
          | true =>
            obtain ⟨id, e⟩ := hT.message.1 hm
            exact absurd e (h5 id)
        have single : isPointer W f c.msg fd (fieldType W f c fd) = false →
            (fd.oneof ≠ none ∨ s = .bytes ∨ ByValue c.msg fd ∨ Tracks (W.file f) fd false) → ∃ sh : Shape, (∃ x, Denotes W pkg (allMessages W) f c fd.typ x ∧ ShapeIs (W.file f) c.msg fd x sh) ∧ sh.legal = true ∧
            (∀ slot member, Spec.Declares gf ⟨fd.number.toNat, slot, member, sh⟩) ∧ (fd.oneof ≠ none → (∃ s, sh = .single s) ∨ ∃ id p, sh = .msg id p) ∧
            tagGet (fieldGen W f c fd n).tag "protobuf_oneof" = [] := by
          intro hp hw
          refine ⟨.single s, ⟨x, hT.denotes, .single s hk hrep h1 hw⟩, rfl, fun slot member => ⟨?_, ?_, ?_, ?_⟩, fun _ => .inl ⟨s, rfl⟩, t5⟩
          · rw [htype, hgo, hp]
            show elabType _ _ (typeGoName W f (fieldType W f c fd)) = s.goType
            rw [hT.type, h2]
          · rw [h3] at t2
            exact t2
          · intro k v e
            cases e
          · intro k v p e
            cases e
        by_cases hby : s = .bytes
        · refine single ?_ (.inr (.inl hby))
          subst hby
          have hx : x = .scalar .bytes := by
            cases x with
            | scalar s =>
              cases h1
              rfl
            | enum => cases h1
            | message id => cases h1
          unfold isPointer
          rw [hT.bytes.2 hx]
          simp
        · have hnb : fieldType W f c fd ≠ .scalar "[]byte".toList := by
            intro e
            have := hT.bytes.1 e
            subst this
            cases h1
            exact hby rfl
          cases hn : genNoPointer c.msg fd with
          | true =>
            refine single ?_ (.inr (.inr (.inl (hnp.1 hn))))
            unfold isPointer
            rw [hn]
            rfl
          | false =>
            have hoo : (∃ k, fd.oneof = some k) ∨ fd.oneof = none := by cases fd.oneof <;> simp
            rcases hoo with ⟨k, ho⟩ | ho
            · refine single ?_ (.inl (by rw [ho]; intro e; cases e))
              unfold isPointer
              rw [hn, hk, hrep, hmsg, (hF.oneof k ho).2.1, ho]
              simp
            · obtain ⟨⟨b, hb⟩, he⟩ := hF.presence hk hrep ho
              have hp := pointer_rule hb he hk hrep ho hmsg hnb hn
              cases b with
              | false => exact single hp (.inr (.inr (.inr hb)))
              | true =>
                refine ⟨.optional s, ⟨x, hT.denotes, .optional s hk hrep h1 ho hby (fun h => ?_) hb⟩, rfl, fun slot member => ⟨?_, ?_, ?_, ?_⟩,
                  fun h => absurd ho h, t5⟩
                · rw [hnp.2 h] at hn
                  cases hn
                · rw [htype, hgo, hp, if_pos rfl, elab_ptr, hT.type, h2]
                  rfl
                · rw [h3] at t2
                  exact t2
                · intro k v e
                  cases e
                · intro k v p e
                  cases e
      · have hmsg : (fieldType W f c fd).isMessage = true := hT.message.2 ⟨id, rfl⟩
        have hnb : fieldType W f c fd ≠ .scalar "[]byte".toList := by
          intro e
          have := hT.bytes.1 e
          cases this
        have hp : isPointer W f c.msg fd (fieldType W f c fd) = !genNoPointer c.msg fd := by
          unfold isPointer
          rw [hk, hrep, hmsg]
          cases genNoPointer c.msg fd with
          | true => rfl
          | false =>
            simp only [Bool.false_eq_true, if_false, Option.isSome_none, Bool.false_or, decide_eq_true_eq]
            rw [if_neg hnb]
            rfl
        refine ⟨.msg id (!genNoPointer c.msg fd), ⟨_, hT.denotes, .msg id _ hk hrep rfl hnpb⟩, rfl, fun slot member => ⟨?_, t2, ?_, ?_⟩,
          fun _ => .inr ⟨id, _, rfl⟩, t5⟩
        · rw [htype, hgo, hp]
          cases genNoPointer c.msg fd with
          | true =>
            show elabType _ _ (typeGoName W f (fieldType W f c fd)) = GoType.struct id
            exact hT.type
          | false =>
            show GoType.ptr (elabType _ _ (typeGoName W f (fieldType W f c fd))) = GoType.ptr (.struct id)
            rw [hT.type]
            rfl
        · intro k v e
          cases e
        · intro k v p e
          cases e

end Verif.Props.Gen
