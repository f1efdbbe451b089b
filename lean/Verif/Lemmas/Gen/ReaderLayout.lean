import Verif.Lemmas.Gen.ReaderWalk
/-! Helper lemmas: apart from the directives, what is read does not depend on the comments. -/
namespace Verif.Lemmas.Gen
open Verif.Model.Gen Verif.Spec.Gen

theorem walkSpans_length (toks : List Tok) : ∀ (ss : List (Nat × Nat)) (c : List Nat), (walkSpans toks c ss).1.length = ss.length
  | [], _ => rfl
  | s :: ss, c => by simp only [walkSpans, List.length_cons, walkSpans_length toks ss]

theorem follows_length {toks : List Tok} {c c' : List Nat} {ss : List (Nat × Nat)} {ds : List (List Str)} (h : Follows toks c ss ds c') : ds.length = ss.length := by
  have := walkSpans_length toks ss c
  rw [h] at this
  exact this

section
variable {toks toks' : List Tok}

theorem layout_many {α β : Type} {width : α → Nat} {read read' : List Nat → Nat → α → β × List Nat} {dirs : β → List (List Str)}
    (hlen : ∀ x c c' k, (dirs (read c k x).1).length = (dirs (read' c' k x).1).length)
    (h : ∀ x c c' k, dirs (read c k x).1 = dirs (read' c' k x).1 → (read c k x).1 = (read' c' k x).1) :
    ∀ (l : List α) (c c' : List Nat) (k : Nat), (readMany width read c k l).1.flatMap dirs = (readMany width read' c' k l).1.flatMap dirs →
      (readMany width read c k l).1 = (readMany width read' c' k l).1
  | [], _, _, _, _ => rfl
  | x :: xs, c, c', k, e => by
    simp only [readMany, List.flatMap_cons] at e ⊢
    obtain ⟨e1, e2⟩ := List.append_inj e (hlen x c c' k)
    rw [h x c c' k e1, layout_many hlen h xs _ _ _ e2]

theorem layout_field (f : RawField) (c c' : List Nat) (k : Nat) (h : (readField toks c k f).1.directives = (readField toks' c' k f).1.directives) :
    (readField toks c k f).1 = (readField toks' c' k f).1 := by
  simp only [readField] at h ⊢
  rw [h]

theorem layout_enumElem (e : RawEnumElem) (c c' : List Nat) (k : Nat) (h : enumElemDirs (readEnumElem toks c k e).1 = enumElemDirs (readEnumElem toks' c' k e).1) :
    (readEnumElem toks c k e).1 = (readEnumElem toks' c' k e).1 := by
  cases e with
  | value v =>
    simp only [readEnumElem, readEnumValue, enumElemDirs, List.cons.injEq, and_true] at h ⊢
    rw [h]
  | _ => rfl

theorem layout_enum (e : RawEnum) (c c' : List Nat) (k : Nat) (h : enumDirs (readEnum toks c k e).1 = enumDirs (readEnum toks' c' k e).1) :
    (readEnum toks c k e).1 = (readEnum toks' c' k e).1 := by
  simp only [readEnum, enumDirs, List.cons.injEq] at h ⊢
  rw [h.1, layout_many (fun x c c' k => by rw [follows_length (follows_enumElem x c k), follows_length (follows_enumElem x c' k)]) layout_enumElem _ _ _ _ h.2]

theorem layout_oneofElem (e : RawOneofElem) (c c' : List Nat) (k : Nat) (h : oneofElemDirs (readOneofElem toks c k e).1 = oneofElemDirs (readOneofElem toks' c' k e).1) :
    (readOneofElem toks c k e).1 = (readOneofElem toks' c' k e).1 := by
  cases e with
  | field f =>
    simp only [readOneofElem, oneofElemDirs, List.cons.injEq, and_true] at h ⊢
    rw [layout_field f c c' k h]
  | _ => rfl

mutual
theorem layout_elem : ∀ (e : RawElem) (c c' : List Nat) (k : Nat), elemDirs (readElem toks c k e).1 = elemDirs (readElem toks' c' k e).1 →
    (readElem toks c k e).1 = (readElem toks' c' k e).1
  | .field f, c, c', k, h => by
    simp only [readElem, elemDirs, List.cons.injEq, and_true] at h ⊢
    rw [layout_field f c c' k h]
  | .enum e, c, c', k, h => by
    simp only [readElem, elemDirs] at h ⊢
    rw [layout_enum e c c' k h]
  | .message n es, c, c', k, h => by
    simp only [readElem, elemDirs, List.cons.injEq] at h ⊢
    rw [h.1, layout_elems es _ _ _ h.2]
  | .extend t fs, c, c', k, h => by simp only [readElem]
  | .option o, c, c', k, h => by simp only [readElem]
  | .oneof n es, c, c', k, h => by
    simp only [readElem, elemDirs] at h ⊢
    rw [layout_many (fun x c c' k => by rw [follows_length (follows_oneofElem x c k), follows_length (follows_oneofElem x c' k)]) layout_oneofElem _ _ _ _ h]
  | .mapField f, c, c', k, h => by
    simp only [readElem, elemDirs, List.cons.injEq, and_true] at h ⊢
    rw [layout_field f c c' k h]
  | .reserved rr, c, c', k, h => by simp only [readElem]
  | .reservedNames rr, c, c', k, h => by simp only [readElem]
  | .extensions rr os, c, c', k, h => by simp only [readElem]
  | .empty, c, c', k, h => by simp only [readElem]
theorem layout_elems : ∀ (es : List RawElem) (c c' : List Nat) (k : Nat), elemsDirs (readElems toks c k es).1 = elemsDirs (readElems toks' c' k es).1 →
    (readElems toks c k es).1 = (readElems toks' c' k es).1
  | [], _, _, _, _ => by simp only [readElems]
  | e :: es, c, c', k, h => by
    simp only [readElems, elemsDirs] at h ⊢
    obtain ⟨e1, e2⟩ := List.append_inj h (by rw [follows_length (follows_elem e c k), follows_length (follows_elem e c' k)])
    rw [layout_elem e c c' k e1, layout_elems es _ _ _ e2]
end

theorem layout_serviceElem (e : RawServiceElem) (c c' : List Nat) (k : Nat)
    (h : serviceElemDirs (readServiceElem toks c k e).1 = serviceElemDirs (readServiceElem toks' c' k e).1) :
    (readServiceElem toks c k e).1 = (readServiceElem toks' c' k e).1 := by
  cases e with
  | rpc r =>
    simp only [readServiceElem, readRpc, serviceElemDirs, List.cons.injEq, and_true] at h ⊢
    rw [h]
  | _ => rfl

theorem layout_top (e : RawTop) (c c' : List Nat) (k : Nat) (h : topDirs (readTop toks c k e).1 = topDirs (readTop toks' c' k e).1) :
    (readTop toks c k e).1 = (readTop toks' c' k e).1 := by
  cases e with
  | message n es =>
    simp only [readTop, topDirs, List.cons.injEq] at h ⊢
    rw [h.1, layout_elems es _ _ _ h.2]
  | enum e =>
    simp only [readTop, topDirs] at h ⊢
    rw [layout_enum e c c' k h]
  | service n es =>
    simp only [readTop, topDirs, List.cons.injEq] at h ⊢
    rw [h.1, layout_many (fun x c c' k => by rw [follows_length (follows_serviceElem x c k), follows_length (follows_serviceElem x c' k)]) layout_serviceElem _ _ _ _ h.2]
  | _ => rfl

theorem layout_proto (p : RawProto) (h : protoDirs (readProto toks p).tree = protoDirs (readProto toks' p).tree) :
    (readProto toks p).tree = (readProto toks' p).tree := by
  have : (readProto toks p).tree.elems = (readProto toks' p).tree.elems :=
    layout_many (fun x c c' k => by rw [follows_length (follows_top x c k), follows_length (follows_top x c' k)]) layout_top _ _ _ _ h
  simp only [readProto] at this ⊢
  rw [this]

end

end Verif.Lemmas.Gen
