import Verif.Lemmas.Gen.Chains
import Verif.Lemmas.Gen.Switches
/-!
# Lemmas: the Go types of generated fields
-/
namespace Verif.Props.Gen
open Verif.Spec Verif.Spec.Gen Verif.Model Verif.Model.Gen

/-- The Go type of values. -/
def Content.goType : Content → GoType
  | .scalar s => s.goType
  | .enum => .int32
  | .message id => .struct id

/-- The kind of a type. -/
def Content.kind : Content → Spec.Gen.Kind
  | .scalar s => .scalar s
  | .enum => .enum
  | .message _ => .message

theorem keyword_go (s : Scalar) : ∃ g, scalarTypes.lookup (keyword s) = some g ∧ basicGoType g = s.goType ∧ (g = "[]byte".toList ↔ s = .bytes) := by
  cases s
  all_goals exact ⟨_, rfl, by decide +kernel, by decide +kernel⟩

theorem resolve_scalar (W : World) (f : Nat) (c : Chain) {typ g : Str} (h : scalarTypes.lookup typ = some g) :
    typeResolve W f c true typ = some (.scalar g) := by
  unfold typeResolve
  rw [h]
  rfl

/-- The names of generated structs. -/
def structNames (W : World) : List (Str × Str) := (genStructs W).map fun g => (g.pkg, g.name)

theorem struct_index {W : World} (hd : (structNames W).Nodup) {id f : Nat} {c : Chain} (h : (allMessages W)[id]? = some (f, c)) :
    (structNames W).idxOf? ((W.file f).goImport, goTypeName c.path) = some id := by
  have hi : (structNames W)[id]? = some ((W.file f).goImport, goTypeName c.path) := by
    unfold structNames genStructs
    rw [List.getElem?_map, List.getElem?_map, h]
    rfl
  obtain ⟨hlt, e⟩ := List.getElem?_eq_some_iff.1 hi
  unfold List.idxOf?
  rw [List.findIdx?_eq_some_iff_getElem]
  refine ⟨hlt, by rw [e]; simp, fun j hj => ?_⟩
  intro he
  have he : (structNames W)[j] = ((W.file f).goImport, goTypeName c.path) := by simpa using he
  rw [← e] at he
  have := (List.getElem_inj hd).1 he
  omega

/-- What a type name denotes, what kind of type that is, and which Go type is generated. -/
structure TypeFacts (W : World) (pkg : Nat → List Str) (f : Nat) (c : Chain) (fd : FieldDecl) (t : Resolved) (x : Content) : Prop where
  denotes : Denotes W pkg (allMessages W) f c fd.typ x
  kind : HasKind fd.typ t (Content.kind x)
  type : elabType (genEnums W) (structNames W) (typeGoName W f t) = Content.goType x
  bytes : t = .scalar "[]byte".toList ↔ x = .scalar .bytes
  message : t.isMessage = true ↔ ∃ id, x = .message id
  dot : fd.typ.head? ≠ some '.'

theorem keyword_dot (s : Scalar) : (keyword s).head? ≠ some '.' := by
  cases s <;> decide

theorem name_dot {name : List Str} (hne : name ≠ []) (h : ∀ s ∈ name, Ident s) : (joinDots name).head? ≠ some '.' := by
  cases name with
  | nil => exact absurd rfl hne
  | cons a l =>
    have ha := h a (List.mem_cons_self ..)
    cases a with
    | nil => exact absurd rfl ha.1
    | cons x a =>
      have hx : x ≠ '.' := fun e => ha.2 (by rw [e]; exact List.mem_cons_self ..)
      cases l with
      | nil =>
        intro e
        exact hx (by simpa [joinDots] using e)
      | cons b l =>
        intro e
        exact hx (by simpa [joinDots] using e)

theorem type_facts {W : World} {pkg : Nat → List Str} (hH : Handled W pkg) (hd : (structNames W ++ genEnums W).Nodup) {f : Nat} {c : Chain}
    (hc : Around (W.file f).messages c) {fd : FieldDecl} (hf : fd ∈ c.msg.fields) :
    ∃ x, TypeFacts W pkg f c fd (fieldType W f c fd) x := by
  have hdn := List.nodup_append.1 hd
  rcases (hH.fields f c hc fd hf).type with ⟨s, hs⟩ | ⟨name, r, i, hr⟩
  · obtain ⟨g, h1, h2, h3⟩ := keyword_go s
    have ht : fieldType W f c fd = .scalar g := by
      unfold fieldType
      rw [hs, resolve_scalar W f c h1]
      rfl
    rw [ht]
    refine ⟨.scalar s, .scalar s hs, ⟨hs, g, rfl⟩, ?_, ?_, ?_, ?_⟩
    · show basicGoType g = s.goType
      exact h2
    · constructor
      · intro e
        cases e
        rw [h3.1 rfl]
      · intro e
        cases e
        rw [h3.2 rfl]
    · constructor
      · intro e
        cases e
      · rintro ⟨id, e⟩
        cases e
    · rw [hs]
      exact keyword_dot s
  · have hsc : scalarTypes.lookup (joinDots name) = none := by
      cases hl : scalarTypes.lookup (joinDots name) with
      | none => rfl
      | some g =>
        obtain ⟨s, e⟩ := scalar_keyword hl
        exact absurd (hr.spelled.trans e) (hr.scalar s)
    obtain ⟨p, h1, h2⟩ := C55_resolves_partial W pkg f c name r i hH.packages (hH.tidy f (around_file hc)) hc hr.nonempty hr.idents hsc hr.self hr.doubled
      hr.means hr.scope
    have ht : fieldType W f c fd = .decl r p := by
      unfold fieldType
      rw [hr.spelled, h1]
      rfl
    have hdot : fd.typ.head? ≠ some '.' := by
      rw [hr.spelled]
      exact name_dot hr.nonempty hr.idents
    rw [ht]
    have hex := hr.means.2.2.1
    cases he : r.isEnum with
    | true =>
      have hm := exists_enum hex he (hH.enums r hex he)
      refine ⟨.enum, .enum name r i hr.scalar hr.spelled hr.means he, ⟨hr.scalar, r, p, rfl, he⟩, ?_, ?_, ?_, hdot⟩
      · show (if (genEnums W).contains (resolvedImport W f p, goTypeName r.path) then _ else _) = _
        rw [h2, if_pos (List.contains_iff_mem.2 hm)]
        rfl
      · constructor <;> intro e <;> cases e
      · constructor
        · intro e
          have e : (!r.isEnum) = true := e
          rw [he] at e
          cases e
        · rintro ⟨id, e⟩
          cases e
    | false =>
      obtain ⟨id, c', h3, h4⟩ := exists_message hex he
      have hc' : Around (W.file r.file).messages c' := (all_iff W _ _).1 (List.mem_of_getElem? h3)
      have hidx := struct_index hdn.1 h3
      rw [← around_path hc', h4] at hidx
      have hmem : ((W.file r.file).goImport, goTypeName r.path) ∈ structNames W := by
        unfold List.idxOf? at hidx
        obtain ⟨hlt, e, _⟩ := List.findIdx?_eq_some_iff_getElem.1 hidx
        have e : (structNames W)[id] = ((W.file r.file).goImport, goTypeName r.path) := by simpa using e
        rw [← e]
        exact List.getElem_mem _
      refine ⟨.message id, .message name r i id c' hr.scalar hr.spelled hr.means he h3 h4, ⟨hr.scalar, r, p, rfl, he⟩, ?_, ?_, ?_, hdot⟩
      · show (if (genEnums W).contains (resolvedImport W f p, goTypeName r.path) then _ else
          match (structNames W).idxOf? (resolvedImport W f p, goTypeName r.path) with
          | some i => GoType.struct i
          | none => .other 0) = _
        rw [h2, if_neg, hidx]
        · rfl
        · intro h
          exact hdn.2.2 _ hmem _ (List.contains_iff_mem.1 h) rfl
      · constructor <;> intro e <;> cases e
      · constructor
        · intro _
          exact ⟨id, rfl⟩
        · intro _
          show (!r.isEnum) = true
          rw [he]
          rfl

/-! ## Pointers -/

/-- The rule for presence. -/
theorem pointer_rule {W : World} {f : Nat} {m : MsgDecl} {fd : FieldDecl} {t : Resolved} {b : Bool} (hb : Tracks (W.file f) fd b)
    (he : (W.file f).edition = .ed2023 → fd.optional = false ∧ ¬ Feature (W.file f) fd "features.field_presence" (some "LEGACY_REQUIRED"))
    (hk : fd.key = none) (hr : fd.repeated = false) (ho : fd.oneof = none) (hm : t.isMessage = false) (ht : t ≠ .scalar "[]byte".toList)
    (hn : genNoPointer m fd = false) : isPointer W f m fd t = b := by
  unfold isPointer
  rw [hn, hk, hr, ho, hm]
  simp only [Bool.false_eq_true, if_false, Option.isSome_none, Bool.false_or, decide_eq_true_eq]
  rw [if_neg ht]
  cases hb with
  | proto2 h => simp [h]
  | optional3 h h1 => simp [h1]
  | plain3 h h1 => simp [h, h1]
  | explicit h h1 =>
    rw [(he h).1, h]
    cases h1 with
    | field _ h2 =>
      dsimp only
      rw [sets_get h2]
      rfl
    | file _ h2 h3 =>
      dsimp only
      rw [unset_get h2, sets_get h3]
      rfl
  | required h h1 => exact absurd h1 (he h).2
  | implicit h h1 =>
    rw [(he h).1, h]
    cases h1 with
    | field _ h2 =>
      dsimp only
      rw [sets_get h2]
      show ("IMPLICIT".toList == "EXPLICIT".toList) = false
      decide +kernel
    | file _ h2 h3 =>
      dsimp only
      rw [unset_get h2, sets_get h3]
      show ("IMPLICIT".toList == "EXPLICIT".toList) = false
      decide +kernel
  | default h h1 =>
    rw [(he h).1, h]
    cases h1 with
    | unset h2 h3 =>
      dsimp only
      rw [unset_get h2, unset_get h3]
      rfl

end Verif.Props.Gen
