import Verif.Lemmas.Tables
import Verif.Spec.Plain
/-! Helper lemmas: parsed descriptor tables, and the decoder without the field cache. -/
namespace Verif.Lemmas
open Verif.Model Verif.Spec

theorem mapM_getElem {α β : Type} {f : α → Res β} : ∀ {xs : List α} {ys : List β}, xs.mapM f = .ok ys →
    ∀ {i : Nat} {y : β}, ys[i]? = some y → ∃ x, xs[i]? = some x ∧ f x = .ok y
  | [], ys, h, i, y, hy => by
    cases h
    simp at hy
  | x :: xs, ys, h, i, y, hy => by
    rw [List.mapM_cons] at h
    obtain ⟨a, h1, h⟩ := bindOk h
    obtain ⟨as, h2, h⟩ := bindOk h
    cases h
    cases i with
    | zero => cases hy; exact ⟨x, rfl, h1⟩
    | succ i => exact mapM_getElem h2 (i := i) hy

/-- Every descriptor of a parsed table comes from a struct type (or is the empty default). -/
theorem parseDescs_facts {env : GoEnv} {D : Descs} (h : parseDescs env = .ok D) (i : Nat) :
    (∃ s, env.structs[i]? = some s ∧ parseStruct s = .ok (D i)) ∨ D i = default := by
  unfold parseDescs at h
  obtain ⟨ds, h1, h⟩ := bindOk h
  cases h
  simp only [List.getD_eq_getElem?_getD]
  cases hd : ds[i]? with
  | none => exact .inr rfl
  | some d =>
    obtain ⟨s, h2, h3⟩ := mapM_getElem h1 hd
    exact .inl ⟨s, h2, h3⟩

/-- Looking a number up gives a field with that number. -/
theorem getField_id {env : GoEnv} {D : Descs} (h : parseDescs env = .ok D) {i n : Nat} {f : FieldDesc}
    (hf : (D i).getField n = some f) : f.id.toInt = n := by
  rcases parseDescs_facts h i with ⟨s, _, hs⟩ | hd
  · rw [(parseStruct_facts hs).2.2.2.2] at hf
    simpa using List.find?_some hf
  · rw [hd] at hf
    cases hf

/-- The cached field is what looking it up would give. -/
def CacheOK (s : StructDesc) (last : Option FieldDesc) : Prop :=
  ∀ g, last = some g → s.getField g.id.toInt.toNat = some g

theorem lookup_fresh {s : StructDesc} {last : Option FieldDesc} (h : CacheOK s last) (num : Int) :
    lookupField s last num = lookupField s none num := by
  cases last with
  | none => rfl
  | some g =>
    simp only [lookupField]
    split
    · rename_i e
      rw [← e, h g rfl]
    · rfl

theorem record_fresh {s : StructDesc} (hs : ∀ n f, s.getField n = some f → f.id.toInt = n)
    (D : Descs) (rec : DecRec) (depth : Int) (b : Bytes) (fs : List Val) {last : Option FieldDesc} (h : CacheOK s last) :
    decodeRecord D rec s depth b fs last = decodeRecord D rec s depth b fs none ∧
    ∀ fs' n last', decodeRecord D rec s depth b fs last = .ok (fs', n, last') → CacheOK s last' := by
  constructor
  · unfold decodeRecord
    simp only [lookup_fresh h]
  · intro fs' n last' h'
    unfold decodeRecord at h'
    obtain ⟨⟨num, typ, m⟩, h1, h'⟩ := bindOk h'
    simp only [lookup_fresh h] at h'
    split at h'
    · obtain ⟨k, h2, h'⟩ := bindOk h'
      obtain ⟨gs, h3, h'⟩ := bindOk h'
      cases h'
      intro g hg; cases hg
    · rename_i f hf
      split at h'
      · cases h'
      · obtain ⟨⟨v, k⟩, h2, h'⟩ := bindOk h'
        cases h'
        intro g hg
        cases hg
        simp only [lookupField] at hf
        rw [hs _ _ hf, Int.toNat_natCast, hf]

theorem loop_fresh {s : StructDesc} (hs : ∀ n f, s.getField n = some f → f.id.toInt = n)
    (D : Descs) (rec : DecRec) (depth : Int) : ∀ (fuel : Nat) (b : Bytes) (fs : List Val) (last : Option FieldDesc),
    CacheOK s last → decodeLoop D rec s depth fuel b fs last = decodeLoopFresh D rec s depth fuel b fs
  | _, [], fs, last, _ => by simp [decodeLoop, decodeLoopFresh]
  | 0, _ :: _, fs, last, _ => by simp [decodeLoop, decodeLoopFresh]
  | fuel + 1, a :: b, fs, last, h => by
    obtain ⟨h1, h2⟩ := record_fresh hs D rec depth (a :: b) fs h
    simp only [decodeLoop, decodeLoopFresh]
    rw [← h1]
    cases hr : decodeRecord D rec s depth (a :: b) fs last with
    | error e => rfl
    | ok r =>
      obtain ⟨fs', n, last'⟩ := r
      exact loop_fresh hs D rec depth fuel _ _ _ (h2 _ _ _ hr)

theorem struct_fresh {env : GoEnv} {D : Descs} (h : parseDescs env = .ok D) : ∀ (fuel : Nat) (depth : Int) (b : Bytes)
    (v : Val) (sid : Nat), decodeStruct D fuel depth b v sid = decodeStructFresh D fuel depth b v sid
  | 0, _, _, _, _ => rfl
  | fuel + 1, depth, b, v, sid => by
    have hrec : decodeStruct D fuel = decodeStructFresh D fuel := by
      funext depth b v sid
      exact struct_fresh h fuel depth b v sid
    simp only [decodeStruct, decodeStructFresh, hrec]
    split
    · rfl
    · cases v with
      | struct fs =>
        simp only
        cases resetUnknown (D sid) fs with
        | error e => rfl
        | ok fs' =>
          simp only [bind, Except.bind]
          rw [loop_fresh (fun n f hf => getField_id h hf) D _ depth _ _ _ none (fun g hg => by cases hg)]
      | _ => rfl

end Verif.Lemmas
