import Verif.Lemmas.RegularField
import Verif.Props.Desc
/-! Helper lemmas: accepted struct types with ordinary fields behave like struct types that implement a schema. -/
namespace Verif.Lemmas
open Verif.Model Verif.Spec

/-- Where a struct keeps unknown fields. -/
def unkOf (s : StructDecl) : Option (Nat × Bool) :=
  (unknownSlot "unknownFields".toList 0 s.fields).orElse (fun _ => unknownSlot "XXX_unrecognized".toList 0 s.fields)

def canonName (u : Option (Nat × Bool)) (i : Nat) : List Char :=
  match u with
  | some (j, _) => if i = j then "unknownFields".toList else []
  | none => []

def canonFields (u : Option (Nat × Bool)) : Nat → List GoField → List GoField
  | _, [] => []
  | i, gf :: gfs => canonField (canonName u i) gf :: canonFields u (i + 1) gfs

theorem canonFields_get (u : Option (Nat × Bool)) : ∀ (i : Nat) (gfs : List GoField) (j : Nat),
    (canonFields u i gfs)[j]? = gfs[j]?.map (canonField (canonName u (i + j)))
  | _, [], j => by simp [canonFields]
  | i, gf :: gfs, 0 => by simp [canonFields]
  | i, gf :: gfs, j + 1 => by
    simp only [canonFields, List.getElem?_cons_succ, canonFields_get u (i + 1) gfs j]
    rw [show i + 1 + j = i + (j + 1) by omega]

theorem canonFields_length (u : Option (Nat × Bool)) : ∀ (i : Nat) (gfs : List GoField), (canonFields u i gfs).length = gfs.length
  | _, [] => rfl
  | i, _ :: gfs => by simp [canonFields, canonFields_length u (i + 1) gfs]

def canonWrapper (slots : List Nat) (w : Wrapper) : Option Wrapper :=
  match slots.find? (fun i => w.implements.contains i), w.fields with
  | some i, [gf] => some ⟨w.id, [i], [canonField [] gf]⟩
  | _, _ => none

/-- The same struct type with tags in the usual form. -/
def canonDecl (s : StructDecl) : StructDecl :=
  { fields := canonFields (unkOf s) 0 s.fields, wrappers := s.wrappers.filterMap (canonWrapper (oneofSlots 0 s.fields)),
    size := s.size, zero := s.zero }

theorem canonField_untagged {name : List Char} {gf : GoField} (h : gf.tag = []) : canonField name gf = { gf with name := name } := by
  unfold canonField; rw [if_pos h]

theorem parseField_tag {gf : GoField} {slot : Nat} {o : Option Nat} {d : FieldDesc} (h : parseField gf slot o = .ok d) : gf.tag ≠ [] := by
  intro e
  unfold parseField at h
  rw [e] at h
  cases h

theorem canonTag_ne (d : FieldDesc) : canonTag d ≠ [] := tag_ne_nil (encWord_of d.tagType) (canonTag_says d)

theorem parseField_canon {gf : GoField} {slot : Nat} {o : Option Nat} {d : FieldDesc} (h : parseField gf slot o = .ok d)
    (hr : regularType gf.type = true) (ht : TidyTag (Spec.isList gf.type) gf.tag) (hid : 0 ≤ d.id.toInt) (name : List Char) :
    parseField (canonField name gf) slot o = .ok d := by
  obtain ⟨_, h2, h3, _, h5, h6, h7, h8⟩ := regular_field (parseField_tag h) h hr ht hid name
  have := parseField_ok h6 h5 h2
  rw [h3, h7, h8] at this
  exact this

theorem parseFields_canon (u : Option (Nat × Bool)) : ∀ (gfs : List GoField) (i : Nat) (L : List FieldDesc),
    (∀ gf ∈ gfs, gf.tag ≠ [] → regularType gf.type = true ∧ TidyTag (Spec.isList gf.type) gf.tag) →
    parseFields i gfs = .ok L → (∀ d ∈ L, 0 ≤ d.id.toInt) →
    parseFields i (canonFields u i gfs) = .ok L ∧ oneofSlots i (canonFields u i gfs) = oneofSlots i gfs
  | [], _, L, _, h, _ => ⟨h, rfl⟩
  | gf :: gfs, i, L, hr, h, hid => by
    have hr' : ∀ x ∈ gfs, x.tag ≠ [] → regularType x.type = true ∧ TidyTag (Spec.isList x.type) x.tag :=
      fun x hx => hr x (by simp [hx])
    unfold parseFields at h
    by_cases ht : gf.tag = []
    · rw [if_pos ht] at h
      obtain ⟨e1, e2⟩ := parseFields_canon u gfs (i + 1) L hr' h hid
      rw [canonFields, canonField_untagged ht]
      refine ⟨?_, ?_⟩
      · rw [parseFields]; simp only [if_pos ht]; exact e1
      · simp only [oneofSlots, e2]
    · rw [if_neg ht] at h
      obtain ⟨d, hd, h⟩ := bindOk h
      obtain ⟨M, hM, h⟩ := bindOk h
      cases h
      obtain ⟨e1, e2⟩ := parseFields_canon u gfs (i + 1) M hr' hM (fun x hx => hid x (by simp [hx]))
      obtain ⟨r1, r2⟩ := hr gf (by simp) ht
      have hc := parseField_canon hd r1 r2 (hid d (by simp)) (canonName u i)
      have htag := parseField_tag hc
      refine ⟨?_, ?_⟩
      · rw [canonFields, parseFields, if_neg htag, hc]
        simp only [bind, Except.bind]
        rw [e1]; rfl
      · rw [canonFields, oneofSlots, oneofSlots, e2, if_neg (fun hh => htag hh.1), if_neg (fun hh => ht hh.1)]

theorem parseWrappers_canon (slots : List Nat) : ∀ (ws : List Wrapper) (L : List FieldDesc),
    (∀ w ∈ ws, ∀ gf, w.fields = [gf] → regularType gf.type = true ∧ TidyTag (Spec.isList gf.type) gf.tag) →
    parseWrappers slots ws = .ok L → (∀ d ∈ L, 0 ≤ d.id.toInt) →
    parseWrappers slots (ws.filterMap (canonWrapper slots)) = .ok L
  | [], L, _, h, _ => h
  | w :: ws, L, hr, h, hid => by
    have hr' : ∀ x ∈ ws, ∀ gf, x.fields = [gf] → regularType gf.type = true ∧ TidyTag (Spec.isList gf.type) gf.tag :=
      fun x hx => hr x (by simp [hx])
    unfold parseWrappers at h
    cases hf : slots.find? (fun i => w.implements.contains i) with
    | none =>
      rw [hf] at h
      have : canonWrapper slots w = none := by unfold canonWrapper; rw [hf]
      rw [List.filterMap_cons, this]
      exact parseWrappers_canon slots ws L hr' h hid
    | some i =>
      rw [hf] at h
      dsimp only at h
      split at h
      · rename_i gf hg
        have hcw : canonWrapper slots w = some ⟨w.id, [i], [canonField [] gf]⟩ := by unfold canonWrapper; rw [hf, hg]
        rw [List.filterMap_cons, hcw]
        by_cases ht : gf.tag = []
        · rw [if_pos ht] at h; cases h
        · rw [if_neg ht] at h
          obtain ⟨d, hd, h⟩ := bindOk h
          obtain ⟨M, hM, h⟩ := bindOk h
          cases h
          have e1 := parseWrappers_canon slots ws M hr' hM (fun x hx => hid x (by simp [hx]))
          obtain ⟨r1, r2⟩ := hr w (by simp) gf hg
          have hc := parseField_canon hd r1 r2 (hid d (by simp)) []
          rw [parseWrappers, find_slot (List.mem_of_find?_eq_some hf)]
          dsimp only
          rw [if_neg (parseField_tag hc), hc]
          simp only [bind, Except.bind]
          rw [e1]; rfl
      · cases h

theorem unknownSlot_some {name : List Char} : ∀ {fs : List GoField} {k i : Nat} {p : Bool}, unknownSlot name k fs = some (i, p) →
    ∃ j gf, i = k + j ∧ fs[j]? = some gf ∧ gf.name = name ∧ gf.type = (if p then .ptr .bytes else .bytes)
  | [], k, i, p, h => by cases h
  | gf :: fs, k, i, p, h => by
    unfold unknownSlot at h
    split at h
    · rename_i hn
      split at h
      · rename_i ht; cases h; exact ⟨0, gf, rfl, rfl, hn, ht⟩
      · rename_i ht; cases h; exact ⟨0, gf, rfl, rfl, hn, ht⟩
      · cases h
    · obtain ⟨j, g, e, h1, h2⟩ := unknownSlot_some h
      exact ⟨j + 1, g, by omega, h1, h2⟩

theorem unkOf_some {s : StructDecl} {i : Nat} {p : Bool} (h : unkOf s = some (i, p)) :
    ∃ gf, s.fields[i]? = some gf ∧ (gf.name = "unknownFields".toList ∨ gf.name = "XXX_unrecognized".toList) ∧
      gf.type = (if p then .ptr .bytes else .bytes) := by
  unfold unkOf at h
  cases h1 : unknownSlot "unknownFields".toList 0 s.fields with
  | some x =>
    rw [h1] at h
    simp only [Option.orElse] at h
    cases h
    obtain ⟨j, gf, e, h2, h3, h4⟩ := unknownSlot_some h1
    rw [Nat.zero_add] at e; subst e
    exact ⟨gf, h2, .inl h3, h4⟩
  | none =>
    rw [h1] at h
    simp only [Option.orElse] at h
    obtain ⟨j, gf, e, h2, h3, h4⟩ := unknownSlot_some h
    rw [Nat.zero_add] at e; subst e
    exact ⟨gf, h2, .inr h3, h4⟩

section
variable {env : GoEnv} {s : StructDecl} {d : StructDesc}

/-- Types of wrappers are ordinary types. -/
theorem member_regular (hr : RegularStruct env s) : ∀ w ∈ s.wrappers, ∀ gf, w.fields = [gf] →
    regularType gf.type = true ∧ TidyTag (Spec.isList gf.type) gf.tag := by
  intro w hw gf hg
  obtain ⟨h1, h2⟩ := hr.members w hw gf hg
  rcases h1 with h1 | ⟨id, h1⟩ | ⟨id, h1⟩
  · have : regularType gf.type = true ∧ Spec.isList gf.type = false := by
      revert h1
      cases gf.type <;> intro h1 <;> first | (cases h1; done) | exact ⟨rfl, rfl⟩
    rw [this.2]; exact ⟨this.1, h2⟩
  · rw [h1]; exact ⟨rfl, h2⟩
  · rw [h1]; exact ⟨rfl, h2⟩

theorem canon_parts (hr : RegularStruct env s) (hd : parseStruct s = .ok d) :
    (∃ fs, parseFields 0 s.fields = .ok fs ∧ parseFields 0 (canonDecl s).fields = .ok fs) ∧
    oneofSlots 0 (canonDecl s).fields = oneofSlots 0 s.fields ∧
    (oneofSlots 0 s.fields ≠ [] → parseWrappers (oneofSlots 0 s.fields) (canonDecl s).wrappers =
      parseWrappers (oneofSlots 0 s.fields) s.wrappers) := by
  obtain ⟨f1, _, f3, _, _⟩ := parseStruct_facts hd
  have h := hd
  unfold parseStruct at h
  obtain ⟨fs, hfs, h⟩ := bindOk h
  dsimp only at h
  obtain ⟨ws, hws, h⟩ := iteBindOk h
  obtain ⟨⟨m0, m1⟩, hm, h⟩ := iteBindOk h
  have hfields : d.fields = sortFields (fs ++ ws) := by cases h; rfl
  have hpos : ∀ x, x ∈ fs ∨ x ∈ ws → 0 ≤ x.id.toInt := fun x hx => f3 x (by
    rw [hfields]; exact (sortFields_perm _).mem_iff.2 (List.mem_append.2 hx))
  obtain ⟨e1, e2⟩ := parseFields_canon (unkOf s) s.fields 0 fs hr.types hfs (fun x hx => hpos x (.inl hx))
  refine ⟨⟨fs, hfs, e1⟩, e2, fun hne => ?_⟩
  rw [if_neg hne] at hws
  rw [hws]
  exact parseWrappers_canon _ _ _ (member_regular hr) hws (fun x hx => hpos x (.inr hx))

theorem canon_name (hr : RegularStruct env s) (hd : parseStruct s = .ok d) {i : Nat} {gf : GoField} (h : s.fields[i]? = some gf) :
    (canonField (canonName (unkOf s) i) gf).name = canonName (unkOf s) i ∧
    (canonField (canonName (unkOf s) i) gf).type = gf.type ∧ (canonField (canonName (unkOf s) i) gf).oneofTag = gf.oneofTag ∧
    ((canonField (canonName (unkOf s) i) gf).tag = [] ↔ gf.tag = []) := by
  by_cases ht : gf.tag = []
  · rw [canonField_untagged ht]; exact ⟨rfl, rfl, rfl, Iff.rfl⟩
  · have hq : ∃ f, Declared s (.inl i) f := ((Props.C28_accepted s).1 ⟨d, hd⟩).1 i gf h ht
    obtain ⟨f, hf⟩ := hq
    cases hf with
    | plain _ gf' _ a1 a2 a3 =>
      rw [h] at a1; cases a1
      rw [canonField_eq ht a3]
      exact ⟨rfl, rfl, rfl, fun e => absurd e (canonTag_ne f), fun e => absurd e ht⟩

theorem canon_unknown (hr : RegularStruct env s) (hd : parseStruct s = .ok d) : KeepsUnknown (canonDecl s).fields (unkOf s) := by
  cases hu : unkOf s with
  | none =>
    intro gf hgf
    obtain ⟨i, hi, he⟩ := List.getElem_of_mem hgf
    have := canonFields_get (unkOf s) 0 s.fields i
    rw [Nat.zero_add] at this
    rw [show (canonFields (unkOf s) 0 s.fields)[i]? = some gf from by rw [← he]; exact List.getElem?_eq_getElem hi] at this
    obtain ⟨g, hg, rfl⟩ := Option.map_eq_some_iff.1 this.symm
    rw [(canon_name hr hd hg).1, hu]
    exact ⟨(by intro e; cases e), (by intro e; cases e)⟩
  | some x =>
    obtain ⟨i, p⟩ := x
    left
    obtain ⟨gf, h1, h2, h3⟩ := unkOf_some hu
    have get : ∀ j, (canonDecl s).fields[j]? = s.fields[j]?.map (canonField (canonName (unkOf s) j)) := fun j => by
      have := canonFields_get (unkOf s) 0 s.fields j
      rwa [Nat.zero_add] at this
    obtain ⟨n1, n2, _, _⟩ := canon_name hr hd h1
    refine ⟨⟨_, by rw [get i, h1]; rfl, ?_, ?_⟩, ?_⟩
    · rw [n1, hu]; simp [canonName]
    · rw [n2, h3]
    · intro j g hj hg
      rw [get j] at hg
      obtain ⟨g', hg', rfl⟩ := Option.map_eq_some_iff.1 hg
      rw [(canon_name hr hd hg').1, hu]
      simp only [canonName]
      rw [if_neg (by omega)]
      decide

/-- The struct type with tags in the usual form has the same descriptor. -/
theorem parseStruct_canon (hr : RegularStruct env s) (hd : parseStruct s = .ok d) : parseStruct (canonDecl s) = .ok d := by
  obtain ⟨⟨fs, h1, h2⟩, h3, h4⟩ := canon_parts hr hd
  have h5 := unknown_ok (canon_unknown hr hd)
  rw [← hd]
  unfold parseStruct
  rw [h1, h2, h3]
  have e1 : (canonDecl s).size = s.size := rfl
  have e2 : (canonDecl s).zero = s.zero := rfl
  simp only [bind, Except.bind, e1, e2, h5]
  by_cases hs : oneofSlots 0 s.fields = []
  · simp only [if_pos hs]; rfl
  · simp only [if_neg hs, h4 hs]; rfl

end

end Verif.Lemmas
