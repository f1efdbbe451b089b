import Verif.Spec.OneofCases
import Verif.Props.Desc
/-!
# C95: the cases of a oneof
-/
namespace Verif.Props.OneofCases
open Verif.Spec Verif.Model Verif.Model.Oneof Verif.Lemmas

theorem deref_iff {v : RVal} {fs : List (List Char × RVal)} (h : IsStruct v fs) : v.deref = .struct fs := by
  induction h with
  | here => rfl
  | ref v fs _ ih => exact ih

theorem isStruct_of_deref (fs : List (List Char × RVal)) : ∀ v : RVal, v.deref = .struct fs → IsStruct v fs
  | .ref v, h => .ref v fs (isStruct_of_deref fs v h)
  | .struct _, h => by cases h; exact .here fs
  | .nil, h => by cases h
  | .anys _, h => by cases h
  | .sized _, h => by cases h
  | .other, h => by cases h

theorem isStruct_unique {v : RVal} {a b : List (List Char × RVal)} (h : IsStruct v a) (h' : IsStruct v b) : a = b := by
  have := (deref_iff h).symm.trans (deref_iff h')
  cases this; rfl

theorem search_of {d : Nat} {v : RVal} {fs : List (List Char × RVal)} (h : IsStruct v fs) : searchField (d + 1) v =
    match fs.find? (fun f => f.1 == "OneofWrappers".toList) with
      | some f => takeAnys f.2
      | none => firstFound (searchField d) fs := by
  rw [searchField, deref_iff h]
  cases hf : fs.find? (fun f => f.1 == "OneofWrappers".toList) <;> simp only [hf]

theorem search_plain {d : Nat} {v : RVal} (h : ∀ fs, ¬ IsStruct v fs) : searchField d v = .ok none := by
  cases d with
  | zero => rfl
  | succ d =>
    unfold searchField
    split
    · rename_i fs hd
      exact absurd (isStruct_of_deref fs v hd) (h fs)
    · rfl

/-- A result is the result in some field. -/
theorem first_some {find : RVal → Res (Option (List Wrapper))} {ws : List Wrapper} : ∀ {fs : List (List Char × RVal)},
    firstFound find fs = .ok (some ws) → ∃ f ∈ fs, find f.2 = .ok (some ws)
  | [], h => by cases h
  | f :: fs, h => by
    unfold firstFound at h
    split at h
    · cases h
    · rename_i ws' hf
      cases h
      exact ⟨f, by simp, hf⟩
    · obtain ⟨g, hg, e⟩ := first_some h
      exact ⟨g, by simp [hg], e⟩

/-- Nothing is found only if nothing is in any field. -/
theorem first_none {find : RVal → Res (Option (List Wrapper))} : ∀ {fs : List (List Char × RVal)},
    firstFound find fs = .ok none → ∀ f ∈ fs, find f.2 = .ok none
  | [], _, f, hf => by cases hf
  | g :: fs, h, f, hf => by
    unfold firstFound at h
    split at h
    · cases h
    · cases h
    · rename_i hg
      cases hf with
      | head => exact hg
      | tail _ hf => exact first_none h f hf

/-- No fault in any field, no fault. -/
theorem first_ok {find : RVal → Res (Option (List Wrapper))} : ∀ {fs : List (List Char × RVal)}, (∀ f ∈ fs, ∃ r, find f.2 = .ok r) →
    ∃ r, firstFound find fs = .ok r
  | [], _ => ⟨none, rfl⟩
  | g :: fs, h => by
    obtain ⟨r, hr⟩ := h g (by simp)
    unfold firstFound
    rw [hr]
    cases r with
    | none => exact first_ok (fun f hf => h f (by simp [hf]))
    | some ws => exact ⟨some ws, rfl⟩

/-- The field of this name, where names differ. -/
theorem find_name {fs : List (List Char × RVal)} {n : List Char} {x : RVal} (hn : (fs.map (·.1)).Nodup) (hx : (n, x) ∈ fs) :
    fs.find? (fun f => f.1 == n) = some (n, x) := by
  induction fs with
  | nil => cases hx
  | cons g fs ih =>
    rw [List.map_cons, List.nodup_cons] at hn
    rw [List.find?_cons]
    cases hx with
    | head => simp
    | tail _ hx =>
      have : (g.1 == n) = false := by
        rw [beq_eq_false_iff_ne]
        rintro rfl
        exact hn.1 (List.mem_map.2 ⟨_, hx, rfl⟩)
      rw [this]
      exact ih hn.2 hx

theorem find_none {fs : List (List Char × RVal)} (h : ∀ f ∈ fs, f.1 ≠ "OneofWrappers".toList) :
    fs.find? (fun f => f.1 == "OneofWrappers".toList) = none := by
  rw [List.find?_eq_none]
  intro f hf
  simpa using h f hf

/-- What is found is there. -/
theorem search_sound : ∀ (d : Nat) (v : RVal) (ws : List Wrapper), (hT : Tidy d v) → searchField (d + 1) v = .ok (some ws) → Lists d v ws := by
  intro d
  induction d with
  | zero =>
    intro v ws hT h
    cases hT with
    | plain _ _ hp => rw [search_plain hp] at h; cases h
    | last _ fs hs hn hw =>
      rw [search_of hs] at h
      split at h
      · rename_i f hf
        obtain ⟨n, x⟩ := f
        have hm := List.mem_of_find?_eq_some hf
        have : n = "OneofWrappers".toList := by simpa using List.find?_some hf
        subst this
        obtain ⟨ws', rfl⟩ := hw x hm
        cases h
        exact .here 0 v fs ws hs hm
      · obtain ⟨f, hf, e⟩ := first_some h
        cases e
  | succ d ih =>
    intro v ws hT h
    cases hT with
    | plain _ _ hp => rw [search_plain hp] at h; cases h
    | step _ _ fs hs hn hw hk =>
      rw [search_of hs] at h
      split at h
      · rename_i f hf
        obtain ⟨n, x⟩ := f
        have hm := List.mem_of_find?_eq_some hf
        have : n = "OneofWrappers".toList := by simpa using List.find?_some hf
        subst this
        obtain ⟨ws', rfl⟩ := hw x hm
        cases h
        exact .here _ v fs ws hs hm
      · rename_i hnone
        obtain ⟨f, hf, e⟩ := first_some h
        obtain ⟨n, x⟩ := f
        refine .field d v fs n x ws hs ?_ hf (ih x ws (hk _ hf) e)
        intro g hg
        simpa using List.find?_eq_none.1 hnone g hg

/-- The search ends without a fault. -/
theorem search_total : ∀ (d : Nat) (v : RVal), Tidy d v → ∃ r, searchField (d + 1) v = .ok r := by
  have take : ∀ (fs : List (List Char × RVal)), (∀ x, ("OneofWrappers".toList, x) ∈ fs → ∃ ws, x = .anys ws) →
      ∀ f, fs.find? (fun f => f.1 == "OneofWrappers".toList) = some f → ∃ r, takeAnys f.2 = .ok r := by
    rintro fs hw ⟨n, x⟩ hf
    have hm := List.mem_of_find?_eq_some hf
    have : n = "OneofWrappers".toList := by simpa using List.find?_some hf
    subst this
    obtain ⟨ws', rfl⟩ := hw x hm
    exact ⟨ws', rfl⟩
  intro d
  induction d with
  | zero =>
    intro v hT
    cases hT with
    | plain _ _ hp => exact ⟨_, search_plain hp⟩
    | last _ fs hs hn hw =>
      rw [search_of hs]
      split
      · rename_i f hf
        exact take fs hw f hf
      · exact first_ok (fun f _ => ⟨none, rfl⟩)
  | succ d ih =>
    intro v hT
    cases hT with
    | plain _ _ hp => exact ⟨_, search_plain hp⟩
    | step _ _ fs hs hn hw hk =>
      rw [search_of hs]
      split
      · rename_i f hf
        exact take fs hw f hf
      · exact first_ok (fun f hf => ih f.2 (hk f hf))

theorem tidy_facts {d : Nat} {v : RVal} {fs : List (List Char × RVal)} (hT : Tidy d v) (hs : IsStruct v fs) : (fs.map (·.1)).Nodup ∧
    (∀ x, ("OneofWrappers".toList, x) ∈ fs → ∃ ws, x = .anys ws) ∧ ∀ d', d = d' + 1 → ∀ f ∈ fs, Tidy d' f.2 := by
  cases hT with
  | plain _ _ hp => exact absurd hs (hp fs)
  | last _ fs' hs' hn hw =>
    obtain rfl := isStruct_unique hs hs'
    exact ⟨hn, hw, fun d' e => by omega⟩
  | step d _ fs' hs' hn hw hk =>
    obtain rfl := isStruct_unique hs hs'
    exact ⟨hn, hw, fun d' e => by cases e; exact hk⟩

/-- If there is a list, one is found. -/
theorem search_complete {d : Nat} {v : RVal} {ws : List Wrapper} (h : Lists d v ws) : Tidy d v → searchField (d + 1) v ≠ .ok none := by
  induction h with
  | here d v fs ws hs hm =>
    intro hT e
    rw [search_of hs, find_name (tidy_facts hT hs).1 hm] at e
    cases e
  | field d v fs n x ws hs hno hm _ ih =>
    intro hT e
    rw [search_of hs, find_none hno] at e
    exact ih ((tidy_facts hT hs).2.2 d rfl _ hm) (first_none e _ hm)

/-- A result is the result in the first field with one. -/
theorem first_split {find : RVal → Res (Option (List Wrapper))} {ws : List Wrapper} : ∀ {fs : List (List Char × RVal)},
    firstFound find fs = .ok (some ws) → ∃ a f b, fs = a ++ f :: b ∧ (∀ g ∈ a, find g.2 = .ok none) ∧ find f.2 = .ok (some ws)
  | [], h => by cases h
  | f :: fs, h => by
    unfold firstFound at h
    split at h
    · cases h
    · rename_i ws' hf
      cases h
      exact ⟨[], f, fs, rfl, fun g hg => (by cases hg), hf⟩
    · rename_i hf
      obtain ⟨a, g, b, rfl, hn, e⟩ := first_split h
      refine ⟨f :: a, g, b, rfl, ?_, e⟩
      intro x hx
      cases hx with
      | head => exact hf
      | tail _ hx => exact hn x hx

theorem first_join {find : RVal → Res (Option (List Wrapper))} {ws : List Wrapper} {f : List Char × RVal} {b : List (List Char × RVal)} :
    ∀ {a : List (List Char × RVal)}, (∀ g ∈ a, find g.2 = .ok none) → find f.2 = .ok (some ws) → firstFound find (a ++ f :: b) = .ok (some ws)
  | [], _, h => by
    show firstFound find (f :: b) = _
    unfold firstFound
    rw [h]
  | g :: a, hn, h => by
    show firstFound find (g :: (a ++ f :: b)) = _
    unfold firstFound
    rw [hn g (by simp)]
    exact first_join (fun x hx => hn x (by simp [hx])) h

/-- What is found comes first. -/
theorem search_first : ∀ (d : Nat) (v : RVal) (ws : List Wrapper), Tidy d v → searchField (d + 1) v = .ok (some ws) → FirstList d v ws := by
  intro d
  induction d with
  | zero =>
    intro v ws hT h
    cases search_sound 0 v ws hT h with
    | here _ _ fs _ hs hm => exact .here 0 v fs ws hs hm
  | succ d ih =>
    intro v ws hT h
    cases hT with
    | plain _ _ hp => rw [search_plain hp] at h; cases h
    | step _ _ fs hs hn hw hk =>
      rw [search_of hs] at h
      split at h
      · rename_i f hf
        obtain ⟨n, x⟩ := f
        have hm := List.mem_of_find?_eq_some hf
        have : n = "OneofWrappers".toList := by simpa using List.find?_some hf
        subst this
        obtain ⟨ws', rfl⟩ := hw x hm
        cases h
        exact .here _ v fs ws hs hm
      · rename_i hnone
        obtain ⟨a, ⟨n, x⟩, b, rfl, hb, e⟩ := first_split h
        refine .field d v a b n x ws hs ?_ ?_ (ih x ws (hk (n, x) (by simp)) e)
        · intro g hg
          simpa using List.find?_eq_none.1 hnone g hg
        · intro g hg ws' hl
          exact search_complete hl (hk g (by simp [hg])) (hb g hg)

/-- What comes first is found. -/
theorem first_search {d : Nat} {v : RVal} {ws : List Wrapper} (h : FirstList d v ws) : Tidy d v → searchField (d + 1) v = .ok (some ws) := by
  induction h with
  | here d v fs ws hs hm =>
    intro hT
    rw [search_of hs, find_name (tidy_facts hT hs).1 hm]
    rfl
  | field d v a b n x ws hs hno hb _ ih =>
    intro hT
    have hk := (tidy_facts hT hs).2.2 d rfl
    rw [search_of hs, find_none hno]
    refine first_join ?_ (ih (hk (n, x) (by simp)))
    intro g hg
    obtain ⟨r, hr⟩ := search_total d g.2 (hk g (by simp [hg]))
    cases r with
    | none => exact hr
    | some ws' => exact absurd (search_sound d g.2 ws' (hk g (by simp [hg])) hr) (hb g hg ws')

/-- What is described is found. -/
theorem describes_search {m : Methods} {ws : List Wrapper} (h : DescribesCases m ws) : searchWrappers m = .ok ws := by
  cases h with
  | reflect v _ hm hT hL hu =>
    obtain ⟨r, hr⟩ := search_total 4 v hT
    unfold searchWrappers
    simp only [hm, hr]
    cases r with
    | none => exact absurd hr (search_complete hL hT)
    | some ws' =>
      have := hu ws' (search_sound 4 v ws' hT hr)
      subst this
      rfl
  | method _ h1 h2 =>
    unfold searchWrappers
    simp only [h1, h2]
    rfl

end Verif.Props.OneofCases

namespace Verif.Props
open Verif.Spec Verif.Model Verif.Model.Oneof Verif.Lemmas OneofCases

/-- What the search for a list gives, for every value: a list that is found is within reach; if one is within reach, one is found; and nothing goes wrong. -/
theorem C95_search {v : RVal} (hT : Tidy 4 v) :
    (∃ r, searchField 5 v = .ok r) ∧ (∀ ws, searchField 5 v = .ok (some ws) → Lists 4 v ws) ∧
    ((∃ ws, Lists 4 v ws) ↔ ∃ ws, searchField 5 v = .ok (some ws)) := by
  refine ⟨search_total 4 v hT, fun ws => search_sound 4 v ws hT, ?_, fun ⟨ws, h⟩ => ⟨ws, search_sound 4 v ws hT h⟩⟩
  rintro ⟨ws, h⟩
  obtain ⟨r, hr⟩ := search_total 4 v hT
  cases r with
  | none => exact absurd hr (search_complete h hT)
  | some ws' => exact ⟨ws', hr⟩

/-- If several lists are within reach, the first one counts. -/
theorem C95_first {v : RVal} (hT : Tidy 4 v) (ws : List Wrapper) : searchField 5 v = .ok (some ws) ↔ FirstList 4 v ws :=
  ⟨search_first 4 v ws hT, fun h => first_search h hT⟩

/-- Exactly the cases a type describes are known: in the description of an accepted struct type, the members of oneofs are the described wrapper types that can be stored in one of
the oneofs of the struct. -/
theorem C95_cases {g : GoStruct} {d : StructDesc} {ws : List Wrapper} (hd : DescribesCases g.methods ws) (h : g.parse = .ok d) :
    (∀ w ∈ ws, ∀ i gf, g.fields[i]? = some gf → gf.tag = [] → gf.oneofTag ≠ [] → i ∈ w.implements →
      ∃ f ∈ d.fields, f.oneof = some w.id ∧ f.slot ∈ w.implements) ∧
    ∀ f ∈ d.fields, ∀ id, f.oneof = some id → ∃ w ∈ ws, w.id = id ∧ f.slot ∈ w.implements ∧
      ∃ gf, g.fields[f.slot]? = some gf ∧ gf.tag = [] ∧ gf.oneofTag ≠ [] := by
  have hmk : ∀ {gf : GoField} {i : Nat} {o : Option Nat} {f : FieldDesc}, parseField gf i o = .ok f → f.slot = i ∧ f.oneof = o := by
    intro gf i o f hf
    unfold parseField at hf
    obtain ⟨⟨p, T⟩, hp, hf⟩ := bindOk hf
    obtain ⟨kv, hkv, hf⟩ := bindOk hf
    split at hf
    · cases hf
      unfold mkField
      dsimp only
      split <;> exact ⟨rfl, rfl⟩
    · cases hf
  unfold GoStruct.parse GoStruct.decl at h
  by_cases hno : oneofSlots 0 g.fields = []
  · rw [if_pos hno] at h
    dsimp only at h
    have hnone : ∀ (s : StructDecl), s.fields = g.fields → ∀ i, ¬ IsOneofSlot s i := by
      intro s hs i hi
      have := (oneofSlots_iff s i).2 hi
      rw [hs, hno] at this
      cases this
    obtain ⟨h1, _, _⟩ := C28_fields h
    refine ⟨fun w hw i gf hi ht ho _ => absurd ⟨gf, hi, ht, ho⟩ (hnone { fields := g.fields } rfl i), fun f hf id hid => ?_⟩
    obtain ⟨q, hq⟩ := (h1 f).1 hf
    cases hq with
    | plain i gf _ a b c =>
      rw [(hmk c).2] at hid
      cases hid
    | member j w i gf _ a b c e k l => exact absurd b (hnone _ rfl i)
  · rw [if_neg hno, describes_search hd] at h
    dsimp only at h
    obtain ⟨h1, _, _⟩ := C28_fields h
    have hacc := (C28_accepted _).1 ⟨d, h⟩
    refine ⟨fun w hw i gf hi ht ho him => ?_, fun f hf id hid => ?_⟩
    · obtain ⟨j, hj⟩ := List.getElem?_of_mem hw
      obtain ⟨f, hf⟩ := hacc.2.1 j w hj ⟨i, ⟨gf, hi, ht, ho⟩, him⟩
      refine ⟨f, (h1 f).2 ⟨_, hf⟩, ?_⟩
      cases hf with
      | member _ w' i' gf' _ a b c e k l =>
        have : w' = w := by
          have a' : ws[j]? = some w' := a
          rw [hj] at a'; cases a'; rfl
        subst this
        rw [(hmk l).1, (hmk l).2]
        exact ⟨rfl, c⟩
    · obtain ⟨q, hq⟩ := (h1 f).1 hf
      cases hq with
      | plain i gf _ a b c =>
        rw [(hmk c).2] at hid
        cases hid
      | member j w i gf _ a b c e k l =>
        rw [(hmk l).2] at hid
        cases hid
        refine ⟨w, List.mem_of_getElem? a, rfl, ?_, ?_⟩
        · rw [(hmk l).1]; exact c
        · rw [(hmk l).1]; exact b

/-! ## A type as the generator of Google's library makes it -/

namespace OneofCases

/-- What `ProtoReflect` of a generated type returns for a nil receiver: an interface that holds a pointer to a struct of the message's address and its `MessageInfo`. -/
def reflected (ws : List Wrapper) : RVal :=
  .ref (.ref (.struct [("p".toList, .struct [("p".toList, .other)]),
    ("mi".toList, .ref (.struct [("GoReflectType".toList, .ref (.ref (.struct [("t".toList, .other)]))), ("Desc".toList, .nil), ("Exporter".toList, .nil),
      ("OneofWrappers".toList, .anys (some ws)), ("initMu".toList, .struct [("state".toList, .other)]), ("initDone".toList, .other)]))]))

/-- `oneof o { int32 a = 1; string b = 2; }`. -/
def cases2 : List Wrapper := [{ id := 7, implements := [0], fields := [{ name := "A".toList, type := .int32, tag := "varint,1,opt,name=a,oneof".toList }] },
  { id := 8, implements := [0], fields := [{ name := "B".toList, type := .string, tag := "bytes,2,opt,name=b,oneof".toList }] }]

/-- A message with this oneof and the given methods. -/
def message (m : Methods) : GoStruct where
  fields := [{ name := "O".toList, type := .iface, oneofTag := "o".toList }]
  methods := m
  size := 16
  zero := .struct [.iface none]

end OneofCases

/-- The number of a field, the place of the oneof, and the wrapper. -/
def caseOf (f : FieldDesc) : Int × Nat × Option Nat := (f.id.toInt, f.slot, f.oneof)

theorem tidy_leaf {v : RVal} (h : ∀ fs, v.deref ≠ .struct fs) (d : Nat) : Tidy d v := .plain d v (fun fs hs => h fs (deref_iff hs))

/-- Both ways of describing the cases: the hypotheses are met, the type is accepted, and both cases are known. -/
example : DescribesCases ⟨some (reflected cases2), none⟩ cases2 ∧ DescribesCases ⟨none, some (.anys (some cases2))⟩ cases2 ∧
    ((message ⟨some (reflected cases2), none⟩).parse.toOption.map (fun d => d.fields.map caseOf)) = some [(1, 0, some 7), (2, 0, some 8)] ∧
    ((message ⟨none, some (.anys (some cases2))⟩).parse.toOption.map (fun d => d.fields.map caseOf)) = some [(1, 0, some 7), (2, 0, some 8)] := by
  refine ⟨?_, .method _ _ rfl rfl, rfl, rfl⟩
  have hT : Tidy 4 (reflected cases2) := by
    refine .step 3 _ _ (.ref _ _ (.ref _ _ (.here _))) (by decide) (by simp) ?_
    intro f hf
    simp only [List.mem_cons, List.not_mem_nil, or_false] at hf
    rcases hf with rfl | rfl
    · refine .step 2 _ _ (.here _) (by decide) (by simp) ?_
      intro f hf
      simp only [List.mem_cons, List.not_mem_nil, or_false] at hf
      subst hf
      exact tidy_leaf (by simp [RVal.deref]) 2
    · refine .step 2 _ _ (.ref _ _ (.here _)) (by decide) ?_ ?_
      · intro x hx
        simp at hx
        exact ⟨_, hx⟩
      · intro f hf
        simp only [List.mem_cons, List.not_mem_nil, or_false] at hf
        rcases hf with rfl | rfl | rfl | rfl | rfl | rfl
        · refine .step 1 _ _ (.ref _ _ (.ref _ _ (.here _))) (by decide) (by simp) ?_
          intro f hf
          simp only [List.mem_cons, List.not_mem_nil, or_false] at hf
          subst hf
          exact tidy_leaf (by simp [RVal.deref]) 1
        · exact tidy_leaf (by simp [RVal.deref]) 2
        · exact tidy_leaf (by simp [RVal.deref]) 2
        · exact tidy_leaf (by simp [RVal.deref]) 2
        · refine .step 1 _ _ (.here _) (by decide) (by simp) ?_
          intro f hf
          simp only [List.mem_cons, List.not_mem_nil, or_false] at hf
          subst hf
          exact tidy_leaf (by simp [RVal.deref]) 1
        · exact tidy_leaf (by simp [RVal.deref]) 2
  refine .reflect _ _ _ rfl hT ?_ ?_
  · refine .field 3 _ _ "mi".toList _ _ (.ref _ _ (.ref _ _ (.here _))) (by simp) (List.mem_cons_of_mem _ (List.mem_cons_self ..)) ?_
    exact .here 3 _ _ _ (.ref _ _ (.here _)) (by simp)
  · have down : ∀ {d : Nat} {v : RVal} {fs : List (List Char × RVal)} {ws' : List Wrapper}, IsStruct v fs → Lists d v ws' →
        ("OneofWrappers".toList, RVal.anys (some ws')) ∈ fs ∨
        (∀ f ∈ fs, f.1 ≠ "OneofWrappers".toList) ∧ ∃ f ∈ fs, ∃ d', Lists d' f.2 ws' := by
      intro d v fs ws' hs h
      cases h with
      | here _ _ fs' _ hs' hm => exact .inl (isStruct_unique hs hs' ▸ hm)
      | field d' _ fs' n x _ hs' hno hm hx => exact .inr ⟨isStruct_unique hs hs' ▸ hno, _, isStruct_unique hs hs' ▸ hm, d', hx⟩
    have leaf : ∀ {d : Nat} {v : RVal} {ws' : List Wrapper}, (∀ fs, v.deref ≠ .struct fs) → ¬ Lists d v ws' := by
      intro d v ws' hv h
      cases h with
      | here _ _ _ _ hs _ => exact hv _ (deref_iff hs)
      | field _ _ _ _ _ _ hs _ _ _ => exact hv _ (deref_iff hs)
    intro ws' h
    rcases down (.ref _ _ (.ref _ _ (.here _))) h with hm | ⟨_, f, hf, d', hx⟩
    · simp at hm
    · simp only [List.mem_cons, List.not_mem_nil, or_false] at hf
      rcases hf with rfl | rfl
      · rcases down (.here _) hx with hm | ⟨_, f, hf, d', hx⟩
        · simp at hm
        · simp only [List.mem_cons, List.not_mem_nil, or_false] at hf
          subst hf
          exact (leaf (by simp [RVal.deref]) hx).elim
      · rcases down (.ref _ _ (.here _)) hx with hm | ⟨hno, _⟩
        · simpa using hm
        · exact absurd rfl (hno ("OneofWrappers".toList, .anys (some cases2)) (by simp))

/-! ## Where it fails -/

/-- A oneof without a description: the type is accepted, Marshal writes nothing for a set case and reports no error. -/
theorem C95_silent_violated :
    (message ⟨none, none⟩).decl.toOption.map (fun s => (parseDescs ⟨[s]⟩).isOk) = some true ∧
    ∀ s, (message ⟨none, none⟩).decl = .ok s → marshal ⟨[s]⟩ (.ptr 0 (some (.struct [.iface (some (7, some (.w32 5#32)))]))) = .ok [] := by
  refine ⟨rfl, ?_⟩
  intro s hs
  cases hs
  rfl

/-- A list behind five fields is not found; the method `XXX_OneofWrappers` is not asked when there is a method `ProtoReflect`; and a field of the name `OneofWrappers` is read as a list of
interfaces whatever its type. -/
theorem C95_search_violated :
    searchWrappers ⟨some (.struct [("a".toList, .struct [("b".toList, .struct [("c".toList, .struct [("d".toList, .struct [("e".toList,
      .struct [("OneofWrappers".toList, .anys (some cases2))])])])])])]), none⟩ = .ok [] ∧
    searchWrappers ⟨some .nil, some (.anys (some cases2))⟩ = .ok [] ∧
    searchWrappers ⟨some (.struct [("OneofWrappers".toList, .sized 2)]), none⟩ = .error .ub ∧
    searchWrappers ⟨some (.struct [("OneofWrappers".toList, .other)]), none⟩ = .error .panic := ⟨rfl, rfl, rfl, rfl⟩

end Verif.Props
