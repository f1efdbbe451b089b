import Verif.Lemmas.RegularStruct
/-! Helper lemmas: the schema of accepted struct types with ordinary fields. -/
namespace Verif.Lemmas
open Verif.Model Verif.Spec

/-- The message type of a struct type. -/
def regMessage (s : StructDecl) (d : StructDesc) : Message :=
  { fields := d.fields.map undesc, nslots := s.fields.length, unknown := unkOf s,
    small := decide (s.size = 8 ∨ s.size = 4 ∨ s.size = 1), zero := s.zero }

/-- The schema of a set of struct types. -/
def regSchema (env : GoEnv) (D : Descs) : Schema := fun id =>
  match env.structs[id]? with
  | some s => regMessage s (D id)
  | none => default

/-- The struct types with tags in the usual form. -/
def canonEnv (env : GoEnv) : GoEnv := ⟨env.structs.map canonDecl⟩

theorem mapM_get {α β : Type} {f : α → Res β} : ∀ {xs : List α} {ys : List β}, xs.mapM f = .ok ys →
    ys.length = xs.length ∧ ∀ (i : Nat) x, xs[i]? = some x → ∃ y, ys[i]? = some y ∧ f x = .ok y
  | [], ys, h => by cases h; exact ⟨rfl, by simp⟩
  | x :: xs, ys, h => by
    rw [List.mapM_cons] at h
    obtain ⟨y, hy, h⟩ := bindOk h
    obtain ⟨zs, hzs, h⟩ := bindOk h
    cases h
    obtain ⟨h1, h2⟩ := mapM_get hzs
    refine ⟨by simp [h1], fun i a ha => ?_⟩
    cases i with
    | zero => simp only [List.getElem?_cons_zero, Option.some.injEq] at ha; subst ha; exact ⟨y, rfl, hy⟩
    | succ i => exact h2 i a (by simpa using ha)

theorem parseDescs_get {env : GoEnv} {D : Descs} (h : parseDescs env = .ok D) (id : Nat) (s : StructDecl)
    (hs : env.structs[id]? = some s) : parseStruct s = .ok (D id) := by
  unfold parseDescs at h
  obtain ⟨ds, h1, h⟩ := bindOk h
  cases h
  obtain ⟨y, h2, h3⟩ := (mapM_get h1).2 id s hs
  dsimp only
  rw [List.getD_eq_getElem?_getD, h2]
  exact h3

theorem parseDescs_canon {env : GoEnv} {D : Descs} (hr : Regular env) (h : parseDescs env = .ok D) :
    parseDescs (canonEnv env) = .ok D := by
  have key : ∀ (L : List StructDecl) (ds : List StructDesc), (∀ s ∈ L, RegularStruct env s) → L.mapM parseStruct = .ok ds →
      (L.map canonDecl).mapM parseStruct = .ok ds := by
    intro L
    induction L with
    | nil => intro ds _ h; exact h
    | cons s L ih =>
      intro ds hL h
      rw [List.mapM_cons] at h
      obtain ⟨y, hy, h⟩ := bindOk h
      obtain ⟨zs, hzs, h⟩ := bindOk h
      cases h
      rw [List.map_cons, List.mapM_cons, parseStruct_canon (hL s (by simp)) hy, ih zs (fun x hx => hL x (by simp [hx])) hzs]
      rfl
  unfold parseDescs at h ⊢
  obtain ⟨ds, h1, h⟩ := bindOk h
  rw [show (canonEnv env).structs = env.structs.map canonDecl from rfl, key _ ds hr h1]
  exact h

section
variable {env : GoEnv} {s : StructDecl} {d : StructDesc}

/-- What is known about a declaration. -/
inductive DeclFacts (s : StructDecl) (f : FieldDesc) : Nat ⊕ Nat → Prop
  | plain (i : Nat) (gf : GoField) : s.fields[i]? = some gf → gf.tag ≠ [] → (undesc f).slot = i → (undesc f).member = none →
      (undesc f).shape.goType = gf.type → Declares (canonField (canonName (unkOf s) i) gf) (undesc f) → DeclFacts s f (.inl i)
  | member (j : Nat) (w : Wrapper) (i : Nat) (gf : GoField) : s.wrappers[j]? = some w → IsOneofSlot s i →
      (oneofSlots 0 s.fields).find? (fun k => w.implements.contains k) = some i → w.fields = [gf] → (undesc f).slot = i →
      (undesc f).member = some w.id → (undesc f).shape.goType = gf.type → Declares (canonField [] gf) (undesc f) →
      ((∃ sc, (undesc f).shape = .single sc) ∨ ∃ id p, (undesc f).shape = .msg id p) → DeclFacts s f (.inr j)

theorem shape_member {sh : Shape} {t : GoType} (h : sh.goType = t)
    (ht : isBasic t = true ∨ (∃ id, t = .ptr (.struct id)) ∨ ∃ id, t = .struct id) :
    (∃ sc, sh = .single sc) ∨ ∃ id p, sh = .msg id p := by
  cases sh with
  | single sc => exact .inl ⟨sc, rfl⟩
  | msg id p => exact .inr ⟨id, p, rfl⟩
  | optional sc =>
    have : t = .ptr sc.goType := by rw [← h]; rfl
    rcases ht with ht | ⟨id', ht⟩ | ⟨id', ht⟩
    · rw [this] at ht; cases ht
    · rw [this] at ht; cases sc <;> cases ht
    · rw [this] at ht; cases ht
  | list sc p =>
    have : t = .slice sc.goType := by rw [← h]; rfl
    rcases ht with ht | ⟨id', ht⟩ | ⟨id', ht⟩ <;> rw [this] at ht <;> cases ht
  | msgList id p =>
    have : t = .slice (msgType id p) := by rw [← h]; rfl
    rcases ht with ht | ⟨id', ht⟩ | ⟨id', ht⟩ <;> rw [this] at ht <;> cases ht
  | map k v =>
    have : t = .map k.goType v.goType := by rw [← h]; rfl
    rcases ht with ht | ⟨id', ht⟩ | ⟨id', ht⟩ <;> rw [this] at ht <;> cases ht
  | mapMsg k id p =>
    have : t = .map k.goType (msgType id p) := by rw [← h]; rfl
    rcases ht with ht | ⟨id', ht⟩ | ⟨id', ht⟩ <;> rw [this] at ht <;> cases ht

theorem declared_facts (hr : RegularStruct env s) (hd : parseStruct s = .ok d) {q : Nat ⊕ Nat} {f : FieldDesc} (h : Declared s q f) :
    DeclFacts s f q ∧ (undesc f).shape.legal = true ∧ descOf (undesc f) = f ∧ 1 ≤ (undesc f).num ∧ (undesc f).num < 2 ^ 31 := by
  obtain ⟨f1, _, f3, _, _⟩ := parseStruct_facts hd
  have hid : 0 ≤ f.id.toInt := f3 f ((f1 f).2 ⟨q, h⟩)
  cases h with
  | plain i gf _ a1 a2 a3 =>
    obtain ⟨r1, r2⟩ := hr.types gf (List.mem_of_getElem? a1) a2
    obtain ⟨g1, g2, g3, g4, g5, g6, g7, g8⟩ := regular_field a2 a3 r1 r2 hid (canonName (unkOf s) i)
    exact ⟨.plain i gf a1 a2 g7 g8 g1 g6, g2, g3, g4, g5⟩
  | member j w i gf _ a1 a2 a3 a4 a5 a6 =>
    have hw := List.mem_of_getElem? a1
    obtain ⟨r1, r2⟩ := member_regular hr w hw gf a5
    obtain ⟨g1, g2, g3, g4, g5, g6, g7, g8⟩ := regular_field (parseField_tag a6) a6 r1 r2 hid []
    exact ⟨.member j w i gf a1 a2 ((find_slot_iff s w i).2 ⟨a2, a3, a4⟩) a5 g7 g8 g1 g6
      (shape_member g1 (hr.members w hw gf a5).1), g2, g3, g4, g5⟩

theorem num_toInt (hd : parseStruct s = .ok d) {f : FieldDesc} (hf : f ∈ d.fields) : ((undesc f).num : Int) = f.id.toInt := by
  have h0 := (parseStruct_facts hd).2.2.1 f hf
  show ((f.id.toNat : Nat) : Int) = _
  rw [BitVec.toInt_eq_toNat_cond] at h0 ⊢
  have := f.id.isLt
  split at h0 <;> rename_i hlt
  · rw [if_pos hlt]
  · omega

theorem shape_zero {D : Descs} (sh : Shape) (n sl : Nat) : (Field.zero (regSchema env D) ⟨n, sl, none, sh⟩) = goZero env sh.goType := by
  cases sh with
  | single sc => cases sc <;> rfl
  | optional sc => rfl
  | list sc p => rfl
  | msg id p =>
    cases p with
    | true => rfl
    | false =>
      show (regSchema env D id).zero = (env.structs[id]?.getD default).zero
      unfold regSchema
      cases env.structs[id]? <;> rfl
  | msgList id p => rfl
  | map k v => rfl
  | mapMsg k id p => rfl

theorem regMessage_wf {D : Descs} (hr : RegularStruct env s) (hd : parseStruct s = .ok d) : (regMessage s d).WF (regSchema env D) := by
  obtain ⟨f1, f2, f3, f4, f5⟩ := parseStruct_facts hd
  have mem : ∀ f ∈ (regMessage s d).fields, ∃ g ∈ d.fields, ∃ q, f = undesc g ∧ Declared s q g ∧ DeclFacts s g q := by
    intro f hf
    obtain ⟨g, hg, rfl⟩ := List.mem_map.1 hf
    obtain ⟨q, hq⟩ := (f1 g).1 hg
    exact ⟨g, hg, q, rfl, hq, (declared_facts hr hd hq).1⟩
  refine ⟨?_, ?_, ?_, ?_, ?_, ?_, ?_, ?_⟩
  · intro f hf
    obtain ⟨g, hg, q, rfl, hq, _⟩ := mem f hf
    exact (declared_facts hr hd hq).2.2.2
  · show (d.fields.map undesc).Pairwise _
    rw [List.pairwise_map]
    refine f2.imp_of_mem (fun {a b} ha hb hab => ?_)
    have e1 := num_toInt hd ha
    have e2 := num_toInt hd hb
    omega
  · intro f hf
    obtain ⟨g, hg, q, rfl, hq, hfacts⟩ := mem f hf
    show (undesc g).slot < s.fields.length
    cases hfacts with
    | plain i gf a1 a2 a3 a4 a5 a6 => rw [a3]; exact (List.getElem?_eq_some_iff.1 a1).1
    | member j w i gf a1 a2 a3 a4 a5 a6 a7 a8 =>
      obtain ⟨gf0, b1, _⟩ := a2
      rw [a5]; exact (List.getElem?_eq_some_iff.1 b1).1
  · intro f hf f' hf' hne hslot
    obtain ⟨g, hg, q, rfl, hq, hfacts⟩ := mem f hf
    obtain ⟨g', hg', q', rfl, hq', hfacts'⟩ := mem f' hf'
    have hqq : q ≠ q' := by
      rintro rfl
      have : g = g' := by
        cases hq with
        | plain i gf _ a1 a2 a3 =>
          cases hq' with
          | plain _ gf' _ b1 b2 b3 => rw [a1] at b1; cases b1; rw [a3] at b3; cases b3; rfl
        | member j w i gf _ a1 a2 a3 a4 a5 a6 =>
          cases hq' with
          | member _ w' i' gf' _ b1 b2 b3 b4 b5 b6 =>
            rw [a1] at b1; cases b1
            rw [a5] at b5; cases b5
            have : i = i' := by
              rcases Nat.lt_trichotomy i i' with h | h | h
              · exact absurd a3 (b4 i h a2)
              · exact h
              · exact absurd b3 (a4 i' h b2)
            subst this
            rw [a6] at b6; cases b6; rfl
      rw [this] at hne
      exact hne rfl
    have slot_tag : ∀ i gf, s.fields[i]? = some gf → gf.tag ≠ [] → ¬ IsOneofSlot s i := by
      rintro i gf h1 h2 ⟨gf', h3, h4, _⟩
      rw [h1] at h3; cases h3; exact h2 h4
    cases hfacts with
    | plain i gf a1 a2 a3 a4 a5 a6 =>
      cases hfacts' with
      | plain i' gf' b1 b2 b3 b4 b5 b6 =>
        rw [a3, b3] at hslot; subst hslot; exact absurd rfl hqq
      | member j w i' gf' b1 b2 b3 b4 b5 b6 b7 b8 b9 =>
        rw [a3, b5] at hslot; subst hslot
        exact absurd b2 (slot_tag _ _ a1 a2)
    | member j w i gf a1 a2 a3 a4 a5 a6 a7 a8 a9 =>
      cases hfacts' with
      | plain i' gf' b1 b2 b3 b4 b5 b6 =>
        rw [a5, b3] at hslot; subst hslot
        exact absurd a2 (slot_tag _ _ b1 b2)
      | member j' w' i' gf' b1 b2 b3 b4 b5 b6 b7 b8 b9 =>
        refine ⟨w.id, w'.id, a6, b6, fun e => hqq ?_⟩
        have hl : j < s.wrappers.length := (List.getElem?_eq_some_iff.1 a1).1
        have hl' : j' < s.wrappers.length := (List.getElem?_eq_some_iff.1 b1).1
        have := hr.ids
        rw [List.Nodup, List.pairwise_iff_getElem] at this
        have ne : ∀ a b (ha : a < s.wrappers.length) (hb : b < s.wrappers.length), a < b → s.wrappers[a].id ≠ s.wrappers[b].id := by
          intro a b ha hb hab
          have := this a b (by simpa using ha) (by simpa using hb) hab
          simpa using this
        have g1 := (List.getElem?_eq_some_iff.1 a1).2
        have g2 := (List.getElem?_eq_some_iff.1 b1).2
        rcases Nat.lt_trichotomy j j' with h | h | h
        · exact absurd (by rw [g1, g2]; exact e) (ne j j' hl hl' h)
        · rw [h]
        · exact absurd (by rw [g1, g2]; exact e.symm) (ne j' j hl' hl h)
  · intro f hf
    obtain ⟨g, hg, q, rfl, hq, _⟩ := mem f hf
    exact (declared_facts hr hd hq).2.1
  · intro f hf hm
    obtain ⟨g, hg, q, rfl, hq, hfacts⟩ := mem f hf
    cases hfacts with
    | plain i gf a1 a2 a3 a4 a5 a6 => exact absurd a4 hm
    | member j w i gf a1 a2 a3 a4 a5 a6 a7 a8 a9 => exact a9
  · intro i p hu
    obtain ⟨gf, h1, h2, h3⟩ := unkOf_some hu
    refine ⟨(List.getElem?_eq_some_iff.1 h1).1, fun f hf e => ?_⟩
    have htag := hr.storage gf (List.mem_of_getElem? h1) h2
    obtain ⟨g, hg, q, rfl, hq, hfacts⟩ := mem f hf
    cases hfacts with
    | plain i' gf' a1 a2 a3 a4 a5 a6 =>
      rw [a3] at e; subst e
      rw [h1] at a1; cases a1; exact a2 htag
    | member j w i' gf' a1 a2 a3 a4 a5 a6 a7 a8 a9 =>
      rw [a5] at e; subst e
      obtain ⟨gf0, b1, b2, b3⟩ := a2
      rw [h1] at b1; cases b1
      have := hr.oneofs gf (List.mem_of_getElem? h1) b2 b3
      rw [h3] at this
      cases p <;> cases this
  · refine ⟨_, hr.zero, by simp [regMessage], ?_, ?_, ?_⟩
    · intro f hf
      obtain ⟨g, hg, q, rfl, hq, hfacts⟩ := mem f hf
      cases hfacts with
      | plain i gf a1 a2 a3 a4 a5 a6 =>
        rw [List.getElem?_map, a3, a1]
        simp only [Option.map_some, Option.some.injEq]
        have e : undesc g = ⟨(undesc g).num, (undesc g).slot, none, (undesc g).shape⟩ := by rw [← a4]
        rw [e, shape_zero, a5]
      | member j w i gf a1 a2 a3 a4 a5 a6 a7 a8 a9 =>
        obtain ⟨gf0, b1, b2, b3⟩ := a2
        rw [List.getElem?_map, a5, b1]
        simp only [Option.map_some, Option.some.injEq]
        rw [hr.oneofs gf0 (List.mem_of_getElem? b1) b2 b3]
        unfold Field.zero
        rw [a6]; rfl
    · intro i hu
      obtain ⟨gf, h1, h2, h3⟩ := unkOf_some hu
      rw [List.getElem?_map, h1]
      simp only [Option.map_some, h3]; rfl
    · intro i hu
      obtain ⟨gf, h1, h2, h3⟩ := unkOf_some hu
      rw [List.getElem?_map, h1]
      simp only [Option.map_some, h3]; rfl

theorem canonWrapper_some {slots : List Nat} {w w' : Wrapper} (h : canonWrapper slots w = some w') :
    ∃ i gf, slots.find? (fun k => w.implements.contains k) = some i ∧ w.fields = [gf] ∧ w' = ⟨w.id, [i], [canonField [] gf]⟩ := by
  unfold canonWrapper at h
  split at h
  · rename_i i gf h1 h2
    cases h
    exact ⟨i, gf, h1, h2, rfl⟩
  · cases h

theorem nodup_filterMap_id {slots : List Nat} : ∀ {ws : List Wrapper}, (ws.map (·.id)).Nodup →
    ((ws.filterMap (canonWrapper slots)).map (·.id)).Nodup
  | [], _ => .nil
  | w :: ws, h => by
    rw [List.map_cons, List.nodup_cons] at h
    rw [List.filterMap_cons]
    cases hc : canonWrapper slots w with
    | none => exact nodup_filterMap_id h.2
    | some w' =>
      simp only [List.map_cons, List.nodup_cons]
      refine ⟨fun hm => h.1 ?_, nodup_filterMap_id h.2⟩
      obtain ⟨x, hx, hxe⟩ := List.mem_map.1 hm
      obtain ⟨y, hy, hye⟩ := List.mem_filterMap.1 hx
      obtain ⟨_, _, _, _, rfl⟩ := canonWrapper_some hye
      obtain ⟨_, _, _, _, rfl⟩ := canonWrapper_some hc
      exact List.mem_map.2 ⟨y, hy, hxe⟩

theorem canon_implements (hr : RegularStruct env s) (hd : parseStruct s = .ok d) : Implements1 (canonDecl s) (regMessage s d) := by
  obtain ⟨f1, f2, f3, f4, f5⟩ := parseStruct_facts hd
  obtain ⟨acc1, acc2, _⟩ := (Props.C28_accepted s).1 ⟨d, hd⟩
  have get : ∀ j, (canonDecl s).fields[j]? = s.fields[j]?.map (canonField (canonName (unkOf s) j)) := fun j => by
    have := canonFields_get (unkOf s) 0 s.fields j
    rwa [Nat.zero_add] at this
  have mem : ∀ f ∈ (regMessage s d).fields, ∃ g ∈ d.fields, ∃ q, f = undesc g ∧ Declared s q g ∧ DeclFacts s g q := by
    intro f hf
    obtain ⟨g, hg, rfl⟩ := List.mem_map.1 hf
    obtain ⟨q, hq⟩ := (f1 g).1 hg
    exact ⟨g, hg, q, rfl, hq, (declared_facts hr hd hq).1⟩
  refine ⟨canonFields_length _ _ _, rfl, ?_, ?_, ?_, ?_, ?_, ?_, canon_unknown hr hd⟩
  · show _ ↔ decide _ = true
    rw [decide_eq_true_eq]; exact Iff.rfl
  · intro i gf hi ht
    rw [get i] at hi
    obtain ⟨g, hg, rfl⟩ := Option.map_eq_some_iff.1 hi
    have hgt : g.tag ≠ [] := fun e => ht ((canon_name hr hd hg).2.2.2.2 e)
    obtain ⟨f, hf⟩ := acc1 i g hg hgt
    refine ⟨undesc f, List.mem_map.2 ⟨f, (f1 f).2 ⟨_, hf⟩, rfl⟩, ?_⟩
    cases (declared_facts hr hd hf).1 with
    | plain _ gf a1 a2 a3 a4 a5 a6 => exact ⟨a3, a4⟩
  · intro f hf hm
    obtain ⟨g, hg, q, rfl, hq, hfacts⟩ := mem f hf
    cases hfacts with
    | plain i gf a1 a2 a3 a4 a5 a6 => exact ⟨_, by rw [get, a3, a1]; rfl, a6⟩
    | member j w i gf a1 a2 a3 a4 a5 a6 a7 a8 a9 => rw [a6] at hm; cases hm
  · intro w' hw'
    obtain ⟨w, hw, hc⟩ := List.mem_filterMap.1 hw'
    obtain ⟨i, gf, h1, h2, rfl⟩ := canonWrapper_some hc
    obtain ⟨j, hj, he⟩ := List.getElem_of_mem hw
    have hwj : s.wrappers[j]? = some w := by rw [List.getElem?_eq_getElem hj, he]
    obtain ⟨b1, b2, b3⟩ := (find_slot_iff s w i).1 h1
    obtain ⟨f, hf⟩ := acc2 j w hwj ⟨i, b1, b2⟩
    refine ⟨undesc f, List.mem_map.2 ⟨f, (f1 f).2 ⟨_, hf⟩, rfl⟩, ?_⟩
    cases (declared_facts hr hd hf).1 with
    | member _ w2 i2 gf2 a1 a2 a3 a4 a5 a6 a7 a8 => rw [hwj] at a1; cases a1; exact a6
  · intro f hf wid hm
    obtain ⟨g, hg, q, rfl, hq, hfacts⟩ := mem f hf
    cases hfacts with
    | plain i gf a1 a2 a3 a4 a5 a6 => rw [a4] at hm; cases hm
    | member j w i gf a1 a2 a3 a4 a5 a6 a7 a8 a9 =>
      rw [a6] at hm; cases hm
      refine ⟨⟨w.id, [i], [canonField [] gf]⟩, ?_, rfl, by rw [a5], ⟨_, rfl, a8⟩, ?_⟩
      · refine List.mem_filterMap.2 ⟨w, List.mem_of_getElem? a1, ?_⟩
        unfold canonWrapper; rw [a3, a4]
      · obtain ⟨gf0, b1, b2, b3⟩ := a2
        obtain ⟨_, _, n3, n4⟩ := canon_name hr hd b1
        exact ⟨_, by rw [get, a5, b1]; rfl, n4.2 b2, by rw [n3]; exact b3⟩
  · exact nodup_filterMap_id hr.ids

end

/-- Accepted struct types with ordinary fields behave like struct types that implement a schema. -/
theorem regular_schema {env : GoEnv} {D : Descs} (hr : Regular env) (h : parseDescs env = .ok D) :
    (regSchema env D).WF ∧ Implements (canonEnv env) (regSchema env D) := by
  refine ⟨fun id => ?_, fun id => ?_⟩
  · unfold regSchema
    cases hs : env.structs[id]? with
    | some s => exact regMessage_wf (hr s (List.mem_of_getElem? hs)) (parseDescs_get h id s hs)
    | none =>
      refine ⟨nofun, .nil, nofun, nofun, nofun, nofun, nofun, [], rfl, rfl, nofun, nofun, nofun⟩
  · show match (env.structs.map canonDecl)[id]? with
      | some d => Implements1 d (regSchema env D id)
      | none => regSchema env D id = default
    rw [List.getElem?_map]
    unfold regSchema
    cases hs : env.structs[id]? with
    | some s => exact canon_implements (hr s (List.mem_of_getElem? hs)) (parseDescs_get h id s hs)
    | none => rfl

end Verif.Lemmas
