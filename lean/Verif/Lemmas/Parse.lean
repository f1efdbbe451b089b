import Verif.Lemmas.TagParse
import Verif.Lemmas.EncRefine
/-! Helper lemmas: the descriptors of struct types that implement a schema. -/
namespace Verif.Lemmas
open Verif.Model Verif.Spec

theorem mkField_congr (t : GoType) (slot : Nat) (o : Option Nat) (p p' : TagInfo) (tt : TagType)
    (kv : Option (TagType × TagType)) (h1 : p.id = p'.id) (h2 : p.repeated = p'.repeated)
    (h3 : p.packed = p'.packed) : mkField t slot o p tt kv = mkField t slot o p' tt kv := by
  unfold mkField wireTagOf
  simp only [h1, h2, h3]

theorem isRepeated_eq (s : Shape) : s.isRepeated = repeatedShape s := by cases s <;> rfl
theorem isPacked_eq (s : Shape) : s.isPacked = packedShape s := by cases s <;> rfl

theorem keyTypeMatch_scalar {k : Scalar} (h : k.isKey = true) :
    keyTypeMatch (tagTypeOf k) k.goType.realKind = true := by
  cases k <;> first | rfl | cases h
theorem fieldTypeMatch_scalar (k : Scalar) :
    fieldTypeMatch (tagTypeOf k) k.goType.realKind = true := by
  cases k <;> rfl

theorem checkTypeMatch_shape {s : Shape} (h : s.legal = true) :
    checkTypeMatch s.goType (tagTypeOfShape s) (repeatedShape s) (packedShape s) (kvOfShape s) = true := by
  cases s with
  | single s => cases s <;> rfl
  | optional s => cases s <;> rfl
  | list s p => cases p <;> cases s <;> first | rfl | cases h
  | msg id p => cases p <;> rfl
  | msgList id p => cases p <;> rfl
  | map k v => cases k <;> cases v <;> first | rfl | cases h
  | mapMsg k id p => cases k <;> cases p <;> first | rfl | cases h

theorem parseOk_shape (s : Shape) : s.goType.parseOk = true := by
  cases s with
  | single s => cases s <;> rfl
  | optional s => cases s <;> rfl
  | list s p => cases s <;> rfl
  | msg id p => cases p <;> rfl
  | msgList id p => cases p <;> rfl
  | map k v => cases k <;> cases v <;> rfl
  | mapMsg k id p => cases k <;> cases p <;> rfl

theorem kvTags_ok {gf : GoField} {f : Field} (h : Declares gf f) : kvTags gf = .ok (kvOfShape f.shape) := by
  unfold kvTags
  rw [h.type]
  cases hs : f.shape with
  | single s => cases s <;> rfl
  | optional s => cases s <;> rfl
  | list s p => cases s <;> rfl
  | msg id p => cases p <;> rfl
  | msgList id p => cases p <;> rfl
  | map k v =>
    obtain ⟨h1, h2⟩ := h.kv k v hs
    simp only [Shape.goType, parseKVTag_ok (encWord_scalar k) h1, parseKVTag_ok (encWord_scalar v) h2]
    rfl
  | mapMsg k id p =>
    obtain ⟨h1, h2⟩ := h.kvMsg k id p hs
    simp only [Shape.goType, parseKVTag_ok (encWord_scalar k) h1, parseKVTag_ok EncWord.bytes h2]
    rfl

theorem parseField_ok {gf : GoField} {f : Field} (h : Declares gf f) (hn : f.num < 2 ^ 31)
    (hl : f.shape.legal = true) : parseField gf f.slot f.member = .ok (descOf f) := by
  obtain ⟨p, hp, h1, h2, h3⟩ := parseStructTag_ok (encWord_shape f.shape) hn h.tag
  unfold parseField
  rw [hp]
  simp only [bind, Except.bind, kvTags_ok h]
  rw [h.type, h2, h3, isRepeated_eq, isPacked_eq, checkTypeMatch_shape hl, parseOk_shape]
  simp only [Bool.and_self, if_true]
  unfold descOf
  exact congrArg Except.ok (mkField_congr _ _ _ _ _ _ _ h1 (by rw [h2, isRepeated_eq])
    (by rw [h3, isPacked_eq]))

theorem tag_ne_nil {t enc : List Char} {num : Nat} {rep packed : Bool} {T : TagType}
    (hE : EncWord enc T) (h : TagSays t enc num rep packed) : t ≠ [] := by
  obtain ⟨ws, rfl, hw, hc, he, ⟨x, hx, hd⟩, hr, hp⟩ := h
  match ws, he, hx with
  | [w], he, _ =>
    simp only [List.mem_singleton] at he
    subst he
    exact hE.facts2.1
  | w :: w' :: ws, _, _ => simp [joinComma]

variable {S : Schema}

theorem sorted_inj : ∀ {L : List Field}, L.Pairwise (fun a b => a.num < b.num) → ∀ {f g : Field},
    f ∈ L → g ∈ L → f.num = g.num → f = g
  | [], _, f, g, hf, _, _ => by cases hf
  | a :: L, hs, f, g, hf, hg, e => by
    rw [List.pairwise_cons] at hs
    rcases List.mem_cons.1 hf with h1 | h1 <;> rcases List.mem_cons.1 hg with h2 | h2
    · rw [h1, h2]
    · have := hs.1 g h2; subst h1; omega
    · have := hs.1 f h1; subst h2; omega
    · exact sorted_inj hs.2 h1 h2 e

theorem fields_num_inj {m : Message} (hW : m.WF S) {f g : Field} (hf : f ∈ m.fields) (hg : g ∈ m.fields)
    (e : f.num = g.num) : f = g := sorted_inj hW.sorted hf hg e

/-- The plain fields, in the order of the Go struct. -/
theorem parseFields_ok {m : Message} (hW : m.WF S) {d : StructDecl} (hI : Implements1 d m) :
    ∀ (gfs pre : List GoField), d.fields = pre ++ gfs →
    ∃ L : List Field, parseFields pre.length gfs = .ok (L.map descOf) ∧
      L.Pairwise (fun f g => f.slot < g.slot) ∧
      ∀ f, f ∈ L ↔ (f ∈ m.fields ∧ f.member = none ∧ pre.length ≤ f.slot)
  | [], pre, hd => by
    refine ⟨[], rfl, .nil, fun f => ⟨by simp, fun ⟨h1, h2, h3⟩ => ?_⟩⟩
    have := hW.slots f h1
    rw [← hI.nslots, hd] at this
    simp at this; omega
  | gf :: gfs, pre, hd => by
    obtain ⟨L, hL, hp, hm⟩ := parseFields_ok hW hI gfs (pre ++ [gf]) (by simp [hd])
    rw [List.length_append, List.length_singleton] at hL hm
    have hgf : d.fields[pre.length]? = some gf := by rw [hd]; simp
    by_cases ht : gf.tag = []
    · refine ⟨L, ?_, hp, fun f => ⟨fun h => ?_, fun ⟨h1, h2, h3⟩ => ?_⟩⟩
      · simp only [parseFields, if_pos ht]; exact hL
      · obtain ⟨h1, h2, h3⟩ := (hm f).1 h
        exact ⟨h1, h2, by omega⟩
      · refine (hm f).2 ⟨h1, h2, ?_⟩
        rcases Nat.lt_or_ge pre.length f.slot with h | h
        · omega
        · obtain ⟨gf', hgf', hD⟩ := hI.plain f h1 h2
          have e : f.slot = pre.length := by omega
          rw [e, hgf] at hgf'
          injection hgf' with hgf'
          subst hgf'
          exact absurd ht (tag_ne_nil (encWord_shape f.shape) hD.tag)
    · obtain ⟨f, hf, hs, hmem⟩ := hI.tagged _ gf hgf ht
      obtain ⟨gf', hgf', hD⟩ := hI.plain f hf hmem
      rw [hs, hgf] at hgf'
      injection hgf' with hgf'
      subst hgf'
      have hpf := parseField_ok hD (hW.nums f hf).2 (hW.legal f hf)
      rw [hs, hmem] at hpf
      refine ⟨f :: L, ?_, ?_, fun g => ⟨fun h => ?_, fun ⟨h1, h2, h3⟩ => ?_⟩⟩
      · simp only [parseFields, if_neg ht, hpf, bind, Except.bind, hL]; rfl
      · refine List.pairwise_cons.2 ⟨fun g hg => ?_, hp⟩
        have := ((hm g).1 hg).2.2
        omega
      · rcases List.mem_cons.1 h with rfl | h
        · exact ⟨hf, hmem, by omega⟩
        · obtain ⟨h1, h2, h3⟩ := (hm g).1 h
          exact ⟨h1, h2, by omega⟩
      · rcases Nat.lt_or_ge pre.length g.slot with h | h
        · exact List.mem_cons_of_mem _ ((hm g).2 ⟨h1, h2, by omega⟩)
        · have e : g.slot = f.slot := by omega
          by_cases hn : g.num = f.num
          · have : g = f := fields_num_inj hW h1 hf hn
            rw [this]; exact List.mem_cons_self
          · obtain ⟨w, w', hw, _, _⟩ := hW.disjoint g h1 f hf hn e
            rw [h2] at hw; cases hw

theorem oneofSlots_mem : ∀ (gfs : List GoField) (i j : Nat),
    j ∈ oneofSlots i gfs ↔ ∃ k gf, j = i + k ∧ gfs[k]? = some gf ∧ gf.tag = [] ∧ gf.oneofTag ≠ []
  | [], i, j => by simp [oneofSlots]
  | gf :: gfs, i, j => by
    have ih := oneofSlots_mem gfs (i + 1) j
    simp only [oneofSlots]
    split
    · rename_i h
      rw [List.mem_cons, ih]
      constructor
      · rintro (rfl | ⟨k, g, rfl, h1, h2⟩)
        · exact ⟨0, gf, by simp, by simp, h.1, h.2⟩
        · exact ⟨k + 1, g, by omega, by simpa using h1, h2⟩
      · rintro ⟨k, g, rfl, h1, h2⟩
        cases k with
        | zero => left; rfl
        | succ k => right; exact ⟨k, g, by omega, by simpa using h1, h2⟩
    · rename_i h
      rw [ih]
      constructor
      · rintro ⟨k, g, rfl, h1, h2⟩
        exact ⟨k + 1, g, by omega, by simpa using h1, h2⟩
      · rintro ⟨k, g, rfl, h1, h2⟩
        cases k with
        | zero => simp at h1; subst h1; exact absurd h2 h
        | succ k => exact ⟨k, g, by omega, by simpa using h1, h2⟩

theorem find_slot {slots : List Nat} {s : Nat} (h : s ∈ slots) :
    slots.find? (fun i => [s].contains i) = some s := by
  induction slots with
  | nil => cases h
  | cons x xs ih =>
    rw [List.find?_cons]
    by_cases hx : x = s
    · simp [hx]
    · have : s ∈ xs := by
        rcases List.mem_cons.1 h with h | h
        · exact absurd h.symm hx
        · exact h
      simp [hx]
      simpa using ih this

theorem nodup_mem_unique {ws : List Wrapper} (h : (ws.map (·.id)).Nodup) {a b : Wrapper}
    (ha : a ∈ ws) (hb : b ∈ ws) (e : a.id = b.id) : a = b := by
  induction ws with
  | nil => cases ha
  | cons w ws ih =>
    rw [List.map_cons, List.nodup_cons] at h
    rcases List.mem_cons.1 ha with rfl | ha' <;> rcases List.mem_cons.1 hb with rfl | hb'
    · rfl
    · exact absurd (List.mem_map.2 ⟨b, hb', e.symm⟩) h.1
    · exact absurd (List.mem_map.2 ⟨a, ha', e⟩) h.1
    · exact ih h.2 ha' hb'

/-- The members of oneofs, in the order of the wrapper types. -/
theorem parseWrappers_ok {m : Message} (hW : m.WF S) {d : StructDecl} (hI : Implements1 d m) :
    ∀ (ws : List Wrapper), (∀ w ∈ ws, w ∈ d.wrappers) → (ws.map (·.id)).Nodup →
    ∃ L : List Field, parseWrappers (oneofSlots 0 d.fields) ws = .ok (L.map descOf) ∧
      L.map (·.member) = ws.map (fun w => some w.id) ∧ (∀ f ∈ L, f ∈ m.fields)
  | [], _, _ => ⟨[], rfl, rfl, by simp⟩
  | w :: ws, hw, hn => by
    rw [List.map_cons, List.nodup_cons] at hn
    obtain ⟨L, hL, hm, hmem⟩ := parseWrappers_ok hW hI ws (fun x hx => hw x (by simp [hx])) hn.2
    have hwd := hw w (by simp)
    obtain ⟨f, hf, hfm⟩ := hI.wrapper w hwd
    obtain ⟨wr, hwr, hid, himp, ⟨gf, hgf, hD⟩, gf0, hgf0, ht0, ho0⟩ := hI.member f hf w.id hfm
    have : wr = w := nodup_mem_unique hI.distinct hwr hwd hid
    subst this
    refine ⟨f :: L, ?_, ?_, ?_⟩
    · simp only [parseWrappers, himp]
      rw [find_slot ((oneofSlots_mem _ _ _).2 ⟨f.slot, gf0, by simp, hgf0, ht0, ho0⟩)]
      simp only [hgf]
      have hpf := parseField_ok hD (hW.nums f hf).2 (hW.legal f hf)
      rw [hfm] at hpf
      simp only [if_neg (tag_ne_nil (encWord_shape f.shape) hD.tag), hpf, hL, bind, Except.bind]
      rfl
    · simp [hfm, hm]
    · intro g hg
      rcases List.mem_cons.1 hg with rfl | hg
      · exact hf
      · exact hmem g hg

theorem descOf_id (f : Field) : (descOf f).id = BitVec.ofNat 32 f.num := by
  obtain ⟨n, sl, m, shape⟩ := f
  cases shape <;> simp only [descOf_single, descOf_optional, descOf_msg, descOf_msgList, descOf_map, descOf_mapMsg]
  case list s p => cases p <;> cases s <;> rfl

theorem descOf_toInt {f : Field} (h : f.num < 2 ^ 31) : (descOf f).id.toInt = f.num := by
  rw [descOf_id, toInt_small _ (by rw [ofNat32_toNat h]; exact h), ofNat32_toNat h]

/-! ### sorting -/

/-- Insertion by number in a list of fields. -/
def insertF (f : Field) : List Field → List Field
  | [] => [f]
  | g :: gs => if f.num ≤ g.num then f :: g :: gs else g :: insertF f gs
def sortF : List Field → List Field
  | [] => []
  | f :: fs => insertF f (sortF fs)

theorem insertF_perm (f : Field) (L : List Field) : (insertF f L).Perm (f :: L) := by
  induction L with
  | nil => exact .refl _
  | cons g gs ih =>
    simp only [insertF]
    split
    · exact .refl _
    · exact (List.Perm.cons g ih).trans (List.Perm.swap f g gs)

theorem sortF_perm (L : List Field) : (sortF L).Perm L := by
  induction L with
  | nil => exact .refl _
  | cons f fs ih => exact (insertF_perm f _).trans (List.Perm.cons f ih)

theorem insertF_sorted {f : Field} {L : List Field} (h : L.Pairwise (fun a b => a.num ≤ b.num)) :
    (insertF f L).Pairwise (fun a b => a.num ≤ b.num) := by
  induction L with
  | nil => simp [insertF]
  | cons g gs ih =>
    simp only [insertF]
    rw [List.pairwise_cons] at h
    split
    · rename_i hle
      refine List.pairwise_cons.2 ⟨fun x hx => ?_, List.pairwise_cons.2 h⟩
      rcases List.mem_cons.1 hx with rfl | hx
      · exact hle
      · exact Nat.le_trans hle (h.1 x hx)
    · rename_i hle
      refine List.pairwise_cons.2 ⟨fun x hx => ?_, ih h.2⟩
      rcases List.mem_cons.1 ((insertF_perm f gs).mem_iff.1 hx) with rfl | hx
      · omega
      · exact h.1 x hx

theorem sortF_sorted (L : List Field) : (sortF L).Pairwise (fun a b => a.num ≤ b.num) := by
  induction L with
  | nil => exact .nil
  | cons f fs ih => exact insertF_sorted ih

theorem insertField_map {f : Field} {L : List Field} (hf : f.num < 2 ^ 31)
    (hL : ∀ g ∈ L, g.num < 2 ^ 31) :
    insertField (descOf f) (L.map descOf) = (insertF f L).map descOf := by
  induction L with
  | nil => rfl
  | cons g gs ih =>
    have hg := hL g (by simp)
    simp only [List.map_cons, insertField, insertF, descOf_toInt hf, descOf_toInt hg]
    by_cases h : f.num ≤ g.num
    · rw [if_pos h, if_pos (by omega)]; rfl
    · rw [if_neg h, if_neg (by omega), ih (fun x hx => hL x (by simp [hx]))]; rfl

theorem sortFields_map {L : List Field} (hL : ∀ g ∈ L, g.num < 2 ^ 31) :
    sortFields (L.map descOf) = (sortF L).map descOf := by
  induction L with
  | nil => rfl
  | cons f fs ih =>
    simp only [List.map_cons, sortFields, sortF]
    rw [ih (fun x hx => hL x (by simp [hx])),
      insertField_map (hL f (by simp))
        (fun x hx => hL x (List.mem_cons_of_mem _ ((sortF_perm fs).mem_iff.1 hx)))]

/-- A strictly sorted list is what sorting any permutation of it gives. -/
theorem sorted_unique : ∀ {L M : List Field}, L.Pairwise (fun a b => a.num ≤ b.num) →
    M.Pairwise (fun a b => a.num < b.num) → L.Perm M → L = M
  | [], M, _, _, hp => by rw [List.nil_perm] at hp; exact hp.symm
  | L, [], _, _, hp => by rw [List.perm_nil] at hp; exact hp
  | a :: L, b :: M, hL, hM, hp => by
    rw [List.pairwise_cons] at hL hM
    have hab : a = b := by
      have ha : a ∈ b :: M := hp.mem_iff.1 (by simp)
      have hb : b ∈ a :: L := hp.mem_iff.2 (by simp)
      rcases List.mem_cons.1 ha with h | h
      · exact h
      · rcases List.mem_cons.1 hb with h' | h'
        · exact h'.symm
        · have := hM.1 a h
          have := hL.1 b h'
          omega
    subst hab
    rw [sorted_unique hL.2 hM.2 ((List.perm_cons a).1 hp)]

/-! ### tables -/

theorem maxDirect_eq : ∀ (L : List Field) (acc : Nat), L.Pairwise (fun a b => a.num < b.num) →
    (∀ f ∈ L, f.num < 2 ^ 31) → acc ≤ 1000 → (∀ f ∈ L, acc < f.num) →
    ∃ k : Nat, maxDirect acc (L.map descOf) = k ∧ k ≤ 1000 ∧ acc ≤ k ∧
      (∀ f ∈ L, f.num ≤ 1000 → f.num ≤ k) ∧ (∀ f ∈ L, f.num ≤ k → f.num ≤ 1000)
  | [], acc, _, _, ha, _ => ⟨acc, rfl, ha, Nat.le_refl _, by simp, by simp⟩
  | f :: L, acc, hs, hn, ha, hl => by
    rw [List.pairwise_cons] at hs
    have hf := hn f (by simp)
    simp only [List.map_cons, maxDirect, descOf_toInt hf]
    by_cases h : f.num > 1000
    · rw [if_pos (by omega)]
      refine ⟨acc, rfl, ha, Nat.le_refl _, fun g hg hg' => ?_, fun g hg hg' => by omega⟩
      rcases List.mem_cons.1 hg with rfl | hg
      · omega
      · have := hs.1 g hg; omega
    · rw [if_neg (by omega)]
      obtain ⟨k, h1, h2, h3, h4, h5⟩ := maxDirect_eq L f.num hs.2 (fun x hx => hn x (by simp [hx]))
        (by omega) hs.1
      refine ⟨k, h1, h2, by have := hl f (by simp); omega, fun g hg hg' => ?_, fun g hg hg' => by omega⟩
      rcases List.mem_cons.1 hg with rfl | hg
      · exact h3
      · exact h4 g hg hg'

/-- Lookup in the two tables. -/
def tableGet (m0 : List (Option FieldDesc)) (m1 : List (Int × FieldDesc)) (v : Nat) : Option FieldDesc :=
  if v < m0.length then m0.getD v none
  else (m1.find? (fun e => e.1 == (v : Int))).map (·.2)

theorem fillTables_ok (k : Nat) (hk : k ≤ 1000) : ∀ (L : List Field) (m0 : List (Option FieldDesc))
    (m1 : List (Int × FieldDesc)) (prev : Option Field), m0.length = k + 1 →
    L.Pairwise (fun a b => a.num < b.num) → (∀ f ∈ L, f.num < 2 ^ 31) →
    (∀ f ∈ L, f.num ≤ 1000 → f.num ≤ k) →
    (∀ p, prev = some p → p.num < 2 ^ 31 ∧ ∀ f ∈ L, p.num < f.num) →
    ∃ r0 r1, fillTables m0 m1 (prev.map descOf) (L.map descOf) = .ok (r0, r1) ∧
      r0.length = k + 1 ∧
      ∀ v, tableGet r0 r1 v = match L.find? (fun f => f.num == v) with
        | some f => some (descOf f)
        | none => tableGet m0 m1 v
  | [], m0, m1, prev, hlen, _, _, _, _ => ⟨m0, m1, by cases prev <;> rfl, hlen, fun v => rfl⟩
  | f :: L, m0, m1, prev, hlen, hs, hn, hle, hprev => by
    rw [List.pairwise_cons] at hs
    have hf := hn f (by simp)
    have hdup : (match (generalizing := false) prev.map descOf with
        | some g => (descOf f).id == g.id
        | none => false) = false := by
      cases prev with
      | none => rfl
      | some p =>
        have := hprev p rfl
        simp only [Option.map_some, beq_eq_false_iff_ne, ne_eq]
        intro h
        have h2 := congrArg BitVec.toInt h
        rw [descOf_toInt hf, descOf_toInt this.1] at h2
        have := this.2 f (by simp)
        omega
    have hnot : L.find? (fun g => g.num == f.num) = none := by
      rw [List.find?_eq_none]
      intro g hg
      have := hs.1 g hg
      simp; omega
    simp only [List.map_cons, fillTables, descOf_toInt hf]
    by_cases h : f.num ≤ 1000
    · have hfk := hle f (by simp) h
      rw [if_pos (by omega), if_pos (by omega)]
      obtain ⟨r0, r1, h1, h2, h3⟩ := fillTables_ok k hk L (m0.set f.num (some (descOf f))) m1 (some f)
        (by simpa using hlen) hs.2 (fun x hx => hn x (by simp [hx])) (fun x hx => hle x (by simp [hx]))
        (fun p hp => by injection hp with hp; subst hp; exact ⟨hf, hs.1⟩)
      refine ⟨r0, r1, by
        refine Eq.trans (if_neg ?_) h1
        intro hc
        exact Bool.false_ne_true (hdup.symm.trans hc), h2, fun v => ?_⟩
      rw [h3 v, List.find?_cons]
      by_cases hv : f.num = v
      · subst hv
        rw [hnot]
        simp [tableGet, hlen, show f.num < k + 1 by omega]
      · rw [show (f.num == v) = false by simpa using hv]
        cases hfind : L.find? (fun f => f.num == v) with
        | some g => rfl
        | none =>
          simp only [tableGet, List.length_set]
          split
          · simp [List.getD_eq_getElem?_getD, hv]
          · rfl
    · rw [if_neg (by omega)]
      obtain ⟨r0, r1, h1, h2, h3⟩ := fillTables_ok k hk L m0 (((f.num : Int), descOf f) :: m1) (some f)
        hlen hs.2 (fun x hx => hn x (by simp [hx])) (fun x hx => hle x (by simp [hx]))
        (fun p hp => by injection hp with hp; subst hp; exact ⟨hf, hs.1⟩)
      refine ⟨r0, r1, by
        refine Eq.trans (if_neg ?_) h1
        intro hc
        exact Bool.false_ne_true (hdup.symm.trans hc), h2, fun v => ?_⟩
      rw [h3 v, List.find?_cons]
      by_cases hv : f.num = v
      · subst hv
        rw [hnot]
        simp [tableGet, hlen, show ¬ f.num < k + 1 by omega]
      · rw [show (f.num == v) = false by simpa using hv]
        cases hfind : L.find? (fun f => f.num == v) with
        | some g => rfl
        | none =>
          simp only [tableGet]
          split
          · rfl
          · rw [List.find?_cons]
            rw [show (((f.num : Int) == (v : Int))) = false by simp; omega]

/-! ### unknown fields -/

theorem unknownSlot_named {name : List Char} {t : GoType} {p : Bool}
    (ht : t = if p then .ptr .bytes else .bytes) : ∀ (fs : List GoField) (i j : Nat),
    FieldNamed fs name j t → unknownSlot name i fs = some (i + j, p)
  | [], i, j, h => by obtain ⟨⟨gf, h, _⟩, _⟩ := h; simp at h
  | gf :: fs, i, j, h => by
    obtain ⟨⟨g, hg, hname, htype⟩, hpre⟩ := h
    simp only [unknownSlot]
    cases j with
    | zero =>
      simp at hg; subst hg
      rw [if_pos hname, htype, ht]
      cases p <;> rfl
    | succ j =>
      rw [if_neg (hpre 0 gf (by omega) (by simp)),
        unknownSlot_named ht fs (i + 1) j ⟨⟨g, by simpa using hg, hname, htype⟩,
          fun k g' hk hg' => hpre (k + 1) g' (by omega) (by simpa using hg')⟩]
      congr 2; omega

theorem unknownSlot_none {name : List Char} : ∀ (fs : List GoField) (i : Nat),
    (∀ gf ∈ fs, gf.name ≠ name) → unknownSlot name i fs = none
  | [], i, h => rfl
  | gf :: fs, i, h => by
    simp only [unknownSlot]
    rw [if_neg (h gf (by simp)), unknownSlot_none fs (i + 1) (fun g hg => h g (by simp [hg]))]

theorem unknown_ok {fs : List GoField} {u : Option (Nat × Bool)} (h : KeepsUnknown fs u) :
    ((unknownSlot "unknownFields".toList 0 fs).orElse
      (fun _ => unknownSlot "XXX_unrecognized".toList 0 fs)) = u := by
  match u, h with
  | some (i, p), .inl h => rw [unknownSlot_named rfl fs 0 i h]; simp
  | some (i, p), .inr ⟨h1, h2⟩ =>
    rw [unknownSlot_none fs 0 h1, unknownSlot_named rfl fs 0 i h2]; simp
  | none, h =>
    rw [unknownSlot_none fs 0 (fun g hg => (h g hg).1), unknownSlot_none fs 0 (fun g hg => (h g hg).2)]
    rfl

/-! ### struct types -/

theorem nodup_of_map {α β : Type} {g : α → β} {l : List α} (h : (l.map g).Nodup) : l.Nodup := by
  induction l with
  | nil => exact .nil
  | cons x xs ih =>
    rw [List.map_cons, List.nodup_cons] at h
    exact List.nodup_cons.2 ⟨fun hx => h.1 (List.mem_map.2 ⟨x, hx, rfl⟩), ih h.2⟩


theorem ite_bind_aux {α β : Type} {c : Prop} [Decidable c] {a b : Res α} (v : α)
    (h : (if c then a else b) = .ok v) (k : α → Res β) :
    (if c then a >>= k else b >>= k) = k v := by
  by_cases hc : c
  · rw [if_pos hc] at h; rw [if_pos hc, h]; rfl
  · rw [if_neg hc] at h; rw [if_neg hc, h]; rfl

theorem parseStruct_ok {m : Message} (hW : m.WF S) {d : StructDecl} (hI : Implements1 d m) :
    ∃ r, parseStruct d = .ok r ∧ r.fields = m.fields.map descOf ∧ r.unknown = m.unknown ∧
      (∀ n, r.getField n = (m.fields.find? (fun f => f.num == n)).map descOf) ∧
      r.empty = m.zero ∧ ((r.size = 8 ∨ r.size = 4 ∨ r.size = 1) ↔ m.small = true) := by
  obtain ⟨L, hL, hLp, hLm⟩ := parseFields_ok hW hI d.fields [] rfl
  obtain ⟨M, hM, hMm, hMf⟩ := parseWrappers_ok hW hI d.wrappers (fun _ h => h) hI.distinct
  -- the wrappers are parsed only if there are oneof slots
  have hM' : (if oneofSlots 0 d.fields = [] then pure [] else
      parseWrappers (oneofSlots 0 d.fields) d.wrappers : Res (List FieldDesc)) = .ok (M.map descOf) := by
    split
    · rename_i h
      have : M = [] := by
        cases M with
        | nil => rfl
        | cons f M =>
          have hf := hMf f (by simp)
          have : ∃ w, f.member = some w := by
            have : f.member ∈ (f :: M).map (·.member) := by simp
            rw [hMm] at this
            obtain ⟨w, _, hw⟩ := List.mem_map.1 this
            exact ⟨w.id, hw.symm⟩
          obtain ⟨w, hw⟩ := this
          obtain ⟨_, _, _, _, _, gf0, h1, h2, h3⟩ := hI.member f hf w hw
          have := (oneofSlots_mem d.fields 0 f.slot).2 ⟨f.slot, gf0, by simp, h1, h2, h3⟩
          rw [h] at this; cases this
      rw [this]; rfl
    · exact hM
  have hMmem : ∀ f, f ∈ M ↔ (f ∈ m.fields ∧ f.member ≠ none) := by
    intro f
    constructor
    · intro h
      refine ⟨hMf f h, ?_⟩
      have : f.member ∈ M.map (·.member) := List.mem_map.2 ⟨f, h, rfl⟩
      rw [hMm] at this
      obtain ⟨w, _, hw⟩ := List.mem_map.1 this
      rw [← hw]; simp
    · rintro ⟨h1, h2⟩
      obtain ⟨w, hw⟩ := Option.ne_none_iff_exists'.1 h2
      obtain ⟨wr, hwr, hid, himp, _⟩ := hI.member f h1 w hw
      have : some wr.id ∈ M.map (·.member) := by rw [hMm]; exact List.mem_map.2 ⟨wr, hwr, rfl⟩
      obtain ⟨g, hg, hgm⟩ := List.mem_map.1 this
      have hgf := hMf g hg
      -- the wrapper determines slot, hence the field
      obtain ⟨wr', hwr', hid', himp', _⟩ := hI.member g hgf wr.id hgm
      have : wr' = wr := nodup_mem_unique hI.distinct hwr' hwr hid'
      subst this
      have hslot : f.slot = g.slot := by
        rw [himp] at himp'; simpa using himp'
      by_cases e : f.num = g.num
      · rw [fields_num_inj hW h1 hgf e]; exact hg
      · obtain ⟨w1, w2, e1, e2, ne⟩ := hW.disjoint f h1 g hgf e hslot
        rw [hw] at e1; rw [hgm] at e2
        simp at e1 e2
        omega
  have hnodup : (L ++ M).Nodup := by
    rw [List.nodup_append]
    refine ⟨hLp.imp (fun h e => by subst e; omega), ?_, fun a ha b hb e => ?_⟩
    · have : (M.map (·.member)).Nodup := by
        rw [hMm]
        have := hI.distinct
        rw [show d.wrappers.map (fun w => some w.id) = (d.wrappers.map (·.id)).map some by simp]
        exact this.map some (fun a b h e => h (by injection e))
      exact nodup_of_map this
    · subst e
      exact ((hMmem a).1 hb).2 ((hLm a).1 ha).2.1
  have hperm : (L ++ M).Perm m.fields := by
    rw [List.perm_ext_iff_of_nodup hnodup
      (hW.sorted.imp (fun h e => by subst e; omega))]
    intro f
    rw [List.mem_append, hLm, hMmem]
    constructor
    · rintro (h | h) <;> exact h.1
    · intro h
      by_cases hm : f.member = none
      · exact Or.inl ⟨h, hm, Nat.zero_le _⟩
      · exact Or.inr ⟨h, hm⟩
  have hnum : ∀ f ∈ m.fields, f.num < 2 ^ 31 := fun f hf => (hW.nums f hf).2
  have hsort : sortFields (L.map descOf ++ M.map descOf) = m.fields.map descOf := by
    rw [← List.map_append, sortFields_map (fun g hg => hnum g (hperm.mem_iff.1 hg)),
      sorted_unique (sortF_sorted _) hW.sorted ((sortF_perm _).trans hperm)]
  obtain ⟨k, hk1, hk2, _, hk4, _⟩ := maxDirect_eq m.fields 0 hW.sorted hnum (by omega)
    (fun f hf => (hW.nums f hf).1)
  obtain ⟨r0, r1, hr, hrl, hrg⟩ := fillTables_ok k hk2 m.fields (List.replicate (k + 1) none) [] none
    (by simp) hW.sorted hnum hk4 (by simp)
  refine ⟨⟨m.fields.map descOf, m.unknown, r0, r1, d.size, d.zero⟩, ?_, rfl, rfl, ?_, hI.zero, hI.small⟩
  · unfold parseStruct
    simp only [List.length_nil] at hL
    rw [hL]
    simp only [bind, Except.bind]
    refine (ite_bind_aux (M.map descOf) hM' _).trans ?_
    simp only [hsort]
    rw [show maxDirect 0 (m.fields.map descOf) = (k : Int) from hk1]
    rw [if_neg (by omega), show ((k : Int) + 1).toNat = k + 1 by omega]
    rw [show fillTables (List.replicate (k + 1) none) [] none (m.fields.map descOf) = .ok (r0, r1) from hr]
    simp only [pure, Except.pure]
    rw [unknown_ok hI.unknown]
  · intro n
    have := hrg n
    unfold StructDesc.getField
    show tableGet r0 r1 n = _
    rw [this]
    cases m.fields.find? (fun f => f.num == n) with
    | some f => rfl
    | none => simp [tableGet, List.getD_eq_getElem?_getD, List.getElem?_replicate]; intro h; simp [h]

theorem mapM_exists {α β : Type} (f : α → Res β) (P : α → β → Prop) :
    ∀ (xs : List α), (∀ x ∈ xs, ∃ y, f x = .ok y ∧ P x y) →
    ∃ ys, xs.mapM f = .ok ys ∧ ys.length = xs.length ∧
      ∀ (i : Nat) x y, xs[i]? = some x → ys[i]? = some y → P x y
  | [], _ => ⟨[], rfl, rfl, by simp⟩
  | x :: xs, h => by
    obtain ⟨y, hy, hP⟩ := h x (by simp)
    obtain ⟨ys, hys, hlen, hPs⟩ := mapM_exists f P xs (fun z hz => h z (by simp [hz]))
    refine ⟨y :: ys, by rw [List.mapM_cons, hy, hys]; rfl, by simp [hlen], fun i a b ha hb => ?_⟩
    cases i with
    | zero => simp at ha hb; subst ha hb; exact hP
    | succ i => exact hPs i a b (by simpa using ha) (by simpa using hb)

/-- Struct types implementing a well-formed schema are accepted, and their descriptors are those of
the schema. -/
theorem parseDescs_ok {env : GoEnv} (hI : Implements env S) (hW : S.WF) :
    ∃ D, parseDescs env = .ok D ∧ DescOK D S := by
  obtain ⟨ds, hds, hlen, hP⟩ := mapM_exists parseStruct
    (fun d r => ∀ m : Message, m.WF S → Implements1 d m →
      r.fields = m.fields.map descOf ∧ r.unknown = m.unknown ∧
      (∀ n, r.getField n = (m.fields.find? (fun f => f.num == n)).map descOf) ∧
      r.empty = m.zero ∧ ((r.size = 8 ∨ r.size = 4 ∨ r.size = 1) ↔ m.small = true))
    env.structs (fun d hd => by
      obtain ⟨i, hi, he⟩ := List.getElem_of_mem hd
      have := hI i
      rw [List.getElem?_eq_getElem hi, he] at this
      obtain ⟨r, hr, _⟩ := parseStruct_ok (hW i) this
      refine ⟨r, hr, fun m hm hIm => ?_⟩
      obtain ⟨r', hr', h⟩ := parseStruct_ok hm hIm
      rw [hr] at hr'
      injection hr' with hr'
      subst hr'; exact h)
  refine ⟨fun i => ds.getD i default, by unfold parseDescs; rw [hds]; rfl, ?_⟩
  have key : ∀ id, (ds.getD id default).fields = (S id).fields.map descOf ∧
      (ds.getD id default).unknown = (S id).unknown ∧
      (∀ n, (ds.getD id default).getField n = ((S id).fields.find? (fun f => f.num == n)).map descOf) ∧
      (ds.getD id default).empty = (S id).zero ∧
      (((ds.getD id default).size = 8 ∨ (ds.getD id default).size = 4 ∨ (ds.getD id default).size = 1) ↔
        (S id).small = true) := by
    intro id
    have := hI id
    by_cases h : id < env.structs.length
    · rw [List.getElem?_eq_getElem h] at this
      have h2 : ds[id]? = some ds[id] := List.getElem?_eq_getElem (by omega)
      rw [List.getD_eq_getElem?_getD, h2]
      exact hP id _ _ (List.getElem?_eq_getElem h) h2 _ (hW id) this
    · rw [List.getElem?_eq_none (by omega)] at this
      rw [List.getD_eq_getElem?_getD, List.getElem?_eq_none (by omega), this]
      refine ⟨rfl, rfl, fun n => ?_, rfl, by decide⟩
      rfl
  refine ⟨fun id => (key id).1, fun id => (key id).2.1, fun id n f hf => ?_,
    fun id n _ => (key id).2.2.1 n,
    fun id => (key id).2.2.2.1, fun id => (key id).2.2.2.2⟩
  rw [(key id).2.2.1 n] at hf
  obtain ⟨g, hg, rfl⟩ := Option.map_eq_some_iff.1 hf
  rw [(key id).1]
  exact List.mem_map.2 ⟨g, List.mem_of_find?_eq_some hg, rfl⟩

end Verif.Lemmas
