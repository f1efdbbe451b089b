import Verif.Lemmas.Parse
import Verif.Spec.Declared
/-! # The lookup tables of a struct descriptor, for any struct type -/
namespace Verif.Lemmas
open Verif.Spec Verif.Model

theorem insertField_perm (f : FieldDesc) : ∀ L, (insertField f L).Perm (f :: L)
  | [] => .refl _
  | g :: gs => by
    simp only [insertField]
    split
    · exact .refl _
    · exact ((insertField_perm f gs).cons g).trans (.swap f g gs)

theorem sortFields_perm : ∀ L, (sortFields L).Perm L
  | [] => .refl _
  | f :: fs => (insertField_perm f _).trans ((sortFields_perm fs).cons f)

abbrev SortedLE (L : List FieldDesc) : Prop := L.Pairwise (fun a b => a.id.toInt ≤ b.id.toInt)

theorem insertField_sorted {f : FieldDesc} : ∀ {L}, SortedLE L → SortedLE (insertField f L)
  | [], _ => by simp [insertField, SortedLE]
  | g :: gs, h => by
    have h' := List.pairwise_cons.1 h
    simp only [insertField]
    split
    · rename_i hle
      refine List.pairwise_cons.2 ⟨fun x hx => ?_, h⟩
      rcases List.mem_cons.1 hx with rfl | hx
      · exact hle
      · exact Int.le_trans hle (h'.1 x hx)
    · rename_i hle
      refine List.pairwise_cons.2 ⟨fun x hx => ?_, insertField_sorted h'.2⟩
      rcases List.mem_cons.1 ((insertField_perm f gs).mem_iff.1 hx) with rfl | hx
      · omega
      · exact h'.1 x hx

theorem sortFields_sorted : ∀ L, SortedLE (sortFields L)
  | [] => .nil
  | f :: fs => insertField_sorted (sortFields_sorted fs)

/-- Looking a number up in the two tables. -/
def lookT (m0 : List (Option FieldDesc)) (m1 : List (Int × FieldDesc)) (v : Nat) : Option FieldDesc :=
  if v < m0.length then m0.getD v none else (m1.find? (fun e => e.1 == (v : Int))).map (·.2)

theorem find_none_of {L : List FieldDesc} {n : Nat} (h : ∀ f ∈ L, f.id.toInt ≠ n) :
    L.find? (fun f => f.id.toInt == (n : Int)) = none := by
  rw [List.find?_eq_none]
  intro f hf
  simpa using h f hf

/-- The check for duplicates. -/
def dupOf (prev : Option FieldDesc) (f : FieldDesc) : Bool :=
  match prev with
  | some g => f.id == g.id
  | none => false

theorem fillTables_cons (m0 : List (Option FieldDesc)) (m1 : List (Int × FieldDesc)) (prev : Option FieldDesc) (f : FieldDesc)
    (L : List FieldDesc) : fillTables m0 m1 prev (f :: L) =
      if f.id.toInt ≤ 1000 then
        if 0 ≤ f.id.toInt ∧ f.id.toInt < m0.length then
          if dupOf prev f then .error .badType
          else fillTables (m0.set f.id.toInt.toNat (some f)) m1 (some f) L
        else .error .panic
      else if dupOf prev f then .error .badType
      else fillTables m0 ((f.id.toInt, f) :: m1) (some f) L := rfl

theorem fillTables_ok_gen : ∀ (L : List FieldDesc) (m0 : List (Option FieldDesc)) (m1 : List (Int × FieldDesc))
    (prev : Option FieldDesc) (m0' : List (Option FieldDesc)) (m1' : List (Int × FieldDesc)), m0.length ≤ 1001 → SortedLE L →
    (∀ g, prev = some g → ∀ f ∈ L, g.id.toInt ≤ f.id.toInt) → fillTables m0 m1 prev L = .ok (m0', m1') →
    L.Pairwise (fun a b => a.id.toInt < b.id.toInt) ∧ (∀ f ∈ L, 0 ≤ f.id.toInt) ∧
    (∀ g, prev = some g → ∀ f ∈ L, g.id.toInt < f.id.toInt) ∧
    ∀ n, lookT m0' m1' n = (L.find? (fun f => f.id.toInt == (n : Int))).or (lookT m0 m1 n)
  | [], m0, m1, prev, m0', m1', _, _, _, h => by
    cases h
    exact ⟨.nil, (fun f hf => by cases hf), (fun g hg f hf => by cases hf), fun n => by simp⟩
  | f :: L, m0, m1, prev, m0', m1', hlen, hs, hprev, h => by
    have hs' := List.pairwise_cons.1 hs
    rw [fillTables_cons] at h
    have hdup : dupOf prev f = false → ∀ g, prev = some g → g.id.toInt < f.id.toInt := by
      intro hd g hg
      have h1 := hprev g hg f (by simp)
      have h2 : f.id ≠ g.id := by rw [hg] at hd; simpa [dupOf] using hd
      have h3 : f.id.toInt ≠ g.id.toInt := fun e => h2 (BitVec.eq_of_toInt_eq e)
      omega
    have fin : (∀ g, prev = some g → g.id.toInt < f.id.toInt) → 0 ≤ f.id.toInt →
        (L.Pairwise (fun a b => a.id.toInt < b.id.toInt) ∧ (∀ f ∈ L, 0 ≤ f.id.toInt) ∧
          (∀ g, some f = some g → ∀ f ∈ L, g.id.toInt < f.id.toInt)) →
        (f :: L).Pairwise (fun a b => a.id.toInt < b.id.toInt) ∧ (∀ x ∈ f :: L, 0 ≤ x.id.toInt) ∧
        (∀ g, prev = some g → ∀ x ∈ f :: L, g.id.toInt < x.id.toInt) := by
      intro hd h0 ⟨a1, a2, a3⟩
      refine ⟨List.pairwise_cons.2 ⟨a3 f rfl, a1⟩, ?_, ?_⟩
      · intro x hx
        rcases List.mem_cons.1 hx with rfl | hx
        · exact h0
        · exact a2 x hx
      · intro g hg x hx
        have := hd g hg
        rcases List.mem_cons.1 hx with rfl | hx
        · exact this
        · have := a3 f rfl x hx
          omega
    have hnone : ∀ n : Nat, f.id.toInt = n → (∀ g, some f = some g → ∀ f ∈ L, g.id.toInt < f.id.toInt) →
        L.find? (fun f => f.id.toInt == (n : Int)) = none := by
      intro n hn a3
      refine find_none_of (fun x hx => ?_)
      have := a3 f rfl x hx
      omega
    split at h
    · rename_i hle
      split at h
      · rename_i hr
        split at h
        · cases h
        · rename_i hd
          obtain ⟨a1, a2, a3, a4⟩ := fillTables_ok_gen L _ _ (some f) _ _ (by simpa using hlen) hs'.2
            (fun g hg x hx => by cases hg; exact hs'.1 x hx) h
          obtain ⟨b1, b2, b3⟩ := fin (hdup (by simpa using hd)) hr.1 ⟨a1, a2, a3⟩
          refine ⟨b1, b2, b3, fun n => ?_⟩
          rw [a4]
          by_cases hn : f.id.toInt = n
          · rw [hnone n hn a3, List.find?_cons_of_pos (by simpa using hn)]
            have : f.id.toInt.toNat = n := by omega
            simp only [Option.none_or, Option.some_or]
            have hlt : n < m0.length := by omega
            simp [lookT, this, hlt]
          · rw [List.find?_cons_of_neg (by simpa using hn)]
            congr 1
            have : f.id.toInt.toNat ≠ n := by omega
            simp [lookT, this, List.getElem?_set]
      · cases h
    · rename_i hle
      split at h
      · cases h
      · rename_i hd
        obtain ⟨a1, a2, a3, a4⟩ := fillTables_ok_gen L _ _ (some f) _ _ hlen hs'.2
          (fun g hg x hx => by cases hg; exact hs'.1 x hx) h
        obtain ⟨b1, b2, b3⟩ := fin (hdup (by simpa using hd)) (by omega) ⟨a1, a2, a3⟩
        refine ⟨b1, b2, b3, fun n => ?_⟩
        rw [a4]
        by_cases hn : f.id.toInt = n
        · rw [hnone n hn a3, List.find?_cons_of_pos (by simpa using hn)]
          have hlt : ¬ n < m0.length := by omega
          simp [lookT, hlt, hn]
        · rw [List.find?_cons_of_neg (by simpa using hn)]
          congr 1
          simp only [lookT]
          split
          · rfl
          · rw [List.find?_cons_of_neg (by simpa using hn)]

theorem maxDirect_bounds : ∀ (L : List FieldDesc) (acc : Int), SortedLE L → (∀ f ∈ L, acc ≤ f.id.toInt) → acc ≤ 1000 →
    maxDirect acc L ≤ 1000 ∧ acc ≤ maxDirect acc L ∧ ∀ f ∈ L, f.id.toInt ≤ 1000 → f.id.toInt ≤ maxDirect acc L
  | [], acc, _, _, ha => ⟨ha, Int.le_refl _, fun f hf => by cases hf⟩
  | f :: L, acc, hs, hacc, ha => by
    have hs' := List.pairwise_cons.1 hs
    simp only [maxDirect]
    split
    · rename_i hf
      refine ⟨ha, Int.le_refl _, fun g hg h => ?_⟩
      rcases List.mem_cons.1 hg with rfl | hg
      · omega
      · have := hs'.1 g hg; omega
    · rename_i hf
      obtain ⟨h1, h2, h3⟩ := maxDirect_bounds L f.id.toInt hs'.2 hs'.1 (by omega)
      have := hacc f (by simp)
      refine ⟨h1, by omega, fun g hg h => ?_⟩
      rcases List.mem_cons.1 hg with rfl | hg
      · exact h2
      · exact h3 g hg h

/-- Without the lower bound on the accumulator. -/
theorem maxDirect_le : ∀ (L : List FieldDesc) (acc : Int), acc ≤ 1000 → maxDirect acc L ≤ 1000
  | [], _, ha => ha
  | f :: L, acc, ha => by
    simp only [maxDirect]
    split
    · exact ha
    · exact maxDirect_le L _ (by omega)

theorem fillTables_complete : ∀ (L : List FieldDesc) (m0 : List (Option FieldDesc)) (m1 : List (Int × FieldDesc))
    (prev : Option FieldDesc), L.Pairwise (fun a b => a.id.toInt < b.id.toInt) → (∀ f ∈ L, 0 ≤ f.id.toInt) →
    (∀ g, prev = some g → ∀ f ∈ L, g.id.toInt < f.id.toInt) → (∀ f ∈ L, f.id.toInt ≤ 1000 → f.id.toInt < m0.length) →
    ∃ r, fillTables m0 m1 prev L = .ok r
  | [], m0, m1, prev, _, _, _, _ => ⟨_, rfl⟩
  | f :: L, m0, m1, prev, hs, h0, hp, hl => by
    have hs' := List.pairwise_cons.1 hs
    have hd : dupOf prev f = false := by
      cases prev with
      | none => rfl
      | some g =>
        have := hp g rfl f (by simp)
        have : f.id ≠ g.id := fun e => by rw [e] at this; omega
        simpa [dupOf] using this
    have n0 := h0 f (by simp)
    simp only [fillTables_cons, hd, Bool.false_eq_true, if_false]
    split
    · rename_i hle
      rw [if_pos ⟨n0, hl f (by simp) hle⟩]
      exact fillTables_complete L _ _ (some f) hs'.2 (fun g hg => h0 g (by simp [hg])) (fun g hg x hx => by cases hg; exact hs'.1 x hx)
        (fun g hg h => by simpa using hl g (by simp [hg]) h)
    · exact fillTables_complete L _ _ (some f) hs'.2 (fun g hg => h0 g (by simp [hg])) (fun g hg x hx => by cases hg; exact hs'.1 x hx)
        (fun g hg h => hl g (by simp [hg]) h)

/-! ## the declared fields -/

theorem bindOk {α β : Type} {x : Res α} {g : α → Res β} {b : β} (h : (x >>= g) = .ok b) :
    ∃ a, x = .ok a ∧ g a = .ok b := by
  cases x with
  | error e => cases h
  | ok a => exact ⟨a, rfl, h⟩

theorem iteBindOk {α β : Type} {c : Prop} [Decidable c] {x y : Res α} {g : α → Res β} {b : β}
    (h : (if c then x >>= g else y >>= g) = .ok b) : ∃ a, (if c then x else y) = .ok a ∧ g a = .ok b := by
  split at h
  · rename_i hc; rw [if_pos hc]; exact bindOk h
  · rename_i hc; rw [if_neg hc]; exact bindOk h

/-- The plain fields from position `i` on. -/
theorem parseFields_positions {s : StructDecl} : ∀ (gfs pre : List GoField) (L : List FieldDesc), s.fields = pre ++ gfs →
    parseFields pre.length gfs = .ok L →
    ∃ P : List ((Nat ⊕ Nat) × FieldDesc), P.map (·.2) = L ∧ (P.map (·.1)).Nodup ∧
      ∀ q f, (q, f) ∈ P ↔ (Declared s q f ∧ ∃ i, q = .inl i ∧ pre.length ≤ i)
  | [], pre, L, hd, h => by
    cases h
    refine ⟨[], rfl, .nil, fun q f => ⟨nofun, ?_⟩⟩
    rintro ⟨h, i, rfl, hi⟩
    cases h with
    | plain _ gf _ h1 _ _ =>
      rw [hd, List.append_nil, List.getElem?_eq_none hi] at h1
      cases h1
  | gf :: gfs, pre, L, hd, h => by
    have hgf : s.fields[pre.length]? = some gf := by rw [hd]; simp
    by_cases ht : gf.tag = []
    · simp only [parseFields, if_pos ht] at h
      obtain ⟨P, h1, h2, h3⟩ := parseFields_positions (s := s) gfs (pre ++ [gf]) L (by simp [hd]) (by simpa using h)
      refine ⟨P, h1, h2, fun q f => (h3 q f).trans ?_⟩
      simp only [List.length_append, List.length_singleton]
      constructor
      · rintro ⟨a, i, rfl, hi⟩
        exact ⟨a, i, rfl, by omega⟩
      · rintro ⟨a, i, rfl, hi⟩
        refine ⟨a, i, rfl, ?_⟩
        rcases Nat.lt_or_ge pre.length i with h' | h'
        · omega
        · have : i = pre.length := by omega
          subst this
          cases a with
          | plain _ gf' _ h1 h2 _ => rw [hgf] at h1; cases h1; exact absurd ht h2
    · simp only [parseFields, if_neg ht] at h
      obtain ⟨f0, hf0, h⟩ := bindOk h
      obtain ⟨L', hL', h⟩ := bindOk h
      cases h
      obtain ⟨P, h1, h2, h3⟩ := parseFields_positions (s := s) gfs (pre ++ [gf]) L' (by simp [hd]) (by simpa using hL')
      simp only [List.length_append, List.length_singleton] at h3
      refine ⟨(.inl pre.length, f0) :: P, by simp [h1], ?_, ?_⟩
      · refine List.nodup_cons.2 ⟨?_, h2⟩
        intro hm
        obtain ⟨⟨q, g⟩, hg, e⟩ := List.mem_map.1 hm
        obtain ⟨_, i, e', hi⟩ := (h3 q g).1 hg
        simp only [e'] at e
        injection e with e
        omega
      · intro q f
        rw [List.mem_cons, h3]
        constructor
        · rintro (e | ⟨a, i, rfl, hi⟩)
          · cases e
            exact ⟨.plain _ _ _ hgf ht hf0, _, rfl, Nat.le_refl _⟩
          · exact ⟨a, i, rfl, by omega⟩
        · rintro ⟨a, i, rfl, hi⟩
          rcases Nat.lt_or_ge pre.length i with h' | h'
          · exact .inr ⟨a, i, rfl, by omega⟩
          · have : i = pre.length := by omega
            subst this
            cases a with
            | plain _ gf' _ h1 h2 h5 =>
              rw [hgf] at h1; cases h1
              rw [hf0] at h5; cases h5
              exact .inl rfl

theorem oneofSlots_sorted : ∀ (gfs : List GoField) (i : Nat), (oneofSlots i gfs).Pairwise (· < ·)
  | [], _ => .nil
  | gf :: gfs, i => by
    simp only [oneofSlots]
    split
    · refine List.pairwise_cons.2 ⟨fun j hj => ?_, oneofSlots_sorted gfs _⟩
      obtain ⟨k, _, rfl, _⟩ := (oneofSlots_mem gfs (i + 1) j).1 hj
      omega
    · exact oneofSlots_sorted gfs _

theorem oneofSlots_iff (s : StructDecl) (i : Nat) : i ∈ oneofSlots 0 s.fields ↔ IsOneofSlot s i := by
  rw [oneofSlots_mem]
  constructor
  · rintro ⟨k, gf, rfl, h1, h2⟩
    exact ⟨gf, by simpa using h1, h2⟩
  · rintro ⟨gf, h1, h2⟩
    exact ⟨i, gf, by omega, h1, h2⟩

theorem find_first {p : Nat → Bool} : ∀ {L : List Nat}, L.Pairwise (· < ·) → ∀ {i}, L.find? p = some i ↔
    (i ∈ L ∧ p i = true ∧ ∀ j ∈ L, j < i → p j = false)
  | [], _, i => by simp
  | a :: L, h, i => by
    have h' := List.pairwise_cons.1 h
    rw [List.find?_cons]
    cases ha : p a with
    | true =>
      simp only [Option.some.injEq]
      constructor
      · rintro rfl
        refine ⟨by simp, ha, fun j hj hlt => ?_⟩
        rcases List.mem_cons.1 hj with rfl | hj
        · omega
        · have := h'.1 j hj; omega
      · rintro ⟨hi, hp, hmin⟩
        rcases List.mem_cons.1 hi with rfl | hi
        · rfl
        · have := hmin a (by simp) (h'.1 i hi)
          rw [ha] at this; cases this
    | false =>
      rw [find_first h'.2]
      constructor
      · rintro ⟨hi, hp, hmin⟩
        refine ⟨by simp [hi], hp, fun j hj hlt => ?_⟩
        rcases List.mem_cons.1 hj with rfl | hj
        · exact ha
        · exact hmin j hj hlt
      · rintro ⟨hi, hp, hmin⟩
        rcases List.mem_cons.1 hi with rfl | hi
        · rw [ha] at hp; cases hp
        · exact ⟨hi, hp, fun j hj hlt => hmin j (by simp [hj]) hlt⟩

theorem find_slot_iff (s : StructDecl) (w : Wrapper) (i : Nat) :
    (oneofSlots 0 s.fields).find? (fun i => w.implements.contains i) = some i ↔
    (IsOneofSlot s i ∧ i ∈ w.implements ∧ ∀ i', i' < i → IsOneofSlot s i' → i' ∉ w.implements) := by
  rw [find_first (oneofSlots_sorted _ _), oneofSlots_iff]
  simp only [List.contains_iff_mem]
  refine and_congr_right fun _ => and_congr_right fun _ => ?_
  constructor
  · intro h i' hlt hi' hm
    have := h i' ((oneofSlots_iff s i').2 hi') hlt
    simp [hm] at this
  · intro h j hj hlt
    have := h j hlt ((oneofSlots_iff s j).1 hj)
    simpa using this

theorem parseWrappers_positions {s : StructDecl} : ∀ (ws pre : List Wrapper) (L : List FieldDesc), s.wrappers = pre ++ ws →
    parseWrappers (oneofSlots 0 s.fields) ws = .ok L →
    ∃ P : List ((Nat ⊕ Nat) × FieldDesc), P.map (·.2) = L ∧ (P.map (·.1)).Nodup ∧
      ∀ q f, (q, f) ∈ P ↔ (Declared s q f ∧ ∃ j, q = .inr j ∧ pre.length ≤ j)
  | [], pre, L, hd, h => by
    cases h
    refine ⟨[], rfl, .nil, fun q f => ⟨nofun, ?_⟩⟩
    rintro ⟨h, i, rfl, hi⟩
    cases h with
    | member _ w i gf _ h1 =>
      rw [hd, List.append_nil, List.getElem?_eq_none hi] at h1
      cases h1
  | w :: ws, pre, L, hd, h => by
    have hw : s.wrappers[pre.length]? = some w := by rw [hd]; simp
    simp only [parseWrappers] at h
    split at h
    · rename_i hnone
      obtain ⟨P, h1, h2, h3⟩ := parseWrappers_positions (s := s) ws (pre ++ [w]) L (by simp [hd]) h
      refine ⟨P, h1, h2, fun q f => (h3 q f).trans ?_⟩
      simp only [List.length_append, List.length_singleton]
      constructor
      · rintro ⟨a, i, rfl, hi⟩
        exact ⟨a, i, rfl, by omega⟩
      · rintro ⟨a, j, rfl, hi⟩
        refine ⟨a, j, rfl, ?_⟩
        rcases Nat.lt_or_ge pre.length j with h' | h'
        · omega
        · have : j = pre.length := by omega
          subst this
          cases a with
          | member _ w' i gf _ h1 a2 a3 a4 _ _ =>
            rw [hw] at h1; cases h1
            rw [(find_slot_iff s w i).2 ⟨a2, a3, a4⟩] at hnone
            cases hnone
    · rename_i i hi
      split at h
      · rename_i gf hgf
        split at h
        · cases h
        · obtain ⟨f0, hf0, h⟩ := bindOk h
          obtain ⟨L', hL', h⟩ := bindOk h
          cases h
          obtain ⟨P, h1, h2, h3⟩ := parseWrappers_positions (s := s) ws (pre ++ [w]) L' (by simp [hd]) hL'
          simp only [List.length_append, List.length_singleton] at h3
          obtain ⟨b1, b2, b3⟩ := (find_slot_iff s w i).1 hi
          refine ⟨(.inr pre.length, f0) :: P, by simp [h1], ?_, ?_⟩
          · refine List.nodup_cons.2 ⟨?_, h2⟩
            intro hm
            obtain ⟨⟨q, g⟩, hg, e⟩ := List.mem_map.1 hm
            obtain ⟨_, j, e', hj⟩ := (h3 q g).1 hg
            simp only [e'] at e
            injection e with e
            omega
          · intro q f
            rw [List.mem_cons, h3]
            constructor
            · rintro (e | ⟨a, j, rfl, hj⟩)
              · cases e
                exact ⟨.member _ _ _ _ _ hw b1 b2 b3 hgf hf0, _, rfl, Nat.le_refl _⟩
              · exact ⟨a, j, rfl, by omega⟩
            · rintro ⟨a, j, rfl, hj⟩
              rcases Nat.lt_or_ge pre.length j with h' | h'
              · exact .inr ⟨a, j, rfl, by omega⟩
              · have : j = pre.length := by omega
                subst this
                cases a with
                | member _ w' i' gf' _ a1 a2 a3 a4 a5 a6 =>
                  rw [hw] at a1; cases a1
                  have := (find_slot_iff s w i').2 ⟨a2, a3, a4⟩
                  rw [hi] at this; cases this
                  rw [hgf] at a5; cases a5
                  rw [hf0] at a6; cases a6
                  exact .inl rfl
      · cases h

/-- The two lists of declarations, with their positions. -/
theorem declared_positions {s : StructDecl} {fs ws : List FieldDesc} (h1 : parseFields 0 s.fields = .ok fs)
    (h2 : (if oneofSlots 0 s.fields = [] then pure [] else parseWrappers (oneofSlots 0 s.fields) s.wrappers) = .ok ws) :
    ∃ P : List ((Nat ⊕ Nat) × FieldDesc), P.map (·.2) = fs ++ ws ∧ (P.map (·.1)).Nodup ∧ ∀ q f, (q, f) ∈ P ↔ Declared s q f := by
  obtain ⟨P1, a1, a2, a3⟩ := parseFields_positions s.fields [] fs rfl h1
  have : ∃ P : List ((Nat ⊕ Nat) × FieldDesc), P.map (·.2) = ws ∧ (P.map (·.1)).Nodup ∧
      ∀ q f, (q, f) ∈ P ↔ (Declared s q f ∧ ∃ j, q = .inr j) := by
    split at h2
    · rename_i hno
      cases h2
      refine ⟨[], rfl, .nil, fun q f => ⟨nofun, ?_⟩⟩
      rintro ⟨h, j, rfl⟩
      cases h with
      | member _ w i gf _ _ h _ _ _ _ =>
        have := (oneofSlots_iff s i).2 h
        rw [hno] at this; cases this
    · obtain ⟨P, b1, b2, b3⟩ := parseWrappers_positions s.wrappers [] ws rfl h2
      refine ⟨P, b1, b2, fun q f => (b3 q f).trans ?_⟩
      simp
  obtain ⟨P2, b1, b2, b3⟩ := this
  refine ⟨P1 ++ P2, by simp [a1, b1], ?_, ?_⟩
  · rw [List.map_append, List.nodup_append]
    refine ⟨a2, b2, ?_⟩
    intro q hq q' hq' e
    obtain ⟨⟨x, f⟩, hx, rfl⟩ := List.mem_map.1 hq
    obtain ⟨⟨x', f'⟩, hx', rfl⟩ := List.mem_map.1 hq'
    obtain ⟨_, i, e1, _⟩ := (a3 _ _).1 hx
    obtain ⟨_, j, e2⟩ := (b3 _ _).1 hx'
    simp only [e1, e2] at e
    cases e
  · intro q f
    rw [List.mem_append, a3, b3]
    constructor
    · rintro (h | h) <;> exact h.1
    · intro h
      cases q with
      | inl i => exact .inl ⟨h, i, rfl, Nat.zero_le _⟩
      | inr j => exact .inr ⟨h, j, rfl⟩

theorem nodup_map_inj {α β : Type} {k : α → β} : ∀ {P : List α}, (P.map k).Nodup → ∀ {a b}, a ∈ P → b ∈ P → k a = k b → a = b
  | [], _, _, _, ha, _, _ => nomatch ha
  | x :: P, h, a, b, ha, hb, e => by
    rw [List.map_cons, List.nodup_cons] at h
    rcases List.mem_cons.1 ha with e1 | h1 <;> rcases List.mem_cons.1 hb with e2 | h2
    · rw [e1, e2]
    · exact absurd (List.mem_map.2 ⟨b, h2, by rw [← e, e1]⟩) h.1
    · exact absurd (List.mem_map.2 ⟨a, h1, by rw [e, e2]⟩) h.1
    · exact nodup_map_inj h.2 h1 h2 e

/-- The descriptor of any accepted struct type. -/
theorem parseStruct_facts {s : StructDecl} {d : StructDesc} (h : parseStruct s = .ok d) :
    (∀ f, f ∈ d.fields ↔ ∃ q, Declared s q f) ∧
    d.fields.Pairwise (fun a b => a.id.toInt < b.id.toInt) ∧ (∀ f ∈ d.fields, 0 ≤ f.id.toInt) ∧
    (∀ q q' f g, Declared s q f → Declared s q' g → f.id = g.id → q = q') ∧
    ∀ n, d.getField n = d.fields.find? (fun f => f.id.toInt == (n : Int)) := by
  unfold parseStruct at h
  obtain ⟨fs, hfs, h⟩ := bindOk h
  dsimp only at h
  obtain ⟨ws, hws, h⟩ := iteBindOk h
  obtain ⟨⟨m0, m1⟩, hm, h⟩ := iteBindOk h
  cases h
  obtain ⟨P, p1, p2, p3⟩ := declared_positions hfs hws
  split at hm
  · cases hm
  · rename_i hneg
    have hlen : (List.replicate (maxDirect 0 (sortFields (fs ++ ws)) + 1).toNat (none : Option FieldDesc)).length ≤ 1001 := by
      have := maxDirect_le (sortFields (fs ++ ws)) 0 (by decide)
      simp only [List.length_replicate]
      omega
    obtain ⟨a1, a2, _, a4⟩ := fillTables_ok_gen _ _ _ _ _ _ hlen (sortFields_sorted _) (fun g hg => by cases hg) hm
    refine ⟨?_, a1, a2, ?_, ?_⟩
    · intro f
      rw [(sortFields_perm _).mem_iff, ← p1, List.mem_map]
      constructor
      · rintro ⟨⟨q, g⟩, hg, rfl⟩
        exact ⟨q, (p3 _ _).1 hg⟩
      · rintro ⟨q, hq⟩
        exact ⟨(q, f), (p3 _ _).2 hq, rfl⟩
    · intro q q' f g hf hg e
      have hnd : (P.map (fun x => x.2.id)).Nodup := by
        have h1 : ((sortFields (fs ++ ws)).map (·.id)).Nodup := by
          rw [List.nodup_iff_pairwise_ne, List.pairwise_map]
          exact a1.imp (fun h e => by rw [e] at h; omega)
        have h2 : ((fs ++ ws).map (·.id)).Nodup := ((sortFields_perm (fs ++ ws)).map _).nodup_iff.1 h1
        rw [← p1, List.map_map] at h2
        exact h2
      have := nodup_map_inj hnd ((p3 _ _).2 hf) ((p3 _ _).2 hg) e
      cases this; rfl
    · intro n
      have h5 := a4 n
      have h6 : lookT (List.replicate (maxDirect 0 (sortFields (fs ++ ws)) + 1).toNat none) [] n = none := by
        simp only [lookT]
        split
        · rename_i hlt
          rw [List.getD_eq_getElem?_getD, List.getElem?_replicate]
          split <;> rfl
        · rfl
      rw [h6, Option.or_none] at h5
      exact h5

/-- Every struct type whose fields are in order is accepted. -/
theorem parseStruct_complete {s : StructDecl} {fs ws : List FieldDesc} (h1 : parseFields 0 s.fields = .ok fs)
    (h2 : (if oneofSlots 0 s.fields = [] then pure [] else parseWrappers (oneofSlots 0 s.fields) s.wrappers) = .ok ws)
    (h0 : ∀ q f, Declared s q f → 0 ≤ f.id.toInt)
    (hne : ∀ q q' f g, Declared s q f → Declared s q' g → f.id = g.id → q = q') : ∃ d, parseStruct s = .ok d := by
  obtain ⟨P, p1, p2, p3⟩ := declared_positions h1 h2
  have hperm := sortFields_perm (fs ++ ws)
  have hids : ((fs ++ ws).map (·.id)).Nodup := by
    rw [← p1, List.map_map, List.nodup_iff_pairwise_ne, List.pairwise_map]
    have hP : P.Pairwise (fun a b => a.1 ≠ b.1) := by
      rw [List.nodup_iff_pairwise_ne, List.pairwise_map] at p2
      exact p2
    have hall : P.Pairwise (fun a b => a ∈ P ∧ b ∈ P) := by
      rw [List.pairwise_iff_forall_sublist]
      intro a b hab
      have := hab.subset
      exact ⟨this (by simp), this (by simp)⟩
    refine (hP.and hall).imp ?_
    rintro ⟨q, f⟩ ⟨q', g⟩ ⟨hq, hf, hg⟩ e
    exact hq (hne q q' f g ((p3 _ _).1 hf) ((p3 _ _).1 hg) e)
  have hnn : ∀ f ∈ sortFields (fs ++ ws), 0 ≤ f.id.toInt := by
    intro f hf
    rw [hperm.mem_iff, ← p1] at hf
    obtain ⟨⟨q, g⟩, hg, rfl⟩ := List.mem_map.1 hf
    exact h0 q g ((p3 _ _).1 hg)
  have hsort : (sortFields (fs ++ ws)).Pairwise (fun a b => a.id.toInt < b.id.toInt) := by
    have h3 : ((sortFields (fs ++ ws)).map (·.id)).Nodup := ((hperm.map _).nodup_iff).2 hids
    rw [List.nodup_iff_pairwise_ne, List.pairwise_map] at h3
    refine ((sortFields_sorted (fs ++ ws)).and h3).imp ?_
    rintro a b ⟨h4, h5⟩
    have : a.id.toInt ≠ b.id.toInt := fun e => h5 (BitVec.eq_of_toInt_eq e)
    omega
  obtain ⟨b1, b2, b3⟩ := maxDirect_bounds (sortFields (fs ++ ws)) 0 (sortFields_sorted _) hnn (by decide)
  obtain ⟨⟨m0, m1⟩, hr⟩ := fillTables_complete (sortFields (fs ++ ws))
    (List.replicate (maxDirect 0 (sortFields (fs ++ ws)) + 1).toNat none) [] none hsort hnn (fun g hg => by cases hg) (by
      intro f hf hle
      have := b3 f hf hle
      have := hnn f hf
      simp only [List.length_replicate]
      omega)
  unfold parseStruct
  rw [h1]
  simp only [bind, Except.bind]
  have h2' : ∀ {β : Type} (g : List FieldDesc → Res β),
      (if oneofSlots 0 s.fields = [] then (Except.bind (pure []) g) else (parseWrappers (oneofSlots 0 s.fields) s.wrappers).bind g) = g ws := by
    intro β g
    split at h2
    · rename_i h
      rw [if_pos h]
      cases h2
      rfl
    · rename_i h
      rw [if_neg h, h2]
      rfl
  refine ⟨?_, ?_⟩
  rotate_left
  · refine (h2' _).trans ?_
    rw [if_neg (by omega)]
    simp only [hr]
    rfl

end Verif.Lemmas
