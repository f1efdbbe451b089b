import Verif.Spec.Arena
/-!
# C31: arena allocation
-/
namespace Verif.Props
open Verif.Spec Verif.Model.Arena

theorem and_not_mask (x : BitVec 64) (k : Nat) (hk : k < 64) :
    (x &&& ~~~(BitVec.ofNat 64 (2 ^ k - 1))).toNat = x.toNat - x.toNat % 2 ^ k := by
  have hlt : 2 ^ k < 2 ^ 64 := Nat.pow_lt_pow_right (by decide) hk
  have hm : (x &&& BitVec.ofNat 64 (2 ^ k - 1)).toNat = x.toNat % 2 ^ k := by
    rw [BitVec.toNat_and, BitVec.toNat_ofNat, Nat.mod_eq_of_lt (by omega), Nat.and_two_pow_sub_one_eq_mod]
  have h0 : (x &&& BitVec.ofNat 64 (2 ^ k - 1)) &&& (x &&& ~~~(BitVec.ofNat 64 (2 ^ k - 1))) = 0#64 := by
    ext i hi
    simp only [BitVec.getElem_and, BitVec.getElem_not, BitVec.getElem_zero]
    cases x[i] <;> cases (BitVec.ofNat 64 (2 ^ k - 1))[i] <;> rfl
  have h1 : (x &&& BitVec.ofNat 64 (2 ^ k - 1)) + (x &&& ~~~(BitVec.ofNat 64 (2 ^ k - 1))) = x := by
    rw [BitVec.add_eq_or_of_and_eq_zero _ _ h0]
    ext i hi
    simp only [BitVec.getElem_or, BitVec.getElem_and, BitVec.getElem_not]
    cases x[i] <;> cases (BitVec.ofNat 64 (2 ^ k - 1))[i] <;> rfl
  have h2 : (x &&& ~~~(BitVec.ofNat 64 (2 ^ k - 1))).toNat ≤ x.toNat := by
    rw [BitVec.toNat_and]; exact Nat.and_le_left
  have h3 : (x &&& ~~~(BitVec.ofNat 64 (2 ^ k - 1))) = x - (x &&& BitVec.ofNat 64 (2 ^ k - 1)) := by
    conv => rhs; lhs; rw [← h1]
    rw [BitVec.add_comm, BitVec.add_sub_cancel]
  rw [h3, BitVec.toNat_sub_of_le, hm]
  rw [BitVec.le_def, hm]
  exact Nat.mod_le _ _

/-- The address carved out of the current block. -/
theorem carve_facts {s : Arena} {n k : Nat} (hk : k < 62) (hb : s.b.toNat + s.n < 2 ^ 64) (hp : s.p + n + (2 ^ k - 1) ≤ s.n) :
    ∃ off, off < 2 ^ k ∧ (carve s n (2 ^ k)).1.toNat = s.b.toNat + s.p + off ∧ (carve s n (2 ^ k)).1.toNat % 2 ^ k = 0 ∧
      (carve s n (2 ^ k)).2 = { s with p := s.p + (n + off) } := by
  have hpos : 0 < 2 ^ k := Nat.pow_pos (by decide)
  have hlt : 2 ^ k < 2 ^ 64 := Nat.pow_lt_pow_right (by decide) (by omega)
  have hret : (s.b + BitVec.ofNat 64 s.p).toNat = s.b.toNat + s.p := by
    rw [BitVec.toNat_add, BitVec.toNat_ofNat, Nat.mod_eq_of_lt (a := s.p) (by omega), Nat.mod_eq_of_lt (by omega)]
  have hsum : (s.b + BitVec.ofNat 64 s.p + BitVec.ofNat 64 (2 ^ k - 1)).toNat = s.b.toNat + s.p + (2 ^ k - 1) := by
    rw [BitVec.toNat_add, hret, BitVec.toNat_ofNat, Nat.mod_eq_of_lt (a := 2 ^ k - 1) (by omega), Nat.mod_eq_of_lt (by omega)]
  have hal := and_not_mask (s.b + BitVec.ofNat 64 s.p + BitVec.ofNat 64 (2 ^ k - 1)) k (by omega)
  rw [hsum] at hal
  have hmod := Nat.mod_lt (s.b.toNat + s.p + (2 ^ k - 1)) hpos
  generalize hA : (s.b + BitVec.ofNat 64 s.p + BitVec.ofNat 64 (2 ^ k - 1)) &&& ~~~(BitVec.ofNat 64 (2 ^ k - 1)) = A at hal
  have hoff : (A - (s.b + BitVec.ofNat 64 s.p)).toNat = A.toNat - (s.b.toNat + s.p) := by
    rw [BitVec.toNat_sub_of_le, hret]
    rw [BitVec.le_def, hret]
    omega
  have hA' : s.b + BitVec.ofNat 64 s.p + (A - (s.b + BitVec.ofNat 64 s.p)) = A := by
    rw [BitVec.add_comm, BitVec.sub_add_cancel]
  refine ⟨A.toNat - (s.b.toNat + s.p), by omega, ?_, ?_, ?_⟩
  · simp only [carve, hA, hA']
    omega
  · simp only [carve, hA, hA', hal]
    exact Nat.sub_mod_eq_zero_of_mod_eq (Nat.mod_mod _ _).symm
  · simp only [carve, hA, hoff]

/-- What is known after some requests: `out` lists the ranges handed out, with the number of the block each lies in; `cur` is the
number of the arena's block. -/
structure Inv (s : Arena) (cur : Nat) (out : List (Range × Nat)) : Prop where
  block : s.blocks[cur]? = some (s.b, s.n)
  inside : ∀ r ∈ out, ∃ b, s.blocks[r.2]? = some b ∧ Within r.1 (b.1.toNat, b.2)
  used : ∀ r ∈ out, r.2 = cur → r.1.1 + r.1.2 ≤ s.b.toNat + s.p
  apart : out.Pairwise (fun r r' => Apart r.1 r'.1)

theorem runtime_index {blocks : List (BitVec 64 × Nat)} (h : RuntimeOK blocks) {i j : Nat} (hij : i ≠ j) {b c : BitVec 64 × Nat}
    (hi : blocks[i]? = some b) (hj : blocks[j]? = some c) : Apart (b.1.toNat, b.2) (c.1.toNat, c.2) := by
  obtain ⟨h1, e1⟩ := List.getElem?_eq_some_iff.1 hi
  obtain ⟨h2, e2⟩ := List.getElem?_eq_some_iff.1 hj
  have hp := List.pairwise_iff_getElem.1 h.2
  rcases Nat.lt_or_gt_of_ne hij with hlt | hlt
  · have := hp i j h1 h2 hlt
    rw [e1, e2] at this
    exact this
  · have := hp j i h2 h1 hlt
    rw [e1, e2] at this
    exact fun x hx => this x ⟨hx.2.2.1, hx.2.2.2, hx.1, hx.2.1⟩

theorem apart_within {r s b c : Range} (h : Apart b c) (hr : Within r b) (hs : Within s c) : Apart r s := by
  intro x hx
  exact h x ⟨by have := hr.1; omega, by have := hr.2; omega, by have := hs.1; omega, by have := hs.2; omega⟩

theorem runtime_prefix {a b : List (BitVec 64 × Nat)} (h : RuntimeOK (a ++ b)) : RuntimeOK a :=
  ⟨fun x hx => h.1 x (List.mem_append_left _ hx), (List.pairwise_append.1 h.2).1⟩

/-- The blocks only grow. -/
theorem malloc_blocks (gc : Nat → BitVec 64) (s : Arena) (r : Req) : ∃ l, (malloc gc s r).2.blocks = s.blocks ++ l := by
  unfold malloc spanMalloc carve ensure
  split
  · exact ⟨_, rfl⟩
  · dsimp only
    split
    · exact ⟨_, rfl⟩
    · exact ⟨[], (List.append_nil _).symm⟩

theorem run_blocks (gc : Nat → BitVec 64) : ∀ (rs : List Req) (s : Arena), ∃ l, (run gc s rs).2.blocks = s.blocks ++ l
  | [], s => ⟨[], (List.append_nil _).symm⟩
  | r :: rs, s => by
    obtain ⟨l, h⟩ := malloc_blocks gc s r
    obtain ⟨l', h'⟩ := run_blocks gc rs (malloc gc s r).2
    exact ⟨l ++ l', by rw [run]; dsimp only; rw [h', h, List.append_assoc]⟩

/-- A new range in a block of its own. -/
theorem inv_fresh {s : Arena} {cur : Nat} {out : List (Range × Nat)} (hi : Inv s cur out) {a : BitVec 64} {n : Nat}
    (hR : RuntimeOK (s.blocks ++ [(a, n)])) {r : Range} (hr : Within r (a.toNat, n)) : ∀ r' ∈ out, Apart r'.1 r := by
  intro r' hr'
  obtain ⟨b, hb, hw⟩ := hi.inside r' hr'
  have hlt := (List.getElem?_eq_some_iff.1 hb).1
  refine apart_within (runtime_index hR (i := r'.2) (j := s.blocks.length) (by omega) (b := b) (c := (a, n)) ?_ ?_) hw hr
  · rw [List.getElem?_append_left hlt]; exact hb
  · rw [List.getElem?_append_right (Nat.le_refl _), Nat.sub_self]; rfl

theorem getElem?_snoc {α : Type} {l : List α} {i : Nat} {x y : α} (h : l[i]? = some x) : (l ++ [y])[i]? = some x := by
  rw [List.getElem?_append_left (List.getElem?_eq_some_iff.1 h).1]; exact h

/-- Carving a range out of the current block. -/
theorem inv_carve {s : Arena} {cur : Nat} {out : List (Range × Nat)} (hi : Inv s cur out) (hR : RuntimeOK s.blocks) {n k : Nat}
    (hk : k < 62) (hp : s.p + n + (2 ^ k - 1) ≤ s.n) :
    (carve s n (2 ^ k)).1.toNat % 2 ^ k = 0 ∧
    Inv (carve s n (2 ^ k)).2 cur (out ++ [(((carve s n (2 ^ k)).1.toNat, n), cur)]) := by
  have hb := hR.1 _ (List.mem_of_getElem? hi.block)
  obtain ⟨off, h1, h2, h3, h4⟩ := carve_facts (n := n) hk hb hp
  refine ⟨h3, ?_⟩
  rw [h4, h2]
  have hw : Within (s.b.toNat + s.p + off, n) (s.b.toNat, s.n) := ⟨by simp only; omega, by simp only; omega⟩
  constructor
  · exact hi.block
  · intro r hr
    rcases List.mem_append.1 hr with hr | hr
    · exact hi.inside r hr
    · rw [List.mem_singleton.1 hr]
      exact ⟨_, hi.block, hw⟩
  · intro r hr e
    rcases List.mem_append.1 hr with hr | hr
    · have := hi.used r hr e
      simp only
      omega
    · rw [List.mem_singleton.1 hr]
      simp only
      omega
  · refine List.pairwise_append.2 ⟨hi.apart, List.pairwise_singleton _ _, ?_⟩
    intro r hr r' hr'
    rw [List.mem_singleton.1 hr']
    by_cases e : r.2 = cur
    · have := hi.used r hr e
      intro x hx
      simp only at hx
      omega
    · obtain ⟨b, hb', hw'⟩ := hi.inside r hr
      exact apart_within (runtime_index hR e hb' hi.block) hw' hw

/-- One request. -/
theorem inv_malloc {gc : Nat → BitVec 64} {s : Arena} {cur : Nat} {out : List (Range × Nat)} (hi : Inv s cur out) {r : Req}
    (hr : LegalReq r) (hR : RuntimeOK (malloc gc s r).2.blocks) :
    (r.n ≤ spanSize / 4 → r.scan = false → (malloc gc s r).1.toNat % r.align = 0) ∧
    ∃ cur' i, Inv (malloc gc s r).2 cur' (out ++ [(((malloc gc s r).1.toNat, r.n), i)]) := by
  obtain ⟨hn, k, hk, ha⟩ := hr
  unfold malloc at hR ⊢
  split at hR
  · rename_i hc
    rw [if_pos hc]
    refine ⟨fun h1 h2 => absurd hc (by rw [h2]; simp; omega), cur, s.blocks.length, ?_⟩
    have hlast : (s.blocks ++ [(gc s.blocks.length, r.n)])[s.blocks.length]? = some (gc s.blocks.length, r.n) := by
      rw [List.getElem?_append_right (Nat.le_refl _), Nat.sub_self]; rfl
    have hself : Within ((gc s.blocks.length).toNat, r.n) ((gc s.blocks.length).toNat, r.n) := ⟨Nat.le_refl _, Nat.le_refl _⟩
    constructor
    · exact getElem?_snoc hi.block
    · intro x hx
      rcases List.mem_append.1 hx with hx | hx
      · obtain ⟨b, h1, h2⟩ := hi.inside x hx
        exact ⟨b, getElem?_snoc h1, h2⟩
      · rw [List.mem_singleton.1 hx]
        exact ⟨_, hlast, hself⟩
    · intro x hx e
      rcases List.mem_append.1 hx with hx | hx
      · exact hi.used x hx e
      · rw [List.mem_singleton.1 hx] at e
        have := (List.getElem?_eq_some_iff.1 hi.block).1
        simp only at e
        omega
    · refine List.pairwise_append.2 ⟨hi.apart, List.pairwise_singleton _ _, ?_⟩
      intro x hx y hy
      rw [List.mem_singleton.1 hy]
      exact inv_fresh hi hR hself x hx
  · rename_i hc
    rw [if_neg hc]
    have hpos : 0 < 2 ^ k := Nat.pow_pos (by decide)
    unfold spanMalloc at hR ⊢
    rw [ha] at hR ⊢
    have hbl : ∀ s' : Arena, (carve s' r.n (2 ^ k)).2.blocks = s'.blocks := fun _ => rfl
    rw [hbl] at hR
    unfold ensure at hR ⊢
    dsimp only at hR ⊢
    by_cases hroom : s.p + r.n + (2 ^ k - 1) > s.n
    · rw [if_pos hroom] at hR ⊢
      generalize hsz : (if r.n + (2 ^ k - 1) > spanSize then r.n + (2 ^ k - 1) else spanSize) = sz at hR ⊢
      have hsz' : r.n + (2 ^ k - 1) ≤ sz := by rw [← hsz]; split <;> omega
      have hinv : Inv { p := 0, b := gc s.blocks.length, n := sz, blocks := s.blocks ++ [(gc s.blocks.length, sz)] }
          s.blocks.length out := by
        constructor
        · simp only
          rw [List.getElem?_append_right (Nat.le_refl _), Nat.sub_self]; rfl
        · intro x hx
          obtain ⟨b, h1, h2⟩ := hi.inside x hx
          exact ⟨b, getElem?_snoc h1, h2⟩
        · intro x hx e
          obtain ⟨b, h1, h2⟩ := hi.inside x hx
          have := (List.getElem?_eq_some_iff.1 h1).1
          omega
        · exact hi.apart
      have := inv_carve hinv hR (n := r.n) hk (by simp only; omega)
      exact ⟨fun _ _ => this.1, _, _, this.2⟩
    · rw [if_neg hroom] at hR ⊢
      have := inv_carve hi hR (n := r.n) hk (by omega)
      exact ⟨fun _ _ => this.1, _, _, this.2⟩

theorem run_inv (gc : Nat → BitVec 64) : ∀ (rs : List Req) (s : Arena) (cur : Nat) (out : List (Range × Nat)), Inv s cur out →
    (∀ r ∈ rs, LegalReq r) → RuntimeOK (run gc s rs).2.blocks →
    (∀ p ∈ (run gc s rs).1.zip rs, p.2.n ≤ spanSize / 4 → p.2.scan = false → p.1.toNat % p.2.align = 0) ∧
    ∃ (cur' : Nat) (ix : List Nat), ix.length = rs.length ∧
      Inv (run gc s rs).2 cur' (out ++ (((run gc s rs).1.zip rs).map (fun p => (p.1.toNat, p.2.n))).zip ix) ∧ (run gc s rs).1.length = rs.length
  | [], s, cur, out, hi, _, _ => ⟨(fun p hp => by simp [run] at hp), cur, [], rfl, by simpa [run] using hi, rfl⟩
  | r :: rs, s, cur, out, hi, hl, hR => by
    have hR' : RuntimeOK (malloc gc s r).2.blocks := by
      obtain ⟨l, h⟩ := run_blocks gc rs (malloc gc s r).2
      have : (run gc s (r :: rs)).2 = (run gc (malloc gc s r).2 rs).2 := rfl
      rw [this, h] at hR
      exact runtime_prefix hR
    obtain ⟨h1, c, i, h2⟩ := inv_malloc hi (hl r List.mem_cons_self) hR'
    obtain ⟨h3, c', ix, h4, h5, h6⟩ := run_inv gc rs _ c _ h2 (fun x hx => hl x (List.mem_cons_of_mem _ hx)) hR
    refine ⟨?_, c', i :: ix, by simp [h4], ?_, ?_⟩
    · intro p hp
      have e : (run gc s (r :: rs)).1 = (malloc gc s r).1 :: (run gc (malloc gc s r).2 rs).1 := rfl
      rw [e, List.zip_cons_cons, List.mem_cons] at hp
      rcases hp with rfl | hp
      · exact h1
      · exact h3 p hp
    · have e : (run gc s (r :: rs)).1 = (malloc gc s r).1 :: (run gc (malloc gc s r).2 rs).1 := rfl
      rw [e, List.zip_cons_cons, List.map_cons, List.zip_cons_cons]
      rw [List.append_assoc] at h5
      exact h5
    · have e : (run gc s (r :: rs)).1 = (malloc gc s r).1 :: (run gc (malloc gc s r).2 rs).1 := rfl
      rw [e]
      simp [h6]

/-- In any sequence of allocations made by a new decoder (over any number of Unmarshal calls): every address returned for the arena is a
multiple of the alignment asked for, every block returned lies inside one block obtained from the runtime, and no two blocks returned overlap. -/
theorem C31_arena (gc : Nat → BitVec 64) (rs : List Req) (hl : ∀ r ∈ rs, LegalReq r)
    (hR : RuntimeOK (run gc (init gc []) rs).2.blocks) :
    let out := (run gc (init gc []) rs).1.zip rs
    out.length = rs.length ∧
    (∀ o ∈ out, o.2.n ≤ 1024 → o.2.scan = false → o.1.toNat % o.2.align = 0) ∧
    (∀ o ∈ out, ∃ b ∈ (run gc (init gc []) rs).2.blocks, Within (o.1.toNat, o.2.n) (b.1.toNat, b.2)) ∧
    out.Pairwise (fun o o' => Apart (o.1.toNat, o.2.n) (o'.1.toNat, o'.2.n)) := by
  have h0 : Inv (init gc []) 0 [] := ⟨rfl, (fun r hr => by cases hr), (fun r hr => by cases hr), .nil⟩
  obtain ⟨h1, c, ix, h2, h3, h4⟩ := run_inv gc rs _ 0 [] h0 hl hR
  have hlen : (((run gc (init gc []) rs).1.zip rs).map (fun p => (p.1.toNat, p.2.n))).length = ix.length := by
    rw [List.length_map, List.length_zip, h4, h2, Nat.min_self]
  refine ⟨by rw [List.length_zip, h4, Nat.min_self], h1, ?_, ?_⟩
  · intro o ho
    have hm : (o.1.toNat, o.2.n) ∈ ((run gc (init gc []) rs).1.zip rs).map (fun p => (p.1.toNat, p.2.n)) := List.mem_map.2 ⟨o, ho, rfl⟩
    rw [← List.map_fst_zip (Nat.le_of_eq hlen)] at hm
    obtain ⟨q, hq, e⟩ := List.mem_map.1 hm
    obtain ⟨b, hb, hw⟩ := h3.inside q (by rw [List.nil_append]; exact hq)
    rw [e] at hw
    exact ⟨b, List.mem_of_getElem? hb, hw⟩
  · have := h3.apart
    rw [List.nil_append] at this
    have h5 := List.pairwise_map.2 this
    rw [List.map_fst_zip (Nat.le_of_eq hlen)] at h5
    exact List.pairwise_map.1 h5

/-- A run that leaves the first arena block, with runtime blocks at odd places. -/
example : (run (fun k => BitVec.ofNat 64 (100003 * (k + 1))) (init (fun k => BitVec.ofNat 64 (100003 * (k + 1))) [])
      [⟨3, 1, false⟩, ⟨8, 8, false⟩, ⟨16, 8, true⟩, ⟨1024, 4, false⟩, ⟨1024, 4, false⟩, ⟨1024, 4, false⟩, ⟨1024, 8, false⟩, ⟨5000, 1, false⟩]).1.map (·.toNat) =
    [100003, 100008, 200006, 100016, 101040, 102064, 300016, 400012] := by decide +kernel

example : RuntimeOK (run (fun k => BitVec.ofNat 64 (100003 * (k + 1))) (init (fun k => BitVec.ofNat 64 (100003 * (k + 1))) [])
      [⟨3, 1, false⟩, ⟨8, 8, false⟩, ⟨16, 8, true⟩, ⟨1024, 4, false⟩, ⟨1024, 4, false⟩, ⟨1024, 4, false⟩, ⟨1024, 8, false⟩, ⟨5000, 1, false⟩]).2.blocks := by
  have : (run (fun k => BitVec.ofNat 64 (100003 * (k + 1))) (init (fun k => BitVec.ofNat 64 (100003 * (k + 1))) [])
      [⟨3, 1, false⟩, ⟨8, 8, false⟩, ⟨16, 8, true⟩, ⟨1024, 4, false⟩, ⟨1024, 4, false⟩, ⟨1024, 4, false⟩, ⟨1024, 8, false⟩, ⟨5000, 1, false⟩]).2.blocks =
      [(100003#64, 4096), (200006#64, 16), (300009#64, 4096), (400012#64, 5000)] := by decide +kernel
  rw [this]
  refine ⟨by decide, ?_⟩
  simp only [List.pairwise_cons, List.mem_cons, List.not_mem_nil, or_false, forall_eq_or_imp, forall_eq, List.Pairwise.nil, and_true,
    Apart, BitVec.toNat_ofNat]
  refine ⟨⟨?_, ?_, ?_⟩, ⟨?_, ?_⟩, ?_, ?_⟩ <;> intro x hx <;> first | omega | cases hx

example : ∀ r ∈ [(⟨3, 1, false⟩ : Req), ⟨8, 8, false⟩, ⟨1024, 4, false⟩], LegalReq r := by
  intro r hr
  simp only [List.mem_cons, List.not_mem_nil, or_false] at hr
  rcases hr with rfl | rfl | rfl
  · exact ⟨by decide, 0, by decide, by decide⟩
  · exact ⟨by decide, 3, by decide, by decide⟩
  · exact ⟨by decide, 2, by decide, by decide⟩

end Verif.Props
