import Verif.Model.SliceGrow
import Verif.Props.Desc
/-!
# C41: growth of repeated fields
-/
namespace Verif.Props
open Verif.Spec Verif.Model Verif.Lemmas

/-- A slice header Go can have. -/
def Hdr.OK (h : Hdr) : Prop := h.len ≤ h.cells.length

theorem grow_facts {h : Hdr} (hk : Hdr.OK h) (fresh : Val) :
    (h.grow fresh).len = h.len + 1 ∧ h.len < (h.grow fresh).cells.length ∧
    (∀ i, i < h.len → (h.grow fresh).cells[i]? = h.cells[i]?) ∧
    (∀ i, h.len ≤ i → i < (h.grow fresh).cells.length →
      (h.grow fresh).cells[i]? = if i < h.cells.length then h.cells[i]? else some fresh) ∧
    (h.len < h.cells.length → (h.grow fresh).cells = h.cells) ∧ h.cells.length ≤ (h.grow fresh).cells.length := by
  have hk' : h.len ≤ h.cells.length := hk
  have key : ∀ c, h.cells.length < c → h.len = h.cells.length →
      (h.realloc fresh c).cells = h.cells ++ List.replicate (c - h.len) fresh := by
    intro c hc hl
    rw [Hdr.realloc, if_neg (by omega), hl, List.take_length]
  by_cases hz : h.len = h.cells.length
  · obtain ⟨c, hc, e⟩ : ∃ c, h.cells.length < c ∧ (h.grow fresh).cells = h.cells ++ List.replicate (c - h.len) fresh := by
      unfold Hdr.grow
      dsimp only
      by_cases h0 : h.cells.length = 0
      · exact ⟨8, by omega, by rw [if_pos h0]; exact key _ (by rw [h0]; decide) hz⟩
      · exact ⟨2 * h.cells.length, by omega, by rw [if_neg h0, if_pos hz]; exact key _ (by omega) hz⟩
    have hlen : (h.grow fresh).len = h.len + 1 := by
      unfold Hdr.grow Hdr.realloc
      dsimp only
      repeat' split
      all_goals rfl
    refine ⟨hlen, by rw [e]; simp; omega, ?_, ?_, fun h => by omega, by rw [e]; simp⟩
    · intro i hi
      rw [e, List.getElem?_append_left (by omega)]
    · intro i h1 h2
      rw [e] at h2 ⊢
      rw [List.length_append, List.length_replicate] at h2
      rw [if_neg (by omega), List.getElem?_append_right (by omega), List.getElem?_replicate, if_pos (by omega)]
  · have e : h.grow fresh = { h with len := h.len + 1 } := by
      unfold Hdr.grow
      dsimp only
      rw [if_neg (by omega), if_neg hz]
    rw [e]
    refine ⟨rfl, by simp only; omega, fun _ _ => rfl, ?_, fun _ => rfl, Nat.le_refl _⟩
    intro i h1 h2
    rw [if_pos h2]

theorem append_facts {h h' : Hdr} (hk : Hdr.OK h) {fresh : Val} {w : Val → Res (Val × Nat)} {n : Nat}
    (ha : h.append fresh w = .ok (h', n)) :
    ∃ v, w (h.cells.getD h.len fresh) = .ok (v, n) ∧ h'.elems = h.elems ++ [v] ∧ Hdr.OK h' ∧ h'.len = h.len + 1 ∧
      h.cells.length ≤ h'.cells.length ∧
      ∀ i, h.len < i → i < h'.cells.length → h'.cells[i]? = if i < h.cells.length then h.cells[i]? else some fresh := by
  have hk' : h.len ≤ h.cells.length := hk
  obtain ⟨h1, h2, h3, h4, h5, h6⟩ := grow_facts hk fresh
  unfold Hdr.append at ha
  dsimp only at ha
  rw [h1, Nat.add_sub_cancel] at ha
  have hc := h4 h.len (Nat.le_refl _) h2
  rw [List.getD_eq_getElem?_getD]
  have hcell : (h.grow fresh).cells[h.len]? = some (h.cells[h.len]?.getD fresh) := by
    rw [hc]
    split
    · rename_i hl
      rw [List.getElem?_eq_getElem hl]
      rfl
    · rename_i hl
      rw [List.getElem?_eq_none (by omega)]
      rfl
  rw [hcell] at ha
  obtain ⟨⟨v, m⟩, hw, he⟩ := bindOk ha
  cases he
  refine ⟨v, hw, ?_, ?_, rfl, by simp only [List.length_set]; exact h6, ?_⟩
  · unfold Hdr.elems
    simp only
    apply List.ext_getElem?
    intro i
    rw [List.getElem?_take, List.getElem?_set]
    by_cases hi : i < h.len
    · rw [if_pos (by omega), if_neg (by omega), List.getElem?_append_left (by rw [List.length_take]; omega), List.getElem?_take,
        if_pos hi, h3 i hi]
    · have hlt : (h.cells.take h.len).length = h.len := by rw [List.length_take]; exact Nat.min_eq_left hk
      rw [List.getElem?_append_right (by omega), hlt]
      by_cases he : i = h.len
      · rw [if_pos (by omega), if_pos he.symm, he, if_pos h2, Nat.sub_self]
        rfl
      · rw [if_neg (by omega), List.getElem?_eq_none (by simp; omega)]
  · show h.len + 1 ≤ _
    rw [List.length_set]
    omega
  · intro i hi hl
    simp only [List.length_set] at hl ⊢
    rw [List.getElem?_set, if_neg (by omega), h4 i (by omega) hl]

/-- However the slice is reallocated while elements are added: the elements already there stay in place, each new element goes behind
them, in order, what it is written over is the cell's earlier content if the cell was already part of the slice's memory and a
fresh value otherwise, and the length never exceeds the capacity. -/
theorem C41_grow (fresh : Val) : ∀ (ws : List (Val → Res (Val × Nat))) (h h' : Hdr), h.len ≤ h.cells.length →
    h.appendAll fresh ws = .ok h' →
    ∃ vs, h'.elems = h.elems ++ vs ∧ vs.length = ws.length ∧ h'.len ≤ h'.cells.length ∧ h'.len = h.len + ws.length ∧
      ∀ (i : Nat) (w : Val → Res (Val × Nat)) (v : Val), ws[i]? = some w → vs[i]? = some v → ∃ n, w (h.cells.getD (h.len + i) fresh) = .ok (v, n)
  | [], h, h', hk, ha => by
    cases ha
    exact ⟨[], (List.append_nil _).symm, rfl, hk, rfl, fun i w v hw => by cases hw⟩
  | w :: ws, h, h', hk, ha => by
    obtain ⟨⟨h1, n⟩, hw, ha⟩ := bindOk ha
    obtain ⟨v, e1, e2, e3, e4, e5, e6⟩ := append_facts hk hw
    obtain ⟨vs, f1, f2, f3, f4, f5⟩ := C41_grow fresh ws h1 h' e3 ha
    refine ⟨v :: vs, by rw [f1, e2, List.append_assoc]; rfl, by simp [f2], f3, by rw [f4, e4, List.length_cons]; omega, ?_⟩
    intro i w' v' hw' hv'
    cases i with
    | zero =>
      cases hw'
      cases hv'
      exact ⟨n, e1⟩
    | succ i =>
      obtain ⟨m, hm⟩ := f5 i w' v' hw' hv'
      refine ⟨m, ?_⟩
      rw [← hm]
      congr 1
      rw [List.getD_eq_getElem?_getD, List.getD_eq_getElem?_getD, e4, show h.len + (i + 1) = h.len + 1 + i by omega]
      by_cases hl : h.len + 1 + i < h1.cells.length
      · rw [e6 _ (by omega) hl]
        split
        · rfl
        · rename_i hn
          rw [List.getElem?_eq_none (by omega)]
          rfl
      · rw [List.getElem?_eq_none (l := h1.cells) (by omega), List.getElem?_eq_none (by omega)]

/-- Nine elements appended to a slice of two cells holding one element: two reallocations. -/
example : ((Hdr.appendAll (.w32 0#32) ⟨[.w32 7#32, .w32 9#32], 1⟩ ((List.range 9).map (fun i _ => .ok (.w32 (BitVec.ofNat 32 i), 1)))).toOption.map
    (fun h => (h.len, h.cells.length, h.elems.map (fun v => match v with | .w32 x => x.toNat | _ => 99)))) =
    some (10, 16, [7, 0, 1, 2, 3, 4, 5, 6, 7, 8]) := by decide +kernel

/-! ## the decoder on lists and the decoder on memory -/

/-- A type whose values are written whole by the decoder. -/
def overwritten (f : FieldDesc) (te : GoType) : Bool :=
  te.isPointer || (fieldTypeMatch f.tagType te.kind && te.kind != .struct && te.kind != .map)

/-- What the spare cells of a slice hold does not matter, as the element type is written whole, or they are as new. -/
def SpareOK (D : Descs) (f : FieldDesc) (te : GoType) (h : Hdr) : Prop :=
  overwritten f te = true ∨ ∀ i c, h.len ≤ i → h.cells[i]? = some c → c = alloc D te

theorem decodeElemAt_eq (D : Descs) (rec : DecRec) (f : FieldDesc) (te : GoType) (typ : WType) (b : Bytes) (d : Int) :
    decodeElemAt D rec f te typ b d (alloc D te) = decodeElem D rec f te typ b d := by
  cases te <;> rfl

theorem decodeElemAt_over (D : Descs) (rec : DecRec) (f : FieldDesc) {te : GoType} (ho : overwritten f te = true) (typ : WType) (b : Bytes)
    (d : Int) (c c' : Val) : decodeElemAt D rec f te typ b d c = decodeElemAt D rec f te typ b d c' := by
  cases te with
  | ptr _ => rfl
  | slice _ | map _ _ | struct _ | iface | other _ =>
    cases ht : f.tagType <;> simp [overwritten, fieldTypeMatch, GoType.kind, GoType.isPointer, ht] at ho
  | _ =>
    simp only [decodeElemAt]
    unfold decodeValueAt
    split
    · unfold decodeVarintAt
      cases ht : f.tagType <;> simp [overwritten, fieldTypeMatch, GoType.kind, GoType.isPointer, ht] at ho ⊢
    · unfold decodeFixed32At
      cases ht : f.tagType <;> simp [overwritten, fieldTypeMatch, GoType.kind, GoType.isPointer, ht] at ho ⊢
    · unfold decodeFixed64At
      cases ht : f.tagType <;> simp [overwritten, fieldTypeMatch, GoType.kind, GoType.isPointer, ht] at ho ⊢
    · rfl
    · rfl

/-- One record: appending to the memory and appending to the list. -/
theorem decodeRepCap_eq {D : Descs} {rec : DecRec} {f : FieldDesc} {te : GoType} {typ : WType} {b : Bytes} {h : Hdr} {d : Int}
    (hk : Hdr.OK h) (hs : SpareOK D f te h) (hr : f.repeated = true) (hp : ¬ (typ = tBytes ∧ f.packed = true)) :
    (decodeRepCap D rec f te typ b h d).map (fun r => (Val.slice r.1.elems, r.2)) = decodeRep D rec f (.slice te) typ b (.slice h.elems) d ∧
    ∀ h' n, decodeRepCap D rec f te typ b h d = .ok (h', n) → Hdr.OK h' ∧ SpareOK D f te h' := by
  have hcell : decodeElemAt D rec f te typ b d (h.cells.getD h.len (alloc D te)) = decodeElem D rec f te typ b d := by
    rw [← decodeElemAt_eq]
    rcases hs with hs | hs
    · exact decodeElemAt_over D rec f hs typ b d _ _
    · rw [List.getD_eq_getElem?_getD]
      cases hc : h.cells[h.len]? with
      | none => rfl
      | some c => rw [hs _ c (Nat.le_refl _) hc]; rfl
  have hR : decodeRep D rec f (.slice te) typ b (.slice h.elems) d =
      (decodeElem D rec f te typ b d).map (fun r => (Val.slice (h.elems ++ [r.1]), r.2)) := by
    unfold decodeRep
    rw [hr]
    simp only
    rw [if_neg hp]
    simp only [Val.asSlice, bind, Except.bind]
    cases decodeElem D rec f te typ b d <;> rfl
  rw [hR]
  refine ⟨?_, ?_⟩
  · cases hd : decodeRepCap D rec f te typ b h d with
    | ok r =>
      obtain ⟨h', n⟩ := r
      obtain ⟨v, e1, e2, -, -, -, -⟩ := append_facts hk hd
      rw [hcell] at e1
      rw [e1]
      simp only [Except.map, e2]
    | error e =>
      obtain ⟨h1, h2, h3, h4, h5, h6⟩ := grow_facts hk (alloc D te)
      unfold decodeRepCap Hdr.append at hd
      dsimp only at hd
      rw [h1, Nat.add_sub_cancel] at hd
      have hc := h4 h.len (Nat.le_refl _) h2
      have hcell' : (h.grow (alloc D te)).cells[h.len]? = some (h.cells.getD h.len (alloc D te)) := by
        rw [hc, List.getD_eq_getElem?_getD]
        split
        · rename_i hl
          rw [List.getElem?_eq_getElem hl]
          rfl
        · rename_i hl
          rw [List.getElem?_eq_none (by omega)]
          rfl
      rw [hcell'] at hd
      simp only [hcell] at hd
      cases hE : decodeElem D rec f te typ b d with
      | ok r => rw [hE] at hd; cases hd
      | error e' =>
        rw [hE] at hd
        cases hd
        rfl
  · intro h' n hd
    obtain ⟨v, e1, e2, e3, e4, e5, e6⟩ := append_facts hk hd
    refine ⟨e3, ?_⟩
    rcases hs with hs | hs
    · exact .inl hs
    · refine .inr fun i c hi hc => ?_
      have hl := (List.getElem?_eq_some_iff.1 hc).1
      rw [e6 i (by omega) hl] at hc
      split at hc
      · exact hs i c (by omega) hc
      · cases hc; rfl

/-- A sequence of records of a repeated field: the elements afterwards are those that `decodeRep`, which knows nothing of capacities, gives. -/
theorem C41_decode_partial {D : Descs} {rec : DecRec} {f : FieldDesc} {te : GoType} {d : Int} (hr : f.repeated = true) :
    ∀ (recs : List (WType × Bytes)) (h : Hdr), h.len ≤ h.cells.length → SpareOK D f te h →
    (∀ r ∈ recs, ¬ (r.1 = tBytes ∧ f.packed = true)) →
    (recs.foldlM (fun h r => (decodeRepCap D rec f te r.1 r.2 h d).map (·.1)) h).map (fun h => Val.slice h.elems) =
      recs.foldlM (fun x r => (decodeRep D rec f (.slice te) r.1 r.2 x d).map (·.1)) (.slice h.elems)
  | [], h, _, _, _ => rfl
  | r :: recs, h, hk, hs, hp => by
    obtain ⟨e1, e2⟩ := decodeRepCap_eq (rec := rec) (typ := r.1) (b := r.2) (d := d) hk hs hr (hp r List.mem_cons_self)
    rw [List.foldlM_cons, List.foldlM_cons, ← e1]
    cases hd : decodeRepCap D rec f te r.1 r.2 h d with
    | error e => rfl
    | ok q =>
      obtain ⟨k1, k2⟩ := e2 q.1 q.2 hd
      have := C41_decode_partial (rec := rec) (d := d) hr recs q.1 k1 k2 (fun x hx => hp x (List.mem_cons_of_mem _ hx))
      exact this

/-- The hypothesis on spare cells holds of every field of a supported type except lists of structs held by value. -/
theorem C41_spare (D : Descs) (h : Hdr) (n sl : Nat) (m : Option Nat) :
    (∀ s p, (s.packable = true ∨ p = false) → SpareOK D (descOf ⟨n, sl, m, .list s p⟩) s.goType h) ∧
    (∀ id, SpareOK D (descOf ⟨n, sl, m, .msgList id true⟩) (.ptr (.struct id)) h) := by
  refine ⟨fun s p hp => .inl ?_, fun id => .inl rfl⟩
  cases p with
  | false => rw [descOf_list]; cases s <;> rfl
  | true =>
    have hp' : s.packable = true := by rcases hp with hp | hp; exact hp; cases hp
    rw [descOf_packed _ _ _ _ hp']
    cases s <;> rfl

/-- `type Outer struct { L []Inner }; type Inner struct { A int32; S string }` -/
def listEnv : GoEnv where
  structs := [
    { fields := [{ name := "L".toList, type := .slice (.struct 1), tag := "bytes,1,rep".toList }]
      size := 24, zero := .struct [.slice []] },
    { fields := [{ name := "A".toList, type := .int32, tag := "varint,1,opt".toList }, { name := "S".toList, type := .string, tag := "bytes,2,opt".toList }]
      size := 24, zero := .struct [.w32 0#32, .str []] }]

/-- For lists of structs held by value C41 is false: decoding a message that sets only the second field into a slice of length 0 and capacity 1 keeps the first field
of the element that was there before. -/
theorem C41_stale_violated : ∃ D f, parseDescs listEnv = .ok D ∧ (D 0).fields = [f] ∧
    (decodeRepCap D (decodeStruct D 10) f (.struct 1) tBytes [3#8, 0x12#8, 1#8, 0x78#8] ⟨[.struct [.w32 7#32, .str []]], 0⟩ 1000).map (fun r => r.1.elems) =
      .ok [.struct [.w32 7#32, .str [0x78#8]]] ∧
    decodeRep D (decodeStruct D 10) f (.slice (.struct 1)) tBytes [3#8, 0x12#8, 1#8, 0x78#8] (.slice []) 1000 =
      .ok (.slice [.struct [.w32 0#32, .str [0x78#8]]], 4) := by
  refine ⟨_, _, rfl, rfl, rfl, rfl⟩

end Verif.Props
