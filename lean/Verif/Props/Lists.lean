import Verif.Props.Unmarshal
import Verif.Props.SampleBools
/-!
# C11: packed and unpacked lists; C25: booleans
-/
namespace Verif.Props
open Verif.Spec Verif.Model Verif.Lemmas

variable {env : GoEnv} {S : Schema}

/-! ## C11 -/

/-- The record `r` of a list of `s` is a single element `ys = [y]`, or a packed block holding `ys`. -/
def Chunk (s : Scalar) (r : Rec) (ys : List Val) : Prop :=
  (r.typ = s.wire ∧ ∃ y, ScalarDec false s r.val y ∧ ys = [y]) ∨
  (r.typ = .len ∧ s.wire ≠ .len ∧ ∃ p, IsLen r.val p ∧ PackedDec s p ys)

theorem fold_singles {d : Int} {s : Scalar} {p : Bool} (hp : p = true → s.wire ≠ .len) : ∀ {rs : List Rec} {xs : List Val} {y : Val},
    Fold (DecShape S d (.list s p)) rs (.slice xs) y → (∀ r ∈ rs, r.typ = s.wire) →
    ∃ cs : List (List Val), cs.length = rs.length ∧
      (∀ (i : Nat) (r : Rec) (c : List Val), rs[i]? = some r → cs[i]? = some c → Chunk s r c) ∧ y = .slice (xs ++ cs.flatten)
  | [], xs, y, h, _ => by cases h; exact ⟨[], rfl, nofun, by simp⟩
  | r :: rs, xs, y, h, ht => by
    obtain ⟨z, h1, h2⟩ := h
    have hr := ht r (by simp)
    have : ∃ y, z = .slice (xs ++ [y]) ∧ ScalarDec false s r.val y := by
      rw [hr] at h1
      generalize hw : s.wire = t at h1
      cases h1 with
      | elem _ _ _ _ _ y h => exact ⟨y, rfl, h⟩
      | packed _ _ _ _ _ _ _ _ => exact absurd hw (hp rfl)
    obtain ⟨y1, rfl, hy⟩ := this
    obtain ⟨cs, h3, h4, rfl⟩ := fold_singles hp h2 (fun r h => ht r (by simp [h]))
    refine ⟨[y1] :: cs, by simp [h3], ?_, by simp⟩
    intro i r' c hi hc
    cases i with
    | zero => cases hi; cases hc; exact .inl ⟨hr, y1, hy, rfl⟩
    | succ i => exact h4 i r' c hi hc

theorem packed_not_len (hW : S.WF) {id : Nat} {f : Field} (hf : f ∈ (S id).fields) {s : Scalar} {p : Bool}
    (hsh : f.shape = .list s p) : p = true → s.wire ≠ .len := by
  rintro rfl
  have := (hW id).legal f hf
  rw [hsh] at this
  cases s <;> simp [Shape.legal, Scalar.wire, Scalar.packable] at *

theorem list_of_typed {id : Nat} {xs : List Val} (hv : Typed S id (.struct xs)) {f : Field} (hf : f ∈ (S id).fields)
    (hm : f.member = none) {s : Scalar} {p : Bool} (hsh : f.shape = .list s p) {x : Val} (hx : xs[f.slot]? = some x) :
    ∃ l, x = .slice l := by
  cases hv with
  | mk _ _ _ h _ =>
    have := typed_plain hm (h f hf x hx)
    rw [hsh] at this
    cases this
    exact ⟨_, rfl⟩

/-- What does hold of C11.  (1) If the records of a list field are all single elements, they are appended, in order,
to the elements the list had, whether the field is declared packed or not.  (2) If the field is declared packed,
then a packed block *replaces* what was decoded before it; the single elements after it are appended.
(The property asks for concatenation in all cases; see the `_violated` theorems.) -/
theorem C11_elements_partial (hI : Implements env S) (hW : S.WF) (id : Nat) (xs ys : List Val) (hv : Typed S id (.struct xs))
    (b : Bytes) (rs : List Rec) (hs : Splits b rs)
    (h : unmarshal env b (.ptr id (some (.struct xs))) = .ok (.struct ys))
    (f : Field) (hf : f ∈ (S id).fields) (hm : f.member = none) (s : Scalar) (p : Bool) (hsh : f.shape = .list s p) :
    ((∀ r ∈ rs, r.num = f.num → r.typ = s.wire) → ∃ (l : List Val) (cs : List (List Val)), xs[f.slot]? = some (.slice l) ∧
      cs.length = (rs.filter (fun r => r.num == f.num)).length ∧
      (∀ (i : Nat) (r : Rec) (c : List Val), (rs.filter (fun r => r.num == f.num))[i]? = some r → cs[i]? = some c → Chunk s r c) ∧
      ys[f.slot]? = some (.slice (l ++ cs.flatten))) ∧
    (∀ pre r post, rs = pre ++ r :: post → r.num = f.num → r.typ = .len → s.wire ≠ .len →
      (∀ r' ∈ post, r'.num = f.num → r'.typ = s.wire) → ∃ (l : List Val) (cs : List (List Val)), Chunk s r l ∧
      cs.length = (post.filter (fun r => r.num == f.num)).length ∧
      (∀ (i : Nat) (r : Rec) (c : List Val), (post.filter (fun r => r.num == f.num))[i]? = some r → cs[i]? = some c → Chunk s r c) ∧
      ys[f.slot]? = some (.slice (l ++ cs.flatten))) := by
  obtain ⟨_, e, hst⟩ := (unmarshal_steps hI hW hv hs _).1 h
  cases e
  obtain ⟨x, hx, hx'⟩ := slot_of_typed hW hv hf
  obtain ⟨y, hy, hfold⟩ := steps_plain hW hf hm hst hx'
  obtain ⟨l, rfl⟩ := list_of_typed hv hf hm hsh hx
  have hp := packed_not_len hW hf hsh
  rw [hsh] at hfold
  have mem : ∀ {rs : List Rec}, (∀ r ∈ rs, r.num = f.num → r.typ = s.wire) → ∀ r ∈ recsOf f.num rs, r.typ = s.wire := by
    intro rs h r hr
    have := List.mem_filter.1 hr
    exact h r this.1 (by simpa using this.2)
  constructor
  · intro hall
    obtain ⟨cs, h1, h2, rfl⟩ := fold_singles hp hfold (mem hall)
    exact ⟨l, cs, hx, h1, h2, hy⟩
  · rintro pre r post rfl hr ht hw hpost
    rw [recsOf_append, ← hr, recsOf_cons_eq, hr] at hfold
    obtain ⟨z, _, z', hd, h3⟩ := fold_append.1 hfold
    have : ∃ ys, z' = .slice ys ∧ ∃ p, IsLen r.val p ∧ PackedDec s p ys := by
      rw [ht] at hd
      generalize hlen : WireType.len = t at hd
      cases hd with
      | elem _ _ _ _ _ _ _ => exact absurd hlen.symm hw
      | packed _ _ _ p _ ys h1 h2 => exact ⟨ys, rfl, p, h1, h2⟩
    obtain ⟨l', rfl, pl, h4, h5⟩ := this
    obtain ⟨cs, h6, h7, rfl⟩ := fold_singles hp h3 (mem hpost)
    exact ⟨l', cs, .inr ⟨ht, hw, pl, h4, h5⟩, h6, h7, hy⟩

/-- The example of a packed field receiving an element, a block and an element: the first one is lost. -/
example : ∃ (l : List Val) (cs : List (List Val)), Chunk .bool (Sample.recL 2 [1#8, 0#8]) l ∧ cs.length = 1 ∧
    [Val.bool true, .bool false, .bool true] = l ++ cs.flatten := by
  have hs : Splits (rawOf [Sample.recV 2 0, Sample.recL 2 [1#8, 0#8], Sample.recV 2 1])
      [Sample.recV 2 0, Sample.recL 2 [1#8, 0#8], Sample.recV 2 1] := by
    refine ⟨rfl, ?_⟩
    simp only [List.mem_cons, List.not_mem_nil, or_false]
    rintro r (rfl | rfl | rfl)
    · exact Sample.recV_ok (by decide) (by decide) (by decide)
    · exact Sample.recL_ok (by decide) (by decide) (by decide)
    · exact Sample.recV_ok (by decide) (by decide) (by decide)
  have hr : rawOf [Sample.recV 2 0, Sample.recL 2 [1#8, 0#8], Sample.recV 2 1] =
      [0x10#8, 0#8, 0x12#8, 2#8, 1#8, 0#8, 0x10#8, 1#8] := by decide +kernel
  have hu : unmarshal Bools.env (rawOf [Sample.recV 2 0, Sample.recL 2 [1#8, 0#8], Sample.recV 2 1]) (.ptr 0 (some (.struct Bools.zero))) =
      .ok (.struct (Bools.zero.set 1 (.slice [.bool true, .bool false, .bool true]))) := by
    rw [hr]; rfl
  obtain ⟨l, cs, h1, h2, _, h3⟩ := (C11_elements_partial Bools.env_implements Bools.schema_wf 0 _ _ Bools.zero_typed _ _ hs hu
    ⟨2, 1, none, .list .bool true⟩ (List.mem_of_getElem? (i := 1) rfl) rfl .bool true rfl).2
    [Sample.recV 2 0] (Sample.recL 2 [1#8, 0#8]) [Sample.recV 2 1] rfl rfl rfl (by decide) (by decide)
  refine ⟨l, cs, h1, h2, ?_⟩
  have : some (Val.slice [.bool true, .bool false, .bool true]) = some (.slice (l ++ cs.flatten)) := h3
  injection this with this
  injection this

/-- C11 is false: of two packed blocks only the last one is kept. -/
theorem C11_two_blocks_violated :
    unmarshal Sample.env [0x1a#8, 1#8, 2#8, 0x1a#8, 1#8, 4#8] (.ptr 0 (some (.struct Sample.msgZero))) =
      .ok (.struct (Sample.msgZero.set 2 (.slice [.w64 2#64]))) := by rfl

/-- C11 is false: a packed block for a field that is not declared packed is an error. -/
theorem C11_packed_for_unpacked_violated :
    ∃ e, unmarshal Bools.env [0x1a#8, 2#8, 1#8, 0#8] (.ptr 0 (some (.struct Bools.zero))) = .error e := ⟨_, rfl⟩

/-! ## C25 -/

/-- C25 is false: the varint 2 is read as false by a singular field and by an element of a list that is not packed
(only the lowest bit counts), and as true in a packed list and in a map with integer keys; in a map with string
keys it is false again. -/
theorem C25_even_violated :
    unmarshal Bools.env [0x08#8, 2#8] (.ptr 0 (some (.struct Bools.zero))) = .ok (.struct (Bools.zero.set 0 (.bool false))) ∧
    unmarshal Bools.env [0x18#8, 2#8] (.ptr 0 (some (.struct Bools.zero))) = .ok (.struct (Bools.zero.set 2 (.slice [.bool false]))) ∧
    unmarshal Bools.env [0x12#8, 1#8, 2#8] (.ptr 0 (some (.struct Bools.zero))) = .ok (.struct (Bools.zero.set 1 (.slice [.bool true]))) ∧
    unmarshal Bools.env [0x22#8, 4#8, 8#8, 7#8, 16#8, 2#8] (.ptr 0 (some (.struct Bools.zero))) =
      .ok (.struct (Bools.zero.set 3 (.map (some [(.w32 7#32, .bool true)])))) ∧
    unmarshal Bools.env [0x2a#8, 5#8, 10#8, 1#8, 7#8, 16#8, 2#8] (.ptr 0 (some (.struct Bools.zero))) =
      .ok (.struct (Bools.zero.set 4 (.map (some [(.str [7#8], .bool false)])))) := ⟨rfl, rfl, rfl, rfl, rfl⟩

/-- C25 is false: a packed list takes the bytes of one varint (128, written in two bytes) for two elements. -/
theorem C25_long_violated :
    unmarshal Bools.env [0x12#8, 2#8, 0x80#8, 1#8] (.ptr 0 (some (.struct Bools.zero))) =
      .ok (.struct (Bools.zero.set 1 (.slice [.bool true, .bool true]))) := rfl

/-- What does hold of C25: the two rules the decoder uses (`C50_exact` says which one applies where) both give
false for 0 and true for 1 if these are written in one byte, as all encoders write them. -/
theorem C25_canonical_partial (oneByte : Bool) (x : Bool) (y : Val) :
    ScalarDec oneByte .bool (varint (if x then 1 else 0)) y ↔ y = .bool x := by
  have h0 : varint 0 = [0#8] := by decide +kernel
  have h1 : varint 1 = [1#8] := by decide +kernel
  have e : ScalarDec oneByte .bool (varint (if x then 1 else 0)) (.bool x) := by
    cases oneByte <;> cases x <;> simp only [ScalarDec, if_true, if_false, Bool.false_eq_true]
    · exact ⟨0, isVarint64_varint (by decide), rfl⟩
    · exact ⟨1, isVarint64_varint (by decide), rfl⟩
    · exact ⟨0#8, h0, rfl⟩
    · exact ⟨1#8, h1, rfl⟩
  exact ⟨fun h => scalarDec_det h e, fun h => h ▸ e⟩

/-- A singular boolean field: the lowest bit of the varint of the last record. -/
theorem C25_single_partial (hI : Implements env S) (hW : S.WF) (id : Nat) (xs ys : List Val) (hv : Typed S id (.struct xs))
    (b : Bytes) (pre post : List Rec) (r : Rec) (hs : Splits b (pre ++ r :: post))
    (h : unmarshal env b (.ptr id (some (.struct xs))) = .ok (.struct ys))
    (f : Field) (hf : f ∈ (S id).fields) (hm : f.member = none) (hsh : f.shape = .single .bool)
    (hr : r.num = f.num) (hpost : ∀ r' ∈ post, r'.num ≠ f.num) :
    ∃ n, IsVarint64 r.val n ∧ ys[f.slot]? = some (.bool (n % 2 == 1)) := by
  obtain ⟨_, y, h1, _, h2⟩ := (C17_last_wins hI hW id xs ys hv b _ hs h f hf hm .bool (.inl hsh)).1 pre r post rfl hr hpost
  rw [if_pos hsh] at h2
  obtain ⟨n, hn, rfl⟩ := h1
  exact ⟨n, hn, h2⟩

example : ∃ n, IsVarint64 (Sample.recV 1 3).val n ∧ (Bools.zero.set 0 (.bool true))[0]? = some (.bool (n % 2 == 1)) := by
  have hs : Splits (rawOf [Sample.recV 1 3]) ([] ++ Sample.recV 1 3 :: []) := by
    refine ⟨rfl, ?_⟩
    simp only [List.nil_append, List.mem_singleton]
    rintro r rfl
    exact Sample.recV_ok (by decide) (by decide) (by decide)
  have hr : rawOf [Sample.recV 1 3] = [0x08#8, 3#8] := by decide +kernel
  have hu : unmarshal Bools.env (rawOf [Sample.recV 1 3]) (.ptr 0 (some (.struct Bools.zero))) =
      .ok (.struct (Bools.zero.set 0 (.bool true))) := by rw [hr]; rfl
  exact C25_single_partial Bools.env_implements Bools.schema_wf 0 _ _ Bools.zero_typed _ _ _ _ hs hu
    ⟨1, 0, none, .single .bool⟩ (List.mem_of_getElem? (i := 0) rfl) rfl rfl rfl nofun

end Verif.Props
