import Verif.Lemmas.FieldFold
import Verif.Props.Marshal
/-!
# Properties of Unmarshal
-/
namespace Verif.Props
open Verif.Spec Verif.Model Verif.Lemmas

/-! ## examples of inputs -/

namespace Sample

/-- A record of field `num` whose value is the varint `n`. -/
def recV (num n : Nat) : Rec := ⟨num, .varint, tag num .varint, varint n⟩
/-- A record of field `num` holding `p`. -/
def recL (num : Nat) (p : Bytes) : Rec := ⟨num, .len, tag num .len, lenDelim p⟩

theorem recV_ok {num n : Nat} (h : 1 ≤ num) (h' : num < 2 ^ 31) (hn : n < 2 ^ 64) : (recV num n).OK :=
  ⟨isKey_tag _ h h', 0, .varint _ _ _ n (isVarint64_varint hn)⟩
theorem recL_ok {num : Nat} {p : Bytes} (h : 1 ≤ num) (h' : num < 2 ^ 31) (hp : p.length < 2 ^ 64) : (recL num p).OK :=
  ⟨isKey_tag _ h h', 0, .len _ _ _ p (isLen_lenDelim hp)⟩

/-- `A = 5`, unknown field 15, `B = "x"`, `A = 7`. -/
def recs : List Rec := [recV 1 5, recV 15 9, recL 2 [0x78#8], recV 1 7]
def input : Bytes := [0x08#8, 5#8, 0x78#8, 9#8, 0x12#8, 1#8, 0x78#8, 0x08#8, 7#8]

theorem input_splits : Splits input recs := by
  refine ⟨by decide +kernel, ?_⟩
  simp only [recs, List.mem_cons, List.not_mem_nil, or_false]
  rintro r (rfl | rfl | rfl | rfl)
  · exact recV_ok (by decide) (by decide) (by decide)
  · exact recV_ok (by decide) (by decide) (by decide)
  · exact recL_ok (by decide) (by decide) (by decide)
  · exact recV_ok (by decide) (by decide) (by decide)

def output : List Val := ((msgZero.set 0 (.w32 7#32)).set 1 (.ptr (some (.str [0x78#8])))).set 11
  (.bytes (some [0x78#8, 9#8]))

theorem zero_typed : Typed schema 0 (.struct msgZero) := typed_zero schema_wf 0

theorem unmarshal_input : unmarshal env input (.ptr 0 (some (.struct msgZero))) = .ok (.struct output) := by rfl

end Sample

variable {env : GoEnv} {S : Schema}

/-! ## C50: what Unmarshal does, exactly -/

/-- Unmarshal succeeds exactly on the byte strings the decoding relation describes, with the result it
prescribes. -/
theorem C50_exact (hI : Implements env S) (hW : S.WF) (id : Nat) (v : Val) (hv : Typed S id v) (b : Bytes) (w : Val) :
    unmarshal env b (.ptr id (some v)) = .ok w ↔ Decodes S 1000 id b v w :=
  (unmarshal_iff hI hW hv b).1 w

/-- The result is again a value of the message type. -/
theorem C50_typed (hI : Implements env S) (hW : S.WF) (id : Nat) (v : Val) (hv : Typed S id v) (b : Bytes) (w : Val)
    (h : unmarshal env b (.ptr id (some v)) = .ok w) : Typed S id w :=
  unmarshal_typed hI hW hv h

example : Decodes Sample.schema 1000 0 Sample.input (.struct Sample.msgZero) (.struct Sample.output) :=
  (C50_exact Sample.env_implements Sample.schema_wf 0 _ Sample.zero_typed _ _).1 Sample.unmarshal_input

/-! ## C23: totality -/

/-- Whatever the input, Unmarshal into a value of a type that implements a schema neither panics (which
includes running out of steps and indexing out of range) nor touches memory at a wrong type. -/
theorem C23_total_partial (hI : Implements env S) (hW : S.WF) (id : Nat) (v : Val) (hv : Typed S id v) (b : Bytes) :
    unmarshal env b (.ptr id (some v)) ≠ .error .panic ∧ unmarshal env b (.ptr id (some v)) ≠ .error .ub :=
  (unmarshal_iff hI hW hv b).2

example : unmarshal Sample.env [0x08#8] (.ptr 0 (some (.struct Sample.msgZero))) = .error (.parse .truncated) := by rfl

/-! ## C12: unknown fields -/

/-- An accepted input is a sequence of records, and if the type keeps unknown fields then afterwards its
storage holds the bytes of the records with undeclared numbers, in order, and nothing else. -/
theorem C12_preserved (hI : Implements env S) (hW : S.WF) (id : Nat) (xs ys : List Val)
    (hv : Typed S id (.struct xs)) (b : Bytes)
    (h : unmarshal env b (.ptr id (some (.struct xs))) = .ok (.struct ys)) :
    ∃ rs, Splits b rs ∧ ((S id).unknown.isSome → unknownOf (S id) ys = rawOf (rs.filter (fun r => !(S id).declares r.num))) := by
  obtain ⟨rs, hs⟩ := unmarshal_splits hI hW hv h
  obtain ⟨_, e, h1⟩ := (unmarshal_steps hI hW hv hs _).1 h
  cases e
  refine ⟨rs, hs, fun hu => ?_⟩
  have hl : (clearUnknown (S id) xs).length = (S id).nslots := by
    rw [← (agree_clear (S id) xs).1]
    cases hv with | mk _ _ h _ _ => exact h
  rw [steps_unknown hW hl h1, unknownOf_clear, unknownRaw, if_pos hu, List.nil_append]

/-- Marshal writes them after the declared fields. -/
theorem C12_reemitted (hI : Implements env S) (hW : S.WF) (id : Nat) (xs ys : List Val)
    (hv : Typed S id (.struct xs)) (b : Bytes) (hu : (S id).unknown.isSome)
    (h : unmarshal env b (.ptr id (some (.struct xs))) = .ok (.struct ys))
    (bs : Bytes) (h' : marshal env (.ptr id (some (.struct ys))) = .ok bs)
    (hl : ∀ bs, encode S false 1000 id (.struct ys) = some bs → bs.length < 2 ^ 64) :
    ∃ (rs : List Rec) (recs : List (Field × Bytes)), Splits b rs ∧ (∀ r ∈ recs, r.1 ∈ (S id).fields ∧ IsRecord r.1.num r.2) ∧
      bs = (recs.map (·.2)).flatten ++ rawOf (rs.filter (fun r => !(S id).declares r.num)) := by
  obtain ⟨rs, h1, h2⟩ := C12_preserved hI hW id xs ys hv b h
  have ho := C14_ascending hI hW id _ (unmarshal_typed hI hW hv h) hl bs h'
  cases ho with
  | mk _ _ recs a1 a2 a3 =>
    exact ⟨rs, recs, h1, fun r hr => ⟨a2 r hr, recordOf_isRecord (a3 r hr)⟩, by rw [h2 hu]⟩

/-- Records with undeclared numbers have no other effect: leaving them out gives the same declared fields.
Conversely they may be put in anywhere (groups in them being nested at most 10001 deep). -/
theorem C12_skipped (hI : Implements env S) (hW : S.WF) (id : Nat) (xs : List Val)
    (hv : Typed S id (.struct xs)) (rs : List Rec) (hr : ∀ r ∈ rs, r.OK) :
    (∀ ys, unmarshal env (rawOf rs) (.ptr id (some (.struct xs))) = .ok (.struct ys) →
      ∃ ys', unmarshal env (rawOf (rs.filter (fun r => (S id).declares r.num))) (.ptr id (some (.struct xs))) =
        .ok (.struct ys') ∧ AgreeKnown (S id) ys ys') ∧
    (∀ ys', unmarshal env (rawOf (rs.filter (fun r => (S id).declares r.num))) (.ptr id (some (.struct xs))) = .ok (.struct ys') →
      (∀ r ∈ rs, (S id).declares r.num = false → IsValue 10001 r.num r.typ r.val) →
      ∃ ys, unmarshal env (rawOf rs) (.ptr id (some (.struct xs))) = .ok (.struct ys) ∧ AgreeKnown (S id) ys ys') := by
  have hs : Splits (rawOf rs) rs := ⟨rfl, hr⟩
  have hs' : Splits (rawOf (rs.filter (fun r => (S id).declares r.num))) (rs.filter (fun r => (S id).declares r.num)) :=
    ⟨rfl, fun r h => hr r (List.mem_filter.1 h).1⟩
  have hl : (clearUnknown (S id) xs).length = (S id).nslots := by
    rw [← (agree_clear (S id) xs).1]
    cases hv with | mk _ _ h _ _ => exact h
  constructor
  · intro ys h
    obtain ⟨_, e, h1⟩ := (unmarshal_steps hI hW hv hs _).1 h
    cases e
    obtain ⟨ys', h2, h3⟩ := steps_filter hW hl h1 (agree_refl _ _)
    exact ⟨ys', (unmarshal_steps hI hW hv hs' _).2 ⟨_, rfl, h2⟩, h3⟩
  · intro ys' h hu
    obtain ⟨_, e, h1⟩ := (unmarshal_steps hI hW hv hs' _).1 h
    cases e
    obtain ⟨ys, h2, h3⟩ := steps_unfilter hW hl h1 hu (agree_refl _ _)
    exact ⟨ys, (unmarshal_steps hI hW hv hs _).2 ⟨_, rfl, h2⟩, agree_symm h3⟩

example : ∃ rs, Splits Sample.input rs ∧ rawOf (rs.filter (fun r => !Sample.msg.declares r.num)) = [0x78#8, 9#8] ∧
    unknownOf Sample.msg Sample.output = [0x78#8, 9#8] :=
  ⟨Sample.recs, Sample.input_splits, by decide +kernel, by decide +kernel⟩

/-! ## C15: order of records -/

/-- Two adjacent records may be swapped unless both are of undeclared fields, or of fields sharing a Go
struct field. -/
theorem C15_swap (hI : Implements env S) (hW : S.WF) (id : Nat) (v : Val) (hv : Typed S id v)
    (p s : Bytes) (ps : List Rec) (hp : Splits p ps) (r1 r2 : Rec) (h1 : r1.OK) (h2 : r2.OK)
    (hne : ∀ f ∈ (S id).fields, f.num = r1.num → ∀ g ∈ (S id).fields, g.num = r2.num → f.slot ≠ g.slot)
    (hd : (S id).declares r1.num = true ∨ (S id).declares r2.num = true) (w : Val) :
    unmarshal env (p ++ (r1.raw ++ (r2.raw ++ s))) (.ptr id (some v)) = .ok w ↔
    unmarshal env (p ++ (r2.raw ++ (r1.raw ++ s))) (.ptr id (some v)) = .ok w := by
  have half : ∀ (r1 r2 : Rec), r1.OK → r2.OK →
      (∀ f ∈ (S id).fields, f.num = r1.num → ∀ g ∈ (S id).fields, g.num = r2.num → f.slot ≠ g.slot) →
      ((S id).declares r1.num = true ∨ (S id).declares r2.num = true) →
      unmarshal env (p ++ (r1.raw ++ (r2.raw ++ s))) (.ptr id (some v)) = .ok w →
      unmarshal env (p ++ (r2.raw ++ (r1.raw ++ s))) (.ptr id (some v)) = .ok w := by
    intro r1 r2 h1 h2 hne hd h
    cases hv with
    | mk _ xs t1 t2 t3 =>
      have hv : Typed S id (.struct xs) := .mk _ _ t1 t2 t3
      obtain ⟨rs, hs⟩ := unmarshal_splits hI hW hv h
      obtain ⟨rs2, rfl, hs2⟩ := splits_prefix hp hs
      have hr : Splits (r1.raw ++ (r2.raw ++ [])) [r1, r2] := splits_cons h1 (splits_cons h2 splits_nil)
      obtain ⟨rs3, rfl, hs3⟩ := splits_prefix (b2 := s) hr (rs := rs2) (by simpa using hs2)
      obtain ⟨ys, rfl, hst⟩ := (unmarshal_steps hI hW hv hs w).1 h
      obtain ⟨zs, a1, a2⟩ := steps_append.1 hst
      obtain ⟨us, b1, us', b2, b3⟩ := a2
      obtain ⟨us'', c1, c2⟩ := stepRec_swap hW hne hd b1 b2
      refine (unmarshal_steps hI hW hv (rs := ps ++ (r2 :: r1 :: rs3)) ?_ _).2 ⟨ys, rfl, ?_⟩
      · exact splits_append hp (splits_cons h2 (splits_cons h1 hs3))
      · exact steps_append.2 ⟨zs, a1, us'', c1, us', c2, b3⟩
  refine ⟨half r1 r2 h1 h2 hne hd, half r2 r1 h2 h1 ?_ hd.symm⟩
  intro f hf e g hg e' h
  exact hne g hg e' f hf e h.symm

example : unmarshal Sample.env ([] ++ ((Sample.recV 1 5).raw ++ ((Sample.recL 2 [0x78#8]).raw ++ [])))
    (.ptr 0 (some (.struct Sample.msgZero))) = .ok (.struct ((Sample.msgZero.set 0 (.w32 5#32)).set 1 (.ptr (some (.str [0x78#8]))))) ∧
    ∀ w, unmarshal Sample.env ([] ++ ((Sample.recV 1 5).raw ++ ((Sample.recL 2 [0x78#8]).raw ++ [])))
        (.ptr 0 (some (.struct Sample.msgZero))) = .ok w ↔
      unmarshal Sample.env ([] ++ ((Sample.recL 2 [0x78#8]).raw ++ ((Sample.recV 1 5).raw ++ [])))
        (.ptr 0 (some (.struct Sample.msgZero))) = .ok w := by
  refine ⟨?_, ?_⟩
  · have : [] ++ ((Sample.recV 1 5).raw ++ ((Sample.recL 2 [0x78#8]).raw ++ [])) = [8#8, 5#8, 0x12#8, 1#8, 0x78#8] := by
      decide +kernel
    rw [this]; rfl
  · exact C15_swap Sample.env_implements Sample.schema_wf 0 _ Sample.zero_typed [] [] [] splits_nil _ _
      (Sample.recV_ok (by decide) (by decide) (by decide)) (Sample.recL_ok (by decide) (by decide) (by decide))
      (by decide) (.inl rfl)

/-! ## C16: concatenation -/

/-- Unmarshal of a concatenation, the first part being whole records, is Unmarshal of the first part
followed by Unmarshal of the second into the result, except that the latter forgets the unknown fields
of the first part. -/
theorem C16_concat (hI : Implements env S) (hW : S.WF) (id : Nat) (v : Val) (hv : Typed S id v) (b1 b2 : Bytes) (d : Nat)
    (hr : IsRecords d b1) :
    (∀ ws, unmarshal env (b1 ++ b2) (.ptr id (some v)) = .ok (.struct ws) →
      ∃ us us', unmarshal env b1 (.ptr id (some v)) = .ok (.struct us) ∧
        unmarshal env b2 (.ptr id (some (.struct us))) = .ok (.struct us') ∧
        AgreeKnown (S id) ws us' ∧ unknownOf (S id) ws = unknownOf (S id) us ++ unknownOf (S id) us') ∧
    (∀ us us', unmarshal env b1 (.ptr id (some v)) = .ok (.struct us) →
      unmarshal env b2 (.ptr id (some (.struct us))) = .ok (.struct us') →
      ∃ ws, unmarshal env (b1 ++ b2) (.ptr id (some v)) = .ok (.struct ws)) := by
  obtain ⟨rs1, hs1⟩ := splits_of_isRecords hr
  cases hv with
  | mk _ xs t1 t2 t3 =>
    have hv : Typed S id (.struct xs) := .mk _ _ t1 t2 t3
    constructor
    · intro ws h
      obtain ⟨rs, hs⟩ := unmarshal_splits hI hW hv h
      obtain ⟨rs2, rfl, hs2⟩ := splits_prefix hs1 hs
      obtain ⟨_, e, hst⟩ := (unmarshal_steps hI hW hv hs _).1 h
      cases e
      obtain ⟨us, a1, a2⟩ := steps_append.1 hst
      have hu := (unmarshal_steps hI hW hv hs1 _).2 ⟨us, rfl, a1⟩
      have htu := unmarshal_typed hI hW hv hu
      have hlu : us.length = (S id).nslots := by cases htu with | mk _ _ h _ _ => exact h
      obtain ⟨us', c1, c2, c3, c4⟩ := steps_frame hW hlu a2 (agree_clear (S id) us)
      refine ⟨us, us', hu, (unmarshal_steps hI hW htu hs2 _).2 ⟨us', rfl, c1⟩, c2, ?_⟩
      rw [c3, c4, unknownOf_clear, List.nil_append]
    · intro us us' hu hu'
      have htu := unmarshal_typed hI hW hv hu
      obtain ⟨rs2, hs2⟩ := unmarshal_splits hI hW htu hu'
      obtain ⟨_, e, a1⟩ := (unmarshal_steps hI hW hv hs1 _).1 hu
      cases e
      obtain ⟨_, e, a2⟩ := (unmarshal_steps hI hW htu hs2 _).1 hu'
      cases e
      have hlu : (clearUnknown (S id) us).length = (S id).nslots := by
        rw [← (agree_clear (S id) us).1]
        cases htu with | mk _ _ h _ _ => exact h
      obtain ⟨ws, c1, _⟩ := steps_frame hW hlu a2 (agree_symm (agree_clear (S id) us))
      exact ⟨ws, (unmarshal_steps hI hW hv (splits_append hs1 hs2) _).2 ⟨ws, rfl, steps_append.2 ⟨us, a1, c1⟩⟩⟩

example : ∃ us us', unmarshal Sample.env (Sample.input.take 4) (.ptr 0 (some (.struct Sample.msgZero))) = .ok (.struct us) ∧
    unmarshal Sample.env (Sample.input.drop 4) (.ptr 0 (some (.struct us))) = .ok (.struct us') ∧
    AgreeKnown Sample.msg Sample.output us' ∧
    unknownOf Sample.msg Sample.output = unknownOf Sample.msg us ++ unknownOf Sample.msg us' := by
  have hr : Splits (Sample.input.take 4) (Sample.recs.take 2) :=
    ⟨by decide +kernel, fun r hr => Sample.input_splits.2 r (List.mem_of_mem_take hr)⟩
  obtain ⟨d, hd⟩ := isRecords_of_splits hr
  exact (C16_concat Sample.env_implements Sample.schema_wf 0 _ Sample.zero_typed _ (Sample.input.drop 4) d hd).1 _
    (by rw [List.take_append_drop]; exact Sample.unmarshal_input)

/-! ## C17: the last occurrence wins -/

/-- The last record of a singular scalar field determines its value; without any record the field keeps
the value it had. -/
theorem C17_last_wins (hI : Implements env S) (hW : S.WF) (id : Nat) (xs ys : List Val) (hv : Typed S id (.struct xs))
    (b : Bytes) (rs : List Rec) (hs : Splits b rs)
    (h : unmarshal env b (.ptr id (some (.struct xs))) = .ok (.struct ys))
    (f : Field) (hf : f ∈ (S id).fields) (hm : f.member = none) (s : Scalar)
    (hsh : f.shape = .single s ∨ f.shape = .optional s) :
    (∀ pre r post, rs = pre ++ r :: post → r.num = f.num → (∀ r' ∈ post, r'.num ≠ f.num) →
      r.typ = s.wire ∧ ∃ y, ScalarDec false s r.val y ∧ (∀ y', ScalarDec false s r.val y' → y' = y) ∧
        ys[f.slot]? = some (if f.shape = .single s then y else .ptr (some y))) ∧
    ((∀ r ∈ rs, r.num ≠ f.num) → ys[f.slot]? = xs[f.slot]?) := by
  obtain ⟨_, e, hst⟩ := (unmarshal_steps hI hW hv hs _).1 h
  cases e
  obtain ⟨x, hx, hx'⟩ := slot_of_typed hW hv hf
  obtain ⟨y, hy, hfold⟩ := steps_plain hW hf hm hst hx'
  constructor
  · rintro pre r post rfl hr hpost
    rw [recsOf_append, ← hr, recsOf_cons_eq, hr, recsOf_none hpost] at hfold
    obtain ⟨z, _, z', hd, e⟩ := fold_append.1 hfold
    cases e
    rcases hsh with hsh | hsh
    · rw [hsh] at hd
      generalize ht : r.typ = t at hd
      cases hd with
      | single _ _ _ _ _ hd => exact ⟨rfl, _, hd, fun y' h' => scalarDec_det h' hd, by rw [if_pos hsh]; exact hy⟩
    · rw [hsh] at hd
      generalize ht : r.typ = t at hd
      cases hd with
      | optional _ _ _ _ _ hd =>
        exact ⟨rfl, _, hd, fun y' h' => scalarDec_det h' hd, by rw [if_neg (by rw [hsh]; nofun)]; exact hy⟩
  · intro hno
    rw [recsOf_none hno] at hfold
    cases hfold
    rw [hy, hx]

example : ∃ y, ScalarDec false .int32 (Sample.recV 1 7).val y ∧ Sample.output[0]? = some y := by
  have := (C17_last_wins Sample.env_implements Sample.schema_wf 0 _ _ Sample.zero_typed _ _ Sample.input_splits
    Sample.unmarshal_input ⟨1, 0, none, .single .int32⟩ (List.mem_of_getElem? (i := 0) rfl) rfl .int32 (.inl rfl)).1
    [Sample.recV 1 5, Sample.recV 15 9, Sample.recL 2 [0x78#8]] (Sample.recV 1 7) [] rfl rfl nofun
  obtain ⟨_, y, h1, _, h2⟩ := this
  exact ⟨y, h1, h2⟩

/-! ## C18: map entries -/

theorem fold_entries {d : Int} {sh : Shape} (hsh : (∃ k v, sh = .map k v) ∨ ∃ k id p, sh = .mapMsg k id p) :
    ∀ {rs : List Rec} {m : Option (List (Key × Val))} {y : Val}, Fold (DecShape S d sh) rs (.map m) y →
    ∃ (m' : Option (List (Key × Val))) (es : List (Key × Val)), y = .map m' ∧ es.length = rs.length ∧
      (∀ (i : Nat) (r : Rec) (e : Key × Val), rs[i]? = some r → es[i]? = some e → IsEntry S d sh r.val e.1 e.2) ∧
      m'.getD [] = es.foldl (fun m e => putEntry m e.1 e.2) (m.getD [])
  | [], m, y, h => by cases h; exact ⟨m, [], rfl, rfl, nofun, rfl⟩
  | r :: rs, m, y, h => by
    obtain ⟨z, h1, h2⟩ := h
    have step : ∃ k v, z = .map (some (putEntry (m.getD []) k v)) ∧ IsEntry S d sh r.val k v := by
      generalize r.typ = t at h1
      rcases hsh with ⟨k, v, rfl⟩ | ⟨k, id, p, rfl⟩
      · cases h1 with
        | entry _ _ _ _ kb vb rest _ k y h3 h4 h5 => exact ⟨k, y, rfl, kb, vb, rest, h3, h4, h5⟩
      · cases h1 with
        | entryPtr _ _ _ _ kb vb rest p _ k y h3 h4 h5 h6 => exact ⟨k, _, rfl, kb, vb, rest, p, y, h3, h4, h5, h6, rfl⟩
        | entryInline _ _ _ _ kb vb rest p _ k y h3 h4 h5 h6 => exact ⟨k, _, rfl, kb, vb, rest, p, y, h3, h4, h5, h6, rfl⟩
    obtain ⟨k, v, rfl, he⟩ := step
    obtain ⟨m', es, rfl, h4, h5, h6⟩ := fold_entries hsh h2
    refine ⟨m', (k, v) :: es, rfl, by simp [h4], ?_, by rw [h6]; rfl⟩
    intro i r' e hi he'
    cases i with
    | zero => cases hi; cases he'; exact he
    | succ i => exact h5 i r' e hi he'

/-- Decoding a map field inserts the entries of its records one after the other: afterwards a key has
the value of the last entry for it, and the value it had before if there is no such entry. -/
theorem C18_entries (hI : Implements env S) (hW : S.WF) (id : Nat) (xs ys : List Val) (hv : Typed S id (.struct xs))
    (b : Bytes) (rs : List Rec) (hs : Splits b rs)
    (h : unmarshal env b (.ptr id (some (.struct xs))) = .ok (.struct ys))
    (f : Field) (hf : f ∈ (S id).fields) (hm : f.member = none)
    (hsh : (∃ k v, f.shape = .map k v) ∨ ∃ k id p, f.shape = .mapMsg k id p) :
    ∃ (m m' : Option (List (Key × Val))) (es : List (Key × Val)), xs[f.slot]? = some (.map m) ∧ ys[f.slot]? = some (.map m') ∧
      es.length = (rs.filter (fun r => r.num == f.num)).length ∧
      (∀ (i : Nat) (r : Rec) (e : Key × Val), (rs.filter (fun r => r.num == f.num))[i]? = some r → es[i]? = some e →
        IsEntry S 1000 f.shape r.val e.1 e.2) ∧
      ∀ k, (m'.getD []).lookup k = (es.reverse.lookup k).or ((m.getD []).lookup k) := by
  obtain ⟨_, e, hst⟩ := (unmarshal_steps hI hW hv hs _).1 h
  cases e
  obtain ⟨x, hx, hx'⟩ := slot_of_typed hW hv hf
  obtain ⟨y, hy, hfold⟩ := steps_plain hW hf hm hst hx'
  obtain ⟨x0, hx0, hft⟩ := typed_slot hW hv hf
  rw [hx] at hx0; cases hx0
  have hmap : ∃ m, x = .map m := by
    have ht := typed_plain hm hft
    rcases hsh with ⟨k, v, e⟩ | ⟨k, i, p, e⟩ <;>
      (rw [e] at ht; cases ht <;> exact ⟨_, rfl⟩)
  obtain ⟨m, rfl⟩ := hmap
  obtain ⟨m', es, rfl, h4, h5, h6⟩ := fold_entries hsh hfold
  exact ⟨m, m', es, hx, hy, h4, h5, fun k => by rw [h6, lookup_puts]⟩

/-- Two entries for key 1 of `I map[int32]bool`, one for key 2. -/
def Sample.mapInput : List Rec :=
  [Sample.recL 2000 [8#8, 1#8, 16#8, 1#8], Sample.recL 2000 [8#8, 2#8, 16#8, 1#8], Sample.recL 2000 [8#8, 1#8, 16#8, 0#8]]

example : ∃ m', (Sample.msgZero.set 8 (.map (some [(.w32 1#32, .bool false), (.w32 2#32, .bool true)])))[8]? = some (.map m') ∧
    (m'.getD []).lookup (.w32 1#32) = some (.bool false) ∧
    ∃ es : List (Key × Val), es.length = 3 ∧ ∀ k, (m'.getD []).lookup k = es.reverse.lookup k := by
  have hs : Splits (rawOf Sample.mapInput) Sample.mapInput := by
    refine ⟨rfl, ?_⟩
    simp only [Sample.mapInput, List.mem_cons, List.not_mem_nil, or_false]
    rintro r (rfl | rfl | rfl) <;> exact Sample.recL_ok (by decide) (by decide) (by decide)
  have hr : rawOf Sample.mapInput = [0x82#8, 0x7d#8, 4#8, 8#8, 1#8, 16#8, 1#8, 0x82#8, 0x7d#8, 4#8, 8#8, 2#8, 16#8, 1#8,
    0x82#8, 0x7d#8, 4#8, 8#8, 1#8, 16#8, 0#8] := by decide +kernel
  have hu : unmarshal Sample.env (rawOf Sample.mapInput) (.ptr 0 (some (.struct Sample.msgZero))) =
      .ok (.struct (Sample.msgZero.set 8 (.map (some [(.w32 1#32, .bool false), (.w32 2#32, .bool true)])))) := by
    rw [hr]; rfl
  obtain ⟨m, m', es, h1, h2, h3, _, h5⟩ := C18_entries Sample.env_implements Sample.schema_wf 0 _ _ Sample.zero_typed _ _ hs hu
    ⟨2000, 8, none, .map .int32 .bool⟩ (List.mem_of_getElem? (i := 11) rfl) rfl (.inl ⟨_, _, rfl⟩)
  have e1 : m' = some [(.w32 1#32, .bool false), (.w32 2#32, .bool true)] := by
    have : some (Val.map (some [(.w32 1#32, .bool false), (.w32 2#32, .bool true)])) = some (.map m') := h2
    cases this; rfl
  have e2 : m = none := by
    have : some (Val.map none) = some (.map m) := h1
    cases this; rfl
  refine ⟨m', h2, by rw [e1]; rfl, es, h3, fun k => ?_⟩
  rw [h5, e2]; simp

/-! ## C19: truncation -/

/-- A prefix of an accepted input is accepted exactly if it ends between two records. -/
theorem C19_prefix (hI : Implements env S) (hW : S.WF) (id : Nat) (v : Val) (hv : Typed S id v) (p q : Bytes) (w : Val)
    (h : unmarshal env (p ++ q) (.ptr id (some v)) = .ok w) :
    ∃ rs, Splits (p ++ q) rs ∧
      ((∃ w', unmarshal env p (.ptr id (some v)) = .ok w') ↔ ∃ n, p = rawOf (rs.take n)) := by
  cases hv with
  | mk _ xs t1 t2 t3 =>
    have hv : Typed S id (.struct xs) := .mk _ _ t1 t2 t3
    obtain ⟨rs, hs⟩ := unmarshal_splits hI hW hv h
    refine ⟨rs, hs, ?_, ?_⟩
    · rintro ⟨w', h'⟩
      obtain ⟨ps, hp⟩ := unmarshal_splits hI hW hv h'
      obtain ⟨rs2, rfl, _⟩ := splits_prefix hp hs
      exact ⟨ps.length, by rw [List.take_left]; exact hp.1⟩
    · rintro ⟨n, hn⟩
      have hp : Splits p (rs.take n) := ⟨hn, fun r hr => hs.2 r (List.mem_of_mem_take hr)⟩
      obtain ⟨ys, rfl, hst⟩ := (unmarshal_steps hI hW hv hs _).1 h
      rw [← List.take_append_drop n rs] at hst
      obtain ⟨zs, h1, _⟩ := steps_append.1 hst
      exact ⟨_, (unmarshal_steps hI hW hv hp _).2 ⟨zs, rfl, h1⟩⟩

example : ∃ e, unmarshal Sample.env (Sample.input.take 6) (.ptr 0 (some (.struct Sample.msgZero))) = .error e := ⟨_, rfl⟩
example : ∃ w, unmarshal Sample.env (Sample.input.take 4) (.ptr 0 (some (.struct Sample.msgZero))) = .ok w := ⟨_, rfl⟩

/-! ## C24: wire types -/

theorem decShape_accepts {d : Int} {sh : Shape} {t : WireType} {v : Bytes} {x y : Val} (h : DecShape S d sh t v x y) :
    sh.accepts t = true := by
  cases h <;> simp [Shape.accepts]

/-- A record of a declared field with a wire type the declaration does not allow makes Unmarshal fail,
whatever comes after its key. -/
theorem C24_mismatch (hI : Implements env S) (hW : S.WF) (id : Nat) (v : Val) (hv : Typed S id v)
    (p : Bytes) (d : Nat) (hp : IsRecords d p) (f : Field) (hf : f ∈ (S id).fields) (t : WireType)
    (ht : f.shape.accepts t = false) (k rest : Bytes) (hk : IsKey k f.num t) :
    ∃ e, unmarshal env (p ++ (k ++ rest)) (.ptr id (some v)) = .error e ∧ e ≠ .panic ∧ e ≠ .ub := by
  cases h : unmarshal env (p ++ (k ++ rest)) (.ptr id (some v)) with
  | error e =>
    have hsafe := (unmarshal_iff hI hW hv (p ++ (k ++ rest))).2
    rw [h] at hsafe
    exact ⟨e, rfl, fun he => hsafe.1 (by rw [he]), fun he => hsafe.2 (by rw [he])⟩
  | ok w =>
    exfalso
    obtain ⟨ps, hps⟩ := splits_of_isRecords hp
    cases hv with
    | mk _ xs t1 t2 t3 =>
      have hv : Typed S id (.struct xs) := .mk _ _ t1 t2 t3
      obtain ⟨rs, hs⟩ := unmarshal_splits hI hW hv h
      obtain ⟨rs2, rfl, hs2⟩ := splits_prefix hps hs
      obtain ⟨ys, rfl, hst⟩ := (unmarshal_steps hI hW hv hs _).1 h
      obtain ⟨zs, _, h2⟩ := steps_append.1 hst
      cases rs2 with
      | nil =>
        have := congrArg List.length hs2.1
        have := IsKey.length_pos hk
        simp only [List.length_append, rawOf_nil, List.length_nil] at *
        omega
      | cons r rs2 =>
        have hr := hs2.2 r (by simp)
        have e := hs2.1
        rw [rawOf_cons, Rec.raw, List.append_assoc] at e
        obtain ⟨_, _, e3, e4⟩ := isKey_unique hk hr.1 e
        obtain ⟨us, h3, _⟩ := h2
        rcases h3 with ⟨h3, _⟩ | ⟨g, hg, h4, x, y, _, h5, _⟩
        · exact h3 f hf e3
        · have : g = f := field_inj (hW id) hg hf (h4.trans e3.symm)
          subst this
          rw [← e4] at h5
          have : g.shape.accepts t = true := by
            cases h5 with
            | plain _ _ _ _ _ _ _ h => exact decShape_accepts h
            | member _ _ _ _ _ _ _ _ h => exact decShape_accepts h
          rw [ht] at this; cases this

example : ∃ e, unmarshal Sample.env ([] ++ ([0x0d#8] ++ [1#8, 2#8, 3#8, 4#8])) (.ptr 0 (some (.struct Sample.msgZero))) = .error e ∧
    e ≠ .panic ∧ e ≠ .ub :=
  C24_mismatch Sample.env_implements Sample.schema_wf 0 _ Sample.zero_typed [] 0 (.nil _)
    ⟨1, 0, none, .single .int32⟩ (List.mem_of_getElem? (i := 0) rfl) .i32 rfl [0x0d#8] _
    (by have h := isKey_tag (num := 1) WireType.i32 (by decide) (by decide)
        rwa [show tag 1 WireType.i32 = [0x0d#8] from by decide +kernel] at h)

/-! ## C26: oneofs -/

/-- The last record of a oneof decides which member is set and to what: it is decoded into a zero value, not merged with
what was there. -/
theorem C26_last_member_wins (hI : Implements env S) (hW : S.WF) (id : Nat) (xs ys : List Val) (hv : Typed S id (.struct xs))
    (b : Bytes) (pre post : List Rec) (r : Rec) (hs : Splits b (pre ++ r :: post))
    (h : unmarshal env b (.ptr id (some (.struct xs))) = .ok (.struct ys))
    (f : Field) (hf : f ∈ (S id).fields) (w : Nat) (hm : f.member = some w) (hr : r.num = f.num)
    (hpost : ∀ g ∈ (S id).fields, g.slot = f.slot → ∀ r' ∈ post, r'.num ≠ g.num) :
    ∃ y, ys[f.slot]? = some (.iface (some (w, some y))) ∧ DecShape S 1000 f.shape r.typ r.val (f.shape.zero S) y ∧
      ∀ g ∈ (S id).fields, g.slot = f.slot → g.num ≠ f.num → g.content (.iface (some (w, some y))) = none := by
  obtain ⟨_, e, hst⟩ := (unmarshal_steps hI hW hv hs _).1 h
  cases e
  obtain ⟨zs, _, us, h2, h3⟩ := steps_append.1 hst
  rw [steps_slot hW h3 hf hpost]
  rcases h2 with ⟨h2, _⟩ | ⟨g, hg, h4, x, y, hx, h5, rfl⟩
  · exact absurd hr.symm (h2 f hf)
  · have : g = f := field_inj (hW id) hg hf (h4.trans hr)
    subst this
    have hlt : g.slot < zs.length := by
      rcases Nat.lt_or_ge g.slot zs.length with h' | h'
      · exact h'
      · rw [List.getElem?_eq_none h'] at hx; cases hx
    cases h5 with
    | plain _ _ _ _ _ _ h _ => rw [hm] at h; cases h
    | member _ _ _ _ w' x y h h6 =>
      rw [hm] at h; cases h
      refine ⟨y, by simp [hlt], h6, ?_⟩
      intro g' hg' e hn
      obtain ⟨w1, w2, a1, a2, a3⟩ := (hW id).disjoint g' hg' g hf hn e
      rw [hm] at a2; cases a2
      simp [Field.content, a1, a3]

/-- `F1 = "x"`, then `F1 = "y"`. -/
example : ∃ y, (Sample.msgZero.set 5 (.iface (some (100, some (.str [0x79#8])))))[5]? = some (.iface (some (100, some y))) ∧
    DecShape Sample.schema 1000 (.single .string) (Sample.recL 6 [0x79#8]).typ (Sample.recL 6 [0x79#8]).val (.str []) y := by
  have hs : Splits (rawOf [Sample.recL 6 [0x78#8], Sample.recL 6 [0x79#8]]) ([Sample.recL 6 [0x78#8]] ++ Sample.recL 6 [0x79#8] :: []) := by
    refine ⟨rfl, ?_⟩
    simp only [List.cons_append, List.nil_append, List.mem_cons, List.not_mem_nil, or_false]
    rintro r (rfl | rfl) <;> exact Sample.recL_ok (by decide) (by decide) (by decide)
  have hr : rawOf [Sample.recL 6 [0x78#8], Sample.recL 6 [0x79#8]] = [0x32#8, 1#8, 0x78#8, 0x32#8, 1#8, 0x79#8] := by
    decide +kernel
  have hu : unmarshal Sample.env (rawOf [Sample.recL 6 [0x78#8], Sample.recL 6 [0x79#8]]) (.ptr 0 (some (.struct Sample.msgZero))) =
      .ok (.struct (Sample.msgZero.set 5 (.iface (some (100, some (.str [0x79#8])))))) := by
    rw [hr]; rfl
  obtain ⟨y, h1, h2, _⟩ := C26_last_member_wins Sample.env_implements Sample.schema_wf 0 _ _ Sample.zero_typed _ _ _ _ hs hu
    ⟨6, 5, some 100, .single .string⟩ (List.mem_of_getElem? (i := 5) rfl) 100 rfl rfl (fun g _ _ r' h => nomatch h)
  exact ⟨y, h1, h2⟩

end Verif.Props
