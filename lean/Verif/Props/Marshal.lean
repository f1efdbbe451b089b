import Verif.Lemmas.Output
import Verif.Lemmas.TypedPerm
import Verif.Props.Sample
/-!
# Properties of Marshal, MarshalAppend and Size

`env` is any set of Go struct types, `S` the schema it implements (`Spec/Types.lean`), `v` any
value of one of the types.  The hypothesis `bs.length < 2 ^ 64` only excludes messages whose encoding
does not fit the address space.
-/
namespace Verif.Props
open Verif.Spec Verif.Model Verif.Lemmas

variable {env : GoEnv} {S : Schema}

/-- The API writes a message with encoding `bs`. -/
theorem marshal_of_encode (hI : Implements env S) (hW : S.WF) {id : Nat} {v : Val} (hv : Typed S id v)
    {bs : Bytes} (he : encode S false 1000 id v = some bs) (hl : bs.length < 2 ^ 64) (b : Bytes) :
    marshalAppend env b (.ptr id (some v)) = .ok (b ++ bs) ∧
    size env (.ptr id (some v)) = .ok bs.length := by
  have h := marshal_size_spec hI hW hv b
  rw [he] at h
  obtain ⟨r, n, h1, h2, h3⟩ := h
  obtain ⟨rfl, rfl⟩ := h3 hl
  exact ⟨h1, h2⟩

/-- Every successful call of the API wrote the encoding of the message. -/
theorem encode_of_marshal (hI : Implements env S) (hW : S.WF) {id : Nat} {v : Val} (hv : Typed S id v)
    {r : Bytes} (h : marshal env (.ptr id (some v)) = .ok r) :
    ∃ bs, encode S false 1000 id v = some bs ∧ (bs.length < 2 ^ 64 → r = bs) := by
  have hs := marshal_size_spec hI hW hv []
  cases he : encode S false 1000 id v with
  | none => rw [he] at hs; rw [show marshal env _ = _ from hs.1] at h; cases h
  | some bs =>
    rw [he] at hs
    obtain ⟨r', n, h1, h2, h3⟩ := hs
    rw [show marshal env _ = _ from h1] at h
    injection h with h
    subst h
    exact ⟨bs, rfl, fun hl => by rw [(h3 hl).1]; rfl⟩

/-! ## C37: the output is the protobuf encoding of the message -/

/-- Marshal returns exactly the bytes the schema prescribes (with the library's rule that a oneof
member holding a default value is left out, see C26), or fails because the message is nested too
deeply. -/
theorem C37_encoding (hI : Implements env S) (hW : S.WF) (id : Nat) (v : Val) (hv : Typed S id v) :
    match encode S false 1000 id v with
    | some bs => bs.length < 2 ^ 64 → marshal env (.ptr id (some v)) = .ok bs
    | none => marshal env (.ptr id (some v)) = .error .maxDepth := by
  have hs := marshal_size_spec hI hW hv []
  cases he : encode S false 1000 id v with
  | none => rw [he] at hs; exact hs.1
  | some bs => exact fun hl => (marshal_of_encode hI hW hv he hl []).1

/-- A message using every kind of field. -/
example : Implements Sample.env Sample.schema ∧ Sample.schema.WF ∧ Typed Sample.schema 0 Sample.val ∧
    encode Sample.schema false 1000 0 Sample.val = some Sample.bytes ∧
    marshal Sample.env (.ptr 0 (some Sample.val)) = .ok Sample.bytes :=
  ⟨Sample.env_implements, Sample.schema_wf, Sample.val_typed, Sample.val_encode,
   (marshal_of_encode Sample.env_implements Sample.schema_wf Sample.val_typed Sample.val_encode
     (by decide) []).1⟩

/-- What the library writes is what protobuf prescribes, if in no message a oneof is set to a member
holding a default value (or a nil message). -/
theorem C37_protobuf_partial (hI : Implements env S) (hW : S.WF) (id : Nat) (v : Val) (hv : Typed S id v)
    (hm : ∀ id' v', Reach S id v id' v' → MembersShown S id' v') :
    match encode S true 1000 id v with
    | some bs => bs.length < 2 ^ 64 → marshal env (.ptr id (some v)) = .ok bs
    | none => marshal env (.ptr id (some v)) = .error .maxDepth := by
  rw [← encode_keep hW 1000 id v hv hm]
  exact C37_encoding hI hW id v hv

example : ∀ id' v', Reach Sample.schema 0 Sample.val id' v' → MembersShown Sample.schema id' v' :=
  Sample.val_shown

theorem isValue_mono {num : Nat} {t : WireType} {bs : Bytes} (d : Nat) (h : IsValue 0 num t bs) :
    IsValue d num t bs := by
  cases h with
  | varint _ _ _ n h => exact .varint _ _ _ n h
  | i64 _ _ _ h => exact .i64 _ _ _ h
  | i32 _ _ _ h => exact .i32 _ _ _ h
  | len _ _ _ p h => exact .len _ _ _ p h

theorem recordOf_isRecord {slots : List Val} {f : Field} {r : Bytes} (h : RecordOf S slots f r) :
    IsRecord f.num r := by
  cases h with
  | scalar _ _ _ _ h => exact h
  | msg _ _ k l p id v q _ _ hk hl _ => exact ⟨_, k, l, hk, .len _ _ _ p hl, rfl⟩
  | mapMsg _ _ k l r1 k2 l2 p id v q ks _ _ hk hl _ _ _ _ => exact ⟨_, k, l, hk, .len _ _ _ _ hl, rfl⟩

theorem isRecords_flatten {d : Nat} {u : Bytes} (hu : IsRecords d u) :
    ∀ (rs : List Bytes), (∀ r ∈ rs, ∃ num, IsRecord num r) → IsRecords d (rs.flatten ++ u)
  | [], _ => by simpa using hu
  | r :: rs, h => by
    obtain ⟨num, t, k, v, hk, hv, rfl⟩ := h r (by simp)
    have := isRecords_flatten hu rs (fun x hx => h x (by simp [hx]))
    rw [List.flatten_cons, List.append_assoc]
    exact .cons d num t k v _ hk (isValue_mono d hv) this

/-- The output is a sequence of well-formed wire records, provided the bytes kept as unknown fields
are. -/
theorem C37_wellformed (hI : Implements env S) (hW : S.WF) (id : Nat) (slots : List Val)
    (hv : Typed S id (.struct slots)) (d : Nat) (hu : IsRecords d (unknownOf (S id) slots)) (bs : Bytes)
    (h : marshal env (.ptr id (some (.struct slots))) = .ok bs) (hl : (encode S false 1000 id (.struct slots)).all (·.length < 2 ^ 64)) :
    IsRecords d bs := by
  obtain ⟨bs', he, hr⟩ := encode_of_marshal hI hW hv h
  rw [he] at hl
  simp only [Option.all_some, decide_eq_true_eq] at hl
  rw [hr hl]
  have := encode_ordered hW _ _ _ hv bs' he hl
  cases this with
  | mk _ _ recs _ _ hrec =>
    refine isRecords_flatten hu _ (fun r hr => ?_)
    obtain ⟨x, hx, rfl⟩ := List.mem_map.1 hr
    exact ⟨_, recordOf_isRecord (hrec x hx)⟩

/-- The sample: the unknown bytes are a record of field 500. -/
example : IsRecords 0 (unknownOf (Sample.schema 0) Sample.valSlots) :=
  .cons 0 500 .varint [0xa0#8, 0x1f#8] [1#8] [] 
    ⟨⟨.more _ _ 31 (by decide) (.last _ (by decide)), by decide, by decide⟩, by decide, by decide⟩
    (.varint _ _ _ 1 ⟨.last _ (by decide), by decide, by decide⟩) (.nil 0)

/-! ## C03: MarshalAppend only appends -/

theorem C03_append (hI : Implements env S) (hW : S.WF) (id : Nat) (v : Val) (hv : Typed S id v)
    (hl : ∀ bs, encode S false 1000 id v = some bs → bs.length < 2 ^ 64) (b : Bytes) :
    marshalAppend env b (.ptr id (some v)) = (b ++ ·) <$> marshal env (.ptr id (some v)) := by
  have hs := marshal_size_spec hI hW hv
  cases he : encode S false 1000 id v with
  | none =>
    rw [he] at hs
    rw [show marshal env _ = _ from (hs []).1, (hs b).1]; rfl
  | some bs =>
    rw [(marshal_of_encode hI hW hv he (hl bs he) b).1,
      show marshal env _ = _ from (marshal_of_encode hI hW hv he (hl bs he) []).1]
    rfl

/-! ## C02: Size equals the length of the output -/

theorem C02_size (hI : Implements env S) (hW : S.WF) (id : Nat) (v : Val) (hv : Typed S id v)
    (hl : ∀ bs, encode S false 1000 id v = some bs → bs.length < 2 ^ 64) :
    size env (.ptr id (some v)) = List.length <$> marshal env (.ptr id (some v)) := by
  have hs := marshal_size_spec hI hW hv []
  cases he : encode S false 1000 id v with
  | none =>
    rw [he] at hs
    rw [show marshal env _ = _ from hs.1, hs.2]; rfl
  | some bs =>
    have := marshal_of_encode hI hW hv he (hl bs he) []
    rw [show marshal env _ = _ from this.1, this.2]
    rfl

example : size Sample.env (.ptr 0 (some Sample.val)) = .ok 78 :=
  (marshal_of_encode Sample.env_implements Sample.schema_wf Sample.val_typed Sample.val_encode
     (by decide) []).2

/-! ## C14: ascending order of field numbers -/

/-- The output consists of records of declared fields in ascending order of number followed by
exactly the unknown fields, recursively (`Spec.Ordered`). -/
theorem C14_ascending (hI : Implements env S) (hW : S.WF) (id : Nat) (v : Val) (hv : Typed S id v)
    (hl : ∀ bs, encode S false 1000 id v = some bs → bs.length < 2 ^ 64) (bs : Bytes)
    (h : marshal env (.ptr id (some v)) = .ok bs) : Ordered S id v bs := by
  obtain ⟨bs', he, hr⟩ := encode_of_marshal hI hW hv h
  rw [hr (hl _ he)]
  exact encode_ordered hW _ _ _ hv bs' he (hl _ he)

/-! ## C38: what is emitted -/

/-- The output is the concatenation, over the fields in ascending order, of exactly `fieldCount`
well-formed records of that field (none for a default value of a field without presence or an absent
optional, one per list element or map entry, …), followed by the unknown fields. -/
theorem C38_presence (hI : Implements env S) (hW : S.WF) (id : Nat) (slots : List Val)
    (hv : Typed S id (.struct slots))
    (hl : ∀ bs, encode S false 1000 id (.struct slots) = some bs → bs.length < 2 ^ 64) (bs : Bytes)
    (h : marshal env (.ptr id (some (.struct slots))) = .ok bs) :
    ∃ recs : Field → List Bytes,
      bs = ((S id).fields.flatMap recs).flatten ++ unknownOf (S id) slots ∧
      ∀ f ∈ (S id).fields, (recs f).length = fieldCount S slots f ∧ ∀ r ∈ recs f, IsRecord f.num r := by
  obtain ⟨bs', he, hr⟩ := encode_of_marshal hI hW hv h
  rw [hr (hl _ he)]
  have hlen := hl _ he
  obtain ⟨recs, h1, h2⟩ := encode_recs hW hv he hlen
  refine ⟨recs, h1, fun f hf => ⟨(h2 f hf).1, fun r hr => ?_⟩⟩
  obtain ⟨x, dd, hx, hc, hs⟩ := (h2 f hf).2 r hr
  have hnum := (hW id).nums f hf
  have hrl : r.length < 2 ^ 64 := by
    have := flatten_length_mem (List.mem_flatMap.2 ⟨f, hf, hr⟩)
    rw [h1, List.length_append] at hlen
    omega
  cases hsh : f.shape with
  | msg id' q =>
    rw [hsh] at hs
    obtain ⟨v', p, hsub, hp, rfl⟩ := hs
    exact len_isRecord hnum.1 hnum.2 hrl
  | msgList id' q =>
    rw [hsh] at hs
    obtain ⟨v', p, hsub, hp, rfl⟩ := hs
    exact len_isRecord hnum.1 hnum.2 hrl
  | mapMsg k id' q =>
    rw [hsh] at hs
    obtain ⟨v', p, r1, hsub, hp, hr1, rfl⟩ := hs
    exact len_isRecord hnum.1 hnum.2 hrl
  | _ =>
    rw [hsh] at hs
    exact hs

/-- In the sample the counts are 1 for most fields, 2 for the lists and the second map, and 0 for the
oneof member that is not set. -/
example : (Sample.schema 0).fields.map (fieldCount Sample.schema Sample.valSlots) =
    [1, 1, 1, 1, 1, 1, 0, 1, 2, 2, 1, 2] := by decide +kernel
/-- In the sub-message only the first field is set. -/
example : (Sample.schema 0).fields.map (fieldCount Sample.schema Sample.subSlots) =
    [1, 0, 0, 0, 0, 0, 0, 0, 0, 0, 0, 0] := by decide +kernel

/-! ## C20: the depth limit -/

/-- Marshal and Size fail with the max-depth error exactly if one can step 1000 times from a message
into a sub-message, and otherwise succeed.  (Cyclic values: see `Props/Heap.lean`.) -/
theorem C20_depth (hI : Implements env S) (hW : S.WF) (id : Nat) (v : Val) (hv : Typed S id v) :
    (Nested S 1000 id v → marshal env (.ptr id (some v)) = .error .maxDepth ∧
      size env (.ptr id (some v)) = .error .maxDepth) ∧
    (¬ Nested S 1000 id v → ∃ bs n, marshal env (.ptr id (some v)) = .ok bs ∧
      size env (.ptr id (some v)) = .ok n) := by
  have hs := marshal_size_spec hI hW hv []
  have hn := encode_none_iff hW 1000 id v hv
  cases he : encode S false 1000 id v with
  | none =>
    rw [he] at hs
    exact ⟨fun _ => hs, fun h => absurd (hn.1 he) h⟩
  | some bs =>
    rw [he] at hs hn
    obtain ⟨r, n, h1, h2, _⟩ := hs
    exact ⟨fun h => absurd (hn.2 h) (by simp), fun _ => ⟨r, n, h1, h2⟩⟩

/-- A message nested `n` levels deep. -/
def deep : Nat → Val
  | 0 => .struct Sample.msgZero
  | n + 1 => .struct (Sample.msgZero.set 3 (.ptr (some (deep n))))

theorem deep_nested : ∀ n, Nested Sample.schema n 0 (deep n)
  | 0 => .zero _ _
  | n + 1 => .step _ _ _ 0 (deep n)
      (.mk _ _ _ _ _ (List.mem_of_getElem? (i := 3) rfl) ⟨_, _, rfl, rfl, .ptr _ _⟩) (deep_nested n)

/-- Both sides of the limit occur: `deep 1000` is nested 1000 deep, the sample is not. -/
example : Nested Sample.schema 1000 0 (deep 1000) ∧ ¬ Nested Sample.schema 1000 0 Sample.val :=
  ⟨deep_nested 1000, fun h => by
    have := (encode_none_iff Sample.schema_wf 1000 0 _ Sample.val_typed).2 h
    rw [Sample.val_encode] at this
    cases this⟩

/-! ## C39: nil arguments -/

/-- The claim is false as stated: Marshal of a nil interface fails, Size returns 0. -/
theorem C39_nil_violated (env : GoEnv) :
    marshal env .nil = .error .notPointer ∧ size env .nil = .ok 0 := ⟨rfl, rfl⟩

/-- A struct holding another one of 16 bytes by value:
`type Outer struct { P Pair }; type Pair struct { X, Y int64 }`. -/
def outerEnv : GoEnv where
  structs := [
    { fields := [{ name := "P".toList, type := .struct 1, tag := "bytes,1,opt".toList }]
      size := 16, zero := .struct [.struct [.w64 0, .w64 0]] },
    { fields := [{ name := "X".toList, type := .int64, tag := "varint,1,opt".toList },
                 { name := "Y".toList, type := .int64, tag := "varint,2,opt".toList }]
      size := 16, zero := .struct [.w64 0, .w64 0] }]

/-- For a typed nil pointer Marshal can even write bytes where Size returns 0. -/
theorem C39_typed_nil_violated :
    marshal outerEnv (.ptr 0 none) = .ok [0x0a#8, 0#8] ∧ size outerEnv (.ptr 0 none) = .ok 0 := ⟨rfl, rfl⟩

/-- What does hold: a typed nil pointer is written like the zero value of its type, and Size agrees if
messages are not held by value (as in all generated code), or only in Go structs of size 1, 4, 8. -/
theorem C39_typed_nil_partial (hI : Implements env S) (hW : S.WF) (id : Nat)
    (hm : ∀ f ∈ (S id).fields, ∀ i, f.shape = .msg i false →
      (S i).small = true ∧ (S i).zero.memZero = true) :
    marshal env (.ptr id none) = .ok [] ∧ size env (.ptr id none) = .ok 0 ∧
    marshal env (.ptr id (some (S id).zero)) = .ok [] := by
  have he := encode_zero hW id hm 999
  obtain ⟨D, hD, hok⟩ := parseDescs_ok hI hW
  have hw := (appendStruct_writes hok hW 1000 id none (typed_zero hW id)).1
  rw [Option.getD_none, he] at hw
  obtain ⟨r, hr, hr'⟩ := hw []
  refine ⟨?_, rfl, (marshal_of_encode hI hW (typed_zero hW id) he (by decide) []).1⟩
  simp only [marshal, marshalAppend, hD, bind, Except.bind]
  rw [hr' (by decide)] at hr
  exact hr

/-- The sample type meets the condition (it holds `Inner`, of size 4, by value). -/
example : ∀ f ∈ (Sample.schema 0).fields, ∀ i, f.shape = .msg i false →
    (Sample.schema i).small = true ∧ (Sample.schema i).zero.memZero = true := by
  intro f hf i h
  simp only [Sample.schema, Sample.msg, List.mem_cons, List.not_mem_nil, or_false] at hf
  rcases hf with rfl | rfl | rfl | rfl | rfl | rfl | rfl | rfl | rfl | rfl | rfl | rfl <;> cases h
  exact ⟨rfl, rfl⟩

/-! ## C26 (encoding side): oneofs -/

/-- At most one member of a oneof is encoded: of two different members sharing a Go struct field, one
gives no record (see `C38_presence` for the meaning of the counts). -/
theorem C26_one_member (hW : S.WF) (id : Nat) (slots : List Val) (f g : Field)
    (hf : f ∈ (S id).fields) (hg : g ∈ (S id).fields) (hne : f.num ≠ g.num) (hs : f.slot = g.slot) :
    fieldCount S slots f = 0 ∨ fieldCount S slots g = 0 := by
  obtain ⟨w, w', h1, h2, h3⟩ := (hW id).disjoint f hf g hg hne hs
  unfold fieldCount
  rw [← hs]
  cases slots[f.slot]? with
  | none => exact .inl rfl
  | some x =>
    cases x with
    | iface o =>
      match o with
      | none => exact .inl (by simp [Field.content, h1])
      | some (_, none) => exact .inl (by simp [Field.content, h1])
      | some (u, some d) =>
        by_cases hu : w = u
        · exact .inr (by simp [Field.content, h2, show w' ≠ u by omega])
        · exact .inl (by simp [Field.content, h1, hu])
    | _ => exact .inl (by simp [Field.content, h1])

example : ∃ f ∈ (Sample.schema 0).fields, ∃ g ∈ (Sample.schema 0).fields, f.num ≠ g.num ∧ f.slot = g.slot :=
  ⟨_, List.mem_of_getElem? (i := 5) rfl, _, List.mem_of_getElem? (i := 6) rfl, by decide, rfl⟩

/-- The claim that the member a oneof is set to is always written is false: a member holding an empty
string is dropped, although protobuf prescribes the bytes `32 00`. -/
theorem C26_zero_member_violated :
    marshal Sample.env (.ptr 0 (some (.struct (Sample.msgZero.set 5 (.iface (some (100, some (.str [])))))))) =
      .ok [] ∧
    encode Sample.schema true 1000 0 (.struct (Sample.msgZero.set 5 (.iface (some (100, some (.str [])))))) =
      some [0x32#8, 0#8] := ⟨rfl, by decide +kernel⟩

/-! ## C36: determinism -/

/-- Two values that differ only in the order in which their maps list their entries (anywhere, at any
depth) encode to the same number of bytes, or both fail. -/
theorem C36_length (hI : Implements env S) (hW : S.WF) (id : Nat) (v w : Val) (hv : Typed S id v)
    (hp : MapPerm v w) (r : Bytes) (h : marshal env (.ptr id (some v)) = .ok r)
    (hl : (encode S false 1000 id v).all (·.length < 2 ^ 64)) :
    ∃ r', marshal env (.ptr id (some w)) = .ok r' ∧ r'.length = r.length := by
  have hw := typed_perm hv hp
  obtain ⟨bs, he, hr⟩ := encode_of_marshal hI hW hv h
  rw [he] at hl
  simp only [Option.all_some, decide_eq_true_eq] at hl
  have hp := encode_perm hW false 1000 id v w hp hv hw
  rw [he] at hp
  cases he' : encode S false 1000 id w with
  | none => rw [he'] at hp; cases hp
  | some bs' =>
    rw [he'] at hp
    have hp : bs.length = bs'.length := Option.some.inj hp
    refine ⟨bs', (marshal_of_encode hI hW hw he' (by omega) []).1, ?_⟩
    rw [hr hl, hp]

/-- If one of them fails, so does the other. -/
theorem C36_fails (hI : Implements env S) (hW : S.WF) (id : Nat) (v w : Val) (hv : Typed S id v)
    (hp : MapPerm v w) (e : Fault) (h : marshal env (.ptr id (some v)) = .error e)
    (hl : (encode S false 1000 id v).all (·.length < 2 ^ 64)) :
    ∃ e', marshal env (.ptr id (some w)) = .error e' := by
  have hw := typed_perm hv hp
  cases hr : marshal env (.ptr id (some w)) with
  | error e' => exact ⟨e', rfl⟩
  | ok r =>
    obtain ⟨bs, he, -⟩ := encode_of_marshal hI hW hw hr
    have hp := encode_perm hW false 1000 id v w hp hv hw
    rw [he] at hp
    cases he' : encode S false 1000 id v with
    | none => rw [he'] at hp; cases hp
    | some bs' =>
      rw [he'] at hl
      simp only [Option.all_some, decide_eq_true_eq] at hl
      have := (marshal_of_encode hI hW hv he' (by omega) []).1
      have h : marshalAppend env [] (.ptr id (some v)) = .error e := h
      rw [this] at h
      cases h

/-- If no map has two entries, the bytes are the same. -/
theorem C36_deterministic (id : Nat) (v w : Val) (hp : MapPerm v w) (hn : noBigMaps v = true) :
    marshal env (.ptr id (some w)) = marshal env (.ptr id (some v)) := by
  rw [noBigMaps_eq hp hn]

/-- A value with a map of two entries; listing them the other way round gives different bytes. -/
example : MapPerm (.struct (Sample.msgZero.set 8 (.map (some [(.w32 5#32, .bool true), (.w32 6#32, .bool false)]))))
      (.struct (Sample.msgZero.set 8 (.map (some [(.w32 6#32, .bool false), (.w32 5#32, .bool true)])))) ∧
    marshal Sample.env (.ptr 0 (some (.struct (Sample.msgZero.set 8
      (.map (some [(.w32 5#32, .bool true), (.w32 6#32, .bool false)])))))) =
      .ok [0x82#8, 0x7d#8, 0x04#8, 0x08#8, 0x05#8, 0x10#8, 0x01#8, 0x82#8, 0x7d#8, 0x04#8, 0x08#8, 0x06#8, 0x10#8, 0x00#8] ∧
    marshal Sample.env (.ptr 0 (some (.struct (Sample.msgZero.set 8
      (.map (some [(.w32 6#32, .bool false), (.w32 5#32, .bool true)])))))) =
      .ok [0x82#8, 0x7d#8, 0x04#8, 0x08#8, 0x06#8, 0x10#8, 0x00#8, 0x82#8, 0x7d#8, 0x04#8, 0x08#8, 0x05#8, 0x10#8, 0x01#8] := by
  refine ⟨.struct _ _ rfl (fun i x y hx hy => ?_), rfl, rfl⟩
  by_cases h : i = 8
  · subst h
    cases hx; cases hy
    refine .map _ _ _ (.swap _ _ _) rfl (fun i e e' he he' => ?_)
    rw [he] at he'
    cases he'
    exact .refl _
  · rw [List.getElem?_set_ne (by omega)] at hx hy
    rw [hx] at hy
    cases hy
    exact .refl _

example : noBigMaps (.struct Sample.subSlots) = true := rfl

end Verif.Props
