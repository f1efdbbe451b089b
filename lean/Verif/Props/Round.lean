import Verif.Props.Depth
import Verif.Lemmas.RoundMsg
import Verif.Lemmas.RoundDepth
import Verif.Lemmas.SameMsg
import Verif.Lemmas.DecUnknown
import Verif.Props.SampleNode
/-!
# C01, C22, C26, C36, C51, C52: Marshal and Unmarshal together

`Spec.Same S l id v w` says that `v` and `w` are the same message; with `l = true` a oneof set in `v`
to a member without a record may be unset in `w`.
-/
namespace Verif.Props
open Verif.Spec Verif.Model Verif.Lemmas

variable {env : GoEnv} {S : Schema}

/-- The general form: what Marshal wrote can be read again. -/
theorem round_of_marshal (hI : Implements env S) (hW : S.WF) (l : Bool) {id : Nat} {v : Val} (hv : Typed S id v)
    (hm : l = false → ∀ id' v', Reach S id v id' v' → MembersShown S id' v')
    (hu : ∀ id' v', Reach S id v id' v' → UnknownOK S id' v')
    (hn : ¬ NestedBy S 1000 id v) (hl : ∀ bs, encode S false 1000 id v = some bs → bs.length < 2 ^ 64) {bs : Bytes}
    (h : marshal env (.ptr id (some v)) = .ok bs) :
    ∃ w, unmarshal env bs (.ptr id (some (S id).zero)) = .ok w ∧ Same S l id v w := by
  obtain ⟨bs', he, hb⟩ := encode_of_marshal hI hW hv h
  have hlen := hl _ he
  rw [hb hlen]
  obtain ⟨w, h1, h2⟩ := msg_round (l := l) hW 1000 id v bs' 1000 hv (fun id' v' hr => ⟨fun hl' => hm hl' id' v' hr, hu id' v' hr⟩)
    (fun c hc e => hn (by have : c = 1000 := by omega
                          exact this ▸ hc)) he hlen
  exact ⟨w, ((unmarshal_iff hI hW (typed_zero hW id) bs').1 w).2 h1, h2⟩

/-! ## C01: round trip -/

/-- Marshal succeeds on a message nested less than 500 deep, and reading the result into a zero value gives
the same message, if no oneof is set to a member holding a default value and the bytes kept as unknown
fields are whole records of undeclared fields (as after Unmarshal, see C52).  The hypothesis on the depth is
weakened in `C22_exact_partial`, the one on oneofs is removed in `C01_lossy_partial`. -/
theorem C01_roundtrip_partial (hI : Implements env S) (hW : S.WF) (id : Nat) (v : Val) (hv : Typed S id v)
    (hm : ∀ id' v', Reach S id v id' v' → MembersShown S id' v')
    (hu : ∀ id' v', Reach S id v id' v' → UnknownOK S id' v')
    (hn : ¬ Nested S 500 id v) (hl : ∀ bs, encode S false 1000 id v = some bs → bs.length < 2 ^ 64) :
    ∃ bs w, marshal env (.ptr id (some v)) = .ok bs ∧ unmarshal env bs (.ptr id (some (S id).zero)) = .ok w ∧ Same S false id v w := by
  obtain ⟨bs, _, h, _⟩ := (C20_depth hI hW id v hv).2 (fun h => hn (nested_le h 500 (by decide)))
  have hn' : ¬ NestedBy S 1000 id v := by
    intro h
    obtain ⟨n, h1, h2, h3⟩ := nestedBy_nested h
    exact hn (nested_le h1 500 (by omega))
  obtain ⟨w, h1, h2⟩ := round_of_marshal hI hW false hv (fun _ => hm) hu hn' hl h
  exact ⟨bs, w, h, h1, h2⟩

/-- Without the hypothesis on oneofs: the message read back is the same except that oneofs set to a default value may be unset. -/
theorem C01_lossy_partial (hI : Implements env S) (hW : S.WF) (id : Nat) (v : Val) (hv : Typed S id v)
    (hu : ∀ id' v', Reach S id v id' v' → UnknownOK S id' v')
    (hn : ¬ Nested S 500 id v) (hl : ∀ bs, encode S false 1000 id v = some bs → bs.length < 2 ^ 64) :
    ∃ bs w, marshal env (.ptr id (some v)) = .ok bs ∧ unmarshal env bs (.ptr id (some (S id).zero)) = .ok w ∧ Same S true id v w := by
  obtain ⟨bs, _, h, _⟩ := (C20_depth hI hW id v hv).2 (fun h => hn (nested_le h 500 (by decide)))
  have hn' : ¬ NestedBy S 1000 id v := by
    intro h
    obtain ⟨n, h1, h2, h3⟩ := nestedBy_nested h
    exact hn (nested_le h1 500 (by omega))
  obtain ⟨w, h1, h2⟩ := round_of_marshal hI hW true hv (fun h => by cases h) hu hn' hl h
  exact ⟨bs, w, h, h1, h2⟩

theorem Sample.val_unknown : ∀ id' v', Reach Sample.schema 0 Sample.val id' v' → UnknownOK Sample.schema id' v' := by
  intro id' v' hr slots e
  obtain ⟨slots', rfl, h⟩ := Sample.held_reach hr _ rfl .val
  cases e
  cases h with
  | val =>
    refine ⟨[⟨500, .varint, [0xa0#8, 0x1f#8], [1#8]⟩], ⟨rfl, fun r hr => ?_⟩, fun r hr => ?_⟩
    · rw [List.mem_singleton.1 hr]
      exact ⟨⟨⟨.more _ _ 31 (by decide) (.last _ (by decide)), by decide, by decide⟩, by decide, by decide⟩, 0,
        .varint _ _ _ 1 ⟨.last _ (by decide), by decide, by decide⟩⟩
    · rw [List.mem_singleton.1 hr]
      exact ⟨by decide, .varint _ _ _ 1 ⟨.last _ (by decide), by decide, by decide⟩⟩
  | _ => exact ⟨[], splits_nil, fun r hr => by cases hr⟩

theorem Sample.val_shallow : ¬ Nested Sample.schema 2 0 Sample.val := by
  intro h
  have := (encode_none_iff Sample.schema_wf 2 0 _ Sample.val_typed).2 h
  have h2 : (encode Sample.schema false 2 0 Sample.val).isSome = true := by decide +kernel
  rw [this] at h2
  cases h2

theorem Sample.val_len : ∀ bs, encode Sample.schema false 1000 0 Sample.val = some bs → bs.length < 2 ^ 64 := by
  intro bs h
  rw [Sample.val_encode] at h
  cases h
  decide

/-- The sample value meets all hypotheses. -/
example : ∃ w, unmarshal Sample.env Sample.bytes (.ptr 0 (some (.struct Sample.msgZero))) = .ok w ∧ Same Sample.schema false 0 Sample.val w := by
  obtain ⟨bs, w, h1, h2, h3⟩ := C01_roundtrip_partial Sample.env_implements Sample.schema_wf 0 _ Sample.val_typed Sample.val_shown
    Sample.val_unknown (fun h => Sample.val_shallow (nested_le h 2 (by decide))) Sample.val_len
  have := (marshal_of_encode Sample.env_implements Sample.schema_wf Sample.val_typed Sample.val_encode (by decide) []).1
  rw [show marshalAppend Sample.env [] _ = _ from h1] at this
  cases this
  exact ⟨w, h2, h3⟩

/-- C01 is false as stated: a oneof set to an empty string is unset after a round trip. -/
theorem C01_oneof_violated :
    marshal Sample.env (.ptr 0 (some (.struct (Sample.msgZero.set 5 (.iface (some (100, some (.str [])))))))) = .ok [] ∧
    unmarshal Sample.env [] (.ptr 0 (some (.struct Sample.msgZero))) = .ok (.struct Sample.msgZero) ∧
    ¬ Same Sample.schema false 0 (.struct (Sample.msgZero.set 5 (.iface (some (100, some (.str [])))))) (.struct Sample.msgZero) := by
  refine ⟨rfl, rfl, fun h => ?_⟩
  cases h with
  | mk _ _ _ _ _ h _ =>
    have := h ⟨6, 5, some 100, .single .string⟩ (List.mem_of_getElem? (i := 5) rfl) _ _ rfl rfl
    cases this with
    | unset _ _ _ h1 _ => cases h1
    | set _ _ _ _ _ _ h2 _ => cases h2
    | lost _ _ _ _ h _ _ _ _ => cases h

/-! ## a chain of nodes, for the examples -/

theorem Node.chain_unknown (n : Nat) : ∀ id' v', Reach Node.schema 0 (Node.chain n) id' v' → UnknownOK Node.schema id' v' := by
  intro id' v' hr slots e
  obtain ⟨m, rfl, rfl⟩ := Node.chain_reach hr n rfl rfl
  refine ⟨[], ?_, fun r hr => by cases hr⟩
  cases m <;> cases e <;> exact splits_nil

theorem Node.chain_len : ∀ bs, encode Node.schema false 1000 0 (Node.chain 100) = some bs → bs.length < 2 ^ 64 := by
  intro bs h
  have h2 : (encode Node.schema false 1000 0 (Node.chain 100)).all (fun bs => decide (bs.length < 2 ^ 64)) = true := by decide +kernel
  rw [h] at h2
  simpa using h2

theorem Node.chain_fits : ¬ NestedBy Node.schema 1000 0 (Node.chain 100) := by
  intro h
  obtain ⟨n, h1, h2, h3⟩ := nestedBy_nested h
  have := Node.chain_nested h1
  omega

theorem Node.chain_marshal : ∃ bs, marshal Node.env (.ptr 0 (some (Node.chain 100))) = .ok bs := by
  obtain ⟨bs, _, h, _⟩ := (C20_depth Node.env_implements Node.schema_wf 0 _ (Node.chain_typed 100)).2 (fun h => by
    have := Node.chain_nested h
    omega)
  exact ⟨bs, h⟩

theorem Node.no_maps : ∀ id, ∀ f ∈ (Node.schema id).fields, ∀ k i p, f.shape ≠ .mapMsg k i p
  | 0, f, hf, k, i, p, h => by
    simp only [Node.schema, Node.msg, List.mem_cons, List.not_mem_nil, or_false] at hf
    rcases hf with rfl | rfl | rfl <;> cases h
  | _ + 1, f, hf, _, _, _, _ => by cases hf

theorem Node.no_inline : NoSmallInline Node.schema
  | 0, f, hf, i, h => by
    simp only [Node.schema, Node.msg, List.mem_cons, List.not_mem_nil, or_false] at hf
    rcases hf with rfl | rfl | rfl <;> cases h
  | _ + 1, f, hf, _, _ => by cases hf

theorem Node.maps_small (n : Nat) : MapsSmall Node.schema 0 (Node.chain n) := by
  intro id' v' hr slots e f hf x m hx hc
  obtain ⟨k, rfl, rfl⟩ := Node.chain_reach hr n rfl rfl
  simp only [Node.schema, Node.msg, List.mem_cons, List.not_mem_nil, or_false] at hf
  cases k <;> cases e <;> rcases hf with rfl | rfl | rfl <;> cases hx <;> cases hc

/-! ## C22: depth symmetry -/

/-- Exactly when what Marshal wrote is accepted by Unmarshal: if one cannot step into sub-messages at a total cost
of exactly 1000, a step costing 2 if it goes through a map and 1 otherwise. -/
theorem C22_exact_partial (hI : Implements env S) (hW : S.WF) (id : Nat) (v : Val) (hv : Typed S id v)
    (hu : ∀ id' v', Reach S id v id' v' → UnknownOK S id' v')
    (hl : ∀ bs, encode S false 1000 id v = some bs → bs.length < 2 ^ 64) (bs : Bytes)
    (h : marshal env (.ptr id (some v)) = .ok bs) :
    (∃ w, unmarshal env bs (.ptr id (some (S id).zero)) = .ok w) ↔ ¬ NestedBy S 1000 id v := by
  constructor
  · rintro ⟨w, hw⟩ hn
    obtain ⟨bs', he, hb⟩ := encode_of_marshal hI hW hv h
    have hlen := hl _ he
    obtain ⟨n, hk⟩ := encode_nests hW 1000 id v bs' 1000 hv hu he hlen hn
    rw [hb hlen] at hw
    obtain ⟨e, he', _⟩ := C21_depth_partial hI hW id _ (typed_zero hW id) bs' n hk
    rw [he'] at hw
    cases hw
  · intro hn
    obtain ⟨w, h1, _⟩ := round_of_marshal hI hW true hv (fun h => by cases h) hu hn hl h
    exact ⟨w, h1⟩

/-- Without maps of messages the two limits agree: whatever Marshal accepts, Unmarshal accepts. -/
theorem C22_nomaps_partial (hI : Implements env S) (hW : S.WF) (hmap : ∀ id, ∀ f ∈ (S id).fields, ∀ k i p, f.shape ≠ .mapMsg k i p)
    (id : Nat) (v : Val) (hv : Typed S id v)
    (hu : ∀ id' v', Reach S id v id' v' → UnknownOK S id' v')
    (hl : ∀ bs, encode S false 1000 id v = some bs → bs.length < 2 ^ 64) (bs : Bytes)
    (h : marshal env (.ptr id (some v)) = .ok bs) :
    ∃ w, unmarshal env bs (.ptr id (some (S id).zero)) = .ok w := by
  rw [C22_exact_partial hI hW id v hv hu hl bs h]
  intro hn
  have key : ∀ {c id : Nat} {v : Val}, NestedBy S c id v → Nested S c id v := by
    intro c id v hn
    induction hn with
    | zero id v => exact .zero _ _
    | step c id slots f id' v' hf hs _ ih =>
      have : f.shape.hop = 1 := by
        have := hmap id f hf
        unfold Shape.hop
        split
        · rename_i h; exact absurd h (this _ _ _)
        · rfl
      rw [this]
      exact .step _ _ _ _ _ (.mk _ _ f _ _ hf hs) ih
  have := ((C20_depth hI hW id v hv).1 (key hn)).1
  rw [this] at h
  cases h

/-- A chain of 100 nodes. -/
example : ∃ bs w, marshal Node.env (.ptr 0 (some (Node.chain 100))) = .ok bs ∧ unmarshal Node.env bs (.ptr 0 (some (.struct Node.zero))) = .ok w := by
  obtain ⟨bs, h⟩ := Node.chain_marshal
  obtain ⟨w, hw⟩ := C22_nomaps_partial Node.env_implements Node.schema_wf Node.no_maps 0 _ (Node.chain_typed 100) (Node.chain_unknown 100)
    Node.chain_len bs h
  exact ⟨bs, w, h, hw⟩

/-- Both cases occur: the sample is accepted, 500 messages nested in maps are not (`C22_symmetry_violated`). -/
example : ¬ NestedBy Sample.schema 1000 0 Sample.val := by
  intro h
  obtain ⟨n, h1, h2, h3⟩ := nestedBy_nested h
  exact Sample.val_shallow (nested_le h1 2 (by omega))

/-! ## C26: oneofs -/

/-- A oneof set to a member with a value that is not the default of its type (and, if it is a message, not nil) is, after a
round trip, set to the same member with the same value. -/
theorem C26_member_partial (hI : Implements env S) (hW : S.WF) (id : Nat) (xs : List Val) (hv : Typed S id (.struct xs))
    (hu : ∀ id' v', Reach S id (.struct xs) id' v' → UnknownOK S id' v') (hn : ¬ NestedBy S 1000 id (.struct xs))
    (hl : ∀ bs, encode S false 1000 id (.struct xs) = some bs → bs.length < 2 ^ 64) (bs : Bytes)
    (h : marshal env (.ptr id (some (.struct xs))) = .ok bs)
    (f : Field) (hf : f ∈ (S id).fields) (w : Nat) (hw : f.member = some w) (d : Val) (hd : xs[f.slot]? = some (.iface (some (w, some d))))
    (hc : recordCount S f.shape d ≠ 0) :
    ∃ ys e, unmarshal env bs (.ptr id (some (S id).zero)) = .ok (.struct ys) ∧ ys[f.slot]? = some (.iface (some (w, some e))) ∧
      SameShape S true f.shape d e := by
  obtain ⟨v', h1, h2⟩ := round_of_marshal hI hW true hv (fun h => by cases h) hu hn hl h
  cases h2 with
  | mk _ _ ys e1 e2 e3 e4 =>
    have hs : f.slot < ys.length := by rw [e2]; exact (hW id).slots f hf
    have hy := List.getElem?_eq_getElem hs
    have hcx : f.content (.iface (some (w, some d))) = some d := by simp [Field.content, hw]
    cases e3 f hf _ _ hd hy with
    | unset _ _ _ k1 k2 => rw [hcx] at k1; cases k1
    | lost _ _ _ d' k1 k2 k3 k4 k5 => rw [hcx] at k3; cases k3; exact absurd k4 hc
    | set _ _ _ d' e k1 k2 k3 =>
      rw [hcx] at k1
      cases k1
      refine ⟨ys, e, h1, ?_, k3⟩
      rw [hy]
      simp only [Field.content, hw] at k2
      split at k2
      · split at k2
        · rename_i e' hw'
          cases k2
          rw [e', hw']
        · cases k2
      · cases k2

example : Sample.valSlots[5]? = some (.iface (some (100, some (.str [120#8])))) ∧
    recordCount Sample.schema (.single .string) (.str [120#8]) ≠ 0 := ⟨rfl, by decide⟩

/-! ## C36: map order -/

/-- In whatever order Go lists the entries of the maps of `v`, what Marshal writes is read as the message `v` (up to oneofs
set to default values if there are any). -/
theorem C36_decode (hI : Implements env S) (hW : S.WF) (l : Bool) (id : Nat) (v v' : Val) (hv : Typed S id v)
    (hp : MapPerm v v')
    (hm : l = false → ∀ i u, Reach S id v' i u → MembersShown S i u)
    (hu : ∀ i u, Reach S id v' i u → UnknownOK S i u)
    (hn : ¬ NestedBy S 1000 id v') (hl : ∀ bs, encode S false 1000 id v' = some bs → bs.length < 2 ^ 64) (bs : Bytes)
    (h : marshal env (.ptr id (some v')) = .ok bs) :
    ∃ w, unmarshal env bs (.ptr id (some (S id).zero)) = .ok w ∧ Same S l id v w := by
  obtain ⟨w, h1, h2⟩ := round_of_marshal hI hW l (typed_perm hv hp) hm hu hn hl h
  exact ⟨w, h1, same_perm hv hp h2⟩

/-- `C36_fails` applies to messages that are nested too deeply. -/
example : marshal Node.env (.ptr 0 (some (Node.chain 1000))) = .error .maxDepth ∧ Typed Node.schema 0 (Node.chain 1000) ∧
    (encode Node.schema false 1000 0 (Node.chain 1000)).all (·.length < 2 ^ 64) = true :=
  ⟨by decide +kernel, Node.chain_typed 1000, by decide +kernel⟩

/-- The value with the map of two entries, listed the other way round (see `C36_length` for the bytes). -/
example : unmarshal Sample.env [0x82#8, 0x7d#8, 0x04#8, 0x08#8, 0x06#8, 0x10#8, 0x00#8, 0x82#8, 0x7d#8, 0x04#8, 0x08#8, 0x05#8, 0x10#8, 0x01#8]
    (.ptr 0 (some (.struct Sample.msgZero))) =
    .ok (.struct (Sample.msgZero.set 8 (.map (some [(.w32 6#32, .bool false), (.w32 5#32, .bool true)])))) := rfl

/-! ## C51: reading and writing again -/

/-- Writing the message read from Marshal's output again gives as many bytes, and the same bytes if no map has two entries.
(Type condition: messages are not held by value in Go structs of size 1, 4 or 8; see the next theorem.) -/
theorem C51_stable (hI : Implements env S) (hW : S.WF) (hB : NoSmallInline S) (id : Nat) (v : Val) (hv : Typed S id v)
    (hu : ∀ id' v', Reach S id v id' v' → UnknownOK S id' v') (hn : ¬ NestedBy S 1000 id v)
    (hl : ∀ bs, encode S false 1000 id v = some bs → bs.length < 2 ^ 64) (bs : Bytes)
    (h : marshal env (.ptr id (some v)) = .ok bs) :
    ∃ w bs', unmarshal env bs (.ptr id (some (S id).zero)) = .ok w ∧ marshal env (.ptr id (some w)) = .ok bs' ∧
      bs'.length = bs.length ∧ (MapsSmall S id v → bs' = bs) := by
  obtain ⟨w, h1, h2⟩ := round_of_marshal hI hW true hv (fun h => by cases h) hu hn hl h
  have hw := unmarshal_typed hI hW (typed_zero hW id) h1
  obtain ⟨b, he, hb⟩ := encode_of_marshal hI hW hv h
  have hlen := hl _ he
  have ha := encode_same hW hB 1000 id v w hv hw h2
  rw [hb hlen]
  have h3 := ha.1
  rw [he] at h3
  cases he' : encode S false 1000 id w with
  | none => rw [he'] at h3; cases h3
  | some b' =>
    rw [he'] at h3
    have h4 : b.length = b'.length := by simpa [olen] using h3
    refine ⟨w, b', by rw [← hb hlen]; exact h1, (marshal_of_encode hI hW hw he' (by omega) []).1, h4.symm, fun hc => ?_⟩
    have := ha.2 hc
    rw [he, he'] at this
    cases this
    rfl

/-- The chain of 100 nodes meets all hypotheses, that on maps included. -/
example : ∃ bs w, marshal Node.env (.ptr 0 (some (Node.chain 100))) = .ok bs ∧
    unmarshal Node.env bs (.ptr 0 (some (.struct Node.zero))) = .ok w ∧ marshal Node.env (.ptr 0 (some w)) = .ok bs := by
  obtain ⟨bs, h⟩ := Node.chain_marshal
  obtain ⟨w, bs', h1, h2, _, h3⟩ := C51_stable Node.env_implements Node.schema_wf Node.no_inline 0 _ (Node.chain_typed 100)
    (Node.chain_unknown 100) Node.chain_fits Node.chain_len bs h
  rw [h3 (Node.maps_small 100)] at h2
  exact ⟨bs, w, h, h1, h2⟩

/-- `type Outer struct { P Inner }; type Inner struct { M map[int32]int32 }`. -/
def inlineEnv : GoEnv where
  structs := [
    { fields := [{ name := "P".toList, type := .struct 1, tag := "bytes,1,opt".toList }]
      size := 8, zero := .struct [.struct [.map none]] },
    { fields := [{ name := "M".toList, type := .map .int32 .int32, tag := "bytes,1,rep".toList,
                   keyTag := "varint,1,opt".toList, valTag := "varint,2,opt".toList }]
      size := 8, zero := .struct [.map none] }]

/-- The type condition is needed: with a message held by value in a Go struct of 8 bytes whose only map is empty but not nil, two bytes
are written the first time and none the second time. -/
theorem C51_inline_violated :
    marshal inlineEnv (.ptr 0 (some (.struct [.struct [.map (some [])]]))) = .ok [0x0a#8, 0#8] ∧
    unmarshal inlineEnv [0x0a#8, 0#8] (.ptr 0 (some (.struct [.struct [.map none]]))) = .ok (.struct [.struct [.map none]]) ∧
    marshal inlineEnv (.ptr 0 (some (.struct [.struct [.map none]]))) = .ok [] := ⟨rfl, rfl, rfl⟩

/-! ## C52: decoded messages -/

/-- Reading any input into a zero value, and then writing and reading again: the second reading succeeds (unless the depths
add up to exactly 1000, see C22), gives the same message, with the same unknown fields, except that
oneof members present on the wire with a default value are lost. -/
theorem C52_reread (hI : Implements env S) (hW : S.WF) (id : Nat) (b : Bytes) (w : Val)
    (h : unmarshal env b (.ptr id (some (S id).zero)) = .ok w) (hn : ¬ NestedBy S 1000 id w)
    (hl : ∀ bs, encode S false 1000 id w = some bs → bs.length < 2 ^ 64) (bs : Bytes)
    (h' : marshal env (.ptr id (some w)) = .ok bs) :
    ∃ w', unmarshal env bs (.ptr id (some (S id).zero)) = .ok w' ∧ Same S true id w w' := by
  have hw := unmarshal_typed hI hW (typed_zero hW id) h
  have hu := decodes_unk hW (((unmarshal_iff hI hW (typed_zero hW id) b).1 w).1 h) (typed_zero hW id) (allUnk_zero hW id)
  exact round_of_marshal hI hW true hw (fun h => by cases h) (fun i u hr => hu i u (reach'_of_reach hr)) hn hl h'

/-- The sample input, with an unknown field. -/
example : ∃ w, unmarshal Sample.env Sample.input (.ptr 0 (some (.struct Sample.msgZero))) = .ok w ∧ ¬ NestedBy Sample.schema 1000 0 w ∧
    ∃ bs, marshal Sample.env (.ptr 0 (some w)) = .ok bs := by
  refine ⟨_, Sample.unmarshal_input, fun h => ?_, [0x08#8, 7#8, 0x12#8, 1#8, 0x78#8, 0x78#8, 9#8], rfl⟩
  obtain ⟨n, h1, h2, h3⟩ := nestedBy_nested h
  have h4 := (encode_none_iff Sample.schema_wf 5 0 _
    (unmarshal_typed Sample.env_implements Sample.schema_wf Sample.zero_typed Sample.unmarshal_input)).2 (nested_le h1 5 (by omega))
  have h5 : (encode Sample.schema false 5 0 (.struct Sample.output)).isSome = true := by decide +kernel
  rw [h4] at h5
  cases h5

/-- The unknown fields of a message that was read, and of all messages in it, are whole records of undeclared fields (the hypothesis of C01). -/
theorem C52_unknown (hI : Implements env S) (hW : S.WF) (id : Nat) (b : Bytes) (w : Val)
    (h : unmarshal env b (.ptr id (some (S id).zero)) = .ok w) : ∀ i u, Reach S id w i u → UnknownOK S i u := fun i u hr =>
  decodes_unk hW (((unmarshal_iff hI hW (typed_zero hW id) b).1 w).1 h) (typed_zero hW id) (allUnk_zero hW id) i u (reach'_of_reach hr)

end Verif.Props
