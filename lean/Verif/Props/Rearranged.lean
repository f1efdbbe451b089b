import Verif.Lemmas.Rearranged
import Verif.Lemmas.Relayed
import Verif.Props.Round
import Verif.Props.Narrowed
import Verif.Props.SampleNode
import Verif.Props.SampleMix
import Verif.Props.SampleBox
/-!
# C102: the order of Go fields does not matter
-/
namespace Verif.Props
open Verif.Spec Verif.Model Verif.Lemmas Verif.Lemmas.Rearrange

variable {env env' : GoEnv} {S T : Schema}

/-- Two messages of Go types that differ in the order of their fields (and in Go fields without tags) have the same bytes and
the same size, or fail with the same error, if their tagged fields have the same content. -/
theorem C102_bytes (hI : Implements env S) (hI' : Implements env' T) (hS : S.WF) (hT : T.WF) (hR : Rearranged S T) (id : Nat) (v w : Val)
    (hv : Typed S id v) (hw : Typed T id w) (h : Wide S T id v w) (hl : ∀ bs, encode S false 1000 id v = some bs → bs.length < 2 ^ 64) :
    marshal env' (.ptr id (some w)) = marshal env (.ptr id (some v)) ∧
    ∀ n, size env (.ptr id (some v)) = .ok n → size env' (.ptr id (some w)) = .ok n := by
  have a := C37_encoding hI hS id v hv
  have b := C37_encoding hI' hT id w hw
  have e := moved_encode hS hT hR 1000 id v w h
  rw [← e] at b
  have c := marshal_size_spec hI hS hv []
  cases he : encode S false 1000 id v with
  | none =>
    rw [he] at a b c
    exact ⟨by rw [a, b], fun n hn => by rw [c.2] at hn; cases hn⟩
  | some bs =>
    have hlen := hl bs he
    rw [he] at a b
    refine ⟨by rw [a hlen, b hlen], fun n hn => ?_⟩
    rw [(marshal_of_encode hI hS hv he hlen []).2] at hn
    rw [(marshal_of_encode hI' hT hw (e ▸ he) hlen []).2]
    exact hn

/-- What a program writes for a message is read, by a program whose Go types differ in that way, as a message with that
content (under the conditions of C01). -/
theorem C102_read_partial (hI : Implements env S) (hI' : Implements env' T) (hS : S.WF) (hT : T.WF) (hR : Rearranged S T) (id : Nat) (v w : Val)
    (hv : Typed S id v) (hw : Typed T id w) (h : Wide S T id v w) (hl : ∀ bs, encode S false 1000 id v = some bs → bs.length < 2 ^ 64)
    (l : Bool) (hm : l = false → ∀ i u, Reach T id w i u → MembersShown T i u) (hu : ∀ i u, Reach T id w i u → UnknownOK T i u)
    (hn : ¬ NestedBy T 1000 id w) (bs : Bytes) (hb : marshal env (.ptr id (some v)) = .ok bs) :
    ∃ u, unmarshal env' bs (.ptr id (some (T id).zero)) = .ok u ∧ Same T l id w u := by
  rw [← (C102_bytes hI hI' hS hT hR id v w hv hw h hl).1] at hb
  exact round_of_marshal hI' hT l hw hm hu hn (fun bs' he => hl bs' (by rw [moved_encode hS hT hR 1000 id v w h]; exact he)) hb

/-- Any input: two programs whose Go types differ in the order of the fields accept the same inputs, and read the same content
(`CutMsg`, for the same types of fields, is equality of scalars up to nil and empty bytes, and of the
unknown fields where both keep them, in nested messages, lists and maps), if they read into messages with the same content. -/
theorem C102_input (hI : Implements env T) (hI' : Implements env' S) (hT : T.WF) (hS : S.WF) (hR : Reordered T S) (id : Nat) (v v' : Val)
    (hv : Typed T id v) (hv' : Typed S id v') (hk : CutMsg T S id v v') (b : Bytes) :
    (∀ w, unmarshal env b (.ptr id (some v)) = .ok w →
      ∃ w', unmarshal env' b (.ptr id (some v')) = .ok w' ∧ CutMsg T S id w w') ∧
    (∀ w', unmarshal env' b (.ptr id (some v')) = .ok w' →
      ∃ w, unmarshal env b (.ptr id (some v)) = .ok w ∧ CutMsg T S id w w') := by
  refine ⟨fun w h => C99_input_partial hI hI' hT hS (reordered_narrowed hR) id v v' hv hv' hk b w h, fun w' h => ?_⟩
  obtain ⟨w, h1, h2⟩ := C99_input_partial hI' hI hS hT (reordered_narrowed (reordered_symm hR)) id v' v hv' hv (Relayed.cut_symm hR hk) b w' h
  exact ⟨w, h1, Relayed.cut_symm (reordered_symm hR) h2⟩

/-- In particular, reading into new variables. -/
theorem C102_fresh (hI : Implements env T) (hI' : Implements env' S) (hT : T.WF) (hS : S.WF) (hR : Reordered T S) (id : Nat) (b : Bytes) :
    (∀ w, unmarshal env b (.ptr id (some (T id).zero)) = .ok w →
      ∃ w', unmarshal env' b (.ptr id (some (S id).zero)) = .ok w' ∧ CutMsg T S id w w') ∧
    (∀ w', unmarshal env' b (.ptr id (some (S id).zero)) = .ok w' →
      ∃ w, unmarshal env b (.ptr id (some (T id).zero)) = .ok w ∧ CutMsg T S id w w') :=
  C102_input hI hI' hT hS hR id _ _ (typed_zero hT id) (typed_zero hS id) (Narrow.cut_zero hT hS (reordered_narrowed hR) id) b

/-- Reading any input and writing the message again: two programs whose Go types differ in the order of the fields, and keep
unknown fields in the same messages, give the same bytes, or the same error.  (For types that hold single messages by pointer.
The encoding is to fit into the address space.) -/
theorem C102_relay (hI : Implements env T) (hI' : Implements env' S) (hT : T.WF) (hS : S.WF) (hR : Reordered T S)
    (hu : ∀ id, (T id).unknown.isSome = (S id).unknown.isSome) (hp : ∀ id, ∀ f ∈ (T id).fields, ∀ i, f.shape ≠ .msg i false)
    (id : Nat) (v v' : Val) (hv : Typed T id v) (hv' : Typed S id v') (hk : CutMsg T S id v v') (b : Bytes) (w w' : Val)
    (h : unmarshal env b (.ptr id (some v)) = .ok w) (h' : unmarshal env' b (.ptr id (some v')) = .ok w')
    (hl : ∀ bs, encode T false 1000 id w = some bs → bs.length < 2 ^ 64) :
    marshal env' (.ptr id (some w')) = marshal env (.ptr id (some w)) := by
  obtain ⟨u, h1, h2⟩ := (C102_input hI hI' hT hS hR id v v' hv hv' hk b).1 w h
  rw [h'] at h1
  cases h1
  have a := C37_encoding hI hT id w (C50_typed hI hT id _ hv b w h)
  have c := C37_encoding hI' hS id w' (C50_typed hI' hS id _ hv' b w' h')
  rw [← Relayed.cut_encode hT hS hR hu hp 1000 id w w' h2] at c
  cases he : encode T false 1000 id w with
  | none => rw [he] at a c; rw [a, c]
  | some bs => rw [he] at a c; rw [a (hl bs he), c (hl bs he)]

/-- With messages held by value it is not so.  Whether an empty message held by value is written depends on the size of its Go
type: with a further Go field without tag, `Marshal` gives an empty record for it, and without, nothing.  So two programs that
read the same content (nothing, from no bytes) write different bytes. -/
theorem C102_byValue_violated : ∃ (env env' : GoEnv) (T S : Schema) (id : Nat) (b : Bytes) (w w' : Val),
    Implements env T ∧ Implements env' S ∧ T.WF ∧ S.WF ∧ Reordered T S ∧ (∀ id, (T id).unknown.isSome = (S id).unknown.isSome) ∧
    unmarshal env b (.ptr id (some (T id).zero)) = .ok w ∧ unmarshal env' b (.ptr id (some (S id).zero)) = .ok w' ∧
    CutMsg T S id w w' ∧ marshal env (.ptr id (some w)) = .ok [] ∧ marshal env' (.ptr id (some w')) = .ok [10, 0] := by
  refine ⟨Box.env false, Box.env true, Box.schema false, Box.schema true, 0, [], _, _, Box.env_implements _, Box.env_implements _,
    Box.schema_wf _, Box.schema_wf _, Box.reordered, fun id => ?_, by rfl, by rfl,
    Narrow.cut_zero (Box.schema_wf _) (Box.schema_wf _) (reordered_narrowed Box.reordered) 0, by rfl, by rfl⟩
  match id with
  | 0 => rfl
  | 1 => rfl
  | _ + 2 => rfl

/-! ## examples -/

namespace MixNode

theorem rearranged : Rearranged Node.schema schema := by
  refine ⟨fun id => ?_, fun id => ?_⟩ <;> cases id
  · rfl
  · rfl
  · intro p hp
    simp only [Node.schema, Node.msg, schema, msg, List.zip_cons_cons, List.zip_nil_right, List.mem_cons, List.not_mem_nil, or_false] at hp
    rcases hp with rfl | rfl | rfl
    · exact ⟨rfl, .single _ _ rfl⟩
    · exact ⟨rfl, .msg _⟩
    · exact ⟨rfl, .msgList _ _⟩
  · intro p hp; cases hp

theorem reordered : Reordered Node.schema schema := by
  refine ⟨fun id => ?_, fun id => ?_, fun id => ?_⟩ <;> cases id
  · rfl
  · rfl
  · intro p hp
    simp only [Node.schema, Node.msg, schema, msg, List.zip_cons_cons, List.zip_nil_right, List.mem_cons, List.not_mem_nil, or_false] at hp
    rcases hp with rfl | rfl | rfl <;> exact ⟨rfl, rfl, rfl⟩
  · intro p hp; cases hp
  · decide
  · intro p hp; cases hp

/-- The hypotheses of `C102_fresh`, and so those of `C102_input`, hold; an input with an unknown field. -/
example := C102_fresh Node.env_implements MixNode.env_implements Node.schema_wf schema_wf reordered 0 [18, 2, 8, 7, 48, 1, 26, 0]

example : unmarshal Node.env [18, 2, 8, 7, 48, 1, 26, 0] (.ptr 0 (some (Node.schema 0).zero)) =
      .ok (.struct [.w32 0, .ptr (some (.struct [.w32 7, .ptr none, .slice [], .bytes none])), .slice [.ptr (some (.struct Node.zero))], .bytes (some [48, 1])]) ∧
    unmarshal MixNode.env [18, 2, 8, 7, 48, 1, 26, 0] (.ptr 0 (some (schema 0).zero)) =
      .ok (.struct [.slice [.ptr (some (.struct zero))], .bytes (some [48, 1]), .w64 0,
        .ptr (some (.struct [.slice [], .bytes none, .w64 0, .ptr none, .w32 7])), .w32 0]) := ⟨by rfl, by rfl⟩

/-- What the two programs read from it. -/
def got : Val := .struct [.w32 0, .ptr (some (.struct [.w32 7, .ptr none, .slice [], .bytes none])), .slice [.ptr (some (.struct Node.zero))], .bytes (some [48, 1])]

def got' : Val := .struct [.slice [.ptr (some (.struct zero))], .bytes (some [48, 1]), .w64 0,
  .ptr (some (.struct [.slice [], .bytes none, .w64 0, .ptr none, .w32 7])), .w32 0]

/-- A second input, read into what the first one gave. -/
example (c : Bytes) (u : Val) (h : unmarshal Node.env c (.ptr 0 (some got)) = .ok u) :
    ∃ u', unmarshal MixNode.env c (.ptr 0 (some got')) = .ok u' ∧ CutMsg Node.schema schema 0 u u' := by
  have h1 : unmarshal Node.env [18, 2, 8, 7, 48, 1, 26, 0] (.ptr 0 (some (Node.schema 0).zero)) = .ok got := by rfl
  have h2 : unmarshal MixNode.env [18, 2, 8, 7, 48, 1, 26, 0] (.ptr 0 (some (schema 0).zero)) = .ok got' := by rfl
  obtain ⟨w', h3, h4⟩ := (C102_fresh Node.env_implements MixNode.env_implements Node.schema_wf schema_wf reordered 0 _).1 _ h1
  rw [h2] at h3
  cases h3
  exact (C102_input Node.env_implements MixNode.env_implements Node.schema_wf schema_wf reordered 0 _ _
    (C50_typed Node.env_implements Node.schema_wf 0 _ (typed_zero Node.schema_wf 0) _ _ h1)
    (C50_typed MixNode.env_implements schema_wf 0 _ (typed_zero schema_wf 0) _ _ h2) h4 c).1 u h

/-- The hypotheses of `C102_relay` hold; an input with an unknown field, in another order than it is written. -/
example : marshal MixNode.env (.ptr 0 (some (.struct [.slice [.ptr (some (.struct zero))], .bytes (some [48, 1]), .w64 0,
        .ptr (some (.struct [.slice [], .bytes none, .w64 0, .ptr none, .w32 7])), .w32 0]))) = .ok [18, 2, 8, 7, 26, 0, 48, 1] := by
  rw [C102_relay Node.env_implements MixNode.env_implements Node.schema_wf schema_wf reordered (fun id => by cases id <;> rfl)
    (fun id f hf i => by
      cases id with
      | zero =>
        simp only [Node.schema, Node.msg, List.mem_cons, List.not_mem_nil, or_false] at hf
        rcases hf with rfl | rfl | rfl <;> nofun
      | succ n => cases hf)
    0 _ _ (typed_zero Node.schema_wf 0) (typed_zero schema_wf 0) (Narrow.cut_zero Node.schema_wf schema_wf (reordered_narrowed reordered) 0)
    [18, 2, 8, 7, 48, 1, 26, 0] (.struct [.w32 0, .ptr (some (.struct [.w32 7, .ptr none, .slice [], .bytes none])), .slice [.ptr (some (.struct Node.zero))], .bytes (some [48, 1])])
    _ (by rfl) (by rfl) (fun bs h => by
      have e : encode Node.schema false 1000 0 (.struct [.w32 0, .ptr (some (.struct [.w32 7, .ptr none, .slice [], .bytes none])), .slice [.ptr (some (.struct Node.zero))], .bytes (some [48, 1])]) = some [18, 2, 8, 7, 26, 0, 48, 1] := by decide +kernel
      rw [e] at h
      cases h
      decide)]
  rfl

/-- A chain of nodes, with any numbers in `Stamp`. -/
def chain : Nat → Val
  | 0 => .struct zero
  | n + 1 => .struct [.slice [], .bytes none, .w64 (BitVec.ofNat 64 n), .ptr (some (chain n)), .w32 (BitVec.ofNat 32 n)]

theorem chain_typed : ∀ n, Typed schema 0 (chain n)
  | 0 => Lemmas.typed_zero schema_wf 0
  | n + 1 => by
    refine .mk 0 _ rfl ?_ ?_
    · intro f hf x hx
      simp only [schema, msg, List.mem_cons, List.not_mem_nil, or_false] at hf
      rcases hf with rfl | rfl | rfl <;> cases hx
      · exact .plain _ _ rfl (.single _ _ rfl)
      · exact .plain _ _ rfl (.msg _ _ _ (.ptr _ _ (chain_typed n)))
      · exact .plain _ _ rfl (.msgList _ _ _ nofun)
    · intro s p x hs hx
      simp only [schema, msg, Option.some.injEq, Prod.mk.injEq] at hs
      obtain ⟨rfl, rfl⟩ := hs
      cases hx
      exact ⟨_, rfl⟩

theorem chain_same : ∀ n, Wide Node.schema schema 0 (Node.chain n) (chain n)
  | 0 => by
    refine .mk 0 _ _ rfl rfl (fun f g hfg x y hx hy => ?_) rfl
    simp only [Node.schema, Node.msg, schema, msg, List.zip_cons_cons, List.zip_nil_right, List.mem_cons, List.not_mem_nil, or_false, Prod.mk.injEq] at hfg
    rcases hfg with ⟨rfl, rfl⟩ | ⟨rfl, rfl⟩ | ⟨rfl, rfl⟩ <;> cases hx <;> cases hy <;> refine .set _ _ _ _ _ _ rfl rfl ?_
    · exact .single .int32 .int32 (.w32 0) rfl
    · exact .noMsg _
    · exact .msgList 0 true [] nofun
  | n + 1 => by
    refine .mk 0 _ _ rfl rfl (fun f g hfg x y hx hy => ?_) rfl
    simp only [Node.schema, Node.msg, schema, msg, List.zip_cons_cons, List.zip_nil_right, List.mem_cons, List.not_mem_nil, or_false, Prod.mk.injEq] at hfg
    rcases hfg with ⟨rfl, rfl⟩ | ⟨rfl, rfl⟩ | ⟨rfl, rfl⟩ <;> cases hx <;> cases hy <;> refine .set _ _ _ _ _ _ rfl rfl ?_
    · exact .single .int32 .int32 (.w32 _) rfl
    · exact .msg _ _ _ (chain_same n)
    · exact .msgList 0 true [] nofun

theorem chain_sub {n id : Nat} {v : Val} (h : SubMsg schema 0 (chain n) id v) : ∃ m, n = m + 1 ∧ id = 0 ∧ v = chain m := by
  generalize hv : chain n = x at h
  cases h with
  | mk slots f _ _ hf hs =>
    obtain ⟨x, d, hx, hc, hs⟩ := hs
    simp only [schema, msg, List.mem_cons, List.not_mem_nil, or_false] at hf
    cases n with
    | zero => cases hv; rcases hf with rfl | rfl | rfl <;> cases hx <;> cases hc <;> cases hs; rename_i h; cases h
    | succ n =>
      cases hv
      rcases hf with rfl | rfl | rfl <;> cases hx <;> cases hc <;> cases hs
      · exact ⟨n, rfl, rfl, rfl⟩
      · rename_i h; cases h

theorem chain_reach {id' id : Nat} {u v : Val} (h : Reach schema id' u id v) : ∀ n, id' = 0 → u = chain n → ∃ m, id = 0 ∧ v = chain m := by
  induction h with
  | refl id v => exact fun n h1 h2 => ⟨n, h1, h2⟩
  | step id v id1 v1 id2 v2 hs _ ih =>
    intro n h1 h2
    subst h1 h2
    obtain ⟨m, rfl, h1, h2⟩ := chain_sub hs
    exact ih m h1 h2

theorem chain_nested : ∀ {n k : Nat}, Nested schema k 0 (chain n) → k ≤ n
  | _, 0, _ => Nat.zero_le _
  | n, k + 1, h => by
    cases h with
    | step _ _ _ id' v' hs h =>
      obtain ⟨m, rfl, rfl, rfl⟩ := chain_sub hs
      have := chain_nested h
      omega

theorem chain_unknown (n : Nat) : ∀ i u, Reach schema 0 (chain n) i u → UnknownOK schema i u := by
  intro i u hr slots e
  obtain ⟨m, rfl, rfl⟩ := chain_reach hr n rfl rfl
  refine ⟨[], ?_, fun r hr => by cases hr⟩
  cases m <;> cases e <;> exact splits_nil

theorem chain_shown (n : Nat) : ∀ i u, Reach schema 0 (chain n) i u → MembersShown schema i u := by
  intro i u hr slots e f hf hm
  obtain ⟨m, rfl, rfl⟩ := chain_reach hr n rfl rfl
  simp only [schema, msg, List.mem_cons, List.not_mem_nil, or_false] at hf
  rcases hf with rfl | rfl | rfl <;> exact absurd rfl hm

/-- The hypotheses of `C102_read_partial` hold for chains of 100 nodes. -/
example : ∃ bs u, marshal Node.env (.ptr 0 (some (Node.chain 100))) = .ok bs ∧
    unmarshal MixNode.env bs (.ptr 0 (some (schema 0).zero)) = .ok u ∧ Same schema false 0 (chain 100) u := by
  obtain ⟨bs, h⟩ := Node.chain_marshal
  obtain ⟨u, h1, h2⟩ := C102_read_partial Node.env_implements MixNode.env_implements Node.schema_wf schema_wf rearranged 0 _ _ (Node.chain_typed 100)
    (chain_typed 100) (chain_same 100) Node.chain_len false (fun _ => chain_shown 100) (chain_unknown 100)
    (fun h => by
      obtain ⟨n, h1, h2, h3⟩ := nestedBy_nested h
      have := chain_nested h1
      omega) bs h
  exact ⟨bs, u, h, h1, h2⟩

/-- The hypotheses of `C102_bytes` hold for chains of 100 nodes. -/
example : marshal MixNode.env (.ptr 0 (some (chain 100))) = marshal Node.env (.ptr 0 (some (Node.chain 100))) :=
  (C102_bytes Node.env_implements MixNode.env_implements Node.schema_wf schema_wf rearranged 0 _ _ (Node.chain_typed 100) (chain_typed 100)
    (chain_same 100) Node.chain_len).1

example : marshal MixNode.env (.ptr 0 (some (chain 2))) = .ok [8, 1, 18, 2, 18, 0] ∧
    marshal Node.env (.ptr 0 (some (Node.chain 2))) = .ok [8, 1, 18, 2, 18, 0] := ⟨by rfl, by rfl⟩

end MixNode

end Verif.Props
