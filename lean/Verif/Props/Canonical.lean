import Verif.Lemmas.SameJoin
import Verif.Lemmas.SameSelf
import Verif.Props.Round
/-!
# C100: equal bytes mean equal messages
-/
namespace Verif.Props
open Verif.Spec Verif.Model Verif.Lemmas

variable {env : GoEnv} {S : Schema}

/-- Two messages for which Marshal gives the same bytes are the same message, if no oneof in them is set to a default value
(see `C100_oneof_violated`), the bytes kept as unknown fields are whole records, and they are not nested more deeply than
Unmarshal allows. -/
theorem C100_injective_partial (hI : Implements env S) (hW : S.WF) (id : Nat) (v w : Val) (hv : Typed S id v) (hw : Typed S id w)
    (hm : ∀ i u, Reach S id v i u → MembersShown S i u) (hm' : ∀ i u, Reach S id w i u → MembersShown S i u)
    (hu : ∀ i u, Reach S id v i u → UnknownOK S i u) (hu' : ∀ i u, Reach S id w i u → UnknownOK S i u)
    (hn : ¬ NestedBy S 1000 id v) (hn' : ¬ NestedBy S 1000 id w)
    (hl : ∀ bs, encode S false 1000 id v = some bs → bs.length < 2 ^ 64)
    (hl' : ∀ bs, encode S false 1000 id w = some bs → bs.length < 2 ^ 64) (bs : Bytes)
    (h : marshal env (.ptr id (some v)) = .ok bs) (h' : marshal env (.ptr id (some w)) = .ok bs) : Same S false id v w := by
  obtain ⟨u, a1, a2⟩ := round_of_marshal hI hW false hv (fun _ => hm) hu hn hl h
  obtain ⟨u', b1, b2⟩ := round_of_marshal hI hW false hw (fun _ => hm') hu' hn' hl' h'
  rw [a1] at b1
  cases b1
  exact same_join hW a2 _ b2

/-- For the same message Marshal gives as many bytes, and the same bytes if no map has two entries: nil and empty maps, slices
and bytes, nil pointers in lists, and whatever is in Go struct fields that are no part of the message, make no difference.  (Type
condition: messages are not held by value in Go structs of size 1, 4 or 8; see `C51_inline_violated`.) -/
theorem C100_same (hI : Implements env S) (hW : S.WF) (hB : NoSmallInline S) (id : Nat) (v w : Val) (hv : Typed S id v) (hw : Typed S id w)
    (hs : Same S false id v w) (hl : ∀ bs, encode S false 1000 id v = some bs → bs.length < 2 ^ 64) (bs : Bytes)
    (h : marshal env (.ptr id (some v)) = .ok bs) :
    ∃ bs', marshal env (.ptr id (some w)) = .ok bs' ∧ bs'.length = bs.length ∧ (MapsSmall S id v → bs' = bs) := by
  obtain ⟨b, he, hb⟩ := encode_of_marshal hI hW hv h
  have hlen := hl _ he
  have ha := encode_same hW hB 1000 id v w hv hw hs
  rw [hb hlen]
  have h3 := ha.1
  rw [he] at h3
  cases he' : encode S false 1000 id w with
  | none => rw [he'] at h3; cases h3
  | some b' =>
    rw [he'] at h3
    have h4 : b.length = b'.length := by simpa [olen] using h3
    refine ⟨b', (marshal_of_encode hI hW hw he' (by omega) []).1, h4.symm, fun hc => ?_⟩
    have := ha.2 hc
    rw [he, he'] at this
    cases this
    rfl

/-- Both together: the bytes can be compared instead of the messages. -/
theorem C100_compare_partial (hI : Implements env S) (hW : S.WF) (hB : NoSmallInline S) (id : Nat) (v w : Val) (hv : Typed S id v)
    (hw : Typed S id w) (hc : MapsSmall S id v)
    (hm : ∀ i u, Reach S id v i u → MembersShown S i u) (hm' : ∀ i u, Reach S id w i u → MembersShown S i u)
    (hu : ∀ i u, Reach S id v i u → UnknownOK S i u) (hu' : ∀ i u, Reach S id w i u → UnknownOK S i u)
    (hn : ¬ NestedBy S 1000 id v) (hn' : ¬ NestedBy S 1000 id w)
    (hl : ∀ bs, encode S false 1000 id v = some bs → bs.length < 2 ^ 64)
    (hl' : ∀ bs, encode S false 1000 id w = some bs → bs.length < 2 ^ 64) (bs : Bytes)
    (h : marshal env (.ptr id (some v)) = .ok bs) : marshal env (.ptr id (some w)) = .ok bs ↔ Same S false id v w := by
  refine ⟨fun h' => C100_injective_partial hI hW id v w hv hw hm hm' hu hu' hn hn' hl hl' bs h h', fun hs => ?_⟩
  obtain ⟨bs', a1, _, a3⟩ := C100_same hI hW hB id v w hv hw hs hl bs h
  rw [a1, a3 hc]

/-- Without the condition on oneofs: the bytes are the same exactly when the two messages become the same message by unsetting
oneofs that are set to default values. -/
theorem C100_exact (hI : Implements env S) (hW : S.WF) (hB : NoSmallInline S) (id : Nat) (v w : Val) (hv : Typed S id v)
    (hw : Typed S id w) (hc : MapsSmall S id v) (hc' : MapsSmall S id w)
    (hu : ∀ i u, Reach S id v i u → UnknownOK S i u) (hu' : ∀ i u, Reach S id w i u → UnknownOK S i u)
    (hn : ¬ NestedBy S 1000 id v) (hn' : ¬ NestedBy S 1000 id w)
    (hl : ∀ bs, encode S false 1000 id v = some bs → bs.length < 2 ^ 64)
    (hl' : ∀ bs, encode S false 1000 id w = some bs → bs.length < 2 ^ 64) (bs : Bytes)
    (h : marshal env (.ptr id (some v)) = .ok bs) :
    marshal env (.ptr id (some w)) = .ok bs ↔ ∃ u, Typed S id u ∧ Same S true id v u ∧ Same S true id w u := by
  refine ⟨fun h' => ?_, fun ⟨u, ht, h1, h2⟩ => ?_⟩
  · obtain ⟨u, a1, a2⟩ := round_of_marshal hI hW true hv nofun hu hn hl h
    obtain ⟨u', b1, b2⟩ := round_of_marshal hI hW true hw nofun hu' hn' hl' h'
    rw [a1] at b1
    cases b1
    exact ⟨u, unmarshal_typed hI hW (typed_zero hW id) a1, a2, b2⟩
  · obtain ⟨b, he, hb⟩ := encode_of_marshal hI hW hv h
    have hlen := hl _ he
    have e1 := (encode_same hW hB 1000 id v u hv ht h1).2 hc
    have e2 := (encode_same hW hB 1000 id w u hw ht h2).2 hc'
    rw [← e1, he] at e2
    rw [hb hlen]
    exact (marshal_of_encode hI hW hw e2 hlen []).1

/-! ## examples -/

theorem Node.chain_shown (n : Nat) : ∀ i u, Reach Node.schema 0 (Node.chain n) i u → MembersShown Node.schema i u := by
  intro i u hr slots e f hf hm
  obtain ⟨m, rfl, rfl⟩ := Node.chain_reach hr n rfl rfl
  simp only [Node.schema, Node.msg, List.mem_cons, List.not_mem_nil, or_false] at hf
  rcases hf with rfl | rfl | rfl <;> exact absurd rfl hm

/-- The hypotheses of `C100_compare_partial` hold for a chain of 100 nodes and itself. -/
example : ∃ bs, marshal Node.env (.ptr 0 (some (Node.chain 100))) = .ok bs ∧
    (marshal Node.env (.ptr 0 (some (Node.chain 100))) = .ok bs ↔ Same Node.schema false 0 (Node.chain 100) (Node.chain 100)) := by
  obtain ⟨bs, h⟩ := Node.chain_marshal
  exact ⟨bs, h, C100_compare_partial Node.env_implements Node.schema_wf Node.no_inline 0 _ _ (Node.chain_typed 100) (Node.chain_typed 100)
    (Node.maps_small 100) (Node.chain_shown 100) (Node.chain_shown 100) (Node.chain_unknown 100) (Node.chain_unknown 100) Node.chain_fits
    Node.chain_fits Node.chain_len Node.chain_len bs h⟩

/-- The hypotheses of `C100_exact` hold for chains of 100 nodes. -/
example : ∃ bs, marshal Node.env (.ptr 0 (some (Node.chain 100))) = .ok bs ∧
    ∃ u, Typed Node.schema 0 u ∧ Same Node.schema true 0 (Node.chain 100) u ∧ Same Node.schema true 0 (Node.chain 100) u := by
  obtain ⟨bs, h⟩ := Node.chain_marshal
  exact ⟨bs, h, (C100_exact Node.env_implements Node.schema_wf Node.no_inline 0 _ _ (Node.chain_typed 100) (Node.chain_typed 100)
    (Node.maps_small 100) (Node.maps_small 100) (Node.chain_unknown 100) (Node.chain_unknown 100) Node.chain_fits
    Node.chain_fits Node.chain_len Node.chain_len bs h).1 h⟩

/-- A list with a nil pointer, and one with an empty message: the same message, the same bytes. -/
example : marshal Node.env (.ptr 0 (some (.struct [.w32 0, .ptr none, .slice [.ptr none], .bytes (some [])]))) = .ok [26, 0] ∧
    marshal Node.env (.ptr 0 (some (.struct [.w32 0, .ptr none, .slice [.ptr (some (.struct Node.zero))], .bytes none]))) = .ok [26, 0] := ⟨by rfl, by rfl⟩

/-- Two messages that differ - in one a oneof is set - with the same bytes. -/
theorem C100_oneof_violated : ∃ v w, Typed Sample.schema 0 v ∧ Typed Sample.schema 0 w ∧
    marshal Sample.env (.ptr 0 (some v)) = .ok [] ∧ marshal Sample.env (.ptr 0 (some w)) = .ok [] ∧ ¬ Same Sample.schema false 0 v w := by
  refine ⟨.struct (Sample.msgZero.set 5 (.iface (some (100, some (.str []))))), .struct Sample.msgZero, ?_, typed_zero Sample.schema_wf 0,
    rfl, rfl, C01_oneof_violated.2.2⟩
  have hz : Typed Sample.schema 0 (.struct Sample.msgZero) := typed_zero Sample.schema_wf 0
  cases hz with
  | mk _ _ h1 h2 h3 =>
    refine .mk 0 _ rfl (fun f hf x hx => ?_) (fun s p x hs hx => h3 s p x hs ?_)
    · by_cases e : f.slot = 5
      · simp only [Sample.schema, Sample.msg, List.mem_cons, List.not_mem_nil, or_false] at hf
        rcases hf with rfl | rfl | rfl | rfl | rfl | rfl | rfl | rfl | rfl | rfl | rfl | rfl <;> first | (exfalso; revert e; decide) | cases hx
        · exact .member _ _ _ rfl (.single _ _ rfl)
        · exact .otherMember _ _ _ _ rfl (by decide)
      · rw [List.getElem?_set_ne (fun h => e h.symm)] at hx
        exact h2 f hf x hx
    · simp only [Sample.schema, Sample.msg, Option.some.injEq, Prod.mk.injEq] at hs
      obtain ⟨rfl, rfl⟩ := hs
      exact hx

end Verif.Props
