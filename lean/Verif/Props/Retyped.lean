import Verif.Lemmas.Retyped
import Verif.Props.Round
import Verif.Props.SampleWide
/-!
# C99: changing the types of fields to compatible ones
-/
namespace Verif.Props
open Verif.Spec Verif.Model Verif.Lemmas Verif.Lemmas.Retype

variable {env env' : GoEnv} {S T : Schema}

/-- What it means to widen a value: numbers keep their value (when a signed number becomes unsigned, or the other way
round, modulo 2^64), `true` is 1 and `false` is 0, strings and bytes keep their bytes. -/
theorem C99_values :
    (∀ v : BitVec 32, ∃ u : BitVec 64, widen .int32 .int64 (.w32 v) = .w64 u ∧ widen .sint32 .sint64 (.w32 v) = .w64 u ∧ u.toInt = v.toInt) ∧
    (∀ v : BitVec 32, ∃ u : BitVec 64, widen .int32 .uint64 (.w32 v) = .w64 u ∧ (u.toNat : Int) = v.toInt % 2 ^ 64) ∧
    (∀ v : BitVec 32, ∃ u : BitVec 64, widen .uint32 .uint64 (.w32 v) = .w64 u ∧ widen .uint32 .int64 (.w32 v) = .w64 u ∧
      u.toNat = v.toNat ∧ u.toInt = v.toNat) ∧
    (∀ v : BitVec 64, widen .int64 .uint64 (.w64 v) = .w64 v ∧ widen .uint64 .int64 (.w64 v) = .w64 v) ∧
    (∀ b : Bool, widen .bool .int32 (.bool b) = .w32 (BitVec.ofNat 32 b.toNat) ∧ widen .bool .uint32 (.bool b) = .w32 (BitVec.ofNat 32 b.toNat) ∧
      widen .bool .int64 (.bool b) = .w64 (BitVec.ofNat 64 b.toNat) ∧ widen .bool .uint64 (.bool b) = .w64 (BitVec.ofNat 64 b.toNat)) ∧
    (∀ s : Bytes, ∃ o : Option Bytes, widen .string .bytes (.str s) = .bytes o ∧ o.getD [] = s) ∧
    (∀ o : Option Bytes, widen .bytes .string (.bytes o) = .str (o.getD [])) := by
  refine ⟨fun v => ⟨_, rfl, rfl, signExtend_toInt v⟩, fun v => ⟨_, rfl, ?_⟩, fun v => ⟨_, rfl, rfl, setWidth_toNat v, ?_⟩,
    fun v => ⟨rfl, rfl⟩, fun b => by cases b <;> exact ⟨rfl, rfl, rfl, rfl⟩, fun s => ⟨_, rfl, by cases s <;> rfl⟩, fun o => rfl⟩
  · rw [Retype.signExtend_toNat]
    omega
  · rw [BitVec.toInt_eq_toNat_cond, setWidth_toNat]
    have := v.isLt
    rw [if_pos (by omega)]

/-- Every message of a program is a message with the same content for a program in which types of fields have been changed
to wider ones (or single values to optional ones or to lists), and for that message the second program writes the very same
bytes. -/
theorem C99_bytes (hI : Implements env S) (hI' : Implements env' T) (hS : S.WF) (hT : T.WF) (hR : Retyped S T) (id : Nat) (v : Val)
    (hv : Typed S id v) : ∃ w, Typed T id w ∧ Wide S T id v w ∧
      ((encode S false 1000 id v).all (·.length < 2 ^ 64) → marshal env' (.ptr id (some w)) = marshal env (.ptr id (some v))) := by
  obtain ⟨w, h1, h2⟩ := wide_msg hS hT hR hv
  refine ⟨w, h1, h2, fun hl => ?_⟩
  have a := C37_encoding hI hS id v hv
  have b := C37_encoding hI' hT id w h1
  rw [← wide_encode hT hR false 1000 id v w h2] at b
  cases he : encode S false 1000 id v with
  | none => rw [he] at a b; rw [a, b]
  | some bs =>
    rw [he] at a b hl
    simp only [Option.all_some, decide_eq_true_eq] at hl
    rw [a hl, b hl]

/-- Whatever the first program writes for a message, the second one reads as that message, with the content widened, at every
level of nesting (if no oneof in the message is set to a default value, or else, with `l = true`, up to such oneofs). -/
theorem C99_read (hI : Implements env S) (hI' : Implements env' T) (hS : S.WF) (hT : T.WF) (hR : Retyped S T) (id : Nat) (v : Val)
    (hv : Typed S id v) (l : Bool) (hm : l = false → ∀ i u, Reach S id v i u → MembersShown S i u)
    (hu : ∀ i u, Reach S id v i u → UnknownOK S i u) (hn : ¬ NestedBy S 1000 id v)
    (hl : ∀ bs, encode S false 1000 id v = some bs → bs.length < 2 ^ 64) (bs : Bytes) (h : marshal env (.ptr id (some v)) = .ok bs) :
    ∃ w u, Typed T id w ∧ Wide S T id v w ∧ unmarshal env' bs (.ptr id (some (T id).zero)) = .ok u ∧ Same T l id w u := by
  obtain ⟨w, h1, h2, h3⟩ := C99_bytes hI hI' hS hT hR id v hv
  have hl' : (encode S false 1000 id v).all (·.length < 2 ^ 64) = true := by
    cases he : encode S false 1000 id v with
    | none => rfl
    | some bs => simpa using hl bs he
  rw [← h3 hl'] at h
  obtain ⟨u, a1, a2⟩ := round_of_marshal hI' hT l h1
    (fun e i u hr => by
      obtain ⟨v', r1, r2⟩ := reach_back hR hr h2
      exact members_back hT hR r2 (hm e i v' r1))
    (fun i u hr => by
      obtain ⟨v', r1, r2⟩ := reach_back hR hr h2
      exact unknown_back hR r2 (hu i v' r1))
    (fun h => hn (nested_back hR h h2))
    (fun bs' he => hl bs' (by rw [wide_encode hT hR false 1000 id v w h2]; exact he)) h
  exact ⟨w, u, h1, h2, a1, a2⟩

/-! ## examples -/

namespace WideNode

theorem retyped_fields : ∀ p ∈ (Node.schema 0).fields.zip (schema 0).fields,
    p.2.num = p.1.num ∧ p.2.slot = p.1.slot ∧ p.2.member = p.1.member ∧ ShapeChange p.1.shape p.2.shape := by
  intro p hp
  simp only [Node.schema, Node.msg, schema, msg, List.zip_cons_cons, List.zip_nil_right, List.mem_cons, List.not_mem_nil, or_false] at hp
  rcases hp with rfl | rfl | rfl
  · exact ⟨rfl, rfl, rfl, .presence _ _ rfl⟩
  · exact ⟨rfl, rfl, rfl, .oneToList _⟩
  · exact ⟨rfl, rfl, rfl, .msgList _ _⟩

theorem retyped : Retyped Node.schema schema := by
  refine ⟨fun id => ?_, fun id => ?_, fun id => ?_, fun id => ?_⟩ <;> cases id
  · rfl
  · rfl
  · exact retyped_fields
  · intro p hp; cases hp
  all_goals rfl

/-- The hypotheses of `C99_read` hold for a chain of 100 nodes. -/
example : ∃ bs w u, marshal Node.env (.ptr 0 (some (Node.chain 100))) = .ok bs ∧ Wide Node.schema schema 0 (Node.chain 100) w ∧
    unmarshal WideNode.env bs (.ptr 0 (some (schema 0).zero)) = .ok u ∧ Same schema true 0 w u := by
  obtain ⟨bs, h⟩ := Node.chain_marshal
  obtain ⟨w, u, _, h1, h2, h3⟩ := C99_read Node.env_implements env_implements Node.schema_wf schema_wf retyped 0 _ (Node.chain_typed 100) true nofun
    (Node.chain_unknown 100) Node.chain_fits Node.chain_len bs h
  exact ⟨bs, w, u, h, h1, h2, h3⟩

/-- `v = -3` and a `next` with `v = 0`. -/
def narrow : Val := .struct [.w32 (-3), .ptr (some (.struct [.w32 0, .ptr none, .slice [], .bytes none])), .slice [], .bytes none]
/-- The same with the new types. -/
def wide : Val :=
  .struct [.ptr (some (.w64 (-3))), .slice [.ptr (some (.struct [.ptr none, .slice [], .slice [], .bytes none]))], .slice [], .bytes none]

example : marshal Node.env (.ptr 0 (some narrow)) = .ok [8, 0xfd, 0xff, 0xff, 0xff, 0xff, 0xff, 0xff, 0xff, 0xff, 1, 18, 0] := by rfl
example : unmarshal WideNode.env [8, 0xfd, 0xff, 0xff, 0xff, 0xff, 0xff, 0xff, 0xff, 0xff, 1, 18, 0] (.ptr 0 (some (schema 0).zero)) = .ok wide := by rfl

end WideNode
end Verif.Props
