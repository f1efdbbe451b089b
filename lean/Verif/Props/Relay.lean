import Verif.Lemmas.Relay
import Verif.Props.Older
import Verif.Props.Marshal
/-!
# C97: messages that pass through a program with an older version of the definitions
-/
namespace Verif.Props
open Verif.Spec Verif.Model Verif.Lemmas

variable {env env' : GoEnv} {O S : Schema} {σ : Nat → Nat → Nat}

/-- A message passes unharmed through a program with an older version, if no oneof in it is set to a default value
(or, with `l = true`, up to such oneofs).  That program reads any input the newer one accepts, and writes what it has read,
listing the entries of maps in any order.  The newer program reads from that the same message as from the
input itself. -/
theorem C97_relay (hI : Implements env S) (hI' : Implements env' O) (hS : S.WF) (hO : O.WF) (hV : Relays O S σ)
    (l : Bool) (id : Nat) (b : Bytes) (v : Val) (h : unmarshal env b (.ptr id (some (S id).zero)) = .ok v)
    (hm : l = false → ∀ i u, Reach S id v i u → MembersShown S i u) :
    ∃ w, unmarshal env' b (.ptr id (some (O id).zero)) = .ok w ∧ ∀ w' bs, MapPerm w w' →
      marshal env' (.ptr id (some w')) = .ok bs → (encode O false 1000 id w').all (·.length < 2 ^ 64) →
      ∃ v', unmarshal env bs (.ptr id (some (S id).zero)) = .ok v' ∧ Same S l id v v' := by
  have hd := (C50_exact hI hS id _ (typed_zero hS id) b v).1 h
  obtain ⟨w, h1, h2⟩ := decodes_car hS hO hV hd rfl
  have hv := decodes_typed hS hd (typed_zero hS id)
  have hw := decodes_typed hO h1 (typed_zero hO id)
  refine ⟨w, (C50_exact hI' hO id _ (typed_zero hO id) b w).2 h1, fun w' bs hp hw' hl => ?_⟩
  obtain ⟨bs', he, hr⟩ := encode_of_marshal hI' hO (typed_perm hw hp) hw'
  rw [he] at hl
  simp only [Option.all_some, decide_eq_true_eq] at hl
  rw [hr hl]
  obtain ⟨v', g1, g2⟩ := relay_msg hS hO hV.toGrows 1000 1000 id v w w' bs' h2 hp hm hv hw he hl
  exact ⟨v', (C50_exact hI hS id _ (typed_zero hS id) bs' v').2 g1, g2⟩

namespace OldNode

theorem relays : Relays schema Node.schema place where
  older := older
  keeps
    | 0 => .inl (by decide)
    | _ + 1 => .inr ⟨rfl, rfl⟩
  pointers
    | 0 => by
      intro f hf id'
      simp only [Node.schema, Node.msg, List.mem_cons, List.not_mem_nil, or_false] at hf
      rcases hf with rfl | rfl | rfl <;> nofun
    | _ + 1 => nofun
  oneofs
    | 0 => by unfold Known; decide
    | _ + 1 => nofun

theorem noMembers : ∀ i, ∀ f ∈ (Node.schema i).fields, f.member = none
  | 0 => by decide
  | _ + 1 => nofun

/-- What the older program writes for `input`: the field `next` is at the end now. -/
def output : Bytes := [0x08#8, 5#8, 0x1a#8, 6#8, 0x08#8, 2#8, 0x12#8, 2#8, 0x08#8, 3#8, 0x12#8, 2#8, 0x08#8, 1#8]

theorem written : marshal OldNode.env (.ptr 0 (some oldNode)) = .ok output := by decide +kernel

example : ∃ v', unmarshal Node.env output (.ptr 0 (some (Node.schema 0).zero)) = .ok v' ∧ Same Node.schema false 0 newNode v' := by
  obtain ⟨w, h1, h2⟩ := C97_relay Node.env_implements env_implements Node.schema_wf schema_wf relays false 0 _ _ read_new
    (fun _ i u _ xs _ f hf hm => absurd (noMembers i f hf) hm)
  rw [read_old] at h1
  cases h1
  exact h2 _ _ (.refl _) written (by decide +kernel)

/-- It is the very same message here. -/
example : unmarshal Node.env output (.ptr 0 (some (Node.schema 0).zero)) = .ok newNode := by rfl

end OldNode
end Verif.Props
