import Verif.Lemmas.Lift
import Verif.Props.Relay
/-!
# C98: messages written with an older version of the definitions
-/
namespace Verif.Props
open Verif.Spec Verif.Model Verif.Lemmas

variable {env env' : GoEnv} {O S : Schema} {σ : Nat → Nat → Nat}

/-- A message a program with an older version has made is a message `v` for the newer one: with the same content in
the fields both know, and nothing in the others.  Whatever the older program writes for it, listing the entries of maps
in any order, the newer one reads as `v` (if no oneof in the message is set to a default value, or else, with `l = true`,
up to such oneofs). -/
theorem C98_read (hI : Implements env S) (hI' : Implements env' O) (hS : S.WF) (hO : O.WF) (hV : Grows O S σ) (id : Nat) (w : Val)
    (hw : Typed O id w) (hu : ∀ i ys, Reach O id w i (.struct ys) → unknownOf (O i) ys = []) (hn : ¬ NestedBy O 1000 id w) :
    ∃ v, Typed S id v ∧ Kept O S σ id v w ∧ Bare O S σ id v ∧
      ∀ l : Bool, (l = false → ∀ i u, Reach O id w i u → MembersShown O i u) →
      ∀ w' bs, MapPerm w w' → marshal env' (.ptr id (some w')) = .ok bs → (encode O false 1000 id w').all (·.length < 2 ^ 64) →
      ∃ u, unmarshal env bs (.ptr id (some (S id).zero)) = .ok u ∧ Same S l id v u := by
  obtain ⟨v, h1, h2, h3, h4⟩ := lift_msg hS hO hV hw 1000 ⟨hu, fun c hc h => hn (by
    have : c = 1000 := by omega
    rw [← this]; exact hc)⟩
  refine ⟨v, h1, h2, h4, fun l hm w' bs hp hok hl => ?_⟩
  obtain ⟨bs', he, hr⟩ := encode_of_marshal hI' hO (typed_perm hw hp) hok
  rw [he] at hl
  simp only [Option.all_some, decide_eq_true_eq] at hl
  rw [hr hl]
  obtain ⟨u, g1, g2⟩ := relay_msg hS hO hV 1000 1000 id v w w' bs' h3 hp (fun h => shown_car hS hO hV h3 h4 (hm h)) h1 hw he hl
  exact ⟨u, (C50_exact hI hS id _ (typed_zero hS id) bs' u).2 g1, g2⟩

namespace OldNode

def node (n : BitVec 32) (kids : List Val) : Val := .struct [.w32 n, .slice kids, .bytes none]

/-- A message of the older version: two kids, one of them nil. -/
def family : Val := node 5 [.ptr (some (node 2 [])), .ptr none]

theorem node_typed (n : BitVec 32) (xs : List Val) (hx : ∀ v ∈ xs, RefTyped schema 0 true v) : Typed schema 0 (node n xs) := by
  refine .mk _ _ rfl (fun f hf x h => ?_) (fun s p x h hx => ?_)
  · simp only [schema, msg, List.mem_cons, List.not_mem_nil, or_false] at hf
    rcases hf with rfl | rfl
    · cases h; exact .plain _ _ rfl (.single _ _ rfl)
    · cases h; exact .plain _ _ rfl (.msgList _ _ _ hx)
  · simp only [schema, msg, Option.some.injEq, Prod.mk.injEq] at h
    obtain ⟨rfl, rfl⟩ := h
    cases hx
    exact ⟨_, rfl⟩

theorem family_typed : Typed schema 0 family := by
  refine node_typed _ _ (fun v hv => ?_)
  simp only [List.mem_cons, List.not_mem_nil, or_false] at hv
  rcases hv with rfl | rfl
  · exact .ptr _ _ (node_typed _ _ (by simp))
  · exact .nil _

theorem node_field {n : BitVec 32} {xs : List Val} {f : Field} (hf : f ∈ (schema 0).fields) {id' : Nat} {v' : Val}
    (h : FieldSub schema [.w32 n, .slice xs, .bytes none] f id' v') :
    f.shape.hop = 1 ∧ id' = 0 ∧ ∃ x ∈ xs, v' = deref schema 0 true x := by
  obtain ⟨x, e, hx, hc, hs⟩ := h
  simp only [schema, msg, List.mem_cons, List.not_mem_nil, or_false] at hf
  rcases hf with rfl | rfl
  · cases hs
  · cases hx; cases hc
    cases hs with
    | list _ _ _ x hx => exact ⟨rfl, rfl, x, hx, rfl⟩

theorem node_sub {n : BitVec 32} {xs : List Val} {id' : Nat} {v' : Val} (h : SubMsg schema 0 (node n xs) id' v') :
    id' = 0 ∧ ∃ x ∈ xs, v' = deref schema 0 true x := by
  generalize hv : node n xs = v at h
  cases h with
  | mk slots f _ _ hf hs => cases hv; exact (node_field hf hs).2

theorem leaf_reach {n : BitVec 32} {i : Nat} {u : Val} (h : Reach schema 0 (node n []) i u) : i = 0 ∧ u = node n [] := by
  cases h with
  | refl => exact ⟨rfl, rfl⟩
  | step _ _ _ _ _ _ hs _ => obtain ⟨_, x, hx, _⟩ := node_sub hs; cases hx

theorem family_sub {id' : Nat} {v' : Val} (h : SubMsg schema 0 family id' v') : id' = 0 ∧ ∃ n, v' = node n [] := by
  obtain ⟨rfl, x, hx, rfl⟩ := node_sub h
  simp only [List.mem_cons, List.not_mem_nil, or_false] at hx
  rcases hx with rfl | rfl
  · exact ⟨rfl, 2, rfl⟩
  · exact ⟨rfl, 0, rfl⟩

theorem family_reach {i : Nat} {u : Val} (h : Reach schema 0 family i u) : i = 0 ∧ ∃ n xs, u = node n xs := by
  cases h with
  | refl => exact ⟨rfl, _, _, rfl⟩
  | step _ _ _ _ _ _ hs h =>
    obtain ⟨rfl, n, rfl⟩ := family_sub hs
    obtain ⟨rfl, rfl⟩ := leaf_reach h
    exact ⟨rfl, _, _, rfl⟩

theorem node_nested {c : Nat} {n : BitVec 32} {xs : List Val} (h : NestedBy schema c 0 (node n xs)) :
    c = 0 ∨ ∃ c' x, c = c' + 1 ∧ x ∈ xs ∧ NestedBy schema c' 0 (deref schema 0 true x) := by
  generalize hv : node n xs = v at h
  cases h with
  | zero => exact .inl rfl
  | step c' _ slots f id' v' hf hs h =>
    cases hv
    obtain ⟨h1, rfl, x, hx, rfl⟩ := node_field hf hs
    exact .inr ⟨c', x, by rw [h1], hx, h⟩

theorem family_nested {c : Nat} (h : NestedBy schema c 0 family) : c ≤ 1 := by
  rcases node_nested h with rfl | ⟨c', x, rfl, hx, h⟩
  · omega
  · simp only [List.mem_cons, List.not_mem_nil, or_false] at hx
    rcases hx with rfl | rfl
    · rcases node_nested (n := 2) h with rfl | ⟨_, _, _, hx, _⟩
      · omega
      · cases hx
    · rcases node_nested (n := 0) (xs := []) h with rfl | ⟨_, _, _, hx, _⟩
      · omega
      · cases hx

theorem family_written : marshal OldNode.env (.ptr 0 (some family)) = .ok [0x08#8, 5#8, 0x1a#8, 2#8, 0x08#8, 2#8, 0x1a#8, 0#8] := by decide +kernel

/-- The theorem applies, and this is what the newer program reads. -/
example : ∃ v u, Kept schema Node.schema place 0 v family ∧ Bare schema Node.schema place 0 v ∧
    unmarshal Node.env [0x08#8, 5#8, 0x1a#8, 2#8, 0x08#8, 2#8, 0x1a#8, 0#8] (.ptr 0 (some (Node.schema 0).zero)) = .ok u ∧
    Same Node.schema false 0 v u := by
  obtain ⟨v, _, h2, h3, h4⟩ := C98_read Node.env_implements env_implements Node.schema_wf schema_wf relays.toGrows 0 family family_typed
    (fun i ys h => by obtain ⟨rfl, n, xs, e⟩ := family_reach h; cases e; rfl) (fun h => by have := family_nested h; omega)
  have nm : ∀ i, ∀ f ∈ (schema i).fields, f.member = none
    | 0 => by decide
    | _ + 1 => nofun
  obtain ⟨u, h5, h6⟩ := h4 false (fun _ i u _ xs _ f hf hm => absurd (nm i f hf) hm) _ _ (.refl _) family_written (by decide +kernel)
  exact ⟨v, u, h2, h3, h5, h6⟩

end OldNode
end Verif.Props
