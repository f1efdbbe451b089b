import Verif.Lemmas.Older
import Verif.Props.Unmarshal
import Verif.Props.SampleNode
import Verif.Props.SampleOld
/-!
# C96: programs built with different versions of the message definitions
-/
namespace Verif.Props
open Verif.Spec Verif.Model Verif.Lemmas

variable {env env' : GoEnv} {O S : Schema} {σ : Nat → Nat → Nat}

/-- Whatever input a program accepts, a program built with an older version of the message types accepts
too, and reads the same content in all the fields it knows, in nested messages, lists and maps too. -/
theorem C96_read (hI : Implements env S) (hI' : Implements env' O) (hS : S.WF) (hO : O.WF) (hV : Older O S σ)
    (id : Nat) (v v' : Val) (hv : Typed S id v) (hv' : Typed O id v') (hk : Kept O S σ id v v') (b : Bytes) (w : Val)
    (h : unmarshal env b (.ptr id (some v)) = .ok w) :
    ∃ w', unmarshal env' b (.ptr id (some v')) = .ok w' ∧ Kept O S σ id w w' := by
  obtain ⟨w', h1, h2⟩ := decodes_kept hS hO hV ((C50_exact hI hS id v hv b w).1 h) v' hk
  exact ⟨w', (C50_exact hI' hO id v' hv' b w').2 h1, h2⟩

/-- In particular, reading into new variables. -/
theorem C96_fresh (hI : Implements env S) (hI' : Implements env' O) (hS : S.WF) (hO : O.WF) (hV : Older O S σ)
    (id : Nat) (b : Bytes) (w : Val) (h : unmarshal env b (.ptr id (some (S id).zero)) = .ok w) :
    ∃ w', unmarshal env' b (.ptr id (some (O id).zero)) = .ok w' ∧ Kept O S σ id w w' :=
  C96_read hI hI' hS hO hV id _ _ (typed_zero hS id) (typed_zero hO id) (kept_zero hS hO hV id) b w h

/-- What the older program does not know is kept: its storage of unknown fields holds the records of the
fields only the newer program knows (and of those neither knows), in order. -/
theorem C96_stored (hI : Implements env S) (hI' : Implements env' O) (hS : S.WF) (hO : O.WF) (hV : Older O S σ)
    (id : Nat) (hu : (O id).unknown.isSome) (b : Bytes) (w : Val)
    (h : unmarshal env b (.ptr id (some (S id).zero)) = .ok w) :
    ∃ ys rs, unmarshal env' b (.ptr id (some (O id).zero)) = .ok (.struct ys) ∧ Splits b rs ∧
      unknownOf (O id) ys = rawOf (rs.filter (fun r => !(O id).declares r.num)) := by
  obtain ⟨w', h1, h2⟩ := C96_fresh hI hI' hS hO hV id b w h
  cases h2 with
  | mk _ xs ys _ _ _ =>
    obtain ⟨zs, hz, _⟩ := (hO id).zero
    rw [hz] at h1 ⊢
    obtain ⟨rs, h3, h4⟩ := C12_preserved hI' hO id zs ys (hz ▸ typed_zero hO id) b h1
    exact ⟨ys, rs, h1, h3, h4 hu⟩

/-! ## an example -/

namespace OldNode

/-- Where the Go struct fields of `Node` are in `OldNode`. -/
def place : Nat → Nat → Nat
  | _, 0 => 0
  | _, 2 => 1
  | _, i => i + 10

theorem older : Older schema Node.schema place where
  fields
    | 0 => by decide
    | _ + 1 => nofun
  apart
    | 0 => by decide
    | _ + 1 => nofun

/-- `v = 5`, a `next` with `v = 1`, a kid with `v = 2` that has a `next`. -/
def input : Bytes := [0x08#8, 5#8, 0x12#8, 2#8, 0x08#8, 1#8, 0x1a#8, 6#8, 0x08#8, 2#8, 0x12#8, 2#8, 0x08#8, 3#8]

def newKid : Val := .struct [.w32 2, .ptr (some (.struct [.w32 3, .ptr none, .slice [], .bytes none])), .slice [], .bytes none]
def newNode : Val :=
  .struct [.w32 5, .ptr (some (.struct [.w32 1, .ptr none, .slice [], .bytes none])), .slice [.ptr (some newKid)], .bytes none]
def oldKid : Val := .struct [.w32 2, .slice [], .bytes (some [0x12#8, 2#8, 0x08#8, 3#8])]
def oldNode : Val := .struct [.w32 5, .slice [.ptr (some oldKid)], .bytes (some [0x12#8, 2#8, 0x08#8, 1#8])]

theorem read_new : unmarshal Node.env input (.ptr 0 (some (Node.schema 0).zero)) = .ok newNode := by rfl
theorem read_old : unmarshal OldNode.env input (.ptr 0 (some (schema 0).zero)) = .ok oldNode := by rfl

example : Kept schema Node.schema place 0 newNode oldNode := by
  obtain ⟨w', h1, h2⟩ := C96_fresh Node.env_implements env_implements Node.schema_wf schema_wf older 0 _ _ read_new
  rw [read_old] at h1
  cases h1
  exact h2

/-- `Kept` can tell values apart. -/
example : ¬ Kept schema Node.schema place 0 newNode (.struct [.w32 6, .slice [.ptr (some oldKid)], .bytes none]) := by
  intro h
  cases h with
  | mk _ _ _ _ _ h =>
    have := h ⟨1, 0, none, .single .int32⟩ (List.mem_of_getElem? (i := 0) rfl) (by decide) _ _ rfl rfl
    cases this with
    | plain _ _ _ _ h => exact absurd (show (5 : BitVec 32) = 6 by cases h) (by decide)

end OldNode
end Verif.Props
