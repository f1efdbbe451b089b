import Verif.Lemmas.Retyped
/-! # The encoding of a message does not depend on the limit of nesting -/
namespace Verif.Lemmas.More
open Verif.Spec Verif.Model

variable {S : Schema}

theorem concatM_more {α : Type} {g g' : α → Option Bytes} (h : ∀ x b, g x = some b → g' x = some b) : ∀ {xs : List α} {b : Bytes},
    concatM g xs = some b → concatM g' xs = some b
  | [], _, hb => hb
  | x :: xs, b, hb => by
    simp only [concatM, Option.bind_eq_bind, Option.bind_eq_some_iff] at hb
    obtain ⟨p, h1, q, h2, h3⟩ := hb
    simp only [concatM, h x p h1, concatM_more h h2, Option.bind_eq_bind, Option.bind_some]
    exact h3

theorem shape_more {enc enc' : Nat → Val → Option Bytes} (h : ∀ id v b, enc id v = some b → enc' id v = some b) (num : Nat) (keep : Bool)
    (a : Shape) (x : Val) (b : Bytes) (hb : encodeShape S enc num keep a x = some b) : encodeShape S enc' num keep a x = some b := by
  have step : ∀ (id : Nat) (v : Val) (b : Bytes), (do return tag num .len ++ lenDelim (← enc id v)) = some b →
      (do return tag num .len ++ lenDelim (← enc' id v)) = some b := by
    intro id v b hb
    simp only [Option.bind_eq_bind, Option.bind_eq_some_iff] at hb
    obtain ⟨p, h1, h2⟩ := hb
    simp only [h id v p h1, Option.bind_eq_bind, Option.bind_some]
    exact h2
  cases a with
  | single => exact hb
  | optional => exact hb
  | list => exact hb
  | map => exact hb
  | msg id p =>
    cases p with
    | true =>
      cases x with
      | ptr o =>
        cases o with
        | none => exact hb
        | some m => exact step id m b hb
      | _ => exact hb
    | false =>
      simp only [encodeShape] at hb ⊢
      split
      · next hc => rw [if_pos hc] at hb; exact hb
      · next hc => rw [if_neg hc] at hb; exact step id x b hb
  | msgList id p =>
    cases x with
    | slice xs => exact concatM_more (fun v b hb => step id _ b hb) hb
    | _ => exact hb
  | mapMsg k id p =>
    cases x with
    | map m =>
      refine concatM_more (fun e b hb => ?_) hb
      simp only [Option.bind_eq_bind, Option.bind_eq_some_iff] at hb
      obtain ⟨p, h1, q, h2, h3⟩ := hb
      simp only [h1, h _ _ _ h2, Option.bind_eq_bind, Option.bind_some]
      exact h3
    | _ => exact hb

theorem encode_more (keep : Bool) : ∀ (n id : Nat) (v : Val) (b : Bytes), encode S keep n id v = some b → encode S keep (n + 1) id v = some b
  | 0, _, _, _, h => by cases h
  | n + 1, id, v, b, h => by
    cases v with
    | struct slots =>
      rw [encode] at h ⊢
      simp only [Option.bind_eq_bind, Option.bind_eq_some_iff] at h
      obtain ⟨p, h1, h2⟩ := h
      have : concatM (encodeField S keep (encode S keep (n + 1)) slots) (S id).fields = some p := by
        refine concatM_more (fun f q hq => ?_) h1
        simp only [encodeField, Option.bind_eq_bind, Option.bind_eq_some_iff] at hq ⊢
        obtain ⟨x, hx, hq⟩ := hq
        refine ⟨x, hx, ?_⟩
        cases hc : f.content x with
        | none => rw [hc] at hq; exact hq
        | some d => rw [hc] at hq; exact shape_more (encode_more keep n) _ _ _ _ _ hq
      simp only [this, Option.bind_eq_bind, Option.bind_some]
      exact h2
    | _ => exact h

end Verif.Lemmas.More
