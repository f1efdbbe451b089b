import Verif.Lemmas.Packed
import Verif.Lemmas.Group
import Verif.Spec.Schema
/-! Helper lemmas: a relation between writers (or size accumulators) and the bytes they stand for. -/
namespace Verif.Lemmas
open Verif.Model Verif.Spec

/-- `w` fails with `maxDepth` if `e` is `none`, and otherwise succeeds; unless the bytes are too many
to be counted, its effect on the accumulator is `act · e`. -/
def Acts {β : Type} (act : β → Bytes → β) (w : β → Res β) (e : Option Bytes) : Prop :=
  match e with
  | none => ∀ b, w b = .error .maxDepth
  | some bs => ∀ b, ∃ r, w b = .ok r ∧ (bs.length < 2 ^ 64 → r = act b bs)

/-- Writers. -/
abbrev Writes := Acts (β := Bytes) (fun b bs => b ++ bs)
/-- Size accumulators. -/
abbrev Adds := Acts (β := Nat) (fun n bs => n + bs.length)

/-- `act` is an action of the bytes. -/
structure IsAct {β : Type} (act : β → Bytes → β) : Prop where
  nil : ∀ b, act b [] = b
  app : ∀ b x y, act (act b x) y = act b (x ++ y)

theorem isAct_bytes : IsAct (β := Bytes) (fun b bs => b ++ bs) := ⟨by simp, by simp⟩
theorem isAct_nat : IsAct (β := Nat) (fun n bs => n + bs.length) := ⟨by simp, by simp; omega⟩

variable {β : Type} {act : β → Bytes → β}

theorem Acts.ofSome {w : β → Res β} {bs : Bytes} (h : ∀ b, w b = .ok (act b bs)) :
    Acts act w (some bs) := fun b => ⟨_, h b, fun _ => rfl⟩

theorem Acts.nil (ha : IsAct act) : Acts act (fun b => .ok b) (some []) :=
  Acts.ofSome (fun b => by rw [ha.nil])

theorem Acts.congr {w w' : β → Res β} {e : Option Bytes} (h : Acts act w e)
    (hw : ∀ b, w' b = w b) : Acts act w' e := by
  rw [show w' = w from funext hw]; exact h

theorem Acts.seq (ha : IsAct act) {w1 w2 : β → Res β} {e1 e2 : Option Bytes} (h1 : Acts act w1 e1)
    (h2 : Acts act w2 e2) :
    Acts act (fun b => w1 b >>= w2) (do let a ← e1; let b ← e2; return a ++ b) := by
  cases e1 with
  | none => intro b; dsimp only; rw [h1 b]; rfl
  | some a =>
    cases e2 with
    | none =>
      intro b
      obtain ⟨r, hr, hr'⟩ := h1 b
      dsimp only; rw [hr]; exact h2 r
    | some a2 =>
      intro b
      obtain ⟨r, hr, hr'⟩ := h1 b
      obtain ⟨r2, hr2, hr2'⟩ := h2 r
      refine ⟨r2, by dsimp only; rw [hr]; exact hr2, fun hl => ?_⟩
      rw [List.length_append] at hl
      rw [hr2' (by omega), hr' (by omega), ha.app]

/-- A pure prefix. -/
theorem Acts.pre (ha : IsAct act) {w : β → Res β} {e : Option Bytes} (f : β → β) (a : Bytes)
    (hf : ∀ b, f b = act b a) (h : Acts act w e) :
    Acts act (fun b => w (f b)) (e.map (a ++ ·)) := by
  have := Acts.seq ha (Acts.ofSome (act := act) (w := fun b => .ok (f b)) (bs := a)
    (fun b => by rw [hf])) h
  cases e <;> exact this

theorem Acts.fold (ha : IsAct act) {α : Type} {f : β → α → Res β} {g : α → Option Bytes} :
    ∀ {xs : List α}, (∀ x ∈ xs, Acts act (fun b => f b x) (g x)) →
    Acts act (fun b => xs.foldlM f b) (concatM g xs)
  | [], _ => Acts.nil ha
  | x :: xs, h => by
    have := Acts.seq ha (h x (by simp)) (Acts.fold ha (f := f) (xs := xs) (fun y hy => h y (by simp [hy])))
    exact this

theorem concatM_map {α γ : Type} (g : γ → Option Bytes) (f : α → γ) (xs : List α) :
    concatM g (xs.map f) = concatM (fun x => g (f x)) xs := by
  induction xs with
  | nil => rfl
  | cons x xs ih => simp [concatM, ih]

theorem concatM_congr {α : Type} {g g' : α → Option Bytes} {xs : List α}
    (h : ∀ x ∈ xs, g x = g' x) : concatM g xs = concatM g' xs := by
  induction xs with
  | nil => rfl
  | cons x xs ih =>
    simp only [concatM]
    rw [h x (by simp), ih (fun y hy => h y (by simp [hy]))]

theorem concatM_flatMap {α : Type} (g : α → Bytes) (xs : List α) :
    concatM (fun x => some (g x)) xs = some (xs.flatMap g) := by
  induction xs with
  | nil => rfl
  | cons x xs ih => simp [concatM, ih]

theorem lenDelim_length_gt (p : Bytes) : p.length < (lenDelim p).length := by
  have := IsVarint.length_pos (isVarint_varint p.length)
  unfold lenDelim; rw [List.length_append]; omega

/-- A length-delimited frame around a writer. -/
theorem Writes.frame {w : Bytes → Res Bytes} {e : Option Bytes} (h : Writes w e) :
    Writes (fun b => do
      let b1 ← w (lenReserve b)
      return lenPack b1 (b1.length - (lenReserve b).length)) (e.map lenDelim) := by
  cases e with
  | none => intro b; dsimp only; rw [h]; rfl
  | some p =>
    intro b
    obtain ⟨r, hr, hr'⟩ := h (lenReserve b)
    refine ⟨lenPack r (r.length - (lenReserve b).length), by dsimp only; rw [hr]; rfl,
      fun hl => ?_⟩
    have hp : p.length < 2 ^ 64 := by have := lenDelim_length_gt p; omega
    rw [hr' hp, List.length_append]
    rw [show (lenReserve b).length + p.length - (lenReserve b).length = p.length by omega]
    exact lenPack_eq b p 0#8 hp

theorem sizeBytes_eq (p : Bytes) (h : p.length < 2 ^ 64) :
    sizeBytes p.length = (lenDelim p).length := by
  simp [sizeBytes, sizeVarint_ofNat _ h, lenDelim]

end Verif.Lemmas
