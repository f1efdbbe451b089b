import Verif.Spec.Regular
import Verif.Lemmas.Tables
import Verif.Lemmas.Parse
/-! Helper lemmas: accepted struct types with ordinary fields have a schema. -/
namespace Verif.Lemmas
open Verif.Model Verif.Spec

/-! ## numerals -/

theorem digit_ofNat {c : Char} (h : isDigit c = true) : ∃ d, d < 10 ∧ c = digitChar d := by
  rw [isDigit_iff] at h
  refine ⟨c.toNat - 48, by omega, ?_⟩
  apply Char.ext
  apply UInt32.toNat.inj
  have h2 := digitChar_toNat (d := c.toNat - 48) (by omega)
  have h3 : (digitChar (c.toNat - 48)).val.toNat = c.val.toNat := by
    show (digitChar (c.toNat - 48)).toNat = c.toNat
    omega
  exact h3.symm

theorem isDecimal_snoc : ∀ (w : List Char), w ≠ [] → w.all isDigit = true → IsDecimal w (digitsVal w) := by
  intro w
  generalize hn : w.length = n
  induction n generalizing w with
  | zero => intro h; cases w with | nil => exact absurd rfl h | cons _ _ => cases hn
  | succ n ih =>
    intro hne hd
    obtain ⟨u, c, rfl⟩ : ∃ u c, w = u ++ [c] := ⟨w.dropLast, w.getLast hne, (List.dropLast_concat_getLast hne).symm⟩
    rw [List.all_append, Bool.and_eq_true] at hd
    obtain ⟨d, hd10, rfl⟩ := digit_ofNat (c := c) (by simpa using hd.2)
    have hv : digitsVal (u ++ [digitChar d]) = 10 * digitsVal u + d := by
      unfold digitsVal
      rw [List.foldl_append]
      simp only [List.foldl_cons, List.foldl_nil]
      rw [digitChar_toNat hd10]
      show 10 * _ + (48 + d - 48) = _
      omega
    rw [hv]
    by_cases hu : u = []
    · subst hu
      have : digitsVal [] = 0 := rfl
      rw [this]
      simp only [Nat.mul_zero, Nat.zero_add, List.nil_append]
      exact .digit d hd10
    · exact .snoc u _ d (ih u (by simp at hn; exact hn) hu hd.1) hd10

/-! ## tags -/

/-- What a word does to number and repetition. -/
theorem tagStep_facts {p p' : TagInfo} {w : List Char} (hw : IsWord w) (h : tagStep p w = .ok p') :
    (p.repeated = true → p'.repeated = true) ∧ (w = "rep".toList → p'.repeated = true) ∧
    ((p'.id = p.id ∧ ∀ n, ¬ IsDecimal w n) ∨ (IsDecimal w (digitsVal w) ∧ digitsVal w < 2 ^ 32 ∧ p'.id = BitVec.ofNat 32 (digitsVal w))) := by
  unfold tagStep at h
  simp only [trimSpace_word hw] at h
  by_cases h1 : w = []
  · rw [if_pos h1] at h; cases h
    exact ⟨fun hh => hh, fun e => (by rw [h1] at e; cases e), .inl ⟨rfl, fun n => not_decimal (.inr h1)⟩⟩
  rw [if_neg h1] at h
  by_cases h2 : w = "opt".toList
  · rw [if_pos h2] at h; cases h
    exact ⟨fun hh => hh, fun e => (by rw [h2] at e; cases e), .inl ⟨rfl, fun n => not_decimal (.inl (by rw [h2]; decide))⟩⟩
  rw [if_neg h2] at h
  by_cases h3 : w = "req".toList
  · rw [if_pos h3] at h; cases h
    exact ⟨fun hh => hh, fun e => (by rw [h3] at e; cases e), .inl ⟨rfl, fun n => not_decimal (.inl (by rw [h3]; decide))⟩⟩
  rw [if_neg h3] at h
  by_cases h4 : w = "rep".toList
  · rw [if_pos h4] at h; cases h
    exact ⟨fun _ => rfl, fun _ => rfl, .inl ⟨rfl, fun n => not_decimal (.inl (by rw [h4]; decide))⟩⟩
  rw [if_neg h4] at h
  cases ht : tagTypeWord w with
  | some t =>
    rw [ht] at h; cases h
    refine ⟨fun hh => hh, fun e => absurd e h4, .inl ⟨rfl, fun n => not_decimal (.inl ?_)⟩⟩
    cases hd : w.all isDigit with
    | false => rfl
    | true => rw [tagTypeWord_digits hd] at ht; cases ht
  | none =>
    rw [ht] at h
    dsimp only at h
    by_cases h5 : w = "group".toList
    · rw [if_pos h5] at h; cases h
    rw [if_neg h5] at h
    by_cases h6 : w = "packed".toList
    · rw [if_pos h6] at h; cases h
      exact ⟨fun hh => hh, fun e => absurd e h4, .inl ⟨rfl, fun n => not_decimal (.inl (by rw [h6]; decide))⟩⟩
    rw [if_neg h6] at h
    by_cases h7 : w.all isDigit = true
    · rw [if_pos h7] at h
      by_cases h8 : digitsVal w < 2 ^ 32
      · rw [if_pos h8] at h; cases h
        exact ⟨fun hh => hh, fun e => absurd e h4, .inr ⟨isDecimal_snoc w h1 h7, h8, rfl⟩⟩
      · rw [if_neg h8] at h; cases h
    · rw [if_neg h7] at h; cases h
      exact ⟨fun hh => hh, fun e => absurd e h4, .inl ⟨rfl, fun n => not_decimal (.inl (by simpa using h7))⟩⟩

theorem foldlM_facts : ∀ (ws : List (List Char)) (p p' : TagInfo), (∀ w ∈ ws, IsWord w) → (∀ w ∈ ws, ¬ IsDecimal w 0) →
    ws.foldlM tagStep p = .ok p' →
    (p.repeated = true ∨ "rep".toList ∈ ws → p'.repeated = true) ∧
    (p.id ≠ 0#32 ∨ (∃ w ∈ ws, ∃ n, IsDecimal w n) → p'.id ≠ 0#32)
  | [], p, p', _, _, h => by
    cases h
    exact ⟨fun hh => hh.elim (fun hh => hh) (fun hh => nomatch hh), fun hh => hh.elim (fun hh => hh) (fun ⟨_, hh, _⟩ => nomatch hh)⟩
  | w :: ws, p, p', hw, hz, h => by
    rw [List.foldlM_cons] at h
    cases hs : tagStep p w with
    | error e => rw [hs] at h; cases h
    | ok q =>
      rw [hs] at h
      obtain ⟨f1, f2, f3⟩ := tagStep_facts (hw w (by simp)) hs
      obtain ⟨g1, g2⟩ := foldlM_facts ws q p' (fun x hx => hw x (by simp [hx])) (fun x hx => hz x (by simp [hx])) h
      refine ⟨?_, ?_⟩
      · rintro (hr | hr)
        · exact g1 (.inl (f1 hr))
        · rcases List.mem_cons.1 hr with e | hr
          · exact g1 (.inl (f2 e.symm))
          · exact g1 (.inr hr)
      · have hset : IsDecimal w (digitsVal w) → digitsVal w < 2 ^ 32 → q.id = BitVec.ofNat 32 (digitsVal w) → q.id ≠ 0#32 := by
          intro a b c e
          rw [e] at c
          have := congrArg BitVec.toNat c
          rw [BitVec.toNat_ofNat, BitVec.toNat_ofNat, Nat.mod_eq_of_lt b] at this
          simp at this
          rw [← this] at a
          exact hz w (by simp) a
        rintro (hi | ⟨x, hx, n, hn⟩)
        · rcases f3 with ⟨e, _⟩ | ⟨a, b, c⟩
          · exact g2 (.inl (by rw [e]; exact hi))
          · exact g2 (.inl (hset a b c))
        · rcases List.mem_cons.1 hx with e | hx
          · subst e
            rcases f3 with ⟨_, e⟩ | ⟨a, b, c⟩
            · exact absurd hn (e n)
            · exact g2 (.inl (hset a b c))
          · exact g2 (.inr ⟨x, hx, n, hn⟩)

theorem tidyTag_facts {rep : Bool} {t : List Char} (h : TidyTag rep t) {p : TagInfo} {tt : TagType}
    (hp : parseStructTag t = .ok (p, tt)) : (rep = true → p.repeated = true) ∧ p.id ≠ 0#32 := by
  obtain ⟨ws, rfl, h1, ⟨w, hw, n, _, hn⟩, h3, h4⟩ := h
  have hne : ws ≠ [] := by rintro rfl; cases hw
  unfold parseStructTag at hp
  rw [splitComma_join hne (fun w hw => (h1 w hw).1)] at hp
  obtain ⟨q, hq, hp⟩ := bindOk hp
  have : p = q := by
    cases ht : q.typ with
    | none => rw [ht] at hp; cases hp
    | some t => rw [ht] at hp; cases hp; rfl
  subst this
  obtain ⟨g1, g2⟩ := foldlM_facts ws {} p h1 h3 hq
  exact ⟨fun hr => g1 (.inr (h4 hr)), g2 (.inr ⟨w, hw, n, hn⟩)⟩

end Verif.Lemmas
