import Verif.Lemmas.Gen.Antlr.ParserSets
/-!
# The generated parser comes to an end

No rule calls itself before a token is consumed, and every round of a loop consumes a token: so the depth of recursion is bounded by the number of tokens.
-/
namespace Verif.Lemmas.Gen.Antlr
open Verif.Model.Gen Verif.Model.Gen.Antlr

/-- Whether statements can end without an error and without consuming a token; the number bounds the depth to which rules are looked into. -/
def nul (rule : Nat → Code) (alts : Nat → List Code) : Nat → Code → Bool
  | 0, _ => true
  | m + 1, c =>
    match c with
    | .done => true
    | .fail => false
    | .sync _ => true
    | .tok _ => false
    | .eof => true
    | .set _ => false
    | .call _ r => nul rule alts m (rule r)
    | .seq a b => nul rule alts m a && nul rule alts m b
    | .ifLa _ a b => nul rule alts m a || nul rule alts m b
    | .whileLa _ _ => true
    | .choose d => (alts d).any (nul rule alts m)

/-- Whether the depth of statements is at most a number, as long as no token is consumed. -/
def fits (rule : Nat → Code) (alts : Nat → List Code) : Nat → Code → Bool
  | 0, _ => false
  | k + 1, c =>
    match c with
    | .call _ r => fits rule alts k (rule r)
    | .seq a b => fits rule alts k a && (!nul rule alts 30 a || fits rule alts k b)
    | .ifLa _ a b => fits rule alts k a && fits rule alts k b
    | .whileLa _ a => fits rule alts k a && !nul rule alts 30 a
    | .choose d => (alts d).all (fits rule alts k)
    | _ => true

/-- The statements in statements. -/
def subs : Code → List Code
  | .seq a b => .seq a b :: (subs a ++ subs b)
  | .ifLa ts a b => .ifLa ts a b :: (subs a ++ subs b)
  | .whileLa ts a => .whileLa ts a :: subs a
  | c => [c]

theorem matchTok_shorter {ok : Nat → Bool} {w v : List PTok} {ts : List PTree} (h : matchTok ok w = some (ts, v)) : v.length < w.length := by
  cases w with
  | nil => cases h
  | cons x w =>
    simp only [matchTok] at h
    split at h
    · cases h; simp
    · cases h

theorem run_shorter (G : Gram) (predict : Predict) : ∀ n ctx K c w ts v, Verif.Model.Gen.Antlr.run G predict n ctx K c w = some (ts, v) →
    v.length ≤ w.length ∧ ∀ m, nul G.rule G.alts m c = false → v.length < w.length := by
  intro n
  induction n with
  | zero => intro ctx K c w ts v h; cases h
  | succ n ih =>
    intro ctx K c w ts v h
    cases c with
    | done =>
      cases h
      exact ⟨Nat.le_refl _, fun m hm => by cases m <;> cases hm⟩
    | fail => cases h
    | sync s =>
      simp only [run] at h
      split at h
      · cases h; exact ⟨Nat.le_refl _, fun m hm => by cases m <;> cases hm⟩
      · cases h
    | tok t =>
      simp only [run] at h
      have := matchTok_shorter h
      exact ⟨Nat.le_of_lt this, fun _ _ => this⟩
    | eof =>
      simp only [run] at h
      split at h
      · cases h; exact ⟨Nat.zero_le _, fun m hm => by cases m <;> cases hm⟩
      · cases h
    | set ts' =>
      simp only [run] at h
      have := matchTok_shorter h
      exact ⟨Nat.le_of_lt this, fun _ _ => this⟩
    | call s r =>
      simp only [run] at h
      split at h
      · cases h
      · rename_i us u hu
        cases h
        obtain ⟨h1, h2⟩ := ih _ _ _ _ _ _ hu
        exact ⟨h1, fun m hm => by cases m with
          | zero => cases hm
          | succ m => exact h2 m hm⟩
    | seq a b =>
      simp only [run] at h
      split at h
      · cases h
      · rename_i us u hu
        split at h
        · cases h
        · rename_i vs x hx
          cases h
          obtain ⟨h1, h2⟩ := ih _ _ _ _ _ _ hu
          obtain ⟨h3, h4⟩ := ih _ _ _ _ _ _ hx
          refine ⟨Nat.le_trans h3 h1, fun m hm => ?_⟩
          cases m with
          | zero => cases hm
          | succ m =>
            simp only [nul, Bool.and_eq_false_iff] at hm
            rcases hm with hm | hm
            · exact Nat.lt_of_le_of_lt h3 (h2 m hm)
            · exact Nat.lt_of_lt_of_le (h4 m hm) h1
    | ifLa ts' a b =>
      simp only [run] at h
      split at h
      · obtain ⟨h1, h2⟩ := ih _ _ _ _ _ _ h
        refine ⟨h1, fun m hm => ?_⟩
        cases m with
        | zero => cases hm
        | succ m =>
          simp only [nul, Bool.or_eq_false_iff] at hm
          exact h2 m hm.1
      · obtain ⟨h1, h2⟩ := ih _ _ _ _ _ _ h
        refine ⟨h1, fun m hm => ?_⟩
        cases m with
        | zero => cases hm
        | succ m =>
          simp only [nul, Bool.or_eq_false_iff] at hm
          exact h2 m hm.2
    | whileLa ts' a =>
      refine ⟨?_, fun m hm => by cases m <;> cases hm⟩
      simp only [run] at h
      split at h
      · split at h
        · cases h
        · rename_i us u hu
          split at h
          · cases h
          · rename_i vs x hx
            cases h
            exact Nat.le_trans (ih _ _ _ _ _ _ hx).1 (ih _ _ _ _ _ _ hu).1
      · cases h; exact Nat.le_refl _
    | choose d =>
      simp only [run] at h
      split at h
      · cases h
      · split at h
        · cases h
        · rename_i a ha
          obtain ⟨h1, h2⟩ := ih _ _ _ _ _ _ h
          refine ⟨h1, fun m hm => ?_⟩
          cases m with
          | zero => cases hm
          | succ m =>
            simp only [nul, List.any_eq_false] at hm
            exact h2 m (by simpa using hm a (List.mem_of_getElem? ha))

/-- All statements of a parser have a bounded depth before the first token. -/
structure Bounded (G : Gram) (B : Nat) : Prop where
  rule : ∀ r, ∀ c ∈ subs (G.rule r), fits G.rule G.alts B c = true
  alts : ∀ d, ∀ a ∈ G.alts d, ∀ c ∈ subs a, fits G.rule G.alts B c = true

theorem subs_self (c : Code) : c ∈ subs c := by cases c <;> simp [subs]

/-- From a number of levels on that depends on the number of tokens, more levels make no difference. -/
theorem run_stable {G : Gram} {B : Nat} (hG : Bounded G B) (predict : Predict) : ∀ l k c w, w.length = l → fits G.rule G.alts k c = true →
    (∀ x ∈ subs c, fits G.rule G.alts B x = true) → ∀ n m ctx K, k + l * B ≤ n → k + l * B ≤ m →
    Verif.Model.Gen.Antlr.run G predict n ctx K c w = Verif.Model.Gen.Antlr.run G predict m ctx K c w := by
  intro l
  induction l using Nat.strongRecOn with
  | _ l ihl =>
  intro k
  induction k with
  | zero => intro c w _ h; cases h
  | succ k ihk =>
    intro c w hw hf hs n m ctx K hn hm
    obtain ⟨n, rfl⟩ : ∃ n', n = n' + 1 := ⟨n - 1, by omega⟩
    obtain ⟨m, rfl⟩ : ∃ m', m = m' + 1 := ⟨m - 1, by omega⟩
    have hn : k + l * B ≤ n := by omega
    have hm : k + l * B ≤ m := by omega
    -- after a token, everything fits again
    have later : ∀ c v, v.length < l → (∀ x ∈ subs c, fits G.rule G.alts B x = true) → ∀ ctx K,
        Verif.Model.Gen.Antlr.run G predict n ctx K c v = Verif.Model.Gen.Antlr.run G predict m ctx K c v := by
      intro c v hv hs ctx K
      have : B + v.length * B ≤ l * B := by
        have := Nat.mul_le_mul_right B (Nat.succ_le_of_lt hv)
        rw [Nat.succ_mul] at this
        omega
      exact ihl v.length hv B c v rfl (hs c (subs_self c)) hs n m ctx K (by omega) (by omega)
    cases c with
    | done => rfl
    | fail => rfl
    | sync s => rfl
    | tok t => rfl
    | eof => rfl
    | set ts => rfl
    | call s r =>
      simp only [fits] at hf
      simp only [run]
      rw [ihk (G.rule r) w hw hf (hG.rule r) n m (s :: ctx) K hn hm]
    | seq a b =>
      simp only [fits, Bool.and_eq_true, Bool.or_eq_true, Bool.not_eq_true'] at hf
      have ha : ∀ x ∈ subs a, fits G.rule G.alts B x = true := fun x hx => hs x (by simp [subs, hx])
      have hb : ∀ x ∈ subs b, fits G.rule G.alts B x = true := fun x hx => hs x (by simp [subs, hx])
      simp only [run]
      rw [ihk a w hw hf.1 ha n m ctx (b :: K) hn hm]
      cases e : Verif.Model.Gen.Antlr.run G predict m ctx (b :: K) a w with
      | none => rfl
      | some p =>
        obtain ⟨ts, v⟩ := p
        obtain ⟨h1, h2⟩ := run_shorter _ _ _ _ _ _ _ _ _ e
        have : Verif.Model.Gen.Antlr.run G predict n ctx K b v = Verif.Model.Gen.Antlr.run G predict m ctx K b v := by
          by_cases hlt : v.length < l
          · exact later b v hlt hb ctx K
          · rcases hf.2 with h | h
            · exact absurd (h2 _ h) (by omega)
            · exact ihk b v (by omega) h hb n m ctx K hn hm
        simp only [this]
    | ifLa ts a b =>
      simp only [fits, Bool.and_eq_true] at hf
      have ha : ∀ x ∈ subs a, fits G.rule G.alts B x = true := fun x hx => hs x (by simp [subs, hx])
      have hb : ∀ x ∈ subs b, fits G.rule G.alts B x = true := fun x hx => hs x (by simp [subs, hx])
      simp only [run]
      rw [ihk a w hw hf.1 ha n m ctx K hn hm, ihk b w hw hf.2 hb n m ctx K hn hm]
    | whileLa ts a =>
      simp only [fits, Bool.and_eq_true, Bool.not_eq_true'] at hf
      have ha : ∀ x ∈ subs a, fits G.rule G.alts B x = true := fun x hx => hs x (by simp [subs, hx])
      simp only [run]
      rw [ihk a w hw hf.1 ha n m ctx (.whileLa ts a :: K) hn hm]
      cases e : Verif.Model.Gen.Antlr.run G predict m ctx (.whileLa ts a :: K) a w with
      | none => rfl
      | some p =>
        obtain ⟨us, v⟩ := p
        obtain ⟨h1, h2⟩ := run_shorter _ _ _ _ _ _ _ _ _ e
        simp only [later (.whileLa ts a) v (by have := h2 _ hf.2; omega) hs ctx K]
    | choose d =>
      simp only [fits, List.all_eq_true] at hf
      simp only [run]
      split
      · rfl
      · split
        · rfl
        · rename_i a ha
          exact ihk a w hw (hf a (List.mem_of_getElem? ha)) (hG.alts d a (List.mem_of_getElem? ha)) n m ctx K hn hm

/-- The depth of recursion before the first token, and between tokens. -/
def depth : Nat := 30

theorem codes_fit : ((List.range 60).all fun r => (subs (ruleCode r)).all (fits ruleCode altsCode depth)) = true ∧
    ((List.range 60).all fun d => (altsCode d).all fun a => (subs a).all (fits ruleCode altsCode depth)) = true := by
  decide +kernel

theorem protoGram_bounded : Bounded protoGram depth := by
  obtain ⟨h1, h2⟩ := codes_fit
  simp only [List.all_eq_true, List.mem_range] at h1 h2
  refine ⟨fun r c hc => ?_, fun d a ha c hc => ?_⟩
  · by_cases hr : r < 60
    · exact h1 r hr c hc
    · obtain ⟨k, rfl⟩ : ∃ k, r = k + 53 := ⟨r - 53, by omega⟩
      have : protoGram.rule (k + 53) = .fail := ruleCode_high k
      rw [this] at hc
      cases List.mem_singleton.1 hc
      rfl
  · by_cases hd : d < 60
    · exact h2 d hd a ha c hc
    · have : protoGram.alts d = [] := altsCode_other d (by simp; omega)
      rw [this] at ha
      cases ha

/-- The number of levels that is enough. -/
theorem parse_stable (predict : Predict) (w : List PTok) (n m : Nat) (hn : depth * (w.length + 1) ≤ n) (hm : depth * (w.length + 1) ≤ m) :
    parseTokens predict n w = parseTokens predict m w := by
  have e : depth * (w.length + 1) = depth + w.length * depth := by rw [Nat.mul_add, Nat.mul_comm, Nat.mul_one, Nat.add_comm]
  unfold parseTokens
  rw [run_stable protoGram_bounded predict w.length depth codeProto w rfl (protoGram_bounded.rule 0 _ (subs_self _)) (protoGram_bounded.rule 0) n m [] [] (by omega) (by omega)]

end Verif.Lemmas.Gen.Antlr
