import Verif.Lemmas.Gen.Antlr.Numbers
/-!
# The tokens of the simulator are those of the lexer
-/
namespace Verif.Lemmas.Gen.Antlr
open Verif.Model.Gen Verif.Model.Gen.Antlr Verif.Spec.Gen
open Verif.Lemmas.Gen

/-! ## One token -/

theorem next0_ws {c : Char} (hc : isWsChar c = true) : next 0 c = some 1 := by
  have hn : c.toNat < 128 := by
    have := (isWsChar_num c).1 hc
    omega
  have h : ((List.range 128).all fun n => !isWsChar (Char.ofNat n) || decide (nextIn row0.edges n = some 1)) = true := by decide +kernel
  have := range_all h hn
  rw [Char.ofNat_toNat, hc] at this
  rw [next_row get0]
  simpa using this

/-- The states of the symbols. -/
def symbolAt : List (Char × Nat) :=
  [(';', 14), ('=', 16), ('(', 4), (')', 5), ('[', 19), (']', 20), ('{', 35), ('}', 36), ('<', 15), ('>', 17), (',', 7), (':', 13), ('+', 6), ('-', 8)]

theorem symbol_at {c : Char} (h : isSymbol c = true) :
    ∃ j i, next 0 c = some j ∧ accOf j = some (i + 39, none) ∧ Symbols[i]? = some c ∧ ∀ d, next j d = none := by
  have hno : ∀ {j : Nat} {r : Row}, table.get j = some r → r.edges = [(1114112, none)] → ∀ d, next j d = none := by
    intro j r hr he d
    rw [next_row hr, he]
    simp only [nextIn_cons, nextIn_nil]
    split <;> rfl
  simp only [isSymbol, Bool.or_eq_true, decide_eq_true_eq, or_assoc] at h
  rcases h with rfl | rfl | rfl | rfl | rfl | rfl | rfl | rfl | rfl | rfl | rfl | rfl | rfl | rfl
  · exact ⟨14, 0, by decide +kernel, rfl, rfl, hno (r := row14) rfl rfl⟩
  · exact ⟨16, 1, by decide +kernel, rfl, rfl, hno (r := row16) rfl rfl⟩
  · exact ⟨4, 2, by decide +kernel, rfl, rfl, hno (r := row4) rfl rfl⟩
  · exact ⟨5, 3, by decide +kernel, rfl, rfl, hno (r := row5) rfl rfl⟩
  · exact ⟨19, 4, by decide +kernel, rfl, rfl, hno (r := row19) rfl rfl⟩
  · exact ⟨20, 5, by decide +kernel, rfl, rfl, hno (r := row20) rfl rfl⟩
  · exact ⟨35, 6, by decide +kernel, rfl, rfl, hno (r := row35) rfl rfl⟩
  · exact ⟨36, 7, by decide +kernel, rfl, rfl, hno (r := row36) rfl rfl⟩
  · exact ⟨15, 8, by decide +kernel, rfl, rfl, hno (r := row15) rfl rfl⟩
  · exact ⟨17, 9, by decide +kernel, rfl, rfl, hno (r := row17) rfl rfl⟩
  · exact ⟨7, 11, by decide +kernel, rfl, rfl, hno (r := row7) rfl rfl⟩
  · exact ⟨13, 12, by decide +kernel, rfl, rfl, hno (r := row13) rfl rfl⟩
  · exact ⟨6, 13, by decide +kernel, rfl, rfl, hno (r := row6) rfl rfl⟩
  · exact ⟨8, 14, by decide +kernel, rfl, rfl, hno (r := row8) rfl rfl⟩

/-- The first characters of tokens. -/
def begins (c : Char) : Bool :=
  isWsChar c || isLetter c || isDecChar c || c = '.' || (c = '"' || c = '\'') || c = '/' || isSymbol c

theorem next0_none {c : Char} (h : begins c = false) : next 0 c = none := by
  rw [next_row get0]
  by_cases hn : c.toNat < 128
  · have h' : ((List.range 128).all fun n => begins (Char.ofNat n) || decide (nextIn row0.edges n = none)) = true := by decide +kernel
    have := range_all h' hn
    rw [Char.ofNat_toNat, h] at this
    simpa using this
  · exact nextIn_high _ (by decide +kernel) _ (by omega)

theorem next10 (c : Char) : next 10 c = if c = '*' then some 41 else if c = '/' then some 42 else none := by
  have h1 : c = '*' ↔ c.toNat = 42 := charEq c _
  have h2 : c = '/' ↔ c.toNat = 47 := charEq c _
  rw [next_row (r := row10) rfl]
  simp only [row10, nextIn_cons, nextIn_nil, h1, h2]
  repeat' split
  all_goals first | rfl | (exfalso; omega)

theorem wordType_type {w : Str} (hw : ProtoIdent w) : TokenType ⟨.visible, w⟩ (wordType w) 0 := by
  unfold wordType
  match hk : Keywords.idxOf? w with
  | some i =>
    dsimp only
    obtain ⟨hlt, he, _⟩ := List.idxOf?_eq_some_iff.mp hk
    refine .keyword i w ?_
    rw [List.getElem?_eq_getElem hlt]
    simpa using he
  | none =>
    dsimp only
    split
    · rename_i h; exact .bool w h
    · rename_i hb
      split
      · rename_i h; exact .inf w h
      · rename_i hf
        refine .ident w hw (List.idxOf?_eq_none_iff.mp hk) ?_
        intro hm
        simp only [List.map_cons, List.map_nil, List.mem_cons, List.not_mem_nil, or_false] at hm
        rcases hm with h | h | h | h
        · exact hb (Or.inl h)
        · exact hb (Or.inr h)
        · exact hf (Or.inl h)
        · exact hf (Or.inr h)

/-- A run from the start agrees with `lexOne`. -/
def OneOk (x : Option Tok × Str) (y : Option Accept × Str) : Prop :=
  match x with
  | (some tok, r) => ∃ ty ex, y.1 = some ⟨r, ty, ex⟩ ∧ TokenType tok ty (execChannel ex)
  | (none, r) => y.1 = none ∧ y.2.tail = r

theorem run_one (c : Char) (s : Str) : OneOk (lexOne c s) (run 0 (c :: s) none) := by
  unfold lexOne
  by_cases hw : isWsChar c = true
  · rw [if_pos hw, run_step (next0_ws hw), accept_some (t := 59) (e := some [⟨2⟩]) rfl, run_ws]
    exact ⟨59, some [⟨2⟩], by rw [drop_step hw], .space _⟩
  · rw [if_neg hw]
    by_cases hl : isLetter c = true
    · rw [if_pos hl]
      obtain ⟨j, hj, hwj⟩ := next0_letter hl
      have hcw : isWordChar c = true := by rw [isWordChar, hl]; rfl
      rw [run_step hj, accept_some (wordAt_acc (by simp) hwj), run_word s j [c] (by simp) hwj]
      refine ⟨wordType ([c] ++ s.takeWhile isWordChar), none, ?_, ?_⟩
      · show some _ = some _
        rw [drop_take, drop_step hcw]
      · have e : [c] ++ s.takeWhile isWordChar = (c :: s).takeWhile isWordChar := by simp [List.takeWhile_cons, hcw]
        rw [e]
        refine wordType_type ?_
        have hl' := (isLetter_num c).1 hl
        exact ⟨c, s.takeWhile isWordChar, by rw [List.takeWhile_cons, if_pos hcw], by rw [digit_num]; omega,
          fun x hx => (word_ident x).1 (takeWhile_all _ _ x hx)⟩
    · rw [if_neg hl]
      by_cases hd : isDecChar c = true
      · rw [if_pos hd]
        obtain ⟨ty, h1, h2⟩ := run_number hd s
        exact ⟨ty, none, h1, h2⟩
      · rw [if_neg hd]
        by_cases hp : c = '.'
        · subst hp
          rw [if_pos rfl]
          obtain ⟨ty, h1, h2⟩ := run_dot s
          exact ⟨ty, none, h1, h2⟩
        · rw [if_neg hp]
          by_cases hq : c = '"' ∨ c = '\''
          · rw [if_pos hq, lexStr]
            have hn : next 0 c = some (strAt c .body) := by rcases hq with rfl | rfl <;> decide +kernel
            have hr := run_str c hq s .body trivial
            rw [run_step hn, accept_none (str_acc c hq .body trivial)]
            match hs : strScan c .body s with
            | .ok (a, r) =>
              rw [hs] at hr
              dsimp only at hr
              have hb := (strScan_sound s .body a r trivial hs).1
              exact ⟨54, none, by rw [hr], .str c a hq hb⟩
            | .error r =>
              rw [hs] at hr
              obtain ⟨x, h1, h2⟩ := hr
              exact ⟨by rw [h1], by rw [h1]; exact h2⟩
          · rw [if_neg hq]
            by_cases hsl : c = '/'
            · subst hsl
              rw [if_pos rfl, run_step (j := 10) (by decide +kernel), accept_none rfl]
              cases s with
              | nil => exact ⟨rfl, rfl⟩
              | cons d s =>
                rw [lexSlash]
                by_cases h1 : d = '/'
                · subst h1
                  rw [if_pos rfl, run_step (j := 42) (by rw [next10]; rfl), accept_some (t := 60) (e := some [⟨3⟩]) rfl, run_line]
                  exact ⟨60, some [⟨3⟩], rfl, .line _⟩
                · rw [if_neg h1]
                  by_cases h2 : d = '*'
                  · subst h2
                    rw [if_pos rfl, run_step (j := 41) (by rw [next10]; rfl), accept_none rfl, (run_block s).1, blockEnd]
                    match blockScan s with
                    | none => exact ⟨rfl, rfl⟩
                    | some (a, r) => exact ⟨61, some [⟨3⟩], rfl, .block _⟩
                  · rw [if_neg h2, run_stop (by rw [next10, if_neg h2, if_neg h1])]
                    exact ⟨rfl, rfl⟩
            · rw [if_neg hsl]
              by_cases hy : isSymbol c = true
              · rw [if_pos hy]
                obtain ⟨j, i, h1, h2, h3, h4⟩ := symbol_at hy
                rw [run_step h1, accept_some h2, run_end h4]
                exact ⟨i + 39, none, rfl, .symbol i c h3⟩
              · rw [if_neg hy, run_stop (next0_none ?_)]
                · exact ⟨rfl, rfl⟩
                · simp only [begins, Bool.or_eq_false_iff, decide_eq_false_iff_not]
                  simp only [Bool.not_eq_true] at hw hl hd hy
                  exact ⟨⟨⟨⟨⟨⟨hw, hl⟩, hd⟩, hp⟩, fun h => hq (Or.inl h), fun h => hq (Or.inr h)⟩, hsl⟩, hy⟩

/-! ## All tokens -/

/-- The tokens of a text by the table. -/
def toks : Nat → Str → List AToken
  | 0, _ => []
  | n + 1, s =>
    match run 0 s none with
    | (some a, _) => ⟨a.typ, execChannel a.exec, s.take (s.length - a.rest.length)⟩ :: toks n a.rest
    | (none, r) => if r = [] then [] else toks n r.tail

theorem toks_nil (n : Nat) : toks n [] = [] := by cases n <;> rfl

theorem grow_s0 {D : Dfa} (hD : DfaOk D) {k : Nat} (hk : Holds D k 0) : DfaOk { D with s0 := some k } := by
  refine ⟨fun j s h => ?_, fun j h => ?_, hD.nodup⟩
  · exact (hD.states j s h).grows (fun _ _ x => x)
  · simp only [Option.some.injEq] at h
    subst h
    exact hk

theorem matchAt_spec {D : Dfa} (hD : DfaOk D) (s : Str) : ∃ E, lexerNet.matchAt D s = some (E, run 0 s none) ∧ DfaOk E := by
  have h0 : accOf 0 = none := rfl
  unfold Net.matchAt
  match hs : D.s0 with
  | some k => exact exec_spec hD (hD.start k hs) h0 s
  | none =>
    rw [startSet_eq]
    obtain ⟨E, k, he, hE, _, hk, _⟩ := addState_spec hD get0
    dsimp only
    rw [he]
    exact exec_spec (D := { E with s0 := some k }) (grow_s0 hE hk) hk h0 s

theorem run0_len (c : Char) (s : Str) : (∀ a ∈ (run 0 (c :: s) none).1, a.rest.length ≤ s.length) ∧
    ((run 0 (c :: s) none).1 = none → (run 0 (c :: s) none).2.tail.length ≤ s.length) := by
  have h := run_one c s
  have hl := lexOne_shorter c s
  unfold OneOk at h
  split at h
  · rename_i tok r hx
    obtain ⟨ty, ex, h1, _⟩ := h
    rw [hx] at hl
    refine ⟨fun a ha => ?_, fun hn => by rw [h1] at hn; cases hn⟩
    rw [h1] at ha
    cases ha
    exact hl
  · rename_i r hx
    rw [hx] at hl
    refine ⟨fun a ha => (by rw [h.1] at ha; cases ha), fun _ => ?_⟩
    rw [h.2]
    exact hl

theorem tokens_spec : ∀ (n : Nat) (s : Str) (D : Dfa), DfaOk D → s.length < n → ∃ E, lexerNet.tokens n D s = some (E, toks n s) ∧ DfaOk E
  | 0, _, _, _, h => absurd h (by omega)
  | n + 1, s, D, hD, hn => by
    obtain ⟨E, he, hE⟩ := matchAt_spec hD s
    unfold Net.tokens
    rw [he, toks]
    match s with
    | [] => exact ⟨E, rfl, hE⟩
    | c :: s =>
      have hlen := run0_len c s
      simp only [List.length_cons] at hn
      match hr : run 0 (c :: s) none with
      | (some a, x) =>
        rw [hr] at hlen
        have ha := hlen.1 a rfl
        dsimp only
        cases hrest : a.rest with
        | nil =>
          refine ⟨E, ?_, hE⟩
          simp [toks_nil]
        | cons d t =>
          obtain ⟨F, hf, hF⟩ := tokens_spec n a.rest E hE (by omega)
          rw [hrest] at hf
          refine ⟨F, ?_, hF⟩
          simp only [List.isEmpty_cons, Bool.false_eq_true, if_false, hf]
      | (none, x) =>
        rw [hr] at hlen
        have ha := hlen.2 rfl
        dsimp only
        cases x with
        | nil => exact ⟨E, rfl, hE⟩
        | cons d t =>
          cases t with
          | nil => exact ⟨E, by simp [toks_nil], hE⟩
          | cons d' t =>
            obtain ⟨F, hf, hF⟩ := tokens_spec n (d' :: t) E hE (by simp only [List.tail_cons] at ha; omega)
            exact ⟨F, by simpa using hf, hF⟩

/-- The token of the simulator has the text of the other, its type and channel. -/
def TokenOf (t : Tok) (a : AToken) : Prop := a.text = t.text ∧ TokenType t a.typ a.channel

theorem lex_cons (c : Char) (s : Str) : lex (c :: s) = (lexOne c s).1.toList ++ lex (lexOne c s).2 := by
  show lexAll (s.length + 1) (c :: s) = _
  rw [lexAll, lexAll_enough _ _ (lexOne_shorter c s)]

theorem toks_lex : ∀ (n : Nat) (s : Str), s.length < n → Pairs TokenOf (lex s) (toks n s)
  | 0, _, h => absurd h (by omega)
  | n + 1, [], _ => .nil
  | n + 1, c :: s, hn => by
    have h := run_one c s
    have hl := lexOne_shorter c s
    simp only [List.length_cons] at hn
    rw [lex_cons, toks]
    unfold OneOk at h
    match hx : lexOne c s with
    | (some tok, r) =>
      rw [hx] at h hl
      obtain ⟨ty, ex, h1, h2⟩ := h
      match hr : run 0 (c :: s) none with
      | (some a, x) =>
        rw [hr] at h1
        simp only [Option.some.injEq] at h1
        subst h1
        refine .cons ⟨?_, h2⟩ (toks_lex n r (by simp only at hl; omega))
        have ht := (lexOne_sound (c := c) (s := s) (t := tok) (by rw [hx])).2
        rw [hx] at ht
        show List.take _ _ = _
        rw [← ht]
        simp
      | (none, x) => rw [hr] at h1; cases h1
    | (none, r) =>
      rw [hx] at h hl
      match hr : run 0 (c :: s) none with
      | (some a, x) => rw [hr] at h; cases h.1
      | (none, x) =>
        rw [hr] at h
        have h2 : x.tail = r := h.2
        dsimp only
        simp only [Option.toList_none, List.nil_append]
        cases x with
        | nil =>
          have : r = [] := h2.symm
          subst this
          exact .nil
        | cons d t =>
          rw [if_neg (by simp), h2]
          exact toks_lex n r (by simp only at hl; omega)

theorem lexFile_spec {D : Dfa} (hD : DfaOk D) (s : Str) : ∃ E, lexerNet.lexFile D s = some (E, toks (s.length + 1) s) ∧ DfaOk E :=
  tokens_spec _ s D hD (by omega)

theorem lexFiles_spec : ∀ (ss : List Str) (D : Dfa), DfaOk D → ∃ E, lexerNet.lexFiles D ss = some (E, ss.map fun s => toks (s.length + 1) s) ∧ DfaOk E
  | [], D, hD => ⟨D, rfl, hD⟩
  | s :: ss, D, hD => by
    obtain ⟨E, he, hE⟩ := lexFile_spec hD s
    obtain ⟨F, hf, hF⟩ := lexFiles_spec ss E hE
    refine ⟨F, ?_, hF⟩
    unfold Net.lexFiles
    rw [he]
    dsimp only
    rw [hf]
    rfl

end Verif.Lemmas.Gen.Antlr
