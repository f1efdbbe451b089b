import Verif.Lemmas.Gen.Antlr.Types
/-!
# C82: the lexer that is run — the automaton serialized in the generated lexer, interpreted with a cache that all files share — gives the tokens of the grammar

`(deserialize lexerAtnData).bind Atn.net` is the automaton that the generated lexer builds from its table of numbers.  `lexFiles` lexes files one after
another with one cache, which each file extends.
-/
namespace Verif.Props
open Verif.Model.Gen Verif.Model.Gen.Antlr Verif.Spec.Gen
open Verif.Lemmas.Gen Verif.Lemmas.Gen.Antlr

/-- A token that was read is the given lexical element: its text, and the type and the channel that the grammar gives it. -/
def IsToken (t : Tok) (a : AToken) : Prop := a.text = t.text ∧ TokenType t a.typ a.channel

namespace Gen

theorem pairs_map {α β γ : Type} {R : β → γ → Prop} {f : α → β} {g : α → γ} : ∀ (l : List α), (∀ a ∈ l, R (f a) (g a)) → Pairs R (l.map f) (l.map g)
  | [], _ => .nil
  | a :: l, h => .cons (h a (by simp)) (pairs_map l (fun b hb => h b (by simp [hb])))

theorem lexed (files : List Str) : ∃ A D, (deserialize lexerAtnData).bind Atn.net = some A ∧
    A.lexFiles Dfa.empty files = some (D, files.map fun s => toks (s.length + 1) s) ∧ DfaOk D := by
  obtain ⟨D, h1, h2⟩ := lexFiles_spec files Dfa.empty inv_empty
  exact ⟨lexerNet, D, lexerNet_eq, h1, h2⟩

end Gen

/-- **C82.** Whatever files are read one after another, with the cache that they share: the automaton is built, and the tokens of each file are those of
its text (`lex`, of which C77–C79 speak), with the types and channels that the grammar gives them. -/
theorem C82_lexer (files : List Str) : ∃ A D out, (deserialize lexerAtnData).bind Atn.net = some A ∧ A.lexFiles Dfa.empty files = some (D, out) ∧
    Pairs (Pairs IsToken) (files.map lex) out := by
  obtain ⟨A, D, hA, h, _⟩ := Gen.lexed files
  exact ⟨A, D, _, hA, h, Gen.pairs_map files (fun s _ => toks_lex _ s (by omega))⟩

/-- **C82, as written.** If each file is written as a sequence of lexical elements of which none runs into the next one, exactly these are the tokens. -/
theorem C82_written (files : List (List Tok)) (h : ∀ ts ∈ files, (∀ t ∈ ts, Lexeme t) ∧ Separated ts) :
    ∃ A D out, (deserialize lexerAtnData).bind Atn.net = some A ∧ A.lexFiles Dfa.empty (files.map fun ts => ts.flatMap Tok.text) = some (D, out) ∧
      Pairs (Pairs IsToken) files out := by
  obtain ⟨A, D, out, hA, hl, hp⟩ := C82_lexer (files.map fun ts => ts.flatMap Tok.text)
  refine ⟨A, D, out, hA, hl, ?_⟩
  have e : (files.map fun ts => ts.flatMap Tok.text).map lex = files := by
    rw [List.map_map]
    conv => rhs; rw [← List.map_id files]
    exact List.map_congr_left (fun ts hts => lexAll_lexemes ts _ (h ts hts).1 (h ts hts).2 (Nat.le_refl _))
  rw [e] at hp
  exact hp

/-- **C82, no memory.** What was read before makes no difference to the tokens of a file, though the cache it leaves is used. -/
theorem C82_history (A : Net) (hA : (deserialize lexerAtnData).bind Atn.net = some A) (before : List Str) (D : Dfa) (out : List (List AToken))
    (hb : A.lexFiles Dfa.empty before = some (D, out)) (s : Str) :
    ∃ E F ts, A.lexFile D s = some (E, ts) ∧ A.lexFile Dfa.empty s = some (F, ts) := by
  rw [lexerNet_eq] at hA
  cases hA
  obtain ⟨D', h1, h2⟩ := lexFiles_spec before Dfa.empty inv_empty
  rw [hb] at h1
  cases h1
  obtain ⟨E, h3, _⟩ := lexFile_spec h2 s
  obtain ⟨F, h4, _⟩ := lexFile_spec inv_empty s
  exact ⟨E, F, _, h3, h4⟩

/-- **C82, types.** Every lexical element has a type and a channel, and only one. -/
theorem C82_typed (t : Tok) (h : Lexeme t) : ∃ a c, TokenType t a c ∧ ∀ b d, TokenType t b d → b = a ∧ d = c := by
  obtain ⟨a, c, hac⟩ := lexeme_typed h
  exact ⟨a, c, hac, fun b d g => tokenType_unique g hac⟩

/-- **C82, cache.** The cache stays small: however many files are read, it has at most 232 states, all different. -/
theorem C82_cache (A : Net) (hA : (deserialize lexerAtnData).bind Atn.net = some A) (files : List Str) (D : Dfa) (out : List (List AToken))
    (h : A.lexFiles Dfa.empty files = some (D, out)) : D.states.length ≤ 232 ∧ (D.states.map DState.configs).Nodup := by
  rw [lexerNet_eq] at hA
  cases hA
  obtain ⟨D', h1, h2⟩ := lexFiles_spec files Dfa.empty inv_empty
  rw [h] at h1
  cases h1
  exact ⟨states_bounded h2, h2.nodup⟩

/-- **C82, finding.** The comparison of configurations does not compare them: it takes configurations of different states of the automaton for the same.
Sets of configurations, and with them states of the cache, are told apart by their hashes only. -/
theorem C82_comparison_violated : ∃ a b : Cfg, a.state ≠ b.state ∧ a.alt ≠ b.alt ∧ a.equals b = true ∧ setEquals [a] [b] = true :=
  ⟨⟨1, 1, [], false, none⟩, ⟨2, 2, [], false, none⟩, by decide, by decide, rfl, rfl⟩

/-- **C82, no collision.** For this automaton that does no harm: states of the cache with equal hashes are equal. -/
theorem C82_no_collision (A : Net) (hA : (deserialize lexerAtnData).bind Atn.net = some A) (files : List Str) (D : Dfa) (out : List (List AToken))
    (h : A.lexFiles Dfa.empty files = some (D, out)) (s t : DState) (hs : s ∈ D.states) (ht : t ∈ D.states)
    (e : setHash s.configs = setHash t.configs) : s.configs = t.configs := by
  rw [lexerNet_eq] at hA
  cases hA
  obtain ⟨D', h1, h2⟩ := lexFiles_spec files Dfa.empty inv_empty
  rw [h] at h1
  cases h1
  obtain ⟨j, hj, rfl⟩ := List.getElem_of_mem hs
  obtain ⟨k, hk, rfl⟩ := List.getElem_of_mem ht
  obtain ⟨i, r, hi, hr, _⟩ := h2.states j _ (List.getElem?_eq_getElem hj)
  obtain ⟨i', r', hi', hr', _⟩ := h2.states k _ (List.getElem?_eq_getElem hk)
  have : i = i' := row_unique hi hi' (by rw [← hr, ← hr', e])
  subst this
  rw [hi] at hi'
  cases hi'
  rw [hr, hr']

/-- Two files, the second lexed with the cache of the first: a keyword, a word, white space on the channel 2, braces, a comment on the channel 3; then
a word that starts like a keyword, a number, and a character that no token begins with (left out). -/
example : (lexerNet.lexFiles Dfa.empty ["map m{}//x".toList, "mapp 0x1#".toList]).map (·.2.map (·.map fun a => (a.typ, a.channel, String.ofList a.text))) =
    some [[(12, 0, "map"), (59, 2, " "), (58, 0, "m"), (45, 0, "{"), (46, 0, "}"), (60, 3, "//x")], [(58, 0, "mapp"), (59, 2, " "), (57, 0, "0x1")]] := by
  decide +kernel

/-- The cache is used and grows. -/
example : (lexerNet.lexFiles Dfa.empty ["map".toList]).map (·.1.states.length) = some 4 := by decide +kernel

/-- The hypothesis of `C82_written`: two files of three tokens and one. -/
example : ∃ ts us : List Tok, ((∀ t ∈ ts, Lexeme t) ∧ Separated ts) ∧ ((∀ t ∈ us, Lexeme t) ∧ Separated us) ∧ ts.length = 3 ∧ us.length = 1 := by
  have hq : ∀ (k : TokKind) (t : List Char) (c : Char) (s : List Char), k ≠ .ws → k ≠ .line → t ≠ ['.'] → ¬ IdentChar c → c ≠ '.' →
      MayFollow ⟨k, t⟩ (c :: s) := by
    intro k t c s h1 h2 h3 h4 h5 x hx
    cases hx
    exact ⟨fun h => absurd h h1, fun h => absurd h h2, fun _ => h4, fun _ => ⟨h4, h5⟩, fun h => absurd h h3⟩
  refine ⟨[⟨.visible, "enum".toList⟩, ⟨.ws, [' ']⟩, ⟨.visible, ['{']⟩], [⟨.visible, "x1".toList⟩], ⟨?_, ?_⟩, ⟨?_, ?_⟩, rfl, rfl⟩
  · have h : ∀ t ∈ lex "enum {".toList, Lexeme t := (lexAll_sound _ _).1
    have e : lex "enum {".toList = [⟨.visible, "enum".toList⟩, ⟨.ws, [' ']⟩, ⟨.visible, ['{']⟩] := by decide +kernel
    rw [← e]
    exact h
  · refine .cons _ _ (hq _ _ ' ' _ (by decide) (by decide) (by decide) (by rw [identChar_num]; simp) (by decide)) (.cons _ _ ?_ (.cons _ _ (fun c hc => by cases hc) .nil))
    intro x hx
    cases hx
    refine ⟨fun _ => (by rw [blank_num]; decide : ¬ BlankChar '{'), fun h => (by cases h), ?_, ?_, fun h => (by cases h)⟩
    · exact fun _ => (by rw [identChar_num]; simp : ¬ IdentChar '{')
    · exact fun _ => ⟨(by rw [identChar_num]; simp : ¬ IdentChar '{'), by decide⟩
  · have h : ∀ t ∈ lex "x1".toList, Lexeme t := (lexAll_sound _ _).1
    have e : lex "x1".toList = [⟨.visible, "x1".toList⟩] := by decide +kernel
    rw [← e]
    exact h
  · exact .cons _ _ (fun c hc => by cases hc) .nil

end Verif.Props
