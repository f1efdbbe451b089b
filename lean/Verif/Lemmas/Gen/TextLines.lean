import Verif.Lemmas.Gen.GoText
import Verif.Model.Gen.Text
import Verif.Props.Gen.GoNames
import Verif.Props.Gen.Header
import Verif.Props.Gen.Names
/-!
# Lines of generated files
-/
namespace Verif.Props
open Verif.Model.Gen Verif.Spec.Gen
namespace Gen

/-! ## Names -/

theorem identChar_word {c : Char} (h : IdentChar c) : wordChar c = true := by
  unfold wordChar Char.isAlphanum Char.isAlpha Char.isUpper Char.isLower Char.isDigit
  rcases h with h | h | h | h
  · have h1 := h.1
    have h2 := h.2
    simp only [Char.le_def] at h1 h2
    simp [Bool.or_eq_true, Bool.and_eq_true, decide_eq_true_eq]
    left; left; right
    exact ⟨h1, h2⟩
  · have h1 := h.1
    have h2 := h.2
    simp only [Char.le_def] at h1 h2
    simp [Bool.or_eq_true, Bool.and_eq_true, decide_eq_true_eq]
    left; left; left
    exact ⟨h1, h2⟩
  · have h1 := h.1
    have h2 := h.2
    simp only [Char.le_def] at h1 h2
    simp [Bool.or_eq_true, Bool.and_eq_true, decide_eq_true_eq]
    left; right
    exact ⟨h1, h2⟩
  · subst h
    decide

theorem upper_start {c : Char} (h : Upper c) : wordStart c = true := by
  unfold wordStart Char.isAlpha Char.isUpper
  have h1 := h.1
  have h2 := h.2
  simp only [Char.le_def] at h1 h2
  rw [Bool.or_eq_true, Bool.or_eq_true, decide_eq_true_eq]
  exact .inl (.inl ⟨h1, h2⟩)

/-- A word with a character that is no lower case letter is not a keyword. -/
theorem not_keyword {s : Str} {c : Char} (hc : c ∈ s) (h : ¬ Lower c) : goKeywords.contains s = false := by
  cases e : goKeywords.contains s with
  | false => rfl
  | true =>
    have key : ∀ s ∈ goKeywords, ∀ c ∈ s, Lower c := by decide +kernel
    exact absurd (key s (List.contains_iff_mem.1 e) c hc) h

theorem upper_not_lower {c : Char} (h : Upper c) : ¬ Lower c := by
  intro h'
  have h1 : 'a' ≤ c := h'.1
  have h2 : c ≤ 'Z' := h.2
  exact absurd (Char.le_trans h1 h2) (by decide)

theorem exported_goWord {s : Str} (h : ExportedIdent s) : GoWord s := by
  obtain ⟨c, r, rfl, h1, h2⟩ := h
  exact ⟨⟨c, r, rfl, upper_start h1, fun x hx => identChar_word (h2 x (List.mem_cons_of_mem _ hx))⟩, not_keyword (List.mem_cons_self ..) (upper_not_lower h1)⟩

theorem exported_append {s t : Str} (h : ExportedIdent s) (ht : ∀ x ∈ t, IdentChar x) : ExportedIdent (s ++ t) := by
  obtain ⟨c, r, rfl, h1, h2⟩ := h
  refine ⟨c, r ++ t, rfl, h1, fun x hx => ?_⟩
  rcases List.mem_append.1 hx with hx | hx
  · exact h2 x hx
  · exact ht x hx

theorem exported_chars {s : Str} (h : ExportedIdent s) : ∀ x ∈ s, IdentChar x := by
  obtain ⟨c, r, rfl, _, h2⟩ := h
  exact h2

theorem exported_dodge {s : Str} (h : ExportedIdent s) (bad : Str → Bool) (n : Nat) : ExportedIdent (dodge bad n s) := by
  obtain ⟨k, e⟩ := dodge_shape bad n s
  rw [e]
  refine exported_append h fun x hx => ?_
  rw [(List.mem_replicate.1 hx).2]
  exact .inr (.inr (.inr rfl))

/-- A word with a fixed prefix. -/
theorem prefix_goWord {a s : Str} (ha : ∃ c r, a = c :: r ∧ wordStart c = true ∧ ∀ x ∈ r, wordChar x = true) (hs : ExportedIdent s) : GoWord (a ++ s) := by
  obtain ⟨c, r, rfl, h1, h2⟩ := ha
  obtain ⟨d, t, rfl, h3, h4⟩ := hs
  refine ⟨⟨c, r ++ d :: t, rfl, h1, fun x hx => ?_⟩, not_keyword (c := d) (by simp) (upper_not_lower h3)⟩
  rcases List.mem_append.1 hx with hx | hx
  · exact h2 x hx
  · exact identChar_word (h4 x hx)

/-! ## Lines -/

/-- Lines that are read as these tokens, whatever follows. -/
def LinesRead (lines : List Str) (ts : List GTok) : Prop :=
  ∀ (rest : Str) (tr : List GTok), Lexes false rest tr → Lexes false (lines.foldl writeLine [] ++ rest) (ts ++ tr)

theorem linesRead_nil : LinesRead [] [] := fun _ _ h => h

theorem linesRead_append {l l' : List Str} {ts ts' : List GTok} (h : LinesRead l ts) (h' : LinesRead l' ts') : LinesRead (l ++ l') (ts ++ ts') := by
  intro rest tr hr
  rw [List.foldl_append, writeLines_append, List.append_assoc, List.append_assoc]
  exact h _ _ (h' _ _ hr)

theorem linesRead_cons {s : Str} {l : List Str} {ts ts' : List GTok} (h : LinesRead [s] ts) (h' : LinesRead l ts') : LinesRead (s :: l) (ts ++ ts') :=
  linesRead_append (l := [s]) h h'

theorem linesRead_flatMap {α : Type} {f : α → List Str} {g : α → List GTok} : ∀ {l : List α}, (∀ x ∈ l, LinesRead (f x) (g x)) → LinesRead (l.flatMap f) (l.flatMap g)
  | [], _ => linesRead_nil
  | x :: l, h => by
    rw [List.flatMap_cons, List.flatMap_cons]
    exact linesRead_append (h x (List.mem_cons_self ..)) (linesRead_flatMap fun y hy => h y (List.mem_cons_of_mem _ hy))

theorem linesRead_map {α : Type} {f : α → Str} {g : α → List GTok} : ∀ {l : List α}, (∀ x ∈ l, LinesRead [f x] (g x)) → LinesRead (l.map f) (l.flatMap g)
  | [], _ => linesRead_nil
  | x :: l, h => by
    rw [List.map_cons, List.flatMap_cons]
    exact linesRead_cons (h x (List.mem_cons_self ..)) (linesRead_map fun y hy => h y (List.mem_cons_of_mem _ hy))

/-- An empty line. -/
theorem linesRead_empty : LinesRead [[]] [] := fun _ _ h => .newline false _ _ h

/-- A line that does not end with a newline. -/
theorem writeLine_single {s : Str} (h : s ≠ []) (hl : s.getLast? ≠ some '\n') : [s].foldl writeLine [] = s ++ ['\n'] := by
  rw [List.foldl_cons, List.foldl_nil]
  unfold writeLine
  cases s with
  | nil => exact absurd rfl h
  | cons c s =>
    dsimp only
    rw [List.nil_append, if_neg hl]

theorem linesRead_line {s : Str} {ts : List GTok} (h : s ≠ []) (hl : s.getLast? ≠ some '\n')
    (hr : ∀ (rest : Str) (tr : List GTok), Lexes false rest tr → Lexes false (s ++ '\n' :: rest) (ts ++ tr)) : LinesRead [s] ts := by
  intro rest tr h'
  rw [writeLine_single h hl, List.append_assoc]
  exact hr rest tr h'

/-! ## Comments -/

/-- A comment before the end of a line. -/
theorem comment_eol {s : Str} (h : GoComment s) (b : Bool) {rest : Str} {tr : List GTok} (hr : Lexes false rest tr) : Lexes b (s ++ '\n' :: rest) (semis b ++ tr) := by
  cases h with
  | line body h => exact .line b body ('\n' :: rest) _ h (by intro c hc; cases hc; rfl) (.newline b _ _ hr)
  | block body h1 h2 =>
    rw [List.cons_append, List.cons_append, List.append_assoc]
    by_cases hn : '\n' ∈ body
    · exact .blockLines b body ('\n' :: rest) tr hn h1 h2 (.newline false _ _ hr)
    · exact .block b body ('\n' :: rest) _ hn h1 h2 (.newline b _ _ hr)

theorem comments_eol {s : Str} (h : GoComments s) {rest : Str} {tr : List GTok} (hr : Lexes false rest tr) : Lexes false (s ++ '\n' :: rest) tr := by
  induction h with
  | one s h => exact comment_eol h false hr
  | more s t h _ ih =>
    rw [List.append_assoc]
    exact comment_eol h false ih

theorem comment_shape {s : Str} (h : GoComment s) : s ≠ [] ∧ s.getLast? ≠ some '\n' ∧ s.head? = some '/' := by
  cases h with
  | line body h =>
    refine ⟨by simp, ?_, rfl⟩
    intro e
    have := List.mem_of_getLast? e
    simp only [List.mem_cons] at this
    rcases this with h' | h' | h'
    · cases h'
    · cases h'
    · exact (h _ h').1 rfl
  | block body h1 h2 => exact ⟨by simp, by simp [List.getLast?_cons, List.getLast?_append], rfl⟩

theorem comments_shape {s : Str} (h : GoComments s) : s ≠ [] ∧ s.getLast? ≠ some '\n' := by
  induction h with
  | one s h => exact ⟨(comment_shape h).1, (comment_shape h).2.1⟩
  | more s t h _ ih =>
    refine ⟨by simp, ?_⟩
    rw [List.getLast?_append, List.getLast?_cons]
    cases e : t.getLast? with
    | none => exact absurd (List.getLast?_eq_none_iff.1 e) ih.1
    | some x =>
      have := ih.2
      rw [e] at this
      simpa using this

theorem linesRead_head {s : Str} (h : s = [] ∨ GoComments s) : LinesRead (headLine s) [] := by
  unfold headLine
  split
  · next hne =>
    rcases h with h | h
    · exact absurd h hne
    · exact linesRead_line (comments_shape h).1 (comments_shape h).2 fun _ _ hr => comments_eol h hr
  · exact linesRead_nil

theorem render_append : ∀ (ps : List Pc) (x y : Str), render ps (x ++ y) = render ps x ++ y
  | [], _, _ => rfl
  | p :: ps, x, y => by cases p <;> simp [render, render_append ps]

theorem wordChar_newline {c : Char} (h : wordChar c = true) : c ≠ '\n' := by
  rintro rfl
  revert h
  decide

theorem goWord_chars {s : Str} (h : ∃ c r, s = c :: r ∧ wordStart c = true ∧ ∀ x ∈ r, wordChar x = true) : s ≠ [] ∧ '\n' ∉ s := by
  obtain ⟨c, r, rfl, h1, h2⟩ := h
  refine ⟨by simp, fun hm => ?_⟩
  rcases List.mem_cons.1 hm with e | hm
  · exact wordChar_newline (wordStart_char h1) e.symm
  · exact wordChar_newline (h2 _ hm) rfl

theorem last_of {s : Str} (h : s ≠ [] ∧ '\n' ∉ s) : s ≠ [] ∧ s.getLast? ≠ some '\n' := ⟨h.1, fun e => h.2 (List.mem_of_getLast? e)⟩

theorem last_append {s t : Str} (h : t ≠ [] ∧ t.getLast? ≠ some '\n') : s ++ t ≠ [] ∧ (s ++ t).getLast? ≠ some '\n' := by
  refine ⟨by simp [h.1], ?_⟩
  rw [List.getLast?_append]
  cases e : t.getLast? with
  | none => exact absurd (List.getLast?_eq_none_iff.1 e) h.1
  | some x =>
    have := h.2
    rw [e] at this
    simpa using this

/-- A line of pieces does not end with a newline. -/
theorem render_last : ∀ (ps : List Pc), ps ≠ [] → fits ps = true → (∀ p ∈ ps, p.Ok) → render ps [] ≠ [] ∧ (render ps []).getLast? ≠ some '\n'
  | [], h, _, _ => absurd rfl h
  | p :: q :: ps, _, hf, hok => by
    have hf' : fits (q :: ps) = true := by
      cases p <;> rw [fits] at hf <;> try simp only [Bool.and_eq_true] at hf
      · exact hf.2
      · exact hf.2
      · exact hf.2
      · exact hf.2
      · exact hf.2
      · exact hf.2
      · exact hf
      · exact hf
      · exact hf
      · exact hf.2
    have ih := render_last (q :: ps) (by simp) hf' fun r hr => hok r (List.mem_cons_of_mem _ hr)
    cases p with
    | k s => exact last_append ih
    | w s => exact last_append ih
    | pre a s => exact last_append (last_append ih)
    | suf s z => exact last_append (last_append ih)
    | int s => exact last_append ih
    | o s => exact last_append ih
    | sp => exact last_append (s := [' ']) ih
    | str s =>
      show '"' :: (s ++ '"' :: render (q :: ps) []) ≠ [] ∧ _
      have : render (.str s :: q :: ps) [] = ('"' :: s ++ ['"']) ++ render (q :: ps) [] := by simp [render]
      rw [this]
      exact ⟨by simp, (last_append ih).2⟩
    | raw s =>
      show '`' :: (s ++ '`' :: render (q :: ps) []) ≠ [] ∧ _
      have : render (.raw s :: q :: ps) [] = ('`' :: s ++ ['`']) ++ render (q :: ps) [] := by simp [render]
      rw [this]
      exact ⟨by simp, (last_append ih).2⟩
    | frag s ts => exact last_append ih
  | [p], _, hf, hok => by
    have hp := hok p (List.mem_cons_self ..)
    cases p with
    | k s =>
      rw [fits, Bool.and_eq_true, Bool.and_eq_true] at hf
      have hm := hf.1.1
      have : s.toList ≠ [] ∧ '\n' ∉ s.toList := by
        split at hm
        · next c r e1 =>
          rw [Bool.and_eq_true, List.all_eq_true] at hm
          rw [e1]
          exact goWord_chars ⟨c, r, rfl, hm.1, hm.2⟩
        · cases hm
      rw [render, render, List.append_nil]
      exact last_of this
    | w s =>
      rw [render, render, List.append_nil]
      exact last_of (goWord_chars hp.ident)
    | pre a s =>
      rw [render, render, List.append_nil]
      exact last_of (goWord_chars hp.ident)
    | suf s z =>
      rw [render, render, List.append_nil]
      exact last_of (goWord_chars hp.ident)
    | int s =>
      rw [render, render, List.append_nil]
      obtain ⟨c, r, rfl, h1, h2, _⟩ := hp
      refine last_of ⟨by simp, fun hm => ?_⟩
      rcases List.mem_cons.1 hm with e | hm
      · exact wordChar_newline (digit_char h1) e.symm
      · exact wordChar_newline (digit_char (h2 _ hm)) rfl
    | o s =>
      rw [fits, Bool.and_eq_true] at hf
      have key : ∀ s ∈ freeOps ++ tightOps, s.toList ≠ [] ∧ '\n' ∉ s.toList := by decide +kernel
      have hm : s ∈ freeOps ++ tightOps := by
        rcases Bool.or_eq_true _ _ ▸ hf.1 with h | h
        · exact List.mem_append.2 (.inl (List.contains_iff_mem.1 h))
        · rw [Bool.and_eq_true] at h
          exact List.mem_append.2 (.inr (List.contains_iff_mem.1 h.1))
      rw [render, render, List.append_nil]
      exact last_of (key s hm)
    | sp => exact ⟨by simp [render], by simp [render]⟩
    | str s => exact ⟨by simp [render], by simp [render, List.getLast?_cons, List.getLast?_append]⟩
    | raw s => exact ⟨by simp [render], by simp [render, List.getLast?_cons, List.getLast?_append]⟩
    | frag s ts =>
      rw [render, render, List.append_nil]
      exact last_of hp.2

/-- A line of pieces, with a comment at its end or none. -/
theorem linesRead_note {s note : Str} (ps : List Pc) (e : s = render ps note) (hn : note = [] ∨ GoComment note) (hne : ps ≠ []) (hf : fits ps = true)
    (hok : ∀ p ∈ ps, p.Ok) : LinesRead [s] (pcToks ps ++ semis (after false ps)) := by
  have hlast : s ≠ [] ∧ s.getLast? ≠ some '\n' := by
    rcases hn with hn | hn
    · rw [e, hn]
      exact render_last ps hne hf hok
    · have := render_append ps [] note
      rw [List.nil_append] at this
      rw [e, this]
      exact last_append ⟨(comment_shape hn).1, (comment_shape hn).2.1⟩
  refine linesRead_line hlast.1 hlast.2 fun rest tr hr => ?_
  rw [e, ← render_append, List.append_assoc]
  refine render_lexes ?_ ps false hf hok ?_
  · intro c hc
    rcases hn with hn | hn
    · rw [hn] at hc
      cases hc
      exact .inl rfl
    · cases e' : note with
      | nil => exact absurd e' (comment_shape hn).1
      | cons x y =>
        have h3 := (comment_shape hn).2.2
        rw [e'] at hc h3
        cases h3
        cases hc
        exact .inr (.inl rfl)
  · rcases hn with hn | hn
    · rw [hn]
      exact .newline _ _ _ hr
    · exact comment_eol hn _ hr

/-- A line of pieces. -/
theorem linesRead_pcs {s : Str} (ps : List Pc) (e : s = render ps []) (hne : ps ≠ []) (hf : fits ps = true) (hok : ∀ p ∈ ps, p.Ok) :
    LinesRead [s] (pcToks ps ++ semis (after false ps)) := linesRead_note ps e (.inl rfl) hne hf hok

/-- A line of pieces after an empty line. -/
theorem linesRead_gap {s : Str} (ps : List Pc) (e : s = '\n' :: render ps []) (hne : ps ≠ []) (hf : fits ps = true) (hok : ∀ p ∈ ps, p.Ok) :
    LinesRead [s] (pcToks ps ++ semis (after false ps)) := by
  have h := render_last ps hne hf hok
  have h' : s ≠ [] ∧ s.getLast? ≠ some '\n' := by
    rw [e]
    exact last_append (s := ['\n']) h
  refine linesRead_line h'.1 h'.2 fun rest tr hr => ?_
  rw [e]
  refine .newline false _ _ ?_
  have := linesRead_pcs ps rfl hne hf hok rest tr hr
  rw [writeLine_single h.1 h.2, List.append_assoc] at this
  exact this

end Gen
end Verif.Props
