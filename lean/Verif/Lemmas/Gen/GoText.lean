import Verif.Spec.Gen.GoText
import Verif.Spec.Gen.Names
/-!
# Lines of Go as pieces

A line is cut into pieces, which are read one by one; a check on neighbouring pieces says that no token runs into the next.
-/
namespace Verif.Props
open Verif.Model.Gen Verif.Spec.Gen
namespace Gen

/-- A text without line ends that is read as these tokens, with a semicolon when the line ends after it, if no part of a word follows. -/
def FragOk (s : Str) (ts : List GTok) : Prop :=
  ∀ (b : Bool) (rest : Str) (tr : List GTok), (∀ c ∈ rest.head?, c.toNat < 128 ∧ wordChar c = false ∧ c ≠ '.') → Lexes true rest tr → Lexes b (s ++ rest) (ts ++ tr)

/-- Pieces of lines. -/
inductive Pc where
  /-- a fixed word -/
  | k (s : String)
  /-- an identifier -/
  | w (s : Str)
  /-- a fixed prefix and an identifier -/
  | pre (a : String) (s : Str)
  /-- an identifier and a fixed suffix -/
  | suf (s : Str) (z : String)
  | int (s : Str)
  | o (s : String)
  | sp
  | str (s : Str)
  | raw (s : Str)
  | frag (s : Str) (ts : List GTok)

/-- The text of pieces, followed by `e`. -/
def render : List Pc → Str → Str
  | [], e => e
  | .k s :: ps, e => s.toList ++ render ps e
  | .w s :: ps, e => s ++ render ps e
  | .pre a s :: ps, e => a.toList ++ (s ++ render ps e)
  | .suf s z :: ps, e => s ++ (z.toList ++ render ps e)
  | .int s :: ps, e => s ++ render ps e
  | .o s :: ps, e => s.toList ++ render ps e
  | .sp :: ps, e => ' ' :: render ps e
  | .str s :: ps, e => '"' :: (s ++ '"' :: render ps e)
  | .raw s :: ps, e => '`' :: (s ++ '`' :: render ps e)
  | .frag s _ :: ps, e => s ++ render ps e

def pcTok : Pc → List GTok
  | .k s => [.word s.toList]
  | .w s => [.word s]
  | .pre a s => [.word (a.toList ++ s)]
  | .suf s z => [.word (s ++ z.toList)]
  | .int s => [.int s]
  | .o s => [opTok s.toList]
  | .sp => []
  | .str s => [.str s]
  | .raw s => [.str s]
  | .frag _ ts => ts

def pcToks (ps : List Pc) : List GTok := ps.flatMap pcTok

/-- Is a semicolon due after these pieces? -/
def after : Bool → List Pc → Bool
  | b, [] => b
  | _, .k s :: ps => after (semiAfter (.word s.toList)) ps
  | _, .o s :: ps => after (semiAfter (opTok s.toList)) ps
  | b, .sp :: ps => after b ps
  | _, _ :: ps => after true ps

/-- What a piece must be. -/
def Pc.Ok : Pc → Prop
  | .k _ | .o _ | .sp => True
  | .w s => GoWord s
  | .pre a s => GoWord (a.toList ++ s)
  | .suf s z => GoWord (s ++ z.toList)
  | .int s => ∃ c r, s = c :: r ∧ c.isDigit = true ∧ (∀ x ∈ r, x.isDigit = true) ∧ (c = '0' → r = [])
  | .str s => ∀ c ∈ s, c ≠ '"' ∧ c ≠ '\\' ∧ c ≠ '\n' ∧ Legal c
  | .raw s => ∀ c ∈ s, c ≠ '`' ∧ c ≠ '\r' ∧ Legal c
  | .frag s ts => FragOk s ts ∧ s ≠ [] ∧ '\n' ∉ s

/-- Operators that are no part of a longer one, whatever follows. -/
def freeOps : List String := ["(", ")", "[", "]", "{", "}", ",", ";"]

/-- Operators that are read alone when a space, a word, a digit or an opening parenthesis follows. -/
def tightOps : List String := ["*", "-", "=", "!=", "&&", ":=", ":", "."]

/-- A word may stand before these pieces. -/
def endsWord : List Pc → Bool
  | [] => true
  | .o _ :: _ => true
  | .sp :: _ => true
  | _ => false

/-- A number may stand before these pieces. -/
def endsInt : List Pc → Bool
  | [] => true
  | .o s :: _ => s ≠ "."
  | .sp :: _ => true
  | _ => false

/-- An operator `s` may stand before these pieces. -/
def endsOp (s : String) : List Pc → Bool
  | .sp :: _ => true
  | .w _ :: _ => true
  | .k _ :: _ => true
  | .int _ :: _ => s ≠ "."
  | .o t :: _ => t = "("
  | _ => false

/-- The check on neighbours. -/
def fits : List Pc → Bool
  | [] => true
  | .k s :: ps => (match s.toList with | c :: r => wordStart c && r.all wordChar | [] => false) && endsWord ps && fits ps
  | .w _ :: ps => endsWord ps && fits ps
  | .pre _ _ :: ps => endsWord ps && fits ps
  | .suf _ _ :: ps => endsWord ps && fits ps
  | .int _ :: ps => endsInt ps && fits ps
  | .o s :: ps => (freeOps.contains s || (tightOps.contains s && endsOp s ps)) && fits ps
  | .sp :: ps => fits ps
  | .str _ :: ps => fits ps
  | .raw _ :: ps => fits ps
  | .frag _ _ :: ps => endsInt ps && fits ps

/-- What follows the pieces of a line. -/
def LineEnd (e : Str) : Prop := ∀ c ∈ e.head?, c = '\n' ∨ c = '/' ∨ c = ' '

theorem lineEnd_word {e : Str} (h : LineEnd e) : ∀ c ∈ e.head?, c.toNat < 128 ∧ wordChar c = false ∧ c ≠ '.' := by
  intro c hc
  rcases h c hc with rfl | rfl | rfl <;> decide

/-- No operator begins with such a character and goes on with a letter, digit, space or parenthesis: the first characters of operators. -/
theorem free_max {s : String} (hs : s ∈ freeOps) (rest : Str) : ∀ o' ∈ goOperators, o' <+: s.toList ++ rest → o'.length ≤ s.toList.length := by
  have key : ∀ s ∈ freeOps, s.toList ≠ [] ∧ ∀ o' ∈ goOperators, o'.head? = s.toList.head? → o' = s.toList := by decide +kernel
  obtain ⟨e, h⟩ := key s hs
  intro o' ho hp
  cases o' with
  | nil => simp
  | cons d o' =>
    refine Nat.le_of_eq (congrArg _ (h (d :: o') ho ?_))
    cases e1 : s.toList with
    | nil => exact absurd e1 e
    | cons c r =>
      rw [e1, List.cons_append, List.cons_prefix_cons] at hp
      rw [hp.1]
      rfl

/-- Characters that end a tight operator. -/
def StopOp (c : Char) : Prop := c = ' ' ∨ c = '(' ∨ wordChar c = true

theorem stop_not_op {c : Char} (h : StopOp c) : ∀ o ∈ goOperators, ∀ a ∈ o.tail, a ≠ c := by
  intro o ho a ha e
  subst e
  have key : ∀ o ∈ goOperators, ∀ a ∈ o.tail, a ≠ ' ' ∧ a ≠ '(' ∧ wordChar a = false := by decide +kernel
  obtain ⟨h1, h2, h3⟩ := key o ho a ha
  rcases h with h | h | h
  · exact h1 h
  · exact h2 h
  · rw [h] at h3
    cases h3

theorem tight_max {s : Str} (hs : s ≠ []) {rest : Str} {c : Char} (hc : rest.head? = some c) (h : StopOp c) :
    ∀ o' ∈ goOperators, o' <+: s ++ rest → o'.length ≤ s.length := by
  intro o' ho hp
  cases rest with
  | nil => cases hc
  | cons d rest =>
    cases hc
    apply Nat.le_of_not_lt
    intro hlt
    obtain ⟨t, ht⟩ := hp
    have h1 : (o' ++ t)[s.length]? = some c := by rw [ht]; simp
    rw [List.getElem?_append_left hlt] at h1
    have h2 : c ∈ o'.tail := by
      cases o' with
      | nil => simp at hlt
      | cons x o' =>
        cases s with
        | nil => exact absurd rfl hs
        | cons y s =>
          simp only [List.length_cons, List.getElem?_cons_succ] at h1
          exact List.mem_of_getElem? h1
    exact stop_not_op h o' ho c h2 rfl

theorem endsWord_head {ps : List Pc} {e : Str} (h : endsWord ps = true) (hf : fits ps = true) (he : LineEnd e) : EndsWord (render ps e) := by
  unfold endsWord at h
  split at h
  · intro c hc
    obtain ⟨h1, h2, _⟩ := lineEnd_word he c hc
    exact ⟨h1, h2⟩
  · next s ps =>
    rw [fits, Bool.and_eq_true] at hf
    have key : ∀ s ∈ freeOps ++ tightOps, s.toList ≠ [] ∧ ∀ c ∈ s.toList, c.toNat < 128 ∧ wordChar c = false := by decide +kernel
    have hm : s ∈ freeOps ++ tightOps := by
      rcases Bool.or_eq_true _ _ ▸ hf.1 with h | h
      · exact List.mem_append.2 (.inl (List.contains_iff_mem.1 h))
      · rw [Bool.and_eq_true] at h
        exact List.mem_append.2 (.inr (List.contains_iff_mem.1 h.1))
    obtain ⟨e0, e2⟩ := key s hm
    intro d hd
    cases e1 : s.toList with
    | nil => exact absurd e1 e0
    | cons c r =>
      rw [render, e1] at hd
      cases hd
      exact e2 d (by rw [e1]; exact List.mem_cons_self ..)
  · intro c hc
    rw [render] at hc
    cases hc
    exact ⟨by decide, by decide⟩
  · cases h

theorem endsInt_head {ps : List Pc} {e : Str} (h : endsInt ps = true) (hf : fits ps = true) (he : LineEnd e) :
    ∀ c ∈ (render ps e).head?, c.toNat < 128 ∧ wordChar c = false ∧ c ≠ '.' := by
  unfold endsInt at h
  split at h
  · exact lineEnd_word he
  · next s ps =>
    rw [fits, Bool.and_eq_true] at hf
    have key : ∀ s ∈ freeOps ++ tightOps, s ≠ "." → s.toList ≠ [] ∧ ∀ c ∈ s.toList, c.toNat < 128 ∧ wordChar c = false ∧ c ≠ '.' := by decide +kernel
    have hm : s ∈ freeOps ++ tightOps := by
      rcases Bool.or_eq_true _ _ ▸ hf.1 with h | h
      · exact List.mem_append.2 (.inl (List.contains_iff_mem.1 h))
      · rw [Bool.and_eq_true] at h
        exact List.mem_append.2 (.inr (List.contains_iff_mem.1 h.1))
    obtain ⟨e0, e2⟩ := key s hm (by simpa using h)
    intro d hd
    cases e1 : s.toList with
    | nil => exact absurd e1 e0
    | cons c r =>
      rw [render, e1] at hd
      cases hd
      exact e2 d (by rw [e1]; exact List.mem_cons_self ..)
  · intro c hc
    rw [render] at hc
    cases hc
    exact ⟨by decide, by decide, by decide⟩
  · cases h

theorem word_step {s : Str} (h : ∃ c r, s = c :: r ∧ wordStart c = true ∧ ∀ x ∈ r, wordChar x = true) {rest : Str} {tr : List GTok} (b : Bool) (he : EndsWord rest)
    (hr : Lexes (semiAfter (.word s)) rest tr) : Lexes b (s ++ rest) (.word s :: tr) := by
  obtain ⟨c, r, rfl, h1, h2⟩ := h
  exact .word b c r rest tr h1 h2 he hr

theorem goWord_semi {s : Str} (h : GoWord s) : semiAfter (.word s) = true := by
  have e := h.notKeyword
  show (!goKeywords.contains s || _) = true
  rw [e]
  rfl

theorem wordStart_char {c : Char} (h : wordStart c = true) : wordChar c = true := by
  unfold wordStart at h
  unfold wordChar Char.isAlphanum
  rcases Bool.or_eq_true _ _ ▸ h with h | h <;> simp [h]

theorem digit_char {c : Char} (h : c.isDigit = true) : wordChar c = true := by
  unfold wordChar Char.isAlphanum
  simp [h]

theorem opTok_semi (s : Str) : opTok s = if s = [';'] then .semi else .op s := rfl

theorem endsOp_head {s : String} {ps : List Pc} {e : Str} (h : endsOp s ps = true) (hf : fits ps = true) (hok : ∀ p ∈ ps, p.Ok) :
    ∃ c, (render ps e).head? = some c ∧ StopOp c ∧ (s = "." → c.isDigit = false) := by
  have notdigit : ∀ {c : Char}, wordStart c = true → c.isDigit = false := by
    intro c hc
    unfold wordStart at hc
    rw [Bool.or_eq_true] at hc
    rcases hc with hc | hc
    · unfold Char.isAlpha at hc
      unfold Char.isDigit
      rw [Bool.or_eq_true] at hc
      simp only [Char.isUpper, Char.isLower, Bool.and_eq_true, decide_eq_true_eq] at hc
      rw [Bool.and_eq_false_iff]
      simp only [decide_eq_false_iff_not]
      right
      intro h9
      rcases hc with ⟨h1, _⟩ | ⟨h1, _⟩ <;> exact absurd (UInt32.le_trans h1 h9) (by decide)
    · rw [beq_iff_eq] at hc
      subst hc
      decide
  unfold endsOp at h
  split at h
  · exact ⟨' ', rfl, .inl rfl, fun _ => by decide⟩
  · next s' ps =>
    obtain ⟨c, r, e1, h1, h2⟩ := (hok _ (List.mem_cons_self ..) : GoWord s').ident
    refine ⟨c, ?_, .inr (.inr (wordStart_char h1)), fun _ => notdigit h1⟩
    rw [render, e1]
    rfl
  · next s' ps =>
    rw [fits, Bool.and_eq_true, Bool.and_eq_true] at hf
    have hm := hf.1.1
    split at hm
    · next c r e1 =>
      rw [Bool.and_eq_true] at hm
      refine ⟨c, ?_, .inr (.inr (wordStart_char hm.1)), fun _ => notdigit hm.1⟩
      rw [render, e1]
      rfl
    · cases hm
  · next s' ps =>
    obtain ⟨c, r, e1, h1, h2⟩ := hok (.int s') (List.mem_cons_self ..)
    refine ⟨c, ?_, .inr (.inr (digit_char h1)), fun hs => ?_⟩
    · rw [render, e1]
      rfl
    · rw [hs] at h
      cases h
  · next t ps =>
    rw [decide_eq_true_eq] at h
    subst h
    exact ⟨'(', rfl, .inr (.inl rfl), fun _ => by decide⟩
  · cases h

theorem op_step {s : String} {ps : List Pc} {e : Str} {tr : List GTok} (b : Bool) (h : (freeOps.contains s || (tightOps.contains s && endsOp s ps)) = true)
    (hf : fits ps = true) (hok : ∀ p ∈ ps, p.Ok) (hr : Lexes (semiAfter (opTok s.toList)) (render ps e) tr) :
    Lexes b (s.toList ++ render ps e) (opTok s.toList :: tr) := by
  have key : ∀ s ∈ freeOps ++ tightOps, s.toList ∈ goOperators ∧ s.toList ≠ [] ∧ s.toList.head? ≠ some '/' := by decide +kernel
  have noslash : ∀ {s : String}, s ∈ freeOps ++ tightOps → ∀ (d : Char) (r : Str), ¬ ['/', d] <+: s.toList ++ r := by
    intro s hs d r hp
    obtain ⟨_, h2, h3⟩ := key s hs
    cases e : s.toList with
    | nil => exact h2 e
    | cons x y =>
      rw [e, List.cons_append, List.cons_prefix_cons] at hp
      rw [e, ← hp.1] at h3
      exact h3 rfl
  rw [Bool.or_eq_true] at h
  rcases h with h | h
  · have hs := List.contains_iff_mem.1 h
    have hm : s ∈ freeOps ++ tightOps := List.mem_append.2 (.inl hs)
    refine .op b s.toList (render ps e) tr (key s hm).1 (free_max hs _) (noslash hm _ _) (noslash hm _ _) ?_ hr
    intro e1
    have : ∀ s ∈ freeOps, s.toList ≠ ['.'] := by decide +kernel
    exact absurd e1 (this s hs)
  · rw [Bool.and_eq_true] at h
    have hs := List.contains_iff_mem.1 h.1
    have hm : s ∈ freeOps ++ tightOps := List.mem_append.2 (.inr hs)
    obtain ⟨c, h1, h2, h3⟩ := endsOp_head (e := e) h.2 hf hok
    refine .op b s.toList (render ps e) tr (key s hm).1 (tight_max (key s hm).2.1 h1 h2) (noslash hm _ _) (noslash hm _ _) ?_ hr
    intro e1 d hd
    rw [h1] at hd
    cases hd
    exact h3 (String.ext_iff.2 e1)

/-- Pieces that fit are read one by one. -/
theorem render_lexes {e : Str} {tr : List GTok} (he : LineEnd e) : ∀ (ps : List Pc) (b : Bool), fits ps = true → (∀ p ∈ ps, p.Ok) → Lexes (after b ps) e tr →
    Lexes b (render ps e) (pcToks ps ++ tr)
  | [], b, _, _, hr => hr
  | p :: ps, b, hf, hok, hr => by
    have hok' : ∀ q ∈ ps, q.Ok := fun q hq => hok q (List.mem_cons_of_mem _ hq)
    have hp := hok p (List.mem_cons_self ..)
    have eT : pcToks (p :: ps) ++ tr = pcTok p ++ (pcToks ps ++ tr) := by rw [pcToks, List.flatMap_cons, List.append_assoc]; rfl
    rw [eT]
    cases p with
    | k s =>
      rw [fits, Bool.and_eq_true, Bool.and_eq_true] at hf
      refine word_step ?_ b (endsWord_head hf.1.2 hf.2 he) (render_lexes he ps _ hf.2 hok' hr)
      have hm := hf.1.1
      split at hm
      · next c r e1 =>
        rw [Bool.and_eq_true, List.all_eq_true] at hm
        exact ⟨c, r, e1, hm.1, hm.2⟩
      · cases hm
    | w s =>
      rw [fits, Bool.and_eq_true] at hf
      refine word_step hp.ident b (endsWord_head hf.1 hf.2 he) ?_
      rw [goWord_semi hp]
      exact render_lexes he ps _ hf.2 hok' hr
    | pre a s =>
      rw [fits, Bool.and_eq_true] at hf
      rw [render, ← List.append_assoc]
      refine word_step hp.ident b (endsWord_head hf.1 hf.2 he) ?_
      rw [goWord_semi hp]
      exact render_lexes he ps _ hf.2 hok' hr
    | suf s z =>
      rw [fits, Bool.and_eq_true] at hf
      rw [render, ← List.append_assoc]
      refine word_step hp.ident b (endsWord_head hf.1 hf.2 he) ?_
      rw [goWord_semi hp]
      exact render_lexes he ps _ hf.2 hok' hr
    | int s =>
      rw [fits, Bool.and_eq_true] at hf
      obtain ⟨c, r, rfl, h1, h2, h3⟩ := hp
      have hh := endsInt_head hf.1 hf.2 he
      exact .int b c r _ _ h1 h2 h3 (fun d hd => ⟨(hh d hd).1, (hh d hd).2.1⟩) (fun d hd => (hh d hd).2.2) (render_lexes he ps _ hf.2 hok' hr)
    | o s =>
      rw [fits, Bool.and_eq_true] at hf
      exact op_step b hf.1 hf.2 hok' (render_lexes he ps _ hf.2 hok' hr)
    | sp => exact .space b ' ' _ _ (.inl rfl) (render_lexes he ps _ hf hok' hr)
    | str s => exact .str b s _ _ hp (render_lexes he ps _ hf hok' hr)
    | raw s => exact .raw b s _ _ hp (render_lexes he ps _ hf hok' hr)
    | frag s ts =>
      rw [fits, Bool.and_eq_true] at hf
      exact hp.1 b _ _ (endsInt_head hf.1 hf.2 he) (render_lexes he ps _ hf.2 hok' hr)

end Gen
end Verif.Props
