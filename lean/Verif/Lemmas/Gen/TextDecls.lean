import Verif.Lemmas.Gen.TextLines
import Verif.Spec.Gen.GoFile
/-!
# Expressions and lines of generated files
-/
namespace Verif.Props
open Verif.Model.Gen Verif.Spec.Gen
namespace Gen

/-! ## Expressions -/

theorem free_step {s : String} (hs : s ∈ freeOps) (b : Bool) {rest : Str} {tr : List GTok} (hr : Lexes (semiAfter (opTok s.toList)) rest tr) :
    Lexes b (s.toList ++ rest) (opTok s.toList :: tr) := by
  have key : ∀ s ∈ freeOps, s.toList ∈ goOperators ∧ s.toList ≠ [] ∧ s.toList.head? ≠ some '/' ∧ s.toList ≠ ['.'] := by decide +kernel
  obtain ⟨h1, h2, h3, h4⟩ := key s hs
  have noslash : ∀ d : Char, ¬ ['/', d] <+: s.toList ++ rest := by
    intro d hp
    cases e : s.toList with
    | nil => exact h2 e
    | cons x y =>
      rw [e, List.cons_append, List.cons_prefix_cons] at hp
      rw [e, ← hp.1] at h3
      exact h3 rfl
  exact .op b s.toList rest tr h1 (free_max hs _) (noslash _) (noslash _) (fun e => absurd e h4) hr

/-- A star before anything but `=`. -/
theorem star_step (b : Bool) {rest : Str} {tr : List GTok} (h : rest.head? ≠ some '=') (hr : Lexes false rest tr) : Lexes b ('*' :: rest) (go "*" :: tr) := by
  refine .op b ['*'] rest tr (by decide +kernel) ?_ ?_ ?_ (by intro e; cases e) hr
  · intro o ho hp
    have key : ∀ o ∈ goOperators, o.head? = some '*' → o = ['*'] ∨ o = ['*', '='] := by decide +kernel
    cases o with
    | nil => simp
    | cons x o =>
      rw [List.singleton_append, List.cons_prefix_cons] at hp
      rcases key (x :: o) ho (by rw [hp.1]; rfl) with e | e
      · rw [e]
        simp
      · rw [List.cons.injEq] at e
        rw [e.2] at hp
        exfalso
        cases rest with
        | nil => simp at hp
        | cons y rest =>
          rw [List.cons_prefix_cons] at hp
          rw [← hp.2.1] at h
          exact h rfl
  · intro hp
    rw [List.singleton_append, List.cons_prefix_cons] at hp
    exact absurd hp.1 (by decide)
  · intro hp
    rw [List.singleton_append, List.cons_prefix_cons] at hp
    exact absurd hp.1 (by decide)

theorem frag_word {s : Str} (h : GoWord s) : FragOk s [.word s] := by
  intro b rest tr hc hr
  refine word_step h.ident b (fun c hh => ⟨(hc c hh).1, (hc c hh).2.1⟩) ?_
  rw [goWord_semi h]
  exact hr

theorem frag_qual {p s : Str} (hp : GoWord p) (hs : GoWord s) : FragOk (p ++ '.' :: s) [.word p, go ".", .word s] := by
  intro b rest tr hc hr
  have h1 := frag_word hs false rest tr hc hr
  have e : (p ++ '.' :: s) ++ rest = p ++ (".".toList ++ render [.w s] rest) := by simp [render]
  rw [e]
  refine word_step hp.ident b ?_ ?_
  · intro c hh
    cases hh
    exact ⟨by decide, by decide⟩
  · rw [goWord_semi hp]
    refine op_step (s := ".") true (by rfl) (by rfl) ?_ ?_
    · intro q hq
      rw [List.mem_singleton.1 hq]
      exact hs
    · exact h1

/-- Types that can be written down: names are identifiers. -/
def ExprOk (own : Str) : GoExpr → Prop
  | .basic s => s = "[]byte".toList ∨ GoWord s
  | .iface n => GoWord n
  | .named pkg n => GoWord n ∧ (pkg ≠ own → GoWord (pathBase pkg))
  | .ptr t => ExprOk own t
  | .slice t => ExprOk own t
  | .map k v => ExprOk own k ∧ ExprOk own v

theorem goWord_head {s : Str} (h : GoWord s) : ∃ c r, s = c :: r ∧ c ≠ '=' := by
  obtain ⟨c, r, rfl, h1, _⟩ := h.ident
  refine ⟨c, r, rfl, ?_⟩
  rintro rfl
  revert h1
  decide

theorem goWord_byte : GoWord "byte".toList := ⟨⟨'b', "yte".toList, rfl, by decide +kernel, by decide +kernel⟩, by decide +kernel⟩

theorem goWord_nil : GoWord "nil".toList := ⟨⟨'n', "il".toList, rfl, by decide +kernel, by decide +kernel⟩, by decide +kernel⟩

theorem goWord_false : GoWord "false".toList := ⟨⟨'f', "alse".toList, rfl, by decide +kernel, by decide +kernel⟩, by decide +kernel⟩

/-- The text of a type begins with a character other than `=`. -/
theorem expr_head {own : Str} {t : GoExpr} (h : ExprOk own t) : ∃ c r, exprText own t = c :: r ∧ c ≠ '=' := by
  cases t with
  | basic s =>
    rcases h with h | h
    · exact ⟨'[', "]byte".toList, h, by decide⟩
    · exact goWord_head h
  | iface n => exact goWord_head h
  | named pkg n =>
    rw [exprText]
    split
    · exact goWord_head h.1
    · next hp =>
      obtain ⟨c, r, e, hc⟩ := goWord_head (h.2 hp)
      exact ⟨c, r ++ '.' :: n, by rw [e]; rfl, hc⟩
  | ptr t => exact ⟨'*', _, rfl, by decide⟩
  | slice t => exact ⟨'[', _, rfl, by decide⟩
  | map k v => exact ⟨'m', _, rfl, by decide⟩

/-- A type is read as the tokens of its syntax. -/
theorem expr_frag {own : Str} : ∀ {t : GoExpr}, ExprOk own t → FragOk (exprText own t) (exprSyn own t).toks
  | .basic s, h => by
    rw [exprText, exprSyn]
    split
    · next e =>
      subst e
      intro b rest tr hc hr
      refine free_step (s := "[") (by decide +kernel) b (free_step (s := "]") (by decide +kernel) _ ?_)
      exact frag_word goWord_byte _ rest tr hc hr
    · next e =>
      rcases h with h | h
      · exact absurd h e
      · exact frag_word h
  | .iface n, h => frag_word h
  | .named pkg n, h => by
    rw [exprText, exprSyn]
    by_cases hp : pkg = own
    · rw [if_pos hp, if_pos hp]
      exact frag_word h.1
    · rw [if_neg hp, if_neg hp]
      exact frag_qual (h.2 hp) h.1
  | .ptr t, h => by
    intro b rest tr hc hr
    obtain ⟨c, r, e, hcn⟩ := expr_head (show ExprOk own t from h)
    refine star_step b ?_ (expr_frag (t := t) h false rest tr hc hr)
    rw [e]
    intro e'
    cases e'
    exact hcn rfl
  | .slice t, h => by
    intro b rest tr hc hr
    refine free_step (s := "[") (by decide +kernel) b (free_step (s := "]") (by decide +kernel) _ ?_)
    exact expr_frag (t := t) h _ rest tr hc hr
  | .map k v, h => by
    intro b rest tr hc hr
    have e : exprText own (.map k v) ++ rest = "map".toList ++ ("[".toList ++ (exprText own k ++ ("]".toList ++ (exprText own v ++ rest)))) := by
      simp [exprText]
    have e' : (exprSyn own (.map k v)).toks ++ tr = gw "map" :: go "[" :: ((exprSyn own k).toks ++ (go "]" :: ((exprSyn own v).toks ++ tr))) := by
      simp [exprSyn, TypeSyn.toks]
    rw [e, e']
    refine word_step ⟨'m', "ap".toList, rfl, by decide +kernel, by decide +kernel⟩ b ?_ ?_
    · intro c hh
      cases hh
      exact ⟨by decide, by decide⟩
    · refine free_step (s := "[") (by decide +kernel) _ ?_
      refine expr_frag (t := k) h.1 _ _ _ ?_ ?_
      · intro c hh
        cases hh
        exact ⟨by decide, by decide, by decide⟩
      · exact free_step (s := "]") (by decide +kernel) _ (expr_frag (t := v) h.2 _ rest tr hc hr)

/-- Its text is not empty and has no line ends. -/
theorem expr_line {own : Str} {t : GoExpr} (h : ExprOk own t) : exprText own t ≠ [] ∧ '\n' ∉ exprText own t := by
  constructor
  · obtain ⟨c, r, e, _⟩ := expr_head h
    rw [e]
    simp
  · induction t with
    | basic s =>
      rcases h with h | h
      · rw [exprText, h]
        decide +kernel
      · exact (goWord_chars h.ident).2
    | iface n => exact (goWord_chars (show GoWord n from h).ident).2
    | named pkg n =>
      rw [exprText]
      split
      · exact (goWord_chars h.1.ident).2
      · next hp =>
        rw [List.mem_append, List.mem_cons]
        rintro (hm | hm | hm)
        · exact (goWord_chars (h.2 hp).ident).2 hm
        · cases hm
        · exact (goWord_chars h.1.ident).2 hm
    | ptr t ih =>
      rw [exprText, List.mem_cons]
      rintro (hm | hm)
      · cases hm
      · exact ih h hm
    | slice t ih =>
      rw [exprText, List.mem_cons, List.mem_cons]
      rintro (hm | hm | hm)
      · cases hm
      · cases hm
      · exact ih h hm
    | map k v ih1 ih2 =>
      rw [exprText, List.mem_append, List.mem_append, List.mem_cons]
      rintro ((hm | hm) | hm | hm)
      · revert hm
        decide +kernel
      · exact ih1 h.1 hm
      · cases hm
      · exact ih2 h.2 hm

theorem expr_pc {own : Str} {t : GoExpr} (h : ExprOk own t) : (Pc.frag (exprText own t) (exprSyn own t).toks).Ok := ⟨expr_frag h, expr_line h⟩

/-- Zero values that can be written down. -/
def ZeroOk (own : Str) : ZeroExpr → Prop
  | .const pkg n => (GoWord n ∧ (pkg ≠ own → GoWord (pathBase pkg))) ∧ n ≠ "nil".toList ∧ n ≠ "false".toList
  | .lit t => ExprOk own t
  | _ => True

/-- A zero value is read as the tokens of its syntax. -/
theorem zero_pc {own : Str} {z : ZeroExpr} (h : ZeroOk own z) : (Pc.frag (zeroText own z) (zeroSyn own z).toks).Ok := by
  cases z with
  | nil => exact ⟨frag_word goWord_nil, goWord_chars goWord_nil.ident⟩
  | zero =>
    refine ⟨fun b rest tr hc hr => ?_, (by decide : "0".toList ≠ []), (by decide : '\n' ∉ "0".toList)⟩
    exact .int b '0' [] rest tr (by decide) (by simp) (fun _ => rfl) (fun c hh => ⟨(hc c hh).1, (hc c hh).2.1⟩) (fun c hh => (hc c hh).2.2) hr
  | false => exact ⟨frag_word goWord_false, goWord_chars goWord_false.ident⟩
  | empty =>
    refine ⟨fun b rest tr hc hr => ?_, (by decide : "\"\"".toList ≠ []), (by decide : '\n' ∉ "\"\"".toList)⟩
    exact .str b [] rest tr (by simp) hr
  | const pkg n =>
    rw [zeroText, zeroSyn]
    have := expr_pc (own := own) (t := .named pkg n) h.1
    rw [exprText, exprSyn] at this
    by_cases hp : pkg = own
    · rw [if_pos hp, if_pos hp] at this ⊢
      exact this
    · rw [if_neg hp, if_neg hp] at this ⊢
      exact this
  | lit t =>
    refine ⟨?_, ?_, ?_⟩
    · intro b rest tr hc hr
      have e : zeroText own (.lit t) ++ rest = exprText own t ++ ("{".toList ++ ("}".toList ++ rest)) := by simp [zeroText]
      have e' : (zeroSyn own (.lit t)).toks ++ tr = (exprSyn own t).toks ++ (go "{" :: go "}" :: tr) := by simp [zeroSyn, ZeroSyn.toks]
      rw [e, e']
      refine expr_frag (t := t) h b _ _ ?_ ?_
      · intro c hh
        cases hh
        exact ⟨by decide, by decide, by decide⟩
      · exact free_step (s := "{") (by decide +kernel) _ (free_step (s := "}") (by decide +kernel) _ hr)
    · rw [zeroText]
      simp
    · rw [zeroText, List.mem_append]
      rintro (hm | hm)
      · exact (expr_line (show ExprOk own t from h)).2 hm
      · revert hm
        decide +kernel

/-! ## Numbers -/

theorem digits_head : ∀ (k n : Nat), n ≤ k → ∃ c r, Nat.toDigits 10 n = c :: r ∧ (c = '0' → r = []) ∧ (0 < n → c ≠ '0')
  | k, n, hk => by
    by_cases hn : n < 10
    · rw [Nat.toDigits_of_lt_base hn]
      refine ⟨_, [], rfl, fun _ => rfl, fun h => ?_⟩
      have key : ∀ n : Fin 10, 0 < n.val → Nat.digitChar n.val ≠ '0' := by decide
      exact key ⟨n, hn⟩ h
    · cases k with
      | zero => omega
      | succ k =>
        obtain ⟨c, r, e, h1, h2⟩ := digits_head k (n / 10) (by omega)
        rw [Nat.toDigits_of_base_le (by decide) (by omega), e]
        exact ⟨c, r ++ _, rfl, fun hc => absurd hc (h2 (by omega)), fun _ => h2 (by omega)⟩

theorem digits_all {n : Nat} : ∀ x ∈ Nat.toDigits 10 n, x.isDigit = true := fun _ hx => Nat.isDigit_of_mem_toDigits (b := 10) (by decide) (by decide) hx

theorem frag_digits (n : Nat) : FragOk (Nat.toDigits 10 n) [.int (Nat.toDigits 10 n)] := by
  intro b rest tr hc hr
  obtain ⟨c, r, e, h, _⟩ := digits_head n n (Nat.le_refl _)
  have hd := digits_all (n := n)
  rw [e] at hd ⊢
  exact .int b c r rest tr (hd c (List.mem_cons_self ..)) (fun x hx => hd x (List.mem_cons_of_mem _ hx)) h (fun c hh => ⟨(hc c hh).1, (hc c hh).2.1⟩)
    (fun c hh => (hc c hh).2.2) hr

theorem itoa_pc (i : Int) : (Pc.frag (itoa i) (intToks i)).Ok := by
  have hl : '\n' ∉ Nat.toDigits 10 i.natAbs := fun hm => wordChar_newline (digit_char (digits_all _ hm)) rfl
  unfold itoa intToks
  split
  · refine ⟨?_, by simp, ?_⟩
    · intro b rest tr hc hr
      obtain ⟨c, r, e, _, _⟩ := digits_head i.natAbs i.natAbs (Nat.le_refl _)
      have hd := digits_all (n := i.natAbs) c (by rw [e]; exact List.mem_cons_self ..)
      refine .op b ['-'] _ _ (by decide +kernel) (tight_max (by simp) (c := c) (by rw [e]; rfl) (.inr (.inr (digit_char hd)))) ?_ ?_ (by intro e; cases e)
        (frag_digits _ _ rest tr hc hr)
      · intro hp
        rw [List.singleton_append, List.cons_prefix_cons] at hp
        exact absurd hp.1 (by decide)
      · intro hp
        rw [List.singleton_append, List.cons_prefix_cons] at hp
        exact absurd hp.1 (by decide)
    · rw [List.mem_cons]
      rintro (h | h)
      · cases h
      · exact hl h
  · exact ⟨frag_digits _, Nat.toDigits_ne_nil, hl⟩

end Gen
end Verif.Props
