import Verif.Spec.Gen.Comments
/-! Helper lemmas: the directives in comments, one by one. -/
namespace Verif.Lemmas.Gen
open Verif.Model.Gen Verif.Spec.Gen

/-- A line of the text is `x`, with blanks around it. -/
def HasLine (s x : Str) : Prop := ∃ line, Piece '\n' line s ∧ Trimmed line x

theorem carries_line (s d : Str) : Carries s d ↔ d ≠ [] ∧ ∃ rest item, HasLine s ("//prutalgen:".toList ++ rest) ∧ Piece ',' item rest ∧ Trimmed item d := by
  unfold Carries HasLine
  constructor
  · rintro ⟨h, line, rest, item, h1, h2, h3, h4⟩
    exact ⟨h, rest, item, ⟨line, h1, h2⟩, h3, h4⟩
  · rintro ⟨h, rest, item, ⟨line, h1, h2⟩, h3, h4⟩
    exact ⟨h, line, rest, item, h1, h2, h3, h4⟩

theorem piece_nil {sep : Char} {p : Str} (h : Piece sep p []) : p = [] := by
  obtain ⟨a, b, e, _⟩ := h
  have := congrArg List.length e
  simp only [List.length_nil, List.length_append] at this
  exact List.length_eq_zero_iff.1 (by omega)

theorem hasLine_nil {x : Str} (hx : x ≠ []) : ¬ HasLine [] x := by
  rintro ⟨line, h1, a, b, e, _⟩
  rw [piece_nil h1] at e
  have := congrArg List.length e
  simp only [List.length_nil, List.length_append] at this
  exact hx (List.length_eq_zero_iff.1 (by omega))

theorem piece_join {sep : Char} {p u s : Str} : Piece sep p (u ++ sep :: s) ↔ Piece sep p u ∨ Piece sep p s := by
  constructor
  · rintro ⟨a, b, e, hp, ha, hb⟩
    rcases List.append_eq_append_iff.1 e with ⟨x, e1, e2⟩ | ⟨x, e1, e2⟩
    · -- `a ++ p = u ++ x`
      cases x with
      | nil =>
        rw [List.append_nil] at e1
        exact .inl ⟨a, [], by rw [List.append_nil, e1], hp, ha, .inl rfl⟩
      | cons y x =>
        rw [List.cons_append] at e2
        injection e2 with e3 e4
        subst e3
        -- the separator is in `a`
        rcases List.append_eq_append_iff.1 e1 with ⟨z, f1, f2⟩ | ⟨z, f1, f2⟩
        · exact absurd (by rw [f2]; simp) hp
        · cases z with
          | nil =>
            rw [List.nil_append] at f2
            exact absurd (by rw [← f2]; simp) hp
          | cons w z =>
            rw [List.cons_append] at f2
            injection f2 with f3 f4
            subst f3
            refine .inr ⟨z, b, by rw [e4, f4], hp, ?_, hb⟩
            rcases ha with rfl | ⟨a', ha⟩
            · exact absurd f1.symm (by simp)
            · rw [ha] at f1
              rcases List.eq_nil_or_concat z with rfl | ⟨z', w, rfl⟩
              · exact .inl rfl
              · refine .inr ⟨z', ?_⟩
                rw [List.concat_eq_append] at f1 ⊢
                rw [← List.cons_append, ← List.append_assoc] at f1
                have := List.append_inj_right' f1 rfl
                rw [← this]
    · -- `u = a ++ p ++ x`
      refine .inl ⟨a, x, e1, hp, ha, ?_⟩
      cases x with
      | nil => exact .inl rfl
      | cons y x =>
        rcases hb with rfl | ⟨b', rfl⟩
        · cases e2
        · rw [List.cons_append] at e2
          injection e2 with e3 _
          exact .inr ⟨x, by rw [e3]⟩
  · rintro (⟨a, b, e, hp, ha, hb⟩ | ⟨a, b, e, hp, ha, hb⟩)
    · refine ⟨a, b ++ sep :: s, by rw [e]; simp, hp, ha, .inr ?_⟩
      rcases hb with rfl | ⟨b', rfl⟩
      · exact ⟨s, rfl⟩
      · exact ⟨b' ++ sep :: s, rfl⟩
    · refine ⟨u ++ sep :: a, b, by rw [e]; simp, hp, .inr ?_, hb⟩
      rcases ha with rfl | ⟨a', rfl⟩
      · exact ⟨u, rfl⟩
      · exact ⟨u ++ sep :: a', by simp⟩

theorem hasLine_join {x u s : Str} : HasLine (u ++ '\n' :: s) x ↔ HasLine u x ∨ HasLine s x := by
  unfold HasLine
  constructor
  · rintro ⟨l, h1, h2⟩
    rcases piece_join.1 h1 with h | h
    · exact .inl ⟨l, h, h2⟩
    · exact .inr ⟨l, h, h2⟩
  · rintro (⟨l, h1, h2⟩ | ⟨l, h1, h2⟩)
    · exact ⟨l, piece_join.2 (.inl h1), h2⟩
    · exact ⟨l, piece_join.2 (.inr h1), h2⟩

theorem hasLine_blank {c : Char} (hc : Blank c) {s x : Str} (hx : x ≠ []) : HasLine (c :: s) x ↔ HasLine s x := by
  by_cases hn : c = '\n'
  · subst hn
    have := hasLine_join (x := x) (u := []) (s := s)
    rw [List.nil_append] at this
    rw [this]
    exact ⟨fun h => h.resolve_left (hasLine_nil hx), .inr⟩
  · constructor
    · rintro ⟨line, ⟨a, b, e, hp, ha, hb⟩, ht⟩
      rcases ha with rfl | ⟨a', rfl⟩
      · cases line with
        | nil =>
          rw [List.nil_append, List.nil_append] at e
          rcases hb with rfl | ⟨b', rfl⟩
          · cases e
          · injection e with e1 _
            exact absurd e1 hn
        | cons y p =>
          simp only [List.nil_append, List.cons_append, List.cons.injEq] at e
          obtain ⟨rfl, e⟩ := e
          refine ⟨p, ⟨[], b, by rw [e]; rfl, fun h => hp (List.mem_cons_of_mem _ h), .inl rfl, hb⟩, ?_⟩
          obtain ⟨a, b, e', h1, h2, h3, h4⟩ := ht
          cases a with
          | nil =>
            exfalso
            cases x with
            | nil => exact hx rfl
            | cons z x =>
              rw [List.nil_append, List.cons_append] at e'
              injection e' with e1 _
              exact h3 z x rfl (e1 ▸ hc)
          | cons z a =>
            simp only [List.cons_append, List.cons.injEq] at e'
            exact ⟨a, b, e'.2, fun y hy => h1 y (List.mem_cons_of_mem _ hy), h2, h3, h4⟩
      · cases a' with
        | nil =>
          rw [List.nil_append, List.append_assoc, List.cons_append] at e
          injection e with e1 _
          exact absurd e1 hn
        | cons z a' =>
          simp only [List.cons_append, List.cons.injEq] at e
          exact ⟨line, ⟨a' ++ ['\n'], b, e.2, hp, .inr ⟨a', rfl⟩, hb⟩, ht⟩
    · rintro ⟨line, ⟨a, b, e, hp, ha, hb⟩, ht⟩
      rcases ha with rfl | ⟨a', rfl⟩
      · refine ⟨c :: line, ⟨[], b, by rw [e]; rfl, ?_, .inl rfl, hb⟩, ?_⟩
        · intro h
          rcases List.mem_cons.1 h with h | h
          · exact hn h.symm
          · exact hp h
        · obtain ⟨a, b, e', h1, h2, h3, h4⟩ := ht
          refine ⟨c :: a, b, by rw [e']; rfl, ?_, h2, h3, h4⟩
          intro y hy
          rcases List.mem_cons.1 hy with rfl | hy
          · exact hc
          · exact h1 y hy
      · exact ⟨line, ⟨c :: (a' ++ ['\n']), b, by rw [e]; rfl, hp, .inr ⟨c :: a', rfl⟩, hb⟩, ht⟩

theorem piece_reverse {sep : Char} {p s : Str} (h : Piece sep p s) : Piece sep p.reverse s.reverse := by
  obtain ⟨a, b, e, hp, ha, hb⟩ := h
  refine ⟨b.reverse, a.reverse, by rw [e]; simp, by simpa using hp, ?_, ?_⟩
  · rcases hb with rfl | ⟨b', rfl⟩
    · exact .inl rfl
    · exact .inr ⟨b'.reverse, by simp⟩
  · rcases ha with rfl | ⟨a', rfl⟩
    · exact .inl rfl
    · exact .inr ⟨a'.reverse, by simp⟩

theorem trimmed_reverse {s t : Str} (h : Trimmed s t) : Trimmed s.reverse t.reverse := by
  obtain ⟨a, b, e, h1, h2, h3, h4⟩ := h
  refine ⟨b.reverse, a.reverse, by rw [e]; simp, fun c hc => h2 c (List.mem_reverse.1 hc), fun c hc => h1 c (List.mem_reverse.1 hc), ?_, ?_⟩
  · intro c r e
    exact h4 c r.reverse (by rw [← List.reverse_reverse t, e]; simp)
  · intro c r e
    exact h3 c r.reverse (by rw [← List.reverse_reverse t, e]; simp)

theorem hasLine_reverse {s x : Str} : HasLine s x ↔ HasLine s.reverse x.reverse := by
  constructor
  · rintro ⟨l, h1, h2⟩
    exact ⟨l.reverse, piece_reverse h1, trimmed_reverse h2⟩
  · rintro ⟨l, h1, h2⟩
    have h1 := piece_reverse h1
    have h2 := trimmed_reverse h2
    rw [List.reverse_reverse] at h1 h2
    exact ⟨l.reverse, h1, h2⟩

theorem hasLine_blanks {a : Str} (ha : ∀ c ∈ a, Blank c) {s x : Str} (hx : x ≠ []) : HasLine (a ++ s) x ↔ HasLine s x := by
  induction a with
  | nil => exact Iff.rfl
  | cons c a ih =>
    rw [List.cons_append, hasLine_blank (ha c (by simp)) hx]
    exact ih fun y hy => ha y (List.mem_cons_of_mem _ hy)

theorem hasLine_trimmed {s u x : Str} (h : Trimmed s u) (hx : x ≠ []) : HasLine s x ↔ HasLine u x := by
  obtain ⟨a, b, rfl, h1, h2, _, _⟩ := h
  rw [List.append_assoc, hasLine_blanks h1 hx, hasLine_reverse, List.reverse_append, hasLine_blanks (fun c hc => h2 c (List.mem_reverse.1 hc)) (by simpa using hx),
    ← hasLine_reverse]

theorem carries_trimmed {s u d : Str} (h : Trimmed s u) : Carries s d ↔ Carries u d := by
  rw [carries_line, carries_line]
  simp only [fun rest => hasLine_trimmed h (x := "//prutalgen:".toList ++ rest) (by simp)]

theorem carries_join {u s d : Str} : Carries (u ++ '\n' :: s) d ↔ Carries u d ∨ Carries s d := by
  simp only [carries_line, hasLine_join]
  constructor
  · rintro ⟨h, rest, item, h1 | h1, h2⟩
    · exact .inl ⟨h, rest, item, h1, h2⟩
    · exact .inr ⟨h, rest, item, h1, h2⟩
  · rintro (⟨h, rest, item, h1, h2⟩ | ⟨h, rest, item, h1, h2⟩)
    · exact ⟨h, rest, item, .inl h1, h2⟩
    · exact ⟨h, rest, item, .inr h1, h2⟩

theorem carries_nil {d : Str} : ¬ Carries [] d := by
  rw [carries_line]
  rintro ⟨_, rest, item, h, _⟩
  exact hasLine_nil (by simp) h

theorem commentText_carries {toks : List Tok} {ps : List Nat} {s d : Str} (h : CommentText toks ps s) :
    Carries s d ↔ ∃ j ∈ ps, ∃ t, toks[j]? = some t ∧ Carries t.text d := by
  induction h with
  | none => simp [carries_nil]
  | one j t u hj ht =>
    rw [← carries_trimmed ht]
    simp [hj]
  | more j t u js s hj ht _ _ ih =>
    rw [carries_join, ← carries_trimmed ht, ih]
    simp [hj]

end Verif.Lemmas.Gen
