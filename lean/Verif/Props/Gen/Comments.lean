import Verif.Spec.Gen.Comments
import Verif.Props.Gen.Options

/-!
# C59: comments and directives belong to one declaration
-/
namespace Verif.Props
open Verif.Model.Gen Verif.Spec.Gen
namespace Gen

/-! ### Hidden tokens -/

theorem mem_hiddenLeft {toks : List Tok} {t : Tok} {j : Nat} : ∀ {i : Nat}, i ≤ toks.length →
    ((t, j) ∈ hiddenLeft toks i ↔ j < i ∧ toks[j]? = some t ∧ ∀ k u, j ≤ k → k < i → toks[k]? = some u → u.kind ≠ .visible)
  | 0, _ => by
    constructor
    · intro h; cases h
    · rintro ⟨h, _⟩; cases h
  | i + 1, hi => by
    have hl : i < toks.length := hi
    have ih := mem_hiddenLeft (t := t) (j := j) (Nat.le_of_lt hl)
    have hg : toks[i]? = some toks[i] := List.getElem?_eq_getElem hl
    rw [hiddenLeft, hg]
    dsimp only
    by_cases hv : (toks[i]).kind = .visible
    · rw [if_pos hv]
      constructor
      · intro h; cases h
      · rintro ⟨h1, _, h3⟩
        exact absurd hv (h3 i _ (Nat.le_of_lt_succ h1) (Nat.lt_succ_self _) hg)
    · rw [if_neg hv, List.mem_cons]
      constructor
      · rintro (e | h)
        · obtain ⟨e1, e2⟩ := Prod.mk.inj e
          subst e2
          refine ⟨Nat.lt_succ_self _, by rw [hg, e1], fun k u h1 h2 h3 => ?_⟩
          have : k = j := by omega
          subst this
          rw [hg] at h3
          rw [← Option.some.inj h3]
          exact hv
        · obtain ⟨h1, h2, h3⟩ := ih.1 h
          refine ⟨by omega, h2, fun k u h4 h5 h6 => ?_⟩
          by_cases hk : k = i
          · subst hk
            rw [hg] at h6
            rw [← Option.some.inj h6]
            exact hv
          · exact h3 k u h4 (by omega) h6
      · rintro ⟨h1, h2, h3⟩
        by_cases hj : j = i
        · subst hj
          rw [hg] at h2
          exact .inl (by rw [Option.some.inj h2])
        · exact .inr (ih.2 ⟨by omega, h2, fun k u h4 h5 h6 => h3 k u h4 (by omega) h6⟩)

theorem hiddenLeft_lt {toks : List Tok} : ∀ {i : Nat} {x : Tok × Nat}, x ∈ hiddenLeft toks i → x.2 < i
  | 0, _, h => by cases h
  | i + 1, x, h => by
    rw [hiddenLeft] at h
    split at h
    · cases h
    · split at h
      · cases h
      · rcases List.mem_cons.1 h with e | h
        · rw [e]; exact Nat.lt_succ_self _
        · exact Nat.lt_succ_of_lt (hiddenLeft_lt h)

theorem hiddenLeft_desc {toks : List Tok} : ∀ i : Nat, (hiddenLeft toks i).Pairwise (fun x y => y.2 < x.2)
  | 0 => .nil
  | i + 1 => by
    rw [hiddenLeft]
    split
    · exact .nil
    · split
      · exact .nil
      · exact .cons (fun x hx => hiddenLeft_lt hx) (hiddenLeft_desc i)

theorem mem_hiddenFrom {t : Tok} {j : Nat} : ∀ {ts : List Tok} {i : Nat},
    ((t, j) ∈ hiddenFrom ts i ↔ i ≤ j ∧ ts[j - i]? = some t ∧ ∀ k u, i ≤ k → k ≤ j → ts[k - i]? = some u → u.kind ≠ .visible)
  | [], i => by
    constructor
    · intro h; cases h
    · rintro ⟨_, h, _⟩; cases h
  | s :: ts, i => by
    rw [hiddenFrom]
    by_cases hv : s.kind = .visible
    · rw [if_pos hv]
      constructor
      · intro h; cases h
      · rintro ⟨h1, _, h3⟩
        exact absurd hv (h3 i s (Nat.le_refl _) h1 (by rw [Nat.sub_self]; rfl))
    · rw [if_neg hv, List.mem_cons]
      have ih := mem_hiddenFrom (t := t) (j := j) (ts := ts) (i := i + 1)
      have hs : ∀ k, i + 1 ≤ k → (s :: ts)[k - i]? = ts[k - (i + 1)]? := by
        intro k hk
        have : k - i = (k - (i + 1)) + 1 := by omega
        rw [this]; rfl
      constructor
      · rintro (e | h)
        · obtain ⟨e1, e2⟩ := Prod.mk.inj e
          subst e2 e1
          refine ⟨Nat.le_refl _, by rw [Nat.sub_self]; rfl, fun k u h1 h2 h3 => ?_⟩
          have : k = j := by omega
          subst this
          rw [Nat.sub_self] at h3
          rw [← Option.some.inj h3]
          exact hv
        · obtain ⟨h1, h2, h3⟩ := ih.1 h
          refine ⟨by omega, by rw [hs j h1]; exact h2, fun k u h4 h5 h6 => ?_⟩
          by_cases hk : k = i
          · subst hk
            rw [Nat.sub_self] at h6
            rw [← Option.some.inj h6]
            exact hv
          · exact h3 k u (by omega) h5 (by rw [← hs k (by omega)]; exact h6)
      · rintro ⟨h1, h2, h3⟩
        by_cases hj : j = i
        · subst hj
          rw [Nat.sub_self] at h2
          exact .inl (by rw [Option.some.inj h2])
        · refine .inr (ih.2 ⟨by omega, by rw [← hs j (by omega)]; exact h2, fun k u h4 h5 h6 => h3 k u (by omega) h5 ?_⟩)
          rw [hs k h4]; exact h6

theorem hiddenFrom_asc : ∀ (ts : List Tok) (i : Nat), (hiddenFrom ts i).Pairwise (fun x y => x.2 < y.2)
  | [], _ => .nil
  | s :: ts, i => by
    rw [hiddenFrom]
    split
    · exact .nil
    · exact .cons (fun x hx => (mem_hiddenFrom (t := x.1) (j := x.2)).1 hx |>.1) (hiddenFrom_asc ts (i + 1))

theorem mem_hiddenRight {toks : List Tok} {t : Tok} {i j : Nat} :
    (t, j) ∈ hiddenRight toks i ↔ i < j ∧ toks[j]? = some t ∧ ∀ k u, i < k → k ≤ j → toks[k]? = some u → u.kind ≠ .visible := by
  have hs : ∀ k, i + 1 ≤ k → (toks.drop (i + 1))[k - (i + 1)]? = toks[k]? := by
    intro k hk
    rw [List.getElem?_drop]
    congr 1
    omega
  unfold hiddenRight
  rw [mem_hiddenFrom]
  constructor
  · rintro ⟨h1, h2, h3⟩
    exact ⟨h1, by rw [← hs j h1]; exact h2, fun k u h4 h5 h6 => h3 k u h4 h5 (by rw [hs k h4]; exact h6)⟩
  · rintro ⟨h1, h2, h3⟩
    exact ⟨h1, by rw [hs j h1]; exact h2, fun k u h4 h5 h6 => h3 k u h4 h5 (by rw [← hs k h4]; exact h6)⟩

/-! ### The two loops -/

/-- Comments among tokens. -/
def isCom (x : Tok × Nat) : Bool := x.1.kind = .line ∨ x.1.kind = .block

theorem isCom_iff {x : Tok × Nat} : isCom x = true ↔ x.1.kind = .line ∨ x.1.kind = .block := decide_eq_true_iff

theorem isCom3 {t : Tok} {j : Nat} (h : isCom (t, j) = true) : t.kind = .line ∨ t.kind = .block ∨ t.kind = .ws := by
  rcases isCom_iff.1 h with h | h
  · exact .inl h
  · exact .inr (.inl h)

theorem headLoop_split : ∀ (tt : List (Tok × Nat)) (c : List Nat), tt.Pairwise (fun x y => y.2 < x.2) →
    ∃ pre post, tt = pre ++ post ∧ (headLoop c tt).2 = (pre.map Prod.snd).reverse ++ c ∧
      (headLoop c tt).1 = (pre.map (fun x => trimSpace x.1.text)).filter (fun s => s ≠ []) ∧
      (∀ x ∈ pre, x.2 ∉ c ∧ ¬ (x.1.kind = .ws ∧ 2 ≤ x.1.text.count '\n')) ∧
      ∀ x xs, post = x :: xs → x.2 ∈ c ∨ (x.1.kind = .ws ∧ 2 ≤ x.1.text.count '\n')
  | [], c, _ => ⟨[], [], rfl, rfl, rfl, (fun _ h => by cases h), fun _ _ h => by cases h⟩
  | (t, i) :: tt, c, hp => by
    have hp' := List.pairwise_cons.1 hp
    rw [headLoop]
    by_cases h1 : i ∈ c
    · rw [if_pos h1]
      exact ⟨[], (t, i) :: tt, rfl, rfl, rfl, (fun _ h => by cases h), fun x xs h => .inl (by rw [← (List.cons.inj h).1]; exact h1)⟩
    · rw [if_neg h1]
      by_cases h2 : t.kind = .ws ∧ t.text.count '\n' > 1
      · rw [if_pos h2]
        exact ⟨[], (t, i) :: tt, rfl, rfl, rfl, (fun _ h => by cases h), fun x xs h => .inr (by rw [← (List.cons.inj h).1]; exact h2)⟩
      · rw [if_neg h2]
        obtain ⟨pre, post, e, e2, e1, ha, hb⟩ := headLoop_split tt (i :: c) hp'.2
        refine ⟨(t, i) :: pre, post, by rw [e]; rfl, ?_, ?_, ?_, ?_⟩
        · dsimp only
          rw [e2]
          simp
        · dsimp only
          rw [e1]
          by_cases h : trimSpace t.text = []
          · simp [h]
          · simp [h]
        · intro x hx
          rcases List.mem_cons.1 hx with rfl | hx
          · exact ⟨h1, h2⟩
          · exact ⟨fun h => (ha x hx).1 (List.mem_cons_of_mem _ h), (ha x hx).2⟩
        · intro x xs h
          rcases hb x xs h with h' | h'
          · rcases List.mem_cons.1 h' with h'' | h''
            · have : x.2 < i := hp'.1 x (by rw [e, h]; exact List.mem_append_right _ (List.mem_cons_self ..))
              omega
            · exact .inl h''
          · exact .inr h'

theorem inlineLoop_split : ∀ (tt : List (Tok × Nat)) (c : List Nat),
    ∃ pre post, tt = pre ++ post ∧ (∀ x ∈ pre, x.1.kind = .ws ∧ '\n' ∉ x.1.text) ∧
      ((∃ x xs, post = x :: xs ∧ x.2 ∉ c ∧ x.1.kind ≠ .ws ∧ inlineLoop c tt = (trimSpace x.1.text, x.2 :: c)) ∨
       (inlineLoop c tt = ([], c) ∧ ∀ x xs, post = x :: xs → x.2 ∈ c ∨ (x.1.kind = .ws ∧ '\n' ∈ x.1.text)))
  | [], c => ⟨[], [], rfl, (fun _ h => by cases h), .inr ⟨rfl, fun _ _ h => by cases h⟩⟩
  | (t, i) :: tt, c => by
    rw [inlineLoop]
    by_cases h1 : i ∈ c
    · rw [if_pos h1]
      exact ⟨[], (t, i) :: tt, rfl, (fun _ h => by cases h), .inr ⟨rfl, fun x xs h => .inl (by rw [← (List.cons.inj h).1]; exact h1)⟩⟩
    · rw [if_neg h1]
      by_cases h2 : t.kind = .ws
      · rw [if_pos h2]
        by_cases h3 : '\n' ∈ t.text
        · rw [if_pos h3]
          exact ⟨[], (t, i) :: tt, rfl, (fun _ h => by cases h), .inr ⟨rfl, fun x xs h => .inr (by rw [← (List.cons.inj h).1]; exact ⟨h2, h3⟩)⟩⟩
        · rw [if_neg h3]
          obtain ⟨pre, post, e, ha, hb⟩ := inlineLoop_split tt c
          refine ⟨(t, i) :: pre, post, by rw [e]; rfl, ?_, hb⟩
          intro x hx
          rcases List.mem_cons.1 hx with rfl | hx
          · exact ⟨h2, h3⟩
          · exact ha x hx
      · rw [if_neg h2]
        exact ⟨[], (t, i) :: tt, rfl, (fun _ h => by cases h), .inl ⟨(t, i), tt, rfl, h1, h2, rfl⟩⟩

/-! ### The invariant of the walk -/

/-- Between calls: the comments `T` were taken, the positions `c` are marked. -/
structure Inv (toks : List Tok) (c T : List Nat) : Prop where
  marked : ∀ j, CommentAt toks j → (j ∈ T ↔ j ∈ c)
  comments : ∀ j ∈ T, CommentAt toks j
  down : ∀ k ∈ c, ∀ i j, VisibleAt toks i → Above toks i j → j < k → k < i → j ∈ c
  up : ∀ k ∈ c, (∃ t, toks[k]? = some t ∧ t.kind = .ws) → ∀ j, k < j → CommentAt toks j →
    (∀ m u, k < m → m < j → toks[m]? = some u → u.kind ≠ .visible) → j ∈ c

theorem Inv.init (toks : List Tok) : Inv toks [] [] where
  marked _ _ := Iff.rfl
  comments _ h := by cases h
  down _ h := by cases h
  up _ h := by cases h

theorem commentAt_not_visible {toks : List Tok} {j : Nat} (h : CommentAt toks j) : ¬ VisibleAt toks j := by
  obtain ⟨t, h1, h2⟩ := h
  rintro ⟨u, h3, h4⟩
  rw [h1] at h3
  rw [Option.some.inj h3] at h2
  rcases h2 with h2 | h2 <;> rw [h4] at h2 <;> cases h2

/-- A step takes exactly the positions allowed that were not taken before. -/
structure Step (toks : List Tok) (P : Nat → Prop) (T ps : List Nat) : Prop where
  asc : ps.Pairwise (· < ·)
  mem : ∀ j, j ∈ ps ↔ P j ∧ j ∉ T

theorem filter_none {tt : List (Tok × Nat)} (h : filterCommentOrWs tt = none) : ∀ x ∈ tt, isCom x = false := by
  unfold filterCommentOrWs at h
  dsimp only at h
  split at h
  · cases h
  · rename_i hn
    intro x hx
    cases hc : isCom x with
    | false => rfl
    | true =>
      refine absurd ?_ hn
      rw [List.any_eq_true]
      refine ⟨x, List.mem_filter.2 ⟨hx, decide_eq_true ?_⟩, hc⟩
      rcases isCom_iff.1 hc with h | h
      · exact .inl h
      · exact .inr (.inl h)

theorem filter_some {tt rr : List (Tok × Nat)} (h : filterCommentOrWs tt = some rr) :
    rr = tt.filter (fun t => decide (t.1.kind = .line ∨ t.1.kind = .block ∨ t.1.kind = .ws)) := by
  unfold filterCommentOrWs at h
  dsimp only at h
  split at h
  · exact (Option.some.inj h).symm
  · cases h

theorem dropWhile_nil {p : Char → Bool} : ∀ {s : Str}, (∀ c ∈ s, p c = true) → s.dropWhile p = []
  | [], _ => rfl
  | c :: s, h => by
    rw [List.dropWhile_cons, if_pos (h c (List.mem_cons_self ..))]
    exact dropWhile_nil (fun c' hc => h c' (List.mem_cons_of_mem _ hc))

theorem mem_dropWhile {p : Char → Bool} {c : Char} (hc : p c = false) : ∀ {s : Str}, c ∈ s → c ∈ s.dropWhile p
  | d :: s, h => by
    rw [List.dropWhile_cons]
    split
    · rename_i hd
      rcases List.mem_cons.1 h with e | h
      · rw [← e, hc] at hd; cases hd
      · exact mem_dropWhile hc h
    · exact h

theorem trim_ws {s : Str} (h : ∀ c ∈ s, isSpace c = true) : trimSpace s = [] := by
  unfold trimSpace
  rw [dropWhile_nil h]
  rfl

theorem trim_ne {s : Str} {c : Char} (h : c ∈ s) (hc : isSpace c = false) : trimSpace s ≠ [] := by
  have h1 := mem_dropWhile hc (List.mem_reverse.2 (mem_dropWhile hc h))
  intro e
  have : c ∈ trimSpace s := List.mem_reverse.2 h1
  rw [e] at this
  cases this

/-- The texts of the comments at the given positions. -/
def texts (toks : List Tok) (ps : List Nat) : List Str := ps.map (fun j => match toks[j]? with
  | some t => trimSpace t.text
  | none => [])

theorem joined_text {toks : List Tok} : ∀ ps : List Nat, (∀ j ∈ ps, CommentAt toks j) → CommentText toks ps (joinLines (texts toks ps))
  | [], _ => .none
  | [j], h => by
    obtain ⟨t, h1, _⟩ := h j (List.mem_cons_self ..)
    have e : joinLines (texts toks [j]) = trimSpace t.text := by
      unfold texts
      rw [List.map_cons, h1]
      rfl
    rw [e]
    exact .one j t _ h1 (trimSpace_trimmed _)
  | j :: k :: js, h => by
    obtain ⟨t, h1, _⟩ := h j (List.mem_cons_self ..)
    have e : joinLines (texts toks (j :: k :: js)) = trimSpace t.text ++ '\n' :: joinLines (texts toks (k :: js)) := by
      unfold texts
      rw [List.map_cons, h1]
      rfl
    rw [e]
    exact .more j t _ _ _ h1 (trimSpace_trimmed _) (by simp) (joined_text (k :: js) (fun i hi => h i (List.mem_cons_of_mem _ hi)))

/-- The texts of a run of comments and whitespace are those of the comments. -/
theorem run_texts {toks : List Tok} (hl : Lexed toks) : ∀ pre : List (Tok × Nat), (∀ x ∈ pre, toks[x.2]? = some x.1) →
    (∀ x ∈ pre, x.1.kind = .line ∨ x.1.kind = .block ∨ x.1.kind = .ws) →
    (pre.map (fun x => trimSpace x.1.text)).filter (fun s => s ≠ []) = texts toks ((pre.filter isCom).map Prod.snd)
  | [], _, _ => rfl
  | x :: pre, h1, h2 => by
    have ih := run_texts hl pre (fun y hy => h1 y (List.mem_cons_of_mem _ hy)) (fun y hy => h2 y (List.mem_cons_of_mem _ hy))
    have hx := h1 x (List.mem_cons_self ..)
    have hm : x.1 ∈ toks := List.mem_of_getElem? hx
    rw [List.map_cons, List.filter_cons, List.filter_cons]
    cases hc : isCom x with
    | true =>
      obtain ⟨c, hcm, hcs⟩ := hl.comment x.1 hm (isCom_iff.1 hc)
      rw [if_pos (decide_eq_true (trim_ne hcm hcs)), if_pos rfl, ih]
      unfold texts
      rw [List.map_cons, List.map_cons, hx]
    | false =>
      have hw : x.1.kind = .ws := by
        rcases h2 x (List.mem_cons_self ..) with h | h | h
        · exact absurd (isCom_iff.2 (.inl h)) (by rw [hc]; decide)
        · exact absurd (isCom_iff.2 (.inr h)) (by rw [hc]; decide)
        · exact h
      have e := trim_ws (hl.ws x.1 hm hw)
      rw [e, if_neg (by simp), if_neg (by simp), ih]

theorem head_step {toks : List Tok} (hl : Lexed toks) {c T : List Nat} (hi : Inv toks c T) {i : Nat} (hv : VisibleAt toks i) :
    ∃ ps, (consumeHead toks c i).1 = joinLines (texts toks ps) ∧ Step toks (Above toks i) T ps ∧
      Inv toks (consumeHead toks c i).2 (T ++ ps) := by
  obtain ⟨tv, hv1, hv2⟩ := hv
  have hlen : i < toks.length := by
    rw [List.getElem?_eq_some_iff] at hv1
    exact hv1.1
  have hmem := fun t j => mem_hiddenLeft (toks := toks) (t := t) (j := j) (Nat.le_of_lt hlen)
  -- what is above is among the tokens
  have habove : ∀ j, Above toks i j → ∃ t, (t, j) ∈ hiddenLeft toks i ∧ toks[j]? = some t ∧ isCom (t, j) = true := by
    rintro j ⟨h1, ⟨t, h2, h3⟩, h4⟩
    refine ⟨t, (hmem t j).2 ⟨h1, h2, fun k u h5 h6 h7 => ?_⟩, h2, isCom_iff.2 h3⟩
    by_cases hk : k = j
    · subst hk
      rw [h2] at h7
      rw [← Option.some.inj h7]
      intro hvis
      rcases h3 with h3 | h3 <;> rw [hvis] at h3 <;> cases h3
    · exact (h4 k u (by omega) h6 h7).1
  unfold consumeHead
  cases hf : filterCommentOrWs (hiddenLeft toks i) with
  | none =>
    refine ⟨[], rfl, ⟨.nil, fun j => ⟨fun h => (by cases h), fun h => ?_⟩⟩, by rw [List.append_nil]; exact hi⟩
    obtain ⟨t, h1, _, h2⟩ := habove j h.1
    rw [filter_none hf _ h1] at h2
    cases h2
  | some tt =>
    dsimp only
    have htt := filter_some hf
    have hdesc : tt.Pairwise (fun x y => y.2 < x.2) := by rw [htt]; exact (hiddenLeft_desc i).filter _
    obtain ⟨pre, post, e, e2, e1, ha, hb⟩ := headLoop_split tt c hdesc
    have hin : ∀ x ∈ tt, x.2 < i ∧ toks[x.2]? = some x.1 ∧ (∀ k u, x.2 ≤ k → k < i → toks[k]? = some u → u.kind ≠ .visible) ∧
        (x.1.kind = .line ∨ x.1.kind = .block ∨ x.1.kind = .ws) := by
      intro x hx
      rw [htt, List.mem_filter] at hx
      obtain ⟨h1, h2, h3⟩ := (hmem x.1 x.2).1 hx.1
      exact ⟨h1, h2, h3, of_decide_eq_true hx.2⟩
    have hback : ∀ t j, (t, j) ∈ hiddenLeft toks i → t.kind = .line ∨ t.kind = .block ∨ t.kind = .ws → (t, j) ∈ tt := by
      intro t j h1 h2
      rw [htt, List.mem_filter]
      exact ⟨h1, decide_eq_true h2⟩
    rw [e] at hdesc
    have hsplit := List.pairwise_append.1 hdesc
    have hpre : ∀ x ∈ pre, x ∈ tt := fun x hx => by rw [e]; exact List.mem_append_left _ hx
    have hpost : ∀ x ∈ post, x ∈ tt := fun x hx => by rw [e]; exact List.mem_append_right _ hx
    -- tokens above a token of the prefix are in the prefix
    have hup : ∀ x ∈ pre, ∀ y ∈ tt, x.2 < y.2 → y ∈ pre := by
      intro x hx y hy hlt
      rw [e] at hy
      rcases List.mem_append.1 hy with hy | hy
      · exact hy
      · have := hsplit.2.2 x hx y hy
        omega
    let ps := ((pre.filter isCom).map Prod.snd).reverse
    have hmemps : ∀ j, j ∈ ps ↔ ∃ t, (t, j) ∈ pre ∧ isCom (t, j) = true := by
      intro j
      constructor
      · intro h
        obtain ⟨x, hx, rfl⟩ := List.mem_map.1 (List.mem_reverse.1 h)
        rw [List.mem_filter] at hx
        exact ⟨x.1, hx⟩
      · rintro ⟨t, h1, h2⟩
        exact List.mem_reverse.2 (List.mem_map.2 ⟨(t, j), List.mem_filter.2 ⟨h1, h2⟩, rfl⟩)
    have hcom : ∀ x ∈ tt, isCom x = true → CommentAt toks x.2 := fun x hx hc => ⟨x.1, (hin x hx).2.1, isCom_iff.1 hc⟩
    have hstep : Step toks (Above toks i) T ps := by
      refine ⟨?_, fun j => ?_⟩
      · rw [List.pairwise_reverse, List.pairwise_map]
        exact (hsplit.1).filter _
      · rw [hmemps]
        constructor
        · rintro ⟨t, h1, h2⟩
          have h3 := hin _ (hpre _ h1)
          refine ⟨⟨h3.1, hcom _ (hpre _ h1) h2, fun k u h4 h5 h6 => ⟨h3.2.2.1 k u (Nat.le_of_lt h4) h5 h6, ?_⟩⟩, fun hT => ?_⟩
          · rintro ⟨hw, hblank⟩
            have hk : (u, k) ∈ tt := by
              refine hback u k ((hmem u k).2 ⟨h5, h6, fun k' u' h7 h8 h9 => h3.2.2.1 k' u' ?_ h8 h9⟩) (.inr (.inr hw))
              exact Nat.le_trans (Nat.le_of_lt h4) h7
            exact (ha _ (hup _ h1 _ hk h4)).2 ⟨hw, hblank⟩
          · exact (ha _ h1).1 ((hi.marked j (hcom _ (hpre _ h1) h2)).1 hT)
        · rintro ⟨h1, h2⟩
          obtain ⟨t, h3, h4, h5⟩ := habove j h1
          have h6 : (t, j) ∈ tt := hback t j h3 (isCom3 h5)
          have hnc : j ∉ c := fun h => h2 ((hi.marked j h1.comment).2 h)
          refine ⟨t, ?_, h5⟩
          have h6' := h6
          rw [e] at h6'
          rcases List.mem_append.1 h6' with h7 | h7
          · exact h7
          · exfalso
            cases hpo : post with
            | nil => rw [hpo] at h7; cases h7
            | cons q qs =>
              have hq : q ∈ tt := hpost q (by rw [hpo]; exact List.mem_cons_self ..)
              have hle : q = (t, j) ∨ j < q.2 := by
                rw [hpo] at h7 hsplit
                rcases List.mem_cons.1 h7 with h | h
                · exact .inl h.symm
                · exact .inr ((List.pairwise_cons.1 hsplit.2.1).1 _ h)
              rcases hb q qs hpo with hq1 | ⟨hq1, hq2⟩
              · rcases hle with hle | hle
                · rw [hle] at hq1; exact hnc hq1
                · exact hnc (hi.down q.2 hq1 i j ⟨tv, hv1, hv2⟩ h1 hle (hin q hq).1)
              · rcases hle with hle | hle
                · rw [hle] at hq1
                  have hq1 : t.kind = .ws := hq1
                  rcases isCom_iff.1 h5 with h | h <;> rw [show (t, j).1.kind = .ws from hq1] at h <;> cases h
                · exact (h1.between q.2 q.1 hle (hin q hq).1 (hin q hq).2.1).2 ⟨hq1, hq2⟩
    have hc' : ∀ j, j ∈ (headLoop c tt).2 ↔ (∃ t, (t, j) ∈ pre) ∨ j ∈ c := by
      intro j
      rw [e2, List.mem_append, List.mem_reverse, List.mem_map]
      constructor
      · rintro (⟨x, hx, rfl⟩ | h)
        · exact .inl ⟨x.1, hx⟩
        · exact .inr h
      · rintro (⟨t, h⟩ | h)
        · exact .inl ⟨(t, j), h, rfl⟩
        · exact .inr h
    refine ⟨ps, ?_, hstep, ?_, ?_, ?_, ?_⟩
    · rw [e1, run_texts hl pre (fun x hx => (hin x (hpre x hx)).2.1) (fun x hx => (hin x (hpre x hx)).2.2.2)]
      unfold texts
      rw [← List.map_reverse]
    · intro j hj
      rw [List.mem_append, hc', hi.marked j hj, hmemps]
      constructor
      · rintro (h | ⟨t, h, _⟩)
        · exact .inr h
        · exact .inl ⟨t, h⟩
      · rintro (⟨t, h⟩ | h)
        · refine .inr ⟨t, h, ?_⟩
          obtain ⟨u, h1, h2⟩ := hj
          have := (hin _ (hpre _ h)).2.1
          rw [show toks[(t, j).2]? = some u from h1] at this
          rw [Option.some.inj this] at h2
          exact isCom_iff.2 h2
        · exact .inl h
    · intro j hj
      rcases List.mem_append.1 hj with h | h
      · exact hi.comments j h
      · exact ((hstep.mem j).1 h).1.comment
    · intro k hk i' j hvi hab hjk hki
      rw [hc'] at hk ⊢
      rcases hk with ⟨t, hk⟩ | hk
      · have hkin := hin _ (hpre _ hk)
        have hie : i' = i := by
          obtain ⟨u, hu1, hu2⟩ := hvi
          rcases Nat.lt_trichotomy i' i with h | h | h
          · exact absurd hu2 (hkin.2.2.1 i' u (Nat.le_of_lt hki) h hu1)
          · exact h
          · exact absurd hv2 (hab.between i tv (Nat.lt_trans hjk hkin.1) h hv1).1
        subst hie
        by_cases hT : j ∈ T
        · exact .inr ((hi.marked j hab.comment).1 hT)
        · obtain ⟨t', h, _⟩ := (hmemps j).1 ((hstep.mem j).2 ⟨hab, hT⟩)
          exact .inl ⟨t', h⟩
      · exact .inr (hi.down k hk i' j hvi hab hjk hki)
    · rintro k hk ⟨t0, hk0, hws⟩ j hkj hcj hbet
      rw [hc'] at hk ⊢
      rcases hk with ⟨t, hk⟩ | hk
      · have hkin := hin _ (hpre _ hk)
        have hji : j < i := by
          rcases Nat.lt_trichotomy j i with h | h | h
          · exact h
          · exact absurd ⟨tv, hv1, hv2⟩ (h ▸ commentAt_not_visible hcj)
          · exact absurd hv2 (hbet i tv hkin.1 h hv1)
        obtain ⟨u, hu1, hu2⟩ := hcj
        refine .inl ⟨u, hup _ hk _ (hback u j ((hmem u j).2 ⟨hji, hu1, fun k' u' h7 h8 h9 => hkin.2.2.1 k' u' ?_ h8 h9⟩) ?_) hkj⟩
        · exact Nat.le_trans (Nat.le_of_lt hkj) h7
        · rcases hu2 with h | h
          · exact .inl h
          · exact .inr (.inl h)
      · exact .inr (hi.up k hk ⟨t0, hk0, hws⟩ j hkj hcj hbet)

theorem inline_step {toks : List Tok} {c T : List Nat} (hi : Inv toks c T) {i : Nat} (hv : VisibleAt toks i) :
    ∃ ps, (consumeInline toks c i).1 = joinLines (texts toks ps) ∧ Step toks (Beside toks i) T ps ∧
      Inv toks (consumeInline toks c i).2 (T ++ ps) := by
  obtain ⟨tv, hv1, hv2⟩ := hv
  have hbeside : ∀ j, Beside toks i j → ∃ t, (t, j) ∈ hiddenRight toks i ∧ toks[j]? = some t ∧ isCom (t, j) = true := by
    rintro j ⟨h1, ⟨t, h2, h3⟩, h4⟩
    refine ⟨t, mem_hiddenRight.2 ⟨h1, h2, fun k u h5 h6 h7 => ?_⟩, h2, isCom_iff.2 h3⟩
    by_cases hk : k = j
    · subst hk
      rw [h2] at h7
      rw [← Option.some.inj h7]
      intro hvis
      rcases h3 with h3 | h3 <;> rw [hvis] at h3 <;> cases h3
    · exact (h4 k u h5 (by omega) h7).1
  unfold consumeInline
  cases hf : filterCommentOrWs (hiddenRight toks i) with
  | none =>
    refine ⟨[], rfl, ⟨.nil, fun j => ⟨fun h => (by cases h), fun h => ?_⟩⟩, by rw [List.append_nil]; exact hi⟩
    obtain ⟨t, h1, _, h2⟩ := hbeside j h.1
    rw [filter_none hf _ h1] at h2
    cases h2
  | some tt =>
    dsimp only
    have htt := filter_some hf
    have hasc : tt.Pairwise (fun x y => x.2 < y.2) := by rw [htt]; exact (hiddenFrom_asc _ _).filter _
    obtain ⟨pre, post, e, ha, hb⟩ := inlineLoop_split tt c
    have hin : ∀ x ∈ tt, i < x.2 ∧ toks[x.2]? = some x.1 ∧ (∀ k u, i < k → k ≤ x.2 → toks[k]? = some u → u.kind ≠ .visible) ∧
        (x.1.kind = .line ∨ x.1.kind = .block ∨ x.1.kind = .ws) := by
      intro x hx
      rw [htt, List.mem_filter] at hx
      obtain ⟨h1, h2, h3⟩ := (mem_hiddenRight (t := x.1) (j := x.2)).1 hx.1
      exact ⟨h1, h2, h3, of_decide_eq_true hx.2⟩
    have hback : ∀ t j, (t, j) ∈ hiddenRight toks i → t.kind = .line ∨ t.kind = .block ∨ t.kind = .ws → (t, j) ∈ tt := by
      intro t j h1 h2
      rw [htt, List.mem_filter]
      exact ⟨h1, decide_eq_true h2⟩
    rw [e] at hasc
    have hsplit := List.pairwise_append.1 hasc
    have hpre : ∀ x ∈ pre, x ∈ tt := fun x hx => by rw [e]; exact List.mem_append_left _ hx
    have hpost : ∀ x ∈ post, x ∈ tt := fun x hx => by rw [e]; exact List.mem_append_right _ hx
    have hcomws : ∀ {x : Tok × Nat}, isCom x = true → x.1.kind ≠ .ws := by
      intro x h1 h2
      rcases isCom_iff.1 h1 with h | h <;> rw [h2] at h <;> cases h
    -- a comment at a token of the list is behind the prefix
    have hbehind : ∀ t j, (t, j) ∈ tt → isCom (t, j) = true → ∃ q qs, post = q :: qs ∧ (q = (t, j) ∨ q.2 < j) := by
      intro t j h1 h2
      rw [e] at h1
      rcases List.mem_append.1 h1 with h | h
      · exact absurd (ha _ h).1 (hcomws h2)
      · cases hpo : post with
        | nil => rw [hpo] at h; cases h
        | cons q qs =>
          refine ⟨q, qs, rfl, ?_⟩
          rw [hpo] at h hsplit
          rcases List.mem_cons.1 h with h | h
          · exact .inl h.symm
          · exact .inr ((List.pairwise_cons.1 hsplit.2.1).1 _ h)
    rcases hb with ⟨q, qs, hpo, hqc, hqk, he⟩ | ⟨he, hb⟩
    · have hq : q ∈ tt := hpost q (by rw [hpo]; exact List.mem_cons_self ..)
      have hqi := hin q hq
      have hqcom : q.1.kind = .line ∨ q.1.kind = .block := by
        rcases hqi.2.2.2 with h | h | h
        · exact .inl h
        · exact .inr h
        · exact absurd h hqk
      have hqat : CommentAt toks q.2 := ⟨q.1, hqi.2.1, hqcom⟩
      -- what is between is in the prefix
      have hbetween : ∀ k u, i < k → k < q.2 → toks[k]? = some u →
          u.kind ≠ .visible ∧ u.kind ≠ .line ∧ u.kind ≠ .block ∧ ¬ (u.kind = .ws ∧ '\n' ∈ u.text) := by
        intro k u h1 h2 h3
        have hvis := hqi.2.2.1 k u h1 (Nat.le_of_lt h2) h3
        have hmem : (u, k) ∈ hiddenRight toks i :=
          mem_hiddenRight.2 ⟨h1, h3, fun k' u' h4 h5 h6 => hqi.2.2.1 k' u' h4 (by omega) h6⟩
        have hp : u.kind = .line ∨ u.kind = .block ∨ u.kind = .ws → u.kind = .ws ∧ '\n' ∉ u.text := by
          intro h
          have h4 := hback u k hmem h
          rw [e] at h4
          rcases List.mem_append.1 h4 with h4 | h4
          · exact ha _ h4
          · rw [hpo] at h4 hsplit
            rcases List.mem_cons.1 h4 with h4 | h4
            · rw [← h4] at h2; exact absurd h2 (Nat.lt_irrefl _)
            · have : q.2 < k := (List.pairwise_cons.1 hsplit.2.1).1 _ h4
              omega
        refine ⟨hvis, fun h => ?_, fun h => ?_, fun h => (hp (.inr (.inr h.1))).2 h.2⟩
        · have := (hp (.inl h)).1
          rw [h] at this; cases this
        · have := (hp (.inr (.inl h))).1
          rw [h] at this; cases this
      rw [he]
      refine ⟨[q.2], ?_, ⟨List.pairwise_singleton .., fun j => ?_⟩, ?_, ?_, ?_, ?_⟩
      · unfold texts
        rw [List.map_cons, List.map_nil]
        dsimp only
        rw [hqi.2.1]
        rfl
      · rw [List.mem_singleton]
        constructor
        · rintro rfl
          exact ⟨⟨hqi.1, hqat, hbetween⟩, fun h => hqc ((hi.marked _ hqat).1 h)⟩
        · rintro ⟨h1, h2⟩
          obtain ⟨t, h3, h4, h5⟩ := hbeside j h1
          obtain ⟨q', qs', hpo', h6⟩ := hbehind t j (hback t j h3 (isCom3 h5)) h5
          rw [hpo] at hpo'
          rw [← (List.cons.inj hpo').1] at h6
          rcases h6 with h6 | h6
          · rw [h6]
          · have := h1.between q.2 q.1 hqi.1 h6 hqi.2.1
            rcases hqcom with h | h
            · exact absurd h this.2.1
            · exact absurd h this.2.2.1
      · intro j hj
        rw [List.mem_append, List.mem_singleton, List.mem_cons, hi.marked j hj]
        exact Or.comm
      · intro j hj
        rcases List.mem_append.1 hj with h | h
        · exact hi.comments j h
        · rw [List.mem_singleton] at h
          rw [h]; exact hqat
      · intro k hk i' j hvi hab hjk hki
        rcases List.mem_cons.1 hk with hk | hk
        · subst hk
          exfalso
          have hij : i < j := by
            rcases Nat.lt_trichotomy j i with h | h | h
            · exact absurd hv2 (hab.between i tv h (Nat.lt_trans hqi.1 hki) hv1).1
            · exact absurd ⟨tv, hv1, hv2⟩ (h ▸ commentAt_not_visible hab.comment)
            · exact h
          obtain ⟨u, hu1, hu2⟩ := hab.comment
          have := hbetween j u hij hjk hu1
          rcases hu2 with h | h
          · exact this.2.1 h
          · exact this.2.2.1 h
        · exact List.mem_cons_of_mem _ (hi.down k hk i' j hvi hab hjk hki)
      · rintro k hk ⟨t0, hk0, hws⟩ j hkj hcj hbet
        rcases List.mem_cons.1 hk with hk | hk
        · subst hk
          rw [hqi.2.1] at hk0
          rw [← Option.some.inj hk0] at hws
          exact absurd hws hqk
        · exact List.mem_cons_of_mem _ (hi.up k hk ⟨t0, hk0, hws⟩ j hkj hcj hbet)
    · rw [he]
      refine ⟨[], rfl, ⟨.nil, fun j => ⟨fun h => (by cases h), ?_⟩⟩, by rw [List.append_nil]; exact hi⟩
      rintro ⟨h1, h2⟩
      exfalso
      have hnc : j ∉ c := fun h => h2 ((hi.marked j h1.comment).2 h)
      obtain ⟨t, h3, h4, h5⟩ := hbeside j h1
      obtain ⟨q, qs, hpo, h6⟩ := hbehind t j (hback t j h3 (isCom3 h5)) h5
      have hqi := hin q (hpost q (by rw [hpo]; exact List.mem_cons_self ..))
      rcases hb q qs hpo with hq | ⟨hq1, hq2⟩
      · rcases h6 with h6 | h6
        · rw [h6] at hq; exact hnc hq
        · have hbt := h1.between q.2 q.1 hqi.1 h6 hqi.2.1
          rcases hqi.2.2.2 with h | h | h
          · exact hbt.2.1 h
          · exact hbt.2.2.1 h
          · refine hnc (hi.up q.2 hq ⟨q.1, hqi.2.1, h⟩ j h6 h1.comment (fun m u h7 h8 h9 => ?_))
            exact (h1.between m u (Nat.lt_trans hqi.1 h7) h8 h9).1
      · rcases h6 with h6 | h6
        · rw [h6] at hq1; exact hcomws h5 hq1
        · exact (h1.between q.2 q.1 hqi.1 h6 hqi.2.1).2.2.2 ⟨hq1, hq2⟩

/-- What a call may take. -/
def Allowed (toks : List Tok) : CommentCall → Nat → Prop
  | .head i => Above toks i
  | .inline i => Beside toks i

/-- The position of the token a call starts from. -/
def callAt : CommentCall → Nat
  | .head i => i
  | .inline i => i

theorem consume_step {toks : List Tok} (hl : Lexed toks) {c T : List Nat} (hi : Inv toks c T) (k : CommentCall) (hv : VisibleAt toks (callAt k)) :
    ∃ ps, (consume toks c k).1 = joinLines (texts toks ps) ∧ Step toks (Allowed toks k) T ps ∧ Inv toks (consume toks c k).2 (T ++ ps) := by
  cases k with
  | head i => exact head_step hl hi hv
  | inline i => exact inline_step hi hv

theorem consumeAll_spec {toks : List Tok} (hl : Lexed toks) : ∀ (calls : List CommentCall) (c T : List Nat), Inv toks c T →
    (∀ k ∈ calls, VisibleAt toks (callAt k)) →
    ∃ pss : List (List Nat), pss.length = calls.length ∧ ∀ (n : Nat) (k : CommentCall) (s : Str) (ps : List Nat), calls[n]? = some k →
      (consumeAll toks c calls)[n]? = some s → pss[n]? = some ps →
      s = joinLines (texts toks ps) ∧ Step toks (Allowed toks k) (T ++ (pss.take n).flatten) ps
  | [], c, T, _, _ => ⟨[], rfl, fun n k s ps h => by cases h⟩
  | k :: calls, c, T, hi, hv => by
    obtain ⟨ps, h1, h2, h3⟩ := consume_step hl hi k (hv k (List.mem_cons_self ..))
    obtain ⟨pss, hlen, hspec⟩ := consumeAll_spec hl calls _ _ h3 (fun k' h => hv k' (List.mem_cons_of_mem _ h))
    refine ⟨ps :: pss, by rw [List.length_cons, List.length_cons, hlen], fun n k' s ps' e1 e2 e3 => ?_⟩
    rw [consumeAll] at e2
    cases n with
    | zero =>
      have e1 : k = k' := Option.some.inj e1
      have e2 : (consume toks c k).1 = s := Option.some.inj e2
      have e3 : ps = ps' := Option.some.inj e3
      subst e1 e2 e3
      refine ⟨h1, ?_⟩
      rw [List.take_zero, List.flatten_nil, List.append_nil]
      exact h2
    | succ n =>
      have := hspec n k' s ps' e1 e2 e3
      rw [List.take_succ_cons, List.flatten_cons, ← List.append_assoc]
      exact this

end Gen

/-- C59: the comments of a file are handed out in the order in which declarations ask for them.  A declaration that asks for the comments
above it gets those that are directly above it (nothing but comments and single ends of line in between), and one that asks for
the comment beside it gets the first one on the same line, except those that another declaration got before; in the order of the file, and
without the space around them. -/
theorem C59_comments (toks : List Tok) (hl : Lexed toks) (calls : List CommentCall)
    (hhead : ∀ i, .head i ∈ calls → VisibleAt toks i) (hinline : ∀ i, .inline i ∈ calls → VisibleAt toks i) :
    (consumeAll toks [] calls).length = calls.length ∧
    ∃ pss : List (List Nat), pss.length = calls.length ∧ ∀ (n : Nat) (k : CommentCall) (s : Str) (ps : List Nat), calls[n]? = some k →
      (consumeAll toks [] calls)[n]? = some s → pss[n]? = some ps →
      CommentText toks ps s ∧ ps.Pairwise (· < ·) ∧
      (∀ i, k = .head i → ∀ j, j ∈ ps ↔ Above toks i j ∧ ∀ qs ∈ pss.take n, j ∉ qs) ∧
      ∀ i, k = .inline i → ∀ j, j ∈ ps ↔ Beside toks i j ∧ ∀ qs ∈ pss.take n, j ∉ qs := by
  constructor
  · have : ∀ (calls : List CommentCall) (c : List Nat), (consumeAll toks c calls).length = calls.length := by
      intro calls
      induction calls with
      | nil => intro c; rfl
      | cons k ks ih => intro c; rw [consumeAll, List.length_cons, List.length_cons, ih]
    exact this calls []
  · obtain ⟨pss, h1, h2⟩ := Gen.consumeAll_spec hl calls [] [] (Gen.Inv.init toks) (fun k hk => by
      cases k with
      | head i => exact hhead i hk
      | inline i => exact hinline i hk)
    refine ⟨pss, h1, fun n k s ps e1 e2 e3 => ?_⟩
    obtain ⟨h3, h4⟩ := h2 n k s ps e1 e2 e3
    have hnot : ∀ j, j ∉ [] ++ (pss.take n).flatten ↔ ∀ qs ∈ pss.take n, j ∉ qs := by
      intro j
      rw [List.nil_append, List.mem_flatten]
      constructor
      · intro h qs hq hj; exact h ⟨qs, hq, hj⟩
      · rintro h ⟨qs, hq, hj⟩; exact h qs hq hj
    refine ⟨?_, h4.asc, ?_, ?_⟩
    · rw [h3]
      refine Gen.joined_text ps (fun j hj => ?_)
      have := ((h4.mem j).1 hj).1
      cases k with
      | head i => exact Above.comment this
      | inline i => exact Beside.comment this
    · rintro i rfl j
      rw [h4.mem, hnot]
      rfl
    · rintro i rfl j
      rw [h4.mem, hnot]
      rfl

/-- C59: no comment, and so no directive, is applied twice. -/
theorem C59_once (toks : List Tok) (hl : Lexed toks) (calls : List CommentCall)
    (hhead : ∀ i, .head i ∈ calls → VisibleAt toks i) (hinline : ∀ i, .inline i ∈ calls → VisibleAt toks i) :
    ∃ pss : List (List Nat), pss.length = calls.length ∧ pss.flatten.Nodup ∧ ∀ (n : Nat) (s : Str) (ps : List Nat),
      (consumeAll toks [] calls)[n]? = some s → pss[n]? = some ps → CommentText toks ps s := by
  obtain ⟨hlen, pss, h1, h2⟩ := C59_comments toks hl calls hhead hinline
  have hget : ∀ (n : Nat) (ps : List Nat), pss[n]? = some ps → ∃ k s, calls[n]? = some k ∧ (consumeAll toks [] calls)[n]? = some s := by
    intro n ps h
    obtain ⟨hn, _⟩ := List.getElem?_eq_some_iff.1 h
    exact ⟨_, _, List.getElem?_eq_getElem (by omega), List.getElem?_eq_getElem (by omega)⟩
  refine ⟨pss, h1, ?_, fun n s ps e1 e2 => ?_⟩
  · have hstep : ∀ (n : Nat) (ps : List Nat), pss[n]? = some ps → ps.Nodup ∧ ∀ j ∈ ps, ∀ qs ∈ pss.take n, j ∉ qs := by
      intro n ps h
      obtain ⟨k, s, e1, e2⟩ := hget n ps h
      obtain ⟨_, h3, h4, h5⟩ := h2 n k s ps e1 e2 h
      refine ⟨h3.imp (fun h => Nat.ne_of_lt h), fun j hj => ?_⟩
      cases k with
      | head i => exact ((h4 i rfl j).1 hj).2
      | inline i => exact ((h5 i rfl j).1 hj).2
    rw [List.nodup_iff_pairwise_ne, List.pairwise_flatten]
    refine ⟨fun ps hps => ?_, ?_⟩
    · obtain ⟨n, h⟩ := List.mem_iff_getElem?.1 hps
      exact (hstep n ps h).1
    · rw [List.pairwise_iff_getElem]
      intro m n hm hn hlt x hx y hy e
      subst e
      refine (hstep n _ (List.getElem?_eq_getElem hn)).2 x hy pss[m] ?_ hx
      rw [List.mem_take_iff_getElem]
      exact ⟨m, by omega, rfl⟩
  · obtain ⟨k, s', e3, e4⟩ := hget n ps e2
    rw [e1] at e4
    exact (h2 n k s ps e3 e1 e2).1

/-! ### Non-vacuity -/

/-- ```
// file

// one
//prutalgen:no_pointer
int32 a = 1; // two
// three
int32 b = 2;
```
with one token for each field. -/
def CommentSample : List Tok :=
  [⟨.line, "// file".toList⟩, ⟨.ws, "\n\n".toList⟩, ⟨.line, "// one".toList⟩, ⟨.ws, "\n".toList⟩, ⟨.line, "//prutalgen:no_pointer".toList⟩,
   ⟨.ws, "\n  ".toList⟩, ⟨.visible, "int32 a = 1;".toList⟩, ⟨.ws, " ".toList⟩, ⟨.line, "// two".toList⟩, ⟨.ws, "\n".toList⟩,
   ⟨.line, "// three ".toList⟩, ⟨.ws, "\n".toList⟩, ⟨.visible, "int32 b = 2;".toList⟩, ⟨.ws, "\n".toList⟩]

example : Lexed CommentSample := by
  constructor
  · decide +kernel
  · decide +kernel

example : consumeAll CommentSample [] [.head 6, .inline 6, .head 12, .inline 12] =
    ["// one\n//prutalgen:no_pointer".toList, "// two".toList, "// three".toList, []] := by decide +kernel

/-- In another order, a comment on the line of the first field goes to the second. -/
example : consumeAll CommentSample [] [.head 12, .inline 6] = ["// two\n// three".toList, []] := by decide +kernel

example : Above CommentSample 6 2 ∧ Above CommentSample 6 4 ∧ ¬ Above CommentSample 6 0 ∧ Beside CommentSample 6 8 := by
  refine ⟨⟨by decide, ⟨_, rfl, .inl rfl⟩, ?_⟩, ⟨by decide, ⟨_, rfl, .inl rfl⟩, ?_⟩, ?_, ⟨by decide, ⟨_, rfl, .inl rfl⟩, ?_⟩⟩
  · intro k t h1 h2 h3
    obtain rfl | rfl | rfl : k = 3 ∨ k = 4 ∨ k = 5 := by omega
    all_goals
      cases Option.some.inj h3
      decide
  · intro k t h1 h2 h3
    obtain rfl : k = 5 := by omega
    cases Option.some.inj h3
    decide
  · intro h
    exact (h.between 1 ⟨.ws, "\n\n".toList⟩ (by decide) (by decide) rfl).2 (by decide)
  · intro k t h1 h2 h3
    obtain rfl : k = 7 := by omega
    cases Option.some.inj h3
    decide

namespace Gen

theorem sprintf_plain : ∀ (n : Nat) (s : Str) (args : List Str), s.length ≤ n → (∀ c ∈ s, c ≠ '%') → sprintf n s args = s
  | 0, [], _, _, _ => rfl
  | _ + 1, [], _, _, _ => rfl
  | n + 1, c :: s, args, hn, h => by
    rw [sprintf, if_pos (h c (List.mem_cons_self ..)), sprintf_plain n s args (Nat.le_of_succ_le_succ hn) (fun c' hc => h c' (List.mem_cons_of_mem _ hc))]

end Gen

/-- C59: the line that declares the type of an enum ends with the comment beside the enum.  Missing: comments that contain `%`. -/
theorem C59_enum_line_partial (goName comment : Str) (h : ∀ c ∈ comment, c ≠ '%') :
    enumTypeLine goName comment = "type ".toList ++ goName ++ " int32".toList ++ comment := by
  have e : enumTypeLine goName comment = "type ".toList ++ (goName ++ sprintf (comment.length + 7) (" int32".toList ++ comment) []) := by
    unfold enumTypeLine
    dsimp only
    rw [List.length_append, Nat.add_comm]
    rfl
  rw [e, Gen.sprintf_plain _ _ _ (by rw [List.length_append, Nat.add_comm]; exact Nat.add_le_add_left (by decide) _)]
  · simp only [List.append_assoc]
  · intro c hc
    rcases List.mem_append.1 hc with hc | hc
    · have : ∀ c ∈ " int32".toList, c ≠ '%' := by decide
      exact this c hc
    · exact h c hc

example : enumTypeLine "E".toList "// kinds".toList = "type E int32// kinds".toList := by decide +kernel

/-- C59 (violated): a comment beside an enum is used as a format; `%` in it garbles the comment. -/
theorem C59_percent_violated : ∃ comment : Str, enumTypeLine "E".toList comment ≠ "type ".toList ++ "E".toList ++ " int32".toList ++ comment ∧
    enumTypeLine "E".toList comment = "type E int32// 100%!s(MISSING)ure".toList :=
  ⟨"// 100% sure".toList, by decide +kernel, by decide +kernel⟩

end Verif.Props
