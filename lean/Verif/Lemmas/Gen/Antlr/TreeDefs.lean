import Verif.Lemmas.Gen.Antlr.TreeSound
import Verif.Lemmas.Gen.GrammarFile
/-!
# The trees of the parser are trees of the grammar: definitions
-/
namespace Verif.Lemmas.Gen.Antlr
open Verif.Model.Gen Verif.Model.Gen.Antlr Verif.Spec.Gen

variable {ts : List PTree} {w : List PTok}

/-! ## Repetitions -/

theorem many_sound {α : Type} {F : List PTree → List α} {g : α → List Str} {P : α → Prop} {B : List PTree → List PTok → Prop} (hn : F [] = [])
    (ha : ∀ a b, F (a ++ b) = F a ++ F b) {n : Nat} (item : ∀ {t u}, B t u → u.length ≤ n → TypedL u → (∀ x ∈ F t, P x) ∧ texts u = (F t).flatMap g)
    (h : Many B ts w) (hl : w.length ≤ n) (ht : TypedL w) : (∀ x ∈ F ts, P x) ∧ texts w = (F ts).flatMap g := by
  induction h with
  | nil => simp [hn]
  | cons h _ ih =>
    simp only [typedL_append] at ht
    simp only [List.length_append] at hl
    obtain ⟨h1, h2⟩ := item h (by omega) ht.1
    obtain ⟨i1, i2⟩ := ih (by omega) ht.2
    rw [ha]
    refine ⟨fun x hx => (List.mem_append.1 hx).elim (h1 x) (i1 x), ?_⟩
    rw [texts_append, h2, i2, List.flatMap_append]

theorem many_complete {α : Type} {g : α → List Str} {P : α → Prop} {B : List PTree → List PTok → Prop} {n : Nat}
    (item : ∀ {x u}, P x → u.length ≤ n → TypedL u → texts u = g x → ∃ t, B t u) : ∀ {l : List α} {w : List PTok}, (∀ x ∈ l, P x) → w.length ≤ n → TypedL w →
      texts w = l.flatMap g → ∃ ts, Many B ts w
  | [], w, _, _, _, e => by
    obtain rfl := texts_eq_nil e
    exact ⟨[], .nil⟩
  | x :: l, w, hP, hl, ht, e => by
    obtain ⟨u, v, rfl, e1, e2⟩ := texts_eq_append e
    simp only [typedL_append] at ht
    simp only [List.length_append] at hl
    obtain ⟨t, h⟩ := item (hP x (by simp)) (by omega) ht.1 e1
    obtain ⟨ts, h'⟩ := many_complete item (fun y hy => hP y (List.mem_cons_of_mem _ hy)) (by omega) ht.2 e2
    exact ⟨_, .cons h h'⟩

theorem flatMap_append' {α β : Type} (f : α → List β) (a b : List α) : (a ++ b).flatMap f = a.flatMap f ++ b.flatMap f := List.flatMap_append

theorem kidsMap_append {α : Type} (r : Nat) (f : List PTree → α) (a b : List PTree) : (kids r (a ++ b)).map f = (kids r a).map f ++ (kids r b).map f := by
  rw [kids_append, List.map_append]

/-- The text of the first child of a rule for names. -/
theorem name_text {r : Nat} (hr : r ∈ [38, 40, 41, 42, 43, 44, 45]) {t : List PTree} {u : List PTok} (h : Rule r t u) (ht : TypedL u) :
    ∃ n, texts u = [n] ∧ NameTok n ∧ (leavesL t).flatten = n := by
  obtain ⟨n, e, hn⟩ := (name_texts hr ht).1 ⟨_, h⟩
  exact ⟨n, e, hn, by rw [derives_leaves h, e]; simp⟩

theorem name_tree {r : Nat} (hr : r ∈ [38, 40, 41, 42, 43, 44, 45]) {x : PTok} (ht : Typed x) (h : NameTok x.text) : ∃ t, Rule r t [x] :=
  (name_texts hr (by simp [ht])).2 ⟨x.text, rfl, h⟩

/-! ## Enumerations -/

theorem commas_then {s s' a b q : Nat} {c : Code} :
    Derives protoGram (.call s q ;; .sync a ;; .whileLa [50] (.tok 50 ;; .call s' q ;; .sync b) ;; c) ts w ↔
      ∃ t u t' v, ts = t ++ t' ∧ w = u ++ v ∧ Commas q t u ∧ Derives protoGram c t' v := by
  have e : ∀ {d : Code}, Derives protoGram (.call s q ;; .sync a ;; d ;; c) ts w ↔ Derives protoGram ((.call s q ;; .sync a ;; d) ;; c) ts w := by
    intro d
    simp only [s_seq, s_rule, s_sync]
  rw [e, d_seq]
  constructor
  · rintro ⟨t, u, h, t', v, h', rfl, rfl⟩
    exact ⟨t, u, t', v, rfl, rfl, commas_iff.1 h, h'⟩
  · rintro ⟨t, u, t', v, rfl, rfl, h, h'⟩
    exact ⟨t, u, commas_iff.2 h, t', v, h', rfl, rfl⟩

theorem enumOptions_iff : Rule 26 ts w ↔ ∃ x t u y, ts = .leaf x :: (t ++ [.leaf y]) ∧ w = x :: (u ++ [y]) ∧ x.typ = 43 ∧ Commas 27 t u ∧ y.typ = 44 := by
  show Derives protoGram codeEnumValueOptions ts w ↔ _
  unfold codeEnumValueOptions
  simp only [s_tok, commas_then, d_tok]
  constructor
  · rintro ⟨x, _, _, rfl, rfl, hx, t, u, _, _, rfl, rfl, h, y, hy, rfl, rfl⟩
    exact ⟨x, t, u, y, rfl, rfl, hx, h, hy⟩
  · rintro ⟨x, t, u, y, rfl, rfl, hx, h, hy⟩
    exact ⟨x, _, _, rfl, rfl, hx, t, u, _, _, rfl, rfl, h, y, hy, rfl, rfl⟩

/-- `[ … ];` or `;` after the number of a value. -/
def EnumEnd (ts : List PTree) (w : List PTok) : Prop :=
  (∃ t u z, ts = [.node 26 t, .leaf z] ∧ w = u ++ [z] ∧ Rule 26 t u ∧ z.typ = 39) ∨ ∃ z, ts = [.leaf z] ∧ w = [z] ∧ z.typ = 39

theorem enumEnd_sound (h : EnumEnd ts w) (ht : TypedL w) :
    (∀ o ∈ astEnumOptions ts, WFOption o) ∧ texts w = spellBrackets (astEnumOptions ts) ++ [";".toList] ∧ hasTok 53 ts = false := by
  rcases h with ⟨t, u, z, rfl, rfl, h, hz⟩ | ⟨z, rfl, rfl, hz⟩
  · simp only [typedL_append, typedL_cons] at ht
    obtain ⟨x, t, u, y, rfl, rfl, hx, h, hy⟩ := enumOptions_iff.1 h
    simp only [typedL_append, typedL_cons] at ht
    obtain ⟨h1, h2, h3⟩ := commas_sound (q := 27) (f := astOption) (fun h ht => option_sound h ht) h ht.1.2.1
    have e : astEnumOptions [.node 26 (.leaf x :: (t ++ [.leaf y])), .leaf z] = (kids 27 t).map astOption := by simp [astEnumOptions, kids_append]
    rw [e]
    refine ⟨h2, ?_, by simp [hz]⟩
    rw [spellBrackets, if_neg h1]
    simp [h3, (is43 ht.1.1).1 hx, (is44 ht.1.2.2.1).1 hy, (is39 ht.2.1).1 hz]
  · simp only [typedL_cons] at ht
    simp [astEnumOptions, spellBrackets, (is39 ht.1).1 hz, hz]

theorem enumEnd_complete {os : List RawOption} (h : ∀ o ∈ os, WFOption o) (ht : TypedL w) (e : texts w = spellBrackets os ++ [";".toList]) : ∃ ts, EnumEnd ts w := by
  unfold spellBrackets at e
  split at e
  · obtain ⟨z, v, rfl, hz, e1⟩ := texts_eq_cons e
    obtain rfl := texts_eq_nil e1
    exact ⟨_, .inr ⟨z, rfl, rfl, (is39 (ht z (by simp))).2 hz⟩⟩
  · rename_i hn
    simp only [List.cons_append, List.append_assoc, List.nil_append] at e
    obtain ⟨x, v, rfl, hx, e1⟩ := texts_eq_cons e
    obtain ⟨u, v, rfl, e2, e3⟩ := texts_eq_append e1
    obtain ⟨y, v, rfl, hy, e4⟩ := texts_eq_cons e3
    obtain ⟨z, v, rfl, hz, e5⟩ := texts_eq_cons e4
    obtain rfl := texts_eq_nil e5
    simp only [typedL_append, typedL_cons] at ht
    obtain ⟨us, h⟩ := commas_complete (q := 27) (g := spellOption) (P := WFOption) (fun h ht e => option_complete h ht e) hn h ht.2.1 e2
    exact ⟨_, .inl ⟨_, x :: (u ++ [y]), z, rfl, by simp, enumOptions_iff.2 ⟨x, us, u, y, rfl, rfl, (is43 ht.1).2 hx, h, (is44 ht.2.2.1).2 hy⟩, (is39 ht.2.2.2.1).2 hz⟩⟩

theorem enumField_iff : Rule 25 ts w ↔ ∃ t1 u1 x m um t2 u2 te ue, ts = .node 38 t1 :: .leaf x :: (m ++ .node 48 t2 :: te) ∧ w = u1 ++ x :: (um ++ (u2 ++ ue)) ∧
    Rule 38 t1 u1 ∧ x.typ = 40 ∧ ((m = [] ∧ um = []) ∨ ∃ y, y.typ = 53 ∧ m = [.leaf y] ∧ um = [y]) ∧ Rule 48 t2 u2 ∧ EnumEnd te ue := by
  show Derives protoGram codeEnumField ts w ↔ _
  unfold codeEnumField EnumEnd
  take_apart
  constructor
  · rintro ⟨t1, u1, _, _, rfl, rfl, h1, x, _, _, rfl, rfl, hx, ⟨y, _, _, rfl, rfl, hy, t2, u2, te, ue, rfl, rfl, h2, h3⟩ | ⟨t2, u2, te, ue, rfl, rfl, h2, h3⟩⟩
    · refine ⟨t1, u1, x, [.leaf y], [y], t2, u2, te, ue, rfl, rfl, h1, hx, .inr ⟨y, hy, rfl, rfl⟩, h2, ?_⟩
      rcases h3 with ⟨t, u, _, _, rfl, rfl, h, z, hz, rfl, rfl⟩ | ⟨z, hz, rfl, rfl⟩
      · exact .inl ⟨t, u, z, rfl, rfl, h, hz⟩
      · exact .inr ⟨z, rfl, rfl, hz⟩
    · refine ⟨t1, u1, x, [], [], t2, u2, te, ue, rfl, rfl, h1, hx, .inl ⟨rfl, rfl⟩, h2, ?_⟩
      rcases h3 with ⟨t, u, _, _, rfl, rfl, h, z, hz, rfl, rfl⟩ | ⟨z, hz, rfl, rfl⟩
      · exact .inl ⟨t, u, z, rfl, rfl, h, hz⟩
      · exact .inr ⟨z, rfl, rfl, hz⟩
  · rintro ⟨t1, u1, x, m, um, t2, u2, te, ue, rfl, rfl, h1, hx, hm, h2, h3⟩
    refine ⟨t1, u1, _, _, rfl, rfl, h1, x, _, _, rfl, rfl, hx, ?_⟩
    rcases hm with ⟨rfl, rfl⟩ | ⟨y, hy, rfl, rfl⟩
    · refine .inr ⟨t2, u2, te, ue, rfl, rfl, h2, ?_⟩
      rcases h3 with ⟨t, u, z, rfl, rfl, h, hz⟩ | ⟨z, rfl, rfl, hz⟩
      · exact .inl ⟨t, u, _, _, rfl, rfl, h, z, hz, rfl, rfl⟩
      · exact .inr ⟨z, hz, rfl, rfl⟩
    · refine .inl ⟨y, _, _, rfl, rfl, hy, t2, u2, te, ue, rfl, rfl, h2, ?_⟩
      rcases h3 with ⟨t, u, z, rfl, rfl, h, hz⟩ | ⟨z, rfl, rfl, hz⟩
      · exact .inl ⟨t, u, _, _, rfl, rfl, h, z, hz, rfl, rfl⟩
      · exact .inr ⟨z, hz, rfl, rfl⟩

theorem enumField_sound (h : Rule 25 ts w) (ht : TypedL w) : (NameTok (astEnumValue ts).name ∧ IntTok (astEnumValue ts).number ∧
    ∀ o ∈ (astEnumValue ts).options, WFOption o) ∧ texts w = spellEnumValue (astEnumValue ts) := by
  obtain ⟨t1, u1, x, m, um, t2, u2, te, ue, rfl, rfl, h1, hx, hm, h2, h3⟩ := enumField_iff.1 h
  simp only [typedL_append, typedL_cons] at ht
  obtain ⟨y1, y2, y3, y4, y5⟩ := ht
  obtain ⟨n, e1, hn, e1'⟩ := name_text (r := 38) (by simp) h1 y1
  obtain ⟨k, e2, hk⟩ := (int_texts y4).1 ⟨_, h2⟩
  have e2' := derives_leaves h2
  obtain ⟨i1, i2, i3⟩ := enumEnd_sound h3 y5
  rcases hm with ⟨rfl, rfl⟩ | ⟨y, hy, rfl, rfl⟩
  · have e : astEnumValue (.node 38 t1 :: .leaf x :: ([] ++ .node 48 t2 :: te)) = ⟨n, false, k, astEnumOptions te⟩ := by
      simp [astEnumValue, textOf, textsOf, e1', e2, e2', hx, i3, astEnumOptions]
    rw [e]
    exact ⟨⟨hn, hk, i1⟩, by simp [spellEnumValue, e1, e2, i2, (is40 y2).1 hx]⟩
  · have e : astEnumValue (.node 38 t1 :: .leaf x :: ([.leaf y] ++ .node 48 t2 :: te)) = ⟨n, true, k, astEnumOptions te⟩ := by
      simp [astEnumValue, textOf, textsOf, e1', e2, e2', hx, hy, i3, astEnumOptions]
    rw [e]
    simp only [typedL_cons] at y3
    exact ⟨⟨hn, hk, i1⟩, by simp [spellEnumValue, e1, e2, i2, (is40 y2).1 hx, (is53 y3.1).1 hy]⟩

theorem enumField_complete {v : RawEnumValue} (h : NameTok v.name ∧ IntTok v.number ∧ ∀ o ∈ v.options, WFOption o) (ht : TypedL w)
    (e : texts w = spellEnumValue v) : Lang 25 w := by
  obtain ⟨x1, r, rfl, g1, e1⟩ := texts_eq_cons e
  obtain ⟨x2, r, rfl, g2, e2⟩ := texts_eq_cons e1
  obtain ⟨um, r, rfl, g3, e3⟩ := texts_eq_append e2
  obtain ⟨x4, r, rfl, g4, e4⟩ := texts_eq_cons e3
  simp only [typedL_append, typedL_cons] at ht
  obtain ⟨y1, y2, y3, y4, y5⟩ := ht
  obtain ⟨t1, h1⟩ := name_tree (r := 38) (by simp) y1 (g1 ▸ h.1)
  obtain ⟨t2, h2⟩ := (int_texts (w := [x4]) (by simp [y4])).2 ⟨_, rfl, g4 ▸ h.2.1⟩
  obtain ⟨te, h3⟩ := enumEnd_complete h.2.2 y5 e4
  have hm : ∃ m, (m = [] ∧ um = []) ∨ ∃ y, y.typ = 53 ∧ m = [PTree.leaf y] ∧ um = [y] := by
    split at g3
    · obtain ⟨y, r', rfl, g5, e5⟩ := texts_eq_cons g3
      obtain rfl := texts_eq_nil e5
      exact ⟨_, .inr ⟨y, (is53 (y3 y (by simp))).2 g5, rfl, rfl⟩⟩
    · exact ⟨[], .inl ⟨rfl, texts_eq_nil g3⟩⟩
  obtain ⟨m, hm⟩ := hm
  exact ⟨_, enumField_iff.2 ⟨t1, [x1], x2, m, um, t2, [x4], te, r, rfl, rfl, h1, (is40 y2).2 g2, hm, h2, h3⟩⟩

theorem rules_iff {l : List (Nat × Nat)} {d : Nat} (hd : altsCode d = l.map fun p => .call p.1 p.2) : Derives protoGram (.choose d) ts w ↔
    ∃ p ∈ l, ∃ us, Rule p.2 us w ∧ ts = [.node p.2 us] := by
  rw [d_alt hd]
  simp only [List.mem_map]
  constructor
  · rintro ⟨_, ⟨p, hp, rfl⟩, h⟩
    exact ⟨p, hp, d_rule.1 h⟩
  · rintro ⟨p, hp, h⟩
    exact ⟨_, ⟨p, hp, rfl⟩, d_rule.2 h⟩

theorem enumElem_iff : Rule 24 ts w ↔ ∃ r us, (r = 4 ∨ r = 25 ∨ r = 16 ∨ r = 37) ∧ Rule r us w ∧ ts = [.node r us] := by
  show Derives protoGram codeEnumElement ts w ↔ _
  unfold codeEnumElement
  rw [s_sync, rules_iff (d := 22) (l := [(307, 4), (308, 25), (309, 16), (310, 37)]) rfl]
  simp only [List.mem_cons, List.not_mem_nil, or_false]
  constructor
  · rintro ⟨p, rfl | rfl | rfl | rfl, us, h, rfl⟩
    · exact ⟨4, us, .inl rfl, h, rfl⟩
    · exact ⟨25, us, .inr (.inl rfl), h, rfl⟩
    · exact ⟨16, us, .inr (.inr (.inl rfl)), h, rfl⟩
    · exact ⟨37, us, .inr (.inr (.inr rfl)), h, rfl⟩
  · rintro ⟨r, us, rfl | rfl | rfl | rfl, h, rfl⟩
    · exact ⟨(307, 4), by simp, us, h, rfl⟩
    · exact ⟨(308, 25), by simp, us, h, rfl⟩
    · exact ⟨(309, 16), by simp, us, h, rfl⟩
    · exact ⟨(310, 37), by simp, us, h, rfl⟩

theorem empty_texts (h : Rule 37 ts w) (ht : TypedL w) : texts w = [";".toList] := by
  obtain ⟨x, hx, rfl, rfl⟩ := rule_empty.1 h
  simp [(is39 (ht x (by simp))).1 hx]

theorem empty_complete (ht : TypedL w) (e : texts w = [";".toList]) : Lang 37 w := by
  obtain ⟨x, v, rfl, hx, e1⟩ := texts_eq_cons e
  obtain rfl := texts_eq_nil e1
  exact ⟨_, rule_empty.2 ⟨x, (is39 (ht x (by simp))).2 hx, rfl, rfl⟩⟩

theorem enumElem_sound (h : Rule 24 ts w) (ht : TypedL w) : WFEnumElem (astEnumElem ts) ∧ texts w = spellEnumElem (astEnumElem ts) := by
  obtain ⟨r, us, rfl | rfl | rfl | rfl, g, rfl⟩ := enumElem_iff.1 h
  · exact optionStmt_sound g ht
  · exact enumField_sound g ht
  · rcases reserved_sound g ht with ⟨h1, h2⟩ | ⟨h1, h2⟩
    · simp only [astEnumElem, h1, reduceIte]; exact h2
    · simp only [astEnumElem, h1, Bool.false_eq_true, reduceIte]; exact h2
  · exact ⟨trivial, empty_texts g ht⟩

theorem enumElem_complete {x : RawEnumElem} (h : WFEnumElem x) (ht : TypedL w) (e : texts w = spellEnumElem x) : Lang 24 w := by
  cases x with
  | option o => obtain ⟨us, h⟩ := optionStmt_complete h ht e; exact ⟨_, enumElem_iff.2 ⟨4, us, by simp, h, rfl⟩⟩
  | value v => obtain ⟨us, h⟩ := enumField_complete h ht e; exact ⟨_, enumElem_iff.2 ⟨25, us, by simp, h, rfl⟩⟩
  | reserved rr => obtain ⟨us, h⟩ := reserved_complete h ht e; exact ⟨_, enumElem_iff.2 ⟨16, us, by simp, h, rfl⟩⟩
  | reservedNames ss => obtain ⟨us, h⟩ := reservedNames_complete h ht e; exact ⟨_, enumElem_iff.2 ⟨16, us, by simp, h, rfl⟩⟩
  | empty => obtain ⟨us, h⟩ := empty_complete ht e; exact ⟨_, enumElem_iff.2 ⟨37, us, by simp, h, rfl⟩⟩

/-- A repetition of one rule. -/
theorem item_iff {s a r : Nat} : Derives protoGram (.call s r ;; .sync a) ts w ↔ ∃ us, ts = [.node r us] ∧ Rule r us w := by
  take_apart
  constructor
  · rintro ⟨us, u, _, _, rfl, rfl, h, rfl, rfl⟩
    exact ⟨us, rfl, by simpa using h⟩
  · rintro ⟨us, rfl, h⟩
    exact ⟨us, w, [], [], rfl, by simp, h, rfl, rfl⟩

/-- `{ … }` -/
theorem braces_iff {a : Nat} {l : List Nat} {b : Code} : Derives protoGram (.tok 45 ;; .sync a ;; .whileLa l b ;; .tok 46) ts w ↔
    ∃ x t u y, ts = .leaf x :: (t ++ [.leaf y]) ∧ w = x :: (u ++ [y]) ∧ x.typ = 45 ∧ Many (Derives protoGram b) t u ∧ y.typ = 46 := by
  simp only [s_tok, s_sync, s_while, d_tok]
  constructor
  · rintro ⟨x, _, _, rfl, rfl, hx, t, u, _, _, rfl, rfl, h, y, hy, rfl, rfl⟩
    exact ⟨x, t, u, y, rfl, rfl, hx, h, hy⟩
  · rintro ⟨x, t, u, y, rfl, rfl, hx, h, hy⟩
    exact ⟨x, _, _, rfl, rfl, hx, t, u, _, _, rfl, rfl, h, y, hy, rfl, rfl⟩

theorem enum_iff : Rule 22 ts w ↔ ∃ k t1 u1 x t u y, ts = [.leaf k, .node 41 t1, .node 23 (.leaf x :: (t ++ [.leaf y]))] ∧ w = k :: (u1 ++ x :: (u ++ [y])) ∧
    k.typ = 32 ∧ Rule 41 t1 u1 ∧ x.typ = 45 ∧ Many (Derives protoGram (.call 299 24 ;; .sync 304)) t u ∧ y.typ = 46 := by
  have e : ∀ ts w, Rule 23 ts w ↔ _ := fun ts w => braces_iff (ts := ts) (w := w)
  show Derives protoGram codeEnumDef ts w ↔ _
  unfold codeEnumDef
  take_apart
  constructor
  · rintro ⟨k, _, _, rfl, rfl, hk, t1, u1, _, v, rfl, rfl, h1, t2, h2, rfl⟩
    obtain ⟨x, t, u, y, rfl, rfl, hx, h, hy⟩ := (e _ _).1 h2
    exact ⟨k, t1, u1, x, t, u, y, rfl, rfl, hk, h1, hx, h, hy⟩
  · rintro ⟨k, t1, u1, x, t, u, y, rfl, rfl, hk, h1, hx, h, hy⟩
    exact ⟨k, _, _, rfl, rfl, hk, t1, u1, _, _, rfl, rfl, h1, _, (e _ _).2 ⟨x, t, u, y, rfl, rfl, hx, h, hy⟩, rfl⟩

theorem enum_sound (h : Rule 22 ts w) (ht : TypedL w) : WFEnum (astEnum ts) ∧ texts w = spellEnum (astEnum ts) := by
  obtain ⟨k, t1, u1, x, t, u, y, rfl, rfl, hk, h1, hx, hm, hy⟩ := enum_iff.1 h
  simp only [typedL_append, typedL_cons] at ht
  obtain ⟨y1, y2, y3, y4, y5, _⟩ := ht
  obtain ⟨n, e1, hn, e1'⟩ := name_text (r := 41) (by simp) h1 y2
  obtain ⟨i1, i2⟩ := many_sound (F := fun t => (kids 24 t).map astEnumElem) (g := spellEnumElem) (P := WFEnumElem) rfl (kidsMap_append 24 astEnumElem) (by
    intro t u h _ ht
    obtain ⟨us, rfl, g⟩ := item_iff.1 h
    simpa using enumElem_sound g ht) hm (Nat.le_refl _) y4
  have e : astEnum [.leaf k, .node 41 t1, .node 23 (.leaf x :: (t ++ [.leaf y]))] = ⟨n, (kids 24 t).map astEnumElem⟩ := by
    simp [astEnum, textOf, textsOf, e1', kids_append]
  rw [e]
  exact ⟨⟨hn, i1⟩, by simp [spellEnum, spellBlock, e1, i2, (is32 y1).1 hk, (is45 y3).1 hx, (is46 y5).1 hy]⟩

/-- Taking apart `keyword name { … }`. -/
theorem block_split {k n : Str} {l : List Str} (ht : TypedL w) (e : texts w = spellBlock k n l) :
    ∃ a b x u y, w = a :: b :: x :: (u ++ [y]) ∧ a.text = k ∧ b.text = n ∧ x.typ = 45 ∧ texts u = l ∧ y.typ = 46 ∧ Typed a ∧ Typed b ∧ TypedL u := by
  obtain ⟨a, v, rfl, ha, e1⟩ := texts_eq_cons e
  obtain ⟨b, v, rfl, hb, e2⟩ := texts_eq_cons e1
  obtain ⟨x, v, rfl, hx, e3⟩ := texts_eq_cons e2
  obtain ⟨u, v, rfl, hu, e4⟩ := texts_eq_append e3
  obtain ⟨y, v, rfl, hy, e5⟩ := texts_eq_cons e4
  obtain rfl := texts_eq_nil e5
  simp only [typedL_append, typedL_cons] at ht
  exact ⟨a, b, x, u, y, rfl, ha, hb, (is45 ht.2.2.1).2 hx, hu, (is46 ht.2.2.2.2.1).2 hy, ht.1, ht.2.1, ht.2.2.2.1⟩

theorem enum_complete {d : RawEnum} (h : WFEnum d) (ht : TypedL w) (e : texts w = spellEnum d) : Lang 22 w := by
  obtain ⟨a, b, x, u, y, rfl, ha, hb, hx, hu, hy, ta, tb, tu⟩ := block_split ht e
  obtain ⟨t1, h1⟩ := name_tree (r := 41) (by simp) tb (hb ▸ h.1)
  obtain ⟨t, h2⟩ := many_complete (P := WFEnumElem) (B := Derives protoGram (.call 299 24 ;; .sync 304)) (by
    intro x u h _ ht e
    obtain ⟨us, h⟩ := enumElem_complete h ht e
    exact ⟨_, item_iff.2 ⟨us, rfl, h⟩⟩) h.2 (Nat.le_refl _) tu hu
  exact ⟨_, enum_iff.2 ⟨a, t1, [b], x, t, u, y, rfl, rfl, (is32 ta).2 ha, h1, hx, h2, hy⟩⟩

/-! ## Blocks of several kinds of statements -/

/-- A statement of one of some rules. -/
def Item (l : List Nat) (ts : List PTree) (w : List PTok) : Prop := ∃ r us, r ∈ l ∧ Rule r us w ∧ ts = [.node r us]

theorem item_syncs {a b : Nat} {c : Code} : Derives protoGram (.sync a ;; c ;; .sync b) ts w ↔ Derives protoGram c ts w := by
  rw [s_sync, d_seq]
  constructor
  · rintro ⟨t, u, h, _, _, g, rfl, rfl⟩
    obtain ⟨rfl, rfl⟩ := d_sync.1 g
    simpa using h
  · intro h
    exact ⟨ts, w, h, [], [], d_sync.2 ⟨rfl, rfl⟩, by simp, by simp⟩

theorem item_choose {d : Nat} {l : List (Nat × Nat)} (hd : altsCode d = l.map fun p => .call p.1 p.2) : Derives protoGram (.choose d) ts w ↔ Item (l.map (·.2)) ts w := by
  rw [rules_iff hd]
  simp only [Item, List.mem_map]
  constructor
  · rintro ⟨p, hp, us, h, rfl⟩
    exact ⟨_, us, ⟨p, hp, rfl⟩, h, rfl⟩
  · rintro ⟨_, us, ⟨p, hp, rfl⟩, h, rfl⟩
    exact ⟨p, hp, us, h, rfl⟩

theorem item_if {l : List Nat} {s r : Nat} {c : Code} {rs : List Nat} (hc : Derives protoGram c ts w ↔ Item rs ts w) :
    Derives protoGram (.ifLa l (.call s r) c) ts w ↔ Item (r :: rs) ts w := by
  rw [d_if, hc, d_rule]
  constructor
  · rintro (⟨us, h, rfl⟩ | ⟨q, us, hq, h, rfl⟩)
    · exact ⟨r, us, by simp, h, rfl⟩
    · exact ⟨q, us, by simp [hq], h, rfl⟩
  · rintro ⟨q, us, hq, h, rfl⟩
    rcases List.mem_cons.1 hq with rfl | hq
    · exact .inl ⟨us, h, rfl⟩
    · exact .inr ⟨q, us, hq, h, rfl⟩

theorem item_fail : Derives protoGram .fail ts w ↔ Item [] ts w := by
  rw [d_fail]
  exact ⟨fun h => h.elim, fun ⟨_, _, h, _⟩ => by cases h⟩

/-- `keyword name { … }` -/
theorem named_iff {k s q a : Nat} {l : List Nat} {b : Code} : Derives protoGram (.tok k ;; .call s q ;; .tok 45 ;; .sync a ;; .whileLa l b ;; .tok 46) ts w ↔
    ∃ z t1 u1 x t u y, ts = .leaf z :: .node q t1 :: .leaf x :: (t ++ [.leaf y]) ∧ w = z :: (u1 ++ x :: (u ++ [y])) ∧ z.typ = k ∧ Rule q t1 u1 ∧ x.typ = 45 ∧
      Many (Derives protoGram b) t u ∧ y.typ = 46 := by
  simp only [s_tok, s_rule, s_sync, s_while, d_tok]
  constructor
  · rintro ⟨z, _, _, rfl, rfl, hz, t1, u1, _, _, rfl, rfl, h1, x, _, _, rfl, rfl, hx, t, u, _, _, rfl, rfl, h, y, hy, rfl, rfl⟩
    exact ⟨z, t1, u1, x, t, u, y, rfl, rfl, hz, h1, hx, h, hy⟩
  · rintro ⟨z, t1, u1, x, t, u, y, rfl, rfl, hz, h1, hx, h, hy⟩
    exact ⟨z, _, _, rfl, rfl, hz, t1, u1, _, _, rfl, rfl, h1, x, _, _, rfl, rfl, hx, t, u, _, _, rfl, rfl, h, y, hy, rfl, rfl⟩

/-! ## Oneofs -/

theorem oneofItem_iff : Derives protoGram (.sync 190 ;; .choose 9 ;; .sync 194) ts w ↔ Item [4, 12, 37] ts w :=
  item_syncs.trans (item_choose (d := 9) (l := [(187, 4), (188, 12), (189, 37)]) rfl)

theorem oneof_sound (h : Rule 11 ts w) (ht : TypedL w) : (NameTok (textOf 43 ts) ∧ ∀ x ∈ ts.flatMap astOneofElem, WFOneofElem x) ∧
    texts w = spellBlock "oneof".toList (textOf 43 ts) ((ts.flatMap astOneofElem).flatMap spellOneofElem) := by
  obtain ⟨k, t1, u1, x, t, u, y, rfl, rfl, hk, h1, hx, hm, hy⟩ := (show Rule 11 ts w ↔ _ from named_iff).1 h
  simp only [typedL_append, typedL_cons] at ht
  obtain ⟨y1, y2, y3, y4, y5, _⟩ := ht
  obtain ⟨n, e1, hn, e1'⟩ := name_text (r := 43) (by simp) h1 y2
  obtain ⟨i1, i2⟩ := many_sound (F := fun t => t.flatMap astOneofElem) (g := spellOneofElem) (P := WFOneofElem) rfl (flatMap_append' astOneofElem) (by
    intro t u h _ ht
    obtain ⟨r, us, hr, g, rfl⟩ := oneofItem_iff.1 h
    simp only [List.mem_cons, List.not_mem_nil, or_false] at hr
    rcases hr with rfl | rfl | rfl
    · simpa [astOneofElem, WFOneofElem, spellOneofElem] using optionStmt_sound g ht
    · simpa [astOneofElem, WFOneofElem, spellOneofElem] using oneofField_sound g ht
    · simpa [astOneofElem, WFOneofElem, spellOneofElem] using empty_texts g ht) hm (Nat.le_refl _) y4
  have e : (PTree.leaf k :: .node 43 t1 :: .leaf x :: (t ++ [.leaf y])).flatMap astOneofElem = t.flatMap astOneofElem := by simp [astOneofElem]
  have e' : textOf 43 (.leaf k :: .node 43 t1 :: .leaf x :: (t ++ [.leaf y])) = n := by simp [textOf, textsOf, e1']
  rw [e, e']
  exact ⟨⟨hn, i1⟩, by simp [spellBlock, e1, i2, (is11 y1).1 hk, (is45 y3).1 hx, (is46 y5).1 hy]⟩

theorem oneof_complete {n : Str} {es : List RawOneofElem} (hn : NameTok n) (h : ∀ x ∈ es, WFOneofElem x) (ht : TypedL w)
    (e : texts w = spellBlock "oneof".toList n (es.flatMap spellOneofElem)) : Lang 11 w := by
  obtain ⟨a, b, x, u, y, rfl, ha, hb, hx, hu, hy, ta, tb, tu⟩ := block_split ht e
  obtain ⟨t1, h1⟩ := name_tree (r := 43) (by simp) tb (hb ▸ hn)
  obtain ⟨t, h2⟩ := many_complete (P := WFOneofElem) (B := Derives protoGram (.sync 190 ;; .choose 9 ;; .sync 194)) (by
    intro x u h _ ht e
    cases x with
    | option o => obtain ⟨us, h⟩ := optionStmt_complete h ht e; exact ⟨_, oneofItem_iff.2 ⟨4, us, by simp, h, rfl⟩⟩
    | field f => obtain ⟨us, h⟩ := oneofField_complete h ht e; exact ⟨_, oneofItem_iff.2 ⟨12, us, by simp, h, rfl⟩⟩
    | empty => obtain ⟨us, h⟩ := empty_complete ht e; exact ⟨_, oneofItem_iff.2 ⟨37, us, by simp, h, rfl⟩⟩) h (Nat.le_refl _) tu hu
  exact ⟨_, (show Rule 11 _ _ ↔ _ from named_iff).2 ⟨a, t1, [b], x, t, u, y, rfl, rfl, (is11 ta).2 ha, h1, hx, h2, hy⟩⟩

/-! ## Extensions of other messages -/

abbrev extendItem : Code := .sync 369 ;; .ifLa [1, 2, 3, 4, 5, 6, 7, 8, 9, 10, 11, 12, 13, 14, 15,
    16, 17, 18, 19, 20, 21, 22, 23, 24, 25, 26, 27, 28, 29, 30, 31, 32, 33, 34, 35, 36, 37, 38, 49, 55, 58] (.call 367 7) (.ifLa [39] (.call 368 37)
    .fail) ;; .sync 373

theorem extendItem_iff : Derives protoGram extendItem ts w ↔ Item [7, 37] ts w :=
  item_syncs.trans (item_if (item_if item_fail))

theorem type_text {t : List PTree} {u : List PTok} (h : Rule 46 t u) (ht : TypedL u) : TypeToks (texts u) ∧ leavesL t = texts u :=
  ⟨(messageType_texts ht).1 ⟨_, h⟩, derives_leaves h⟩

theorem extend_sound (h : Rule 31 ts w) (ht : TypedL w) : WFExtend (textsOf 46 ts) (ts.flatMap astExtendElem) ∧
    texts w = spellExtend (textsOf 46 ts) (ts.flatMap astExtendElem) := by
  obtain ⟨k, t1, u1, x, t, u, y, rfl, rfl, hk, h1, hx, hm, hy⟩ := (show Rule 31 ts w ↔ _ from named_iff (b := extendItem)).1 h
  simp only [typedL_append, typedL_cons] at ht
  obtain ⟨y1, y2, y3, y4, y5, _⟩ := ht
  obtain ⟨hn, e1⟩ := type_text h1 y2
  obtain ⟨i1, i2⟩ := many_sound (F := fun t => t.flatMap astExtendElem) (g := spellExtendElem) (P := fun x => ∀ f, x = some f → WFField f) rfl
      (flatMap_append' astExtendElem) (by
    intro t u h _ ht
    obtain ⟨r, us, hr, g, rfl⟩ := extendItem_iff.1 h
    simp only [List.mem_cons, List.not_mem_nil, or_false] at hr
    rcases hr with rfl | rfl
    · simpa [astExtendElem, spellExtendElem] using field_sound g ht
    · simpa [astExtendElem, spellExtendElem] using empty_texts g ht) hm (Nat.le_refl _) y4
  have e : (PTree.leaf k :: .node 46 t1 :: .leaf x :: (t ++ [.leaf y])).flatMap astExtendElem = t.flatMap astExtendElem := by simp [astExtendElem]
  have e' : textsOf 46 (.leaf k :: .node 46 t1 :: .leaf x :: (t ++ [.leaf y])) = texts u1 := by simp [textsOf, e1]
  rw [e, e']
  exact ⟨⟨hn, fun f hf => i1 _ hf f rfl⟩, by simp [spellExtend, i2, (is35 y1).1 hk, (is45 y3).1 hx, (is46 y5).1 hy]⟩

theorem extend_complete {n : List Str} {fs : List (Option RawField)} (h : WFExtend n fs) (ht : TypedL w) (e : texts w = spellExtend n fs) : Lang 31 w := by
  obtain ⟨a, v, rfl, ha, e1⟩ := texts_eq_cons e
  obtain ⟨b, v, rfl, hb, e2⟩ := texts_eq_append e1
  obtain ⟨x, v, rfl, hx, e3⟩ := texts_eq_cons e2
  obtain ⟨u, v, rfl, hu, e4⟩ := texts_eq_append e3
  obtain ⟨y, v, rfl, hy, e5⟩ := texts_eq_cons e4
  obtain rfl := texts_eq_nil e5
  simp only [typedL_append, typedL_cons] at ht
  obtain ⟨y1, y2, y3, y4, y5, _⟩ := ht
  obtain ⟨t1, h1⟩ := (messageType_texts y2).2 (hb ▸ h.1)
  obtain ⟨t, h2⟩ := many_complete (P := fun x => ∀ f, x = some f → WFField f) (B := Derives protoGram extendItem) (by
    intro x u h _ ht e
    cases x with
    | some f => obtain ⟨us, h⟩ := field_complete (h f rfl) ht e; exact ⟨_, extendItem_iff.2 ⟨7, us, by simp, h, rfl⟩⟩
    | none => obtain ⟨us, h⟩ := empty_complete ht e; exact ⟨_, extendItem_iff.2 ⟨37, us, by simp, h, rfl⟩⟩)
    (fun x hx f hf => h.2 f (hf ▸ hx)) (Nat.le_refl _) y4 hu
  exact ⟨_, (show Rule 31 _ _ ↔ _ from named_iff (b := extendItem)).2 ⟨a, t1, b, x, t, u, y, rfl, rfl, (is35 y1).2 ha, h1, (is45 y3).2 hx, h2, (is46 y5).2 hy⟩⟩

/-! ## Messages -/

theorem astElems_append : ∀ a b : List PTree, astElems (a ++ b) = astElems a ++ astElems b
  | [], _ => by simp [astElems]
  | t :: a, b => by
    have ih := astElems_append a b
    rw [List.cons_append]
    by_cases h : ∃ ts, t = .node 30 ts
    · obtain ⟨ts, rfl⟩ := h
      simp [astElems, ih]
    · have e : ∀ l, astElems (t :: l) = astElems l := by
        intro l
        rw [astElems]
        intro ts e
        exact h ⟨ts, e⟩
      rw [e, e, ih]

theorem message_iff : Rule 28 ts w ↔ ∃ k t1 u1 x t u y, ts = [.leaf k, .node 40 t1, .node 29 (.leaf x :: (t ++ [.leaf y]))] ∧ w = k :: (u1 ++ x :: (u ++ [y])) ∧
    k.typ = 33 ∧ Rule 40 t1 u1 ∧ x.typ = 45 ∧ Many (Derives protoGram (.call 344 30 ;; .sync 349)) t u ∧ y.typ = 46 := by
  have e : ∀ ts w, Rule 29 ts w ↔ _ := fun ts w => braces_iff (ts := ts) (w := w)
  show Derives protoGram codeMessageDef ts w ↔ _
  unfold codeMessageDef
  take_apart
  constructor
  · rintro ⟨k, _, _, rfl, rfl, hk, t1, u1, _, v, rfl, rfl, h1, t2, h2, rfl⟩
    obtain ⟨x, t, u, y, rfl, rfl, hx, h, hy⟩ := (e _ _).1 h2
    exact ⟨k, t1, u1, x, t, u, y, rfl, rfl, hk, h1, hx, h, hy⟩
  · rintro ⟨k, t1, u1, x, t, u, y, rfl, rfl, hk, h1, hx, h, hy⟩
    exact ⟨k, _, _, rfl, rfl, hk, t1, u1, _, _, rfl, rfl, h1, _, (e _ _).2 ⟨x, t, u, y, rfl, rfl, hx, h, hy⟩, rfl⟩

theorem message_sound_of {n : Nat} (item : ∀ {ts w}, Rule 30 ts w → w.length ≤ n → TypedL w → WFElem (astElem ts) ∧ texts w = spellElem (astElem ts))
    (h : Rule 28 ts w) (hl : w.length ≤ n + 1) (ht : TypedL w) : (NameTok (textOf 40 ts) ∧ WFElems (astBody ts)) ∧
      texts w = spellBlock "message".toList (textOf 40 ts) (spellElems (astBody ts)) := by
  obtain ⟨k, t1, u1, x, t, u, y, rfl, rfl, hk, h1, hx, hm, hy⟩ := message_iff.1 h
  simp only [typedL_append, typedL_cons] at ht
  obtain ⟨y1, y2, y3, y4, y5, _⟩ := ht
  obtain ⟨m, e1, hn, e1'⟩ := name_text (r := 40) (by simp) h1 y2
  obtain ⟨i1, i2⟩ := many_sound (F := astElems) (g := spellElem) (P := WFElem) (n := n) (by simp [astElems]) astElems_append (by
    intro t u h hl ht
    obtain ⟨us, rfl, g⟩ := item_iff.1 h
    simpa [astElems] using item g hl ht) hm (by simp at hl; omega) y4
  have e : astBody [.leaf k, .node 40 t1, .node 29 (.leaf x :: (t ++ [.leaf y]))] = astElems t := by
    simp [astBody, astElems, astElems_append]
  have e' : textOf 40 [.leaf k, .node 40 t1, .node 29 (.leaf x :: (t ++ [.leaf y]))] = m := by simp [textOf, textsOf, e1']
  rw [e, e', wfElems_iff, spellElems_eq]
  exact ⟨⟨hn, i1⟩, by simp [spellBlock, e1, i2, (is33 y1).1 hk, (is45 y3).1 hx, (is46 y5).1 hy]⟩

theorem message_complete_of {n : Nat} (item : ∀ {x w}, WFElem x → w.length ≤ n → TypedL w → texts w = spellElem x → Lang 30 w) {m : Str} {es : List RawElem}
    (hn : NameTok m) (h : WFElems es) (hl : w.length ≤ n + 1) (ht : TypedL w) (e : texts w = spellBlock "message".toList m (spellElems es)) : Lang 28 w := by
  rw [wfElems_iff] at h
  rw [spellElems_eq] at e
  obtain ⟨a, b, x, u, y, rfl, ha, hb, hx, hu, hy, ta, tb, tu⟩ := block_split ht e
  obtain ⟨t1, h1⟩ := name_tree (r := 40) (by simp) tb (hb ▸ hn)
  obtain ⟨t, h2⟩ := many_complete (P := WFElem) (n := n) (B := Derives protoGram (.call 344 30 ;; .sync 349)) (by
    intro x u h hl ht e
    obtain ⟨us, h⟩ := item h hl ht e
    exact ⟨_, item_iff.2 ⟨us, rfl, h⟩⟩) h (by simp at hl; omega) tu hu
  exact ⟨_, message_iff.2 ⟨a, t1, [b], x, t, u, y, rfl, rfl, (is33 ta).2 ha, h1, hx, h2, hy⟩⟩

theorem elem_iff : Rule 30 ts w ↔ Item [7, 22, 28, 31, 4, 11, 13, 16, 17, 37] ts w := by
  show Derives protoGram (.sync 362 ;; .choose 27) ts w ↔ _
  rw [s_sync]
  exact item_choose (d := 27) (l := [(352, 7), (353, 22), (354, 28), (355, 31), (356, 4), (357, 11), (358, 13), (359, 16), (360, 17), (361, 37)]) rfl

theorem elem_sound_n : ∀ (n : Nat) {ts : List PTree} {w : List PTok}, Rule 30 ts w → w.length ≤ n → TypedL w →
    WFElem (astElem ts) ∧ texts w = spellElem (astElem ts)
  | n, ts, w, h, hl, ht => by
    obtain ⟨r, us, hr, g, rfl⟩ := elem_iff.1 h
    simp only [List.mem_cons, List.not_mem_nil, or_false] at hr
    rcases hr with rfl | rfl | rfl | rfl | rfl | rfl | rfl | rfl | rfl | rfl
    · simpa only [astElem, WFElem, spellElem] using field_sound g ht
    · simpa only [astElem, WFElem, spellElem] using enum_sound g ht
    · match n with
      | 0 =>
        obtain ⟨k, t1, u1, x, t, u, y, rfl, rfl, _⟩ := message_iff.1 g
        simp at hl
      | n + 1 =>
        simp only [astElem, WFElem, spellElem]
        exact message_sound_of (fun h hl ht => elem_sound_n n h hl ht) g hl ht
    · simpa only [astElem, WFElem, spellElem] using extend_sound g ht
    · simpa only [astElem, WFElem, spellElem] using optionStmt_sound g ht
    · simpa only [astElem, WFElem, spellElem] using oneof_sound g ht
    · simpa only [astElem, WFElem, spellElem] using mapField_sound g ht
    · rcases reserved_sound g ht with ⟨h1, h2⟩ | ⟨h1, h2⟩
      · simpa only [astElem, h1, reduceIte, WFElem, spellElem] using h2
      · simpa only [astElem, h1, Bool.false_eq_true, reduceIte, WFElem, spellElem] using h2
    · simpa only [astElem, WFElem, spellElem] using extensions_sound g ht
    · simpa only [astElem, WFElem, spellElem, true_and] using empty_texts g ht

theorem elem_complete_n : ∀ (n : Nat) {x : RawElem} {w : List PTok}, WFElem x → w.length ≤ n → TypedL w → texts w = spellElem x → Lang 30 w
  | n, x, w, h, hl, ht, e => by
    cases x with
    | field f => rw [WFElem] at h; rw [spellElem] at e; obtain ⟨us, h⟩ := field_complete h ht e; exact ⟨_, elem_iff.2 ⟨7, us, by simp, h, rfl⟩⟩
    | enum d => rw [WFElem] at h; rw [spellElem] at e; obtain ⟨us, h⟩ := enum_complete h ht e; exact ⟨_, elem_iff.2 ⟨22, us, by simp, h, rfl⟩⟩
    | message m es =>
      rw [WFElem] at h
      rw [spellElem] at e
      match n with
      | 0 =>
        rw [Nat.le_zero.1 hl |> List.length_eq_zero_iff.1] at e
        simp [spellBlock] at e
      | n + 1 =>
        obtain ⟨us, h⟩ := message_complete_of (fun h hl ht e => elem_complete_n n h hl ht e) h.1 h.2 hl ht e
        exact ⟨_, elem_iff.2 ⟨28, us, by simp, h, rfl⟩⟩
    | extend t fs => rw [WFElem] at h; rw [spellElem] at e; obtain ⟨us, h⟩ := extend_complete h ht e; exact ⟨_, elem_iff.2 ⟨31, us, by simp, h, rfl⟩⟩
    | option o => rw [WFElem] at h; rw [spellElem] at e; obtain ⟨us, h⟩ := optionStmt_complete h ht e; exact ⟨_, elem_iff.2 ⟨4, us, by simp, h, rfl⟩⟩
    | oneof m es => rw [WFElem] at h; rw [spellElem] at e; obtain ⟨us, h⟩ := oneof_complete h.1 h.2 ht e; exact ⟨_, elem_iff.2 ⟨11, us, by simp, h, rfl⟩⟩
    | mapField f => rw [WFElem] at h; rw [spellElem] at e; obtain ⟨us, h⟩ := mapField_complete h ht e; exact ⟨_, elem_iff.2 ⟨13, us, by simp, h, rfl⟩⟩
    | reserved rr => rw [WFElem] at h; rw [spellElem] at e; obtain ⟨us, h⟩ := reserved_complete h ht e; exact ⟨_, elem_iff.2 ⟨16, us, by simp, h, rfl⟩⟩
    | reservedNames ss => rw [WFElem] at h; rw [spellElem] at e; obtain ⟨us, h⟩ := reservedNames_complete h ht e; exact ⟨_, elem_iff.2 ⟨16, us, by simp, h, rfl⟩⟩
    | extensions rr os => rw [WFElem] at h; rw [spellElem] at e; obtain ⟨us, h⟩ := extensions_complete h.1 h.2 ht e; exact ⟨_, elem_iff.2 ⟨17, us, by simp, h, rfl⟩⟩
    | empty => rw [spellElem] at e; obtain ⟨us, h⟩ := empty_complete ht e; exact ⟨_, elem_iff.2 ⟨37, us, by simp, h, rfl⟩⟩

theorem message_sound (h : Rule 28 ts w) (ht : TypedL w) : (NameTok (textOf 40 ts) ∧ WFElems (astBody ts)) ∧
    texts w = spellBlock "message".toList (textOf 40 ts) (spellElems (astBody ts)) :=
  message_sound_of (n := w.length) (fun h hl ht => elem_sound_n _ h hl ht) h (Nat.le_succ _) ht

theorem message_complete {m : Str} {es : List RawElem} (hn : NameTok m) (h : WFElems es) (ht : TypedL w)
    (e : texts w = spellBlock "message".toList m (spellElems es)) : Lang 28 w :=
  message_complete_of (n := w.length) (fun h hl ht e => elem_complete_n _ h hl ht e) hn h (Nat.le_succ _) ht e

/-! ## Services -/

abbrev rpcItem : Code := .sync 410 ;; .ifLa [7] (.call 408 4) (.ifLa [39] (.call 409 37) .fail) ;; .sync 414

theorem rpcItem_iff : Derives protoGram rpcItem ts w ↔ Item [4, 37] ts w := item_syncs.trans (item_if (item_if item_fail))

/-- `stream` or nothing. -/
def Stream (ts : List PTree) (w : List PTok) : Prop := (∃ x, x.typ = 37 ∧ ts = [.leaf x] ∧ w = [x]) ∨ (ts = [] ∧ w = [])

theorem stream_iff {d : Nat} (hd : altsCode d = [.tok 37, .done]) : Derives protoGram (.choose d) ts w ↔ Stream ts w := by
  rw [d_alt hd]
  simp only [List.mem_cons, List.not_mem_nil, or_false, exists_eq_or_imp, exists_eq_left, d_tok, d_done, Stream]

/-- `{ … }` or `;` -/
def RpcBody (ts : List PTree) (w : List PTok) : Prop :=
  (∃ x t u y, ts = .leaf x :: (t ++ [.leaf y]) ∧ w = x :: (u ++ [y]) ∧ x.typ = 45 ∧ Many (Derives protoGram rpcItem) t u ∧ y.typ = 46) ∨
    ∃ z, z.typ = 39 ∧ ts = [.leaf z] ∧ w = [z]

theorem rpcBody_iff : Derives protoGram (.ifLa [45] (.tok 45 ;; .sync 412 ;; .whileLa [7, 39] rpcItem ;; .tok 46) (.ifLa [39] (.tok 39) .fail)) ts w ↔ RpcBody ts w := by
  rw [d_if, braces_iff, d_if, d_tok, d_fail, or_false, RpcBody]

theorem rpc_iff : Rule 34 ts w ↔ ∃ x1 t1 u1 x2 ta ua t2 u2 x3 x4 x5 tb ub t3 u3 x6 te ue,
    ts = .leaf x1 :: .node 45 t1 :: .leaf x2 :: (ta ++ .node 46 t2 :: .leaf x3 :: .leaf x4 :: .leaf x5 :: (tb ++ .node 46 t3 :: .leaf x6 :: te)) ∧
    w = x1 :: (u1 ++ x2 :: (ua ++ (u2 ++ x3 :: x4 :: x5 :: (ub ++ (u3 ++ x6 :: ue))))) ∧
    x1.typ = 36 ∧ Rule 45 t1 u1 ∧ x2.typ = 41 ∧ Stream ta ua ∧ Rule 46 t2 u2 ∧ x3.typ = 42 ∧ x4.typ = 38 ∧ x5.typ = 41 ∧ Stream tb ub ∧ Rule 46 t3 u3 ∧
    x6.typ = 42 ∧ RpcBody te ue := by
  show Derives protoGram codeRpc ts w ↔ _
  unfold codeRpc
  simp only [s_tok, s_rule, s_sync, s_choose, stream_iff (d := 32) rfl, stream_iff (d := 33) rfl, rpcBody_iff]
  constructor
  · rintro ⟨x1, _, _, rfl, rfl, h1, t1, u1, _, _, rfl, rfl, h2, x2, _, _, rfl, rfl, h3, ta, ua, _, _, rfl, rfl, h4, t2, u2, _, _, rfl, rfl, h5, x3, _, _, rfl, rfl, h6,
      x4, _, _, rfl, rfl, h7, x5, _, _, rfl, rfl, h8, tb, ub, _, _, rfl, rfl, h9, t3, u3, _, _, rfl, rfl, h10, x6, te, ue, rfl, rfl, h11, h12⟩
    exact ⟨x1, t1, u1, x2, ta, ua, t2, u2, x3, x4, x5, tb, ub, t3, u3, x6, te, ue, rfl, rfl, h1, h2, h3, h4, h5, h6, h7, h8, h9, h10, h11, h12⟩
  · rintro ⟨x1, t1, u1, x2, ta, ua, t2, u2, x3, x4, x5, tb, ub, t3, u3, x6, te, ue, rfl, rfl, h1, h2, h3, h4, h5, h6, h7, h8, h9, h10, h11, h12⟩
    exact ⟨x1, _, _, rfl, rfl, h1, t1, u1, _, _, rfl, rfl, h2, x2, _, _, rfl, rfl, h3, ta, ua, _, _, rfl, rfl, h4, t2, u2, _, _, rfl, rfl, h5, x3, _, _, rfl, rfl, h6,
      x4, _, _, rfl, rfl, h7, x5, _, _, rfl, rfl, h8, tb, ub, _, _, rfl, rfl, h9, t3, u3, _, _, rfl, rfl, h10, x6, te, ue, rfl, rfl, h11, h12⟩

theorem stream_sound (h : Stream ts w) (ht : TypedL w) : texts w = (if hasTok 37 ts then ["stream".toList] else []) ∧ (∀ x ∈ ts, ∃ y : PTok, x = .leaf y ∧ y.typ = 37) := by
  rcases h with ⟨x, hx, rfl, rfl⟩ | ⟨rfl, rfl⟩
  · simp [hx, (is37 (ht x (by simp))).1 hx]
  · simp

theorem stream_complete {b : Bool} (ht : TypedL w) (e : texts w = if b then ["stream".toList] else []) : ∃ ts, Stream ts w := by
  cases b
  · obtain rfl := texts_eq_nil (by simpa using e)
    exact ⟨[], .inr ⟨rfl, rfl⟩⟩
  · obtain ⟨x, v, rfl, hx, e1⟩ := texts_eq_cons (by simpa using e : texts w = "stream".toList :: [])
    obtain rfl := texts_eq_nil e1
    exact ⟨_, .inl ⟨x, (is37 (ht x (by simp))).2 hx, rfl, rfl⟩⟩

theorem rpcBody_sound (h : RpcBody ts w) (ht : TypedL w) :
    (∀ o, hasTok 45 ts = true → some o ∈ ts.flatMap astRpcElem → WFOption o) ∧
      texts w = spellRpcBody (if hasTok 45 ts then some (ts.flatMap astRpcElem) else none) := by
  rcases h with ⟨x, t, u, y, rfl, rfl, hx, hm, hy⟩ | ⟨z, hz, rfl, rfl⟩
  · simp only [typedL_append, typedL_cons] at ht
    obtain ⟨y3, y4, y5, _⟩ := ht
    obtain ⟨i1, i2⟩ := many_sound (F := fun t => t.flatMap astRpcElem) (g := spellRpcElem) (P := fun x => ∀ o, x = some o → WFOption o) rfl
        (flatMap_append' astRpcElem) (by
      intro t u h _ ht
      obtain ⟨r, us, hr, g, rfl⟩ := rpcItem_iff.1 h
      simp only [List.mem_cons, List.not_mem_nil, or_false] at hr
      rcases hr with rfl | rfl
      · simpa [astRpcElem, spellRpcElem] using optionStmt_sound g ht
      · simpa [astRpcElem, spellRpcElem] using empty_texts g ht) hm (Nat.le_refl _) y4
    have e : (PTree.leaf x :: (t ++ [.leaf y])).flatMap astRpcElem = t.flatMap astRpcElem := by simp [astRpcElem]
    rw [e]
    refine ⟨fun o _ ho => i1 _ ho o rfl, ?_⟩
    have : hasTok 45 (.leaf x :: (t ++ [.leaf y])) = true := by simp [hx]
    rw [this, if_pos rfl]
    simp [spellRpcBody, i2, (is45 y3).1 hx, (is46 y5).1 hy]
  · simp [spellRpcBody, hz, (is39 (ht z (by simp))).1 hz]

theorem rpcBody_complete {b : Option (List (Option RawOption))} (h : ∀ es, b = some es → ∀ o, some o ∈ es → WFOption o) (ht : TypedL w)
    (e : texts w = spellRpcBody b) : ∃ ts, RpcBody ts w := by
  cases b with
  | none =>
    obtain ⟨x, v, rfl, hx, e1⟩ := texts_eq_cons e
    obtain rfl := texts_eq_nil e1
    exact ⟨_, .inr ⟨x, (is39 (ht x (by simp))).2 hx, rfl, rfl⟩⟩
  | some es =>
    obtain ⟨x, v, rfl, hx, e3⟩ := texts_eq_cons e
    obtain ⟨u, v, rfl, hu, e4⟩ := texts_eq_append e3
    obtain ⟨y, v, rfl, hy, e5⟩ := texts_eq_cons e4
    obtain rfl := texts_eq_nil e5
    simp only [typedL_append, typedL_cons] at ht
    obtain ⟨y3, y4, y5, _⟩ := ht
    obtain ⟨t, h2⟩ := many_complete (P := fun x => ∀ o, x = some o → WFOption o) (B := Derives protoGram rpcItem) (by
      intro x u h _ ht e
      cases x with
      | some f => obtain ⟨us, h⟩ := optionStmt_complete (h f rfl) ht e; exact ⟨_, rpcItem_iff.2 ⟨4, us, by simp, h, rfl⟩⟩
      | none => obtain ⟨us, h⟩ := empty_complete ht e; exact ⟨_, rpcItem_iff.2 ⟨37, us, by simp, h, rfl⟩⟩)
      (fun x hx f hf => h es rfl f (hf ▸ hx)) (Nat.le_refl _) y4 hu
    exact ⟨_, .inl ⟨x, t, u, y, rfl, rfl, (is45 y3).2 hx, h2, (is46 y5).2 hy⟩⟩

theorem hasTok_append (t : Nat) : ∀ a b : List PTree, hasTok t (a ++ b) = (hasTok t a || hasTok t b)
  | [], _ => by simp
  | .leaf x :: a, b => by
    have := hasTok_append t a b
    by_cases h : x.typ = t <;> simp [h, this]
  | .node _ _ :: a, b => by simpa using hasTok_append t a b

theorem split_stream {t : List PTree} (h : ∀ x ∈ t, ∃ y : PTok, x = .leaf y ∧ y.typ = 37) (us : List PTree) (l : List PTree) :
    splitAtRule 46 (t ++ .node 46 us :: l) = (t, l) ∧ textsOf 46 (t ++ .node 46 us :: l) = leavesL us ∧ t.flatMap astRpcElem = [] ∧ hasTok 45 t = false := by
  induction t with
  | nil => simp [splitAtRule, textsOf]
  | cons a t ih =>
    obtain ⟨y, rfl, hy⟩ := h a (by simp)
    obtain ⟨h1, h2, h3, h4⟩ := ih fun x hx => h x (List.mem_cons_of_mem _ hx)
    have h2' := h2
    unfold textsOf at h2' ⊢
    refine ⟨by simp [splitAtRule, h1], by simpa using h2', by simpa [astRpcElem] using h3, by simp [hy, h4]⟩

theorem rpc_ast {x1 x2 x3 x4 x5 x6 : PTok} {t1 ta t2 tb t3 te : List PTree} {ua ub : List PTok} (h1 : x1.typ = 36) (h3 : x2.typ = 41) (h4 : Stream ta ua)
    (h6 : x3.typ = 42) (h7 : x4.typ = 38) (h8 : x5.typ = 41) (h9 : Stream tb ub) (h11 : x6.typ = 42) :
    astRpc (.leaf x1 :: .node 45 t1 :: .leaf x2 :: (ta ++ .node 46 t2 :: .leaf x3 :: .leaf x4 :: .leaf x5 :: (tb ++ .node 46 t3 :: .leaf x6 :: te))) =
      ⟨(leavesL t1).flatten, hasTok 37 ta, leavesL t2, hasTok 37 tb, leavesL t3, if hasTok 45 te then some (te.flatMap astRpcElem) else none⟩ := by
  have ca : ∀ x ∈ ta, ∃ y : PTok, x = .leaf y ∧ y.typ = 37 := by
    rcases h4 with ⟨x, hx, rfl, rfl⟩ | ⟨rfl, rfl⟩ <;> simp [*]
  have cb : ∀ x ∈ tb, ∃ y : PTok, x = .leaf y ∧ y.typ = 37 := by
    rcases h9 with ⟨x, hx, rfl, rfl⟩ | ⟨rfl, rfl⟩ <;> simp [*]
  obtain ⟨a1, a2, a3, a4⟩ := split_stream ca t2 (.leaf x3 :: .leaf x4 :: .leaf x5 :: (tb ++ .node 46 t3 :: .leaf x6 :: te))
  obtain ⟨b1, b2, b3, b4⟩ := split_stream cb t3 (.leaf x6 :: te)
  unfold textsOf at a2 b2
  simp [astRpc, textOf, textsOf, splitAtRule, a1, b1, h1, h3, h6, h7, h8, h11, a2, b2, a3, b3, a4, b4, astRpcElem, hasTok_append]

theorem rpc_sound (h : Rule 34 ts w) (ht : TypedL w) : WFRpc (astRpc ts) ∧ texts w = spellRpc (astRpc ts) := by
  obtain ⟨x1, t1, u1, x2, ta, ua, t2, u2, x3, x4, x5, tb, ub, t3, u3, x6, te, ue, rfl, rfl, h1, h2, h3, h4, h5, h6, h7, h8, h9, h10, h11, h12⟩ := rpc_iff.1 h
  simp only [typedL_append, typedL_cons] at ht
  obtain ⟨y1, y2, y3, y4, y5, y6, y7, y8, y9, y10, y11, y12⟩ := ht
  obtain ⟨n, e1, hn, e1'⟩ := name_text (r := 45) (by simp) h2 y2
  obtain ⟨ea, _⟩ := stream_sound h4 y4
  obtain ⟨eb, _⟩ := stream_sound h9 y9
  obtain ⟨n2, e2⟩ := type_text h5 y5
  obtain ⟨n3, e3⟩ := type_text h10 y10
  obtain ⟨i1, i2⟩ := rpcBody_sound h12 y12
  have e := rpc_ast (t1 := t1) (t2 := t2) (t3 := t3) (te := te) h1 h3 h4 h6 h7 h8 h9 h11
  rw [e1', e2, e3] at e
  rw [e]
  refine ⟨⟨hn, n2, n3, ?_⟩, ?_⟩
  · intro es he o ho
    by_cases hb : hasTok 45 te = true
    · simp only [hb, reduceIte, Option.some.injEq] at he
      exact i1 o hb (he ▸ ho)
    · simp [hb] at he
  · simp [spellRpc, spellRpcType, e1, ea, eb, i2, (is36 y1).1 h1, (is41 y3).1 h3, (is42 y6).1 h6, (is38 y7).1 h7, (is41 y8).1 h8, (is42 y11).1 h11]

theorem rpc_complete {r : RawRpc} (h : WFRpc r) (ht : TypedL w) (e : texts w = spellRpc r) : Lang 34 w := by
  simp only [spellRpc, spellRpcType, List.cons_append, List.append_assoc, List.nil_append] at e
  obtain ⟨x1, v, rfl, g1, e1⟩ := texts_eq_cons e
  obtain ⟨n, v, rfl, g2, e2⟩ := texts_eq_cons e1
  obtain ⟨x2, v, rfl, g3, e3⟩ := texts_eq_cons e2
  obtain ⟨ua, v, rfl, g4, e4⟩ := texts_eq_append e3
  obtain ⟨u2, v, rfl, g5, e5⟩ := texts_eq_append e4
  obtain ⟨x3, v, rfl, g6, e6⟩ := texts_eq_cons e5
  obtain ⟨x4, v, rfl, g7, e7⟩ := texts_eq_cons e6
  obtain ⟨x5, v, rfl, g8, e8⟩ := texts_eq_cons e7
  obtain ⟨ub, v, rfl, g9, e9⟩ := texts_eq_append e8
  obtain ⟨u3, v, rfl, g10, e10⟩ := texts_eq_append e9
  obtain ⟨x6, ue, rfl, g11, e11⟩ := texts_eq_cons e10
  simp only [typedL_append, typedL_cons] at ht
  obtain ⟨y1, y2, y3, y4, y5, y6, y7, y8, y9, y10, y11, y12⟩ := ht
  obtain ⟨t1, h2⟩ := name_tree (r := 45) (by simp) y2 (g2 ▸ h.1)
  obtain ⟨ta, h4⟩ := stream_complete y4 g4
  obtain ⟨tb, h9⟩ := stream_complete y9 g9
  obtain ⟨t2, h5⟩ := (messageType_texts y5).2 (g5 ▸ h.2.1)
  obtain ⟨t3, h10⟩ := (messageType_texts y10).2 (g10 ▸ h.2.2.1)
  obtain ⟨te, h12⟩ := rpcBody_complete h.2.2.2 y12 e11
  exact ⟨_, rpc_iff.2 ⟨x1, t1, [n], x2, ta, ua, t2, u2, x3, x4, x5, tb, ub, t3, u3, x6, te, ue, rfl, rfl, (is36 y1).2 g1, h2, (is41 y3).2 g3, h4, h5, (is42 y6).2 g6,
    (is38 y7).2 g7, (is41 y8).2 g8, h9, h10, (is42 y11).2 g11, h12⟩⟩

theorem serviceElem_iff : Rule 33 ts w ↔ Item [4, 34, 37] ts w := by
  show Derives protoGram codeServiceElement ts w ↔ _
  unfold codeServiceElement
  rw [s_sync]
  exact item_if (item_if (item_if item_fail))

theorem serviceElem_sound (h : Rule 33 ts w) (ht : TypedL w) : WFServiceElem (astServiceElem ts) ∧ texts w = spellServiceElem (astServiceElem ts) := by
  obtain ⟨r, us, hr, g, rfl⟩ := serviceElem_iff.1 h
  simp only [List.mem_cons, List.not_mem_nil, or_false] at hr
  rcases hr with rfl | rfl | rfl
  · simpa only [astServiceElem, WFServiceElem, spellServiceElem] using optionStmt_sound g ht
  · simpa only [astServiceElem, WFServiceElem, spellServiceElem] using rpc_sound g ht
  · simpa only [astServiceElem, WFServiceElem, spellServiceElem, true_and] using empty_texts g ht

theorem serviceElem_complete {x : RawServiceElem} (h : WFServiceElem x) (ht : TypedL w) (e : texts w = spellServiceElem x) : Lang 33 w := by
  cases x with
  | option o => obtain ⟨us, h⟩ := optionStmt_complete h ht e; exact ⟨_, serviceElem_iff.2 ⟨4, us, by simp, h, rfl⟩⟩
  | rpc r => obtain ⟨us, h⟩ := rpc_complete h ht e; exact ⟨_, serviceElem_iff.2 ⟨34, us, by simp, h, rfl⟩⟩
  | empty => obtain ⟨us, h⟩ := empty_complete ht e; exact ⟨_, serviceElem_iff.2 ⟨37, us, by simp, h, rfl⟩⟩

theorem service_sound (h : Rule 32 ts w) (ht : TypedL w) : (NameTok (textOf 44 ts) ∧ ∀ x ∈ (kids 33 ts).map astServiceElem, WFServiceElem x) ∧
    texts w = spellBlock "service".toList (textOf 44 ts) (((kids 33 ts).map astServiceElem).flatMap spellServiceElem) := by
  obtain ⟨k, t1, u1, x, t, u, y, rfl, rfl, hk, h1, hx, hm, hy⟩ := (show Rule 32 ts w ↔ _ from named_iff).1 h
  simp only [typedL_append, typedL_cons] at ht
  obtain ⟨y1, y2, y3, y4, y5, _⟩ := ht
  obtain ⟨n, e1, hn, e1'⟩ := name_text (r := 44) (by simp) h1 y2
  obtain ⟨i1, i2⟩ := many_sound (F := fun t => (kids 33 t).map astServiceElem) (g := spellServiceElem) (P := WFServiceElem) rfl (kidsMap_append 33 astServiceElem) (by
    intro t u h _ ht
    obtain ⟨us, rfl, g⟩ := item_iff.1 h
    simpa using serviceElem_sound g ht) hm (Nat.le_refl _) y4
  have e : (kids 33 (PTree.leaf k :: .node 44 t1 :: .leaf x :: (t ++ [.leaf y]))).map astServiceElem = (kids 33 t).map astServiceElem := by simp [kids_append]
  have e' : textOf 44 (.leaf k :: .node 44 t1 :: .leaf x :: (t ++ [.leaf y])) = n := by simp [textOf, textsOf, e1']
  rw [e, e']
  exact ⟨⟨hn, i1⟩, by simp [spellBlock, e1, i2, (is34 y1).1 hk, (is45 y3).1 hx, (is46 y5).1 hy]⟩

theorem service_complete {n : Str} {es : List RawServiceElem} (hn : NameTok n) (h : ∀ x ∈ es, WFServiceElem x) (ht : TypedL w)
    (e : texts w = spellBlock "service".toList n (es.flatMap spellServiceElem)) : Lang 32 w := by
  obtain ⟨a, b, x, u, y, rfl, ha, hb, hx, hu, hy, ta, tb, tu⟩ := block_split ht e
  obtain ⟨t1, h1⟩ := name_tree (r := 44) (by simp) tb (hb ▸ hn)
  obtain ⟨t, h2⟩ := many_complete (P := WFServiceElem) (B := Derives protoGram (.call 379 33 ;; .sync 384)) (by
    intro x u h _ ht e
    obtain ⟨us, h⟩ := serviceElem_complete h ht e
    exact ⟨_, item_iff.2 ⟨us, rfl, h⟩⟩) h (Nat.le_refl _) tu hu
  exact ⟨_, (show Rule 32 _ _ ↔ _ from named_iff).2 ⟨a, t1, [b], x, t, u, y, rfl, rfl, (is34 ta).2 ha, h1, hx, h2, hy⟩⟩

/-! ## Statements of a file -/

theorem import_iff : Rule 2 ts w ↔ ∃ x m um t u y, ts = .leaf x :: (m ++ [.node 49 t, .leaf y]) ∧ w = x :: (um ++ (u ++ [y])) ∧ x.typ = 3 ∧
    ((∃ z, (z.typ = 4 ∨ z.typ = 5) ∧ m = [.leaf z] ∧ um = [z]) ∨ (m = [] ∧ um = [])) ∧ Rule 49 t u ∧ y.typ = 39 := by
  show Derives protoGram codeImportStatement ts w ↔ _
  unfold codeImportStatement
  take_apart
  simp only [List.mem_cons, List.not_mem_nil, or_false]
  constructor
  · rintro ⟨x, _, _, rfl, rfl, hx, ⟨z, _, _, rfl, rfl, hz, t, u, _, _, rfl, rfl, h, y, hy, rfl, rfl⟩ | ⟨t, u, _, _, rfl, rfl, h, y, hy, rfl, rfl⟩⟩
    · exact ⟨x, [.leaf z], [z], t, u, y, rfl, rfl, hx, .inl ⟨z, hz, rfl, rfl⟩, h, hy⟩
    · exact ⟨x, [], [], t, u, y, rfl, rfl, hx, .inr ⟨rfl, rfl⟩, h, hy⟩
  · rintro ⟨x, _, _, t, u, y, rfl, rfl, hx, ⟨z, hz, rfl, rfl⟩ | ⟨rfl, rfl⟩, h, hy⟩
    · exact ⟨x, _, _, rfl, rfl, hx, .inl ⟨z, _, _, rfl, rfl, hz, t, u, _, _, rfl, rfl, h, y, hy, rfl, rfl⟩⟩
    · exact ⟨x, _, _, rfl, rfl, hx, .inr ⟨t, u, _, _, rfl, rfl, h, y, hy, rfl, rfl⟩⟩

theorem import_sound (h : Rule 2 ts w) (ht : TypedL w) : StrLitToks (textsOf 49 ts) ∧
    texts w = spellTop (.importStmt (astImportKind ts) (textsOf 49 ts)) := by
  obtain ⟨x, m, um, t, u, y, rfl, rfl, hx, hm, h, hy⟩ := import_iff.1 h
  simp only [typedL_append, typedL_cons] at ht
  obtain ⟨y1, y2, y3, y4, _⟩ := ht
  have hs := (str_texts y3).1 ⟨_, h⟩
  have e := derives_leaves h
  rcases hm with ⟨z, hz | hz, rfl, rfl⟩ | ⟨rfl, rfl⟩
  · have : textsOf 49 (PTree.leaf x :: ([.leaf z] ++ [.node 49 t, .leaf y])) = texts u := by simp [textsOf, e]
    rw [this]
    simp only [typedL_cons] at y2
    exact ⟨hs, by simp [spellTop, astImportKind, hx, hz, spellImportKind, (is3 y1).1 hx, (is4 y2.1).1 hz, (is39 y4).1 hy]⟩
  · have : textsOf 49 (PTree.leaf x :: ([.leaf z] ++ [.node 49 t, .leaf y])) = texts u := by simp [textsOf, e]
    rw [this]
    simp only [typedL_cons] at y2
    exact ⟨hs, by simp [spellTop, astImportKind, hx, hy, hz, spellImportKind, (is3 y1).1 hx, (is5 y2.1).1 hz, (is39 y4).1 hy]⟩
  · have : textsOf 49 (PTree.leaf x :: ([] ++ [.node 49 t, .leaf y])) = texts u := by simp [textsOf, e]
    rw [this]
    exact ⟨hs, by simp [spellTop, astImportKind, hx, hy, spellImportKind, (is3 y1).1 hx, (is39 y4).1 hy]⟩

theorem import_complete {k : ImportKind} {p : List Str} (h : StrLitToks p) (ht : TypedL w) (e : texts w = spellTop (.importStmt k p)) : Lang 2 w := by
  obtain ⟨x, v, rfl, hx, e1⟩ := texts_eq_cons e
  obtain ⟨um, v, rfl, hm, e2⟩ := texts_eq_append e1
  obtain ⟨u, v, rfl, hu, e3⟩ := texts_eq_append e2
  obtain ⟨y, v, rfl, hy, e4⟩ := texts_eq_cons e3
  obtain rfl := texts_eq_nil e4
  simp only [typedL_append, typedL_cons] at ht
  obtain ⟨y1, y2, y3, y4, _⟩ := ht
  obtain ⟨t, g⟩ := (str_texts y3).2 (hu ▸ h)
  have : ∃ m, (∃ z : PTok, (z.typ = 4 ∨ z.typ = 5) ∧ m = [PTree.leaf z] ∧ um = [z]) ∨ (m = [] ∧ um = []) := by
    cases k with
    | plain => exact ⟨[], .inr ⟨rfl, texts_eq_nil hm⟩⟩
    | weak =>
      obtain ⟨z, v, rfl, hz, e5⟩ := texts_eq_cons hm
      obtain rfl := texts_eq_nil e5
      exact ⟨_, .inl ⟨z, .inl ((is4 (y2 z (by simp))).2 hz), rfl, rfl⟩⟩
    | «public» =>
      obtain ⟨z, v, rfl, hz, e5⟩ := texts_eq_cons hm
      obtain rfl := texts_eq_nil e5
      exact ⟨_, .inl ⟨z, .inr ((is5 (y2 z (by simp))).2 hz), rfl, rfl⟩⟩
  obtain ⟨m, hm'⟩ := this
  exact ⟨_, import_iff.2 ⟨x, m, um, t, u, y, rfl, rfl, (is3 y1).2 hx, hm', g, (is39 y4).2 hy⟩⟩

theorem package_iff : Rule 3 ts w ↔ ∃ x t u y, ts = [.leaf x, .node 39 t, .leaf y] ∧ w = x :: (u ++ [y]) ∧ x.typ = 6 ∧ Rule 39 t u ∧ y.typ = 39 := by
  show Derives protoGram codePackageStatement ts w ↔ _
  unfold codePackageStatement
  take_apart
  constructor
  · rintro ⟨x, _, _, rfl, rfl, hx, t, u, _, _, rfl, rfl, h, y, hy, rfl, rfl⟩
    exact ⟨x, t, u, y, rfl, rfl, hx, h, hy⟩
  · rintro ⟨x, t, u, y, rfl, rfl, hx, h, hy⟩
    exact ⟨x, _, _, rfl, rfl, hx, t, u, _, _, rfl, rfl, h, y, hy, rfl, rfl⟩

theorem package_sound (h : Rule 3 ts w) (ht : TypedL w) : PathToks (textsOf 39 ts) ∧ texts w = spellTop (.package (textsOf 39 ts)) := by
  obtain ⟨x, t, u, y, rfl, rfl, hx, h, hy⟩ := package_iff.1 h
  simp only [typedL_append, typedL_cons] at ht
  obtain ⟨y1, y2, y3, _⟩ := ht
  have : textsOf 39 [PTree.leaf x, .node 39 t, .leaf y] = texts u := by simp [textsOf, derives_leaves h]
  rw [this]
  exact ⟨(path_texts y2).1 ⟨_, h⟩, by simp [spellTop, (is6 y1).1 hx, (is39 y3).1 hy]⟩

theorem package_complete {p : List Str} (h : PathToks p) (ht : TypedL w) (e : texts w = spellTop (.package p)) : Lang 3 w := by
  obtain ⟨x, v, rfl, hx, e1⟩ := texts_eq_cons e
  obtain ⟨u, v, rfl, hu, e3⟩ := texts_eq_append e1
  obtain ⟨y, v, rfl, hy, e4⟩ := texts_eq_cons e3
  obtain rfl := texts_eq_nil e4
  simp only [typedL_append, typedL_cons] at ht
  obtain ⟨y1, y2, y3, _⟩ := ht
  obtain ⟨t, g⟩ := (path_texts y2).2 (hu ▸ h)
  exact ⟨_, package_iff.2 ⟨x, t, u, y, rfl, rfl, (is6 y1).2 hx, g, (is39 y3).2 hy⟩⟩

theorem def_iff : Rule 21 ts w ↔ Item [28, 22, 31, 32] ts w := by
  show Derives protoGram codeTopLevelDef ts w ↔ _
  unfold codeTopLevelDef
  rw [s_sync]
  exact item_if (item_if (item_if (item_if item_fail)))

theorem def_sound (h : Rule 21 ts w) (ht : TypedL w) : WFTop (astDef ts) ∧ texts w = spellTop (astDef ts) := by
  obtain ⟨r, us, hr, g, rfl⟩ := def_iff.1 h
  simp only [List.mem_cons, List.not_mem_nil, or_false] at hr
  rcases hr with rfl | rfl | rfl | rfl
  · simpa only [astDef, WFTop, spellTop] using message_sound g ht
  · simpa only [astDef, WFTop, spellTop] using enum_sound g ht
  · simpa only [astDef, WFTop, spellTop] using extend_sound g ht
  · simpa only [astDef, WFTop, spellTop] using service_sound g ht

abbrev topItem : Code := .sync 114 ;; .ifLa [3] (.call 109 2) (.ifLa
    [6] (.call 110 3) (.ifLa [7] (.call 111 4) (.ifLa [32, 33, 34, 35] (.call 112 21) (.ifLa [39] (.call 113 37) .fail)))) ;; .sync 118

theorem topItem_iff : Derives protoGram topItem ts w ↔ Item [2, 3, 4, 21, 37] ts w :=
  item_syncs.trans (item_if (item_if (item_if (item_if (item_if item_fail)))))

theorem tops_sound (h : Many (Derives protoGram topItem) ts w) (ht : TypedL w) :
    (∀ x ∈ ts.flatMap astTop, WFTop x) ∧ texts w = (ts.flatMap astTop).flatMap spellTop :=
  many_sound (F := fun t => t.flatMap astTop) (g := spellTop) (P := WFTop) rfl (flatMap_append' astTop) (by
    intro t u h _ ht
    obtain ⟨r, us, hr, g, rfl⟩ := topItem_iff.1 h
    simp only [List.mem_cons, List.not_mem_nil, or_false] at hr
    rcases hr with rfl | rfl | rfl | rfl | rfl
    · simpa [astTop, WFTop] using import_sound g ht
    · simpa [astTop, WFTop] using package_sound g ht
    · simpa [astTop, WFTop, spellTop] using optionStmt_sound g ht
    · simpa [astTop] using def_sound g ht
    · simpa [astTop, WFTop, spellTop] using empty_texts g ht) h (Nat.le_refl _) ht

theorem top_complete {x : RawTop} (h : WFTop x) (ht : TypedL w) (e : texts w = spellTop x) : ∃ ts, Derives protoGram topItem ts w := by
  have hd : ∀ r, r ∈ [28, 22, 31, 32] → Lang r w → ∃ ts, Derives protoGram topItem ts w := by
    rintro r hr ⟨us, h⟩
    exact ⟨_, topItem_iff.2 ⟨21, _, by simp, def_iff.2 ⟨r, us, hr, h, rfl⟩, rfl⟩⟩
  have hs : ∀ r, r ∈ [2, 3, 4, 21, 37] → Lang r w → ∃ ts, Derives protoGram topItem ts w := by
    rintro r hr ⟨us, h⟩
    exact ⟨_, topItem_iff.2 ⟨r, us, hr, h, rfl⟩⟩
  cases x with
  | importStmt k p => exact hs 2 (by simp) (import_complete h ht e)
  | package p => exact hs 3 (by simp) (package_complete h ht e)
  | option o => exact hs 4 (by simp) (optionStmt_complete h ht e)
  | message n es => exact hd 28 (by simp) (message_complete h.1 h.2 ht e)
  | enum d => exact hd 22 (by simp) (enum_complete h ht e)
  | extend t fs => exact hd 31 (by simp) (extend_complete h ht e)
  | service n es => exact hd 32 (by simp) (service_complete h.1 h.2 ht e)
  | empty => exact hs 37 (by simp) (empty_complete ht e)

/-! ## Files -/

theorem edition_iff : Rule 1 ts w ↔ ∃ z x t u y, ts = [.leaf z, .leaf x, .node 49 t, .leaf y] ∧ w = z :: x :: (u ++ [y]) ∧ (z.typ = 1 ∨ z.typ = 2) ∧ x.typ = 40 ∧
    Rule 49 t u ∧ y.typ = 39 := by
  show Derives protoGram codeEdition ts w ↔ _
  unfold codeEdition
  take_apart
  simp only [List.mem_cons, List.not_mem_nil, or_false]
  constructor
  · rintro ⟨z, _, _, rfl, rfl, hz, x, _, _, rfl, rfl, hx, t, u, _, _, rfl, rfl, h, y, hy, rfl, rfl⟩
    exact ⟨z, x, t, u, y, rfl, rfl, hz, hx, h, hy⟩
  · rintro ⟨z, x, t, u, y, rfl, rfl, hz, hx, h, hy⟩
    exact ⟨z, _, _, rfl, rfl, hz, x, _, _, rfl, rfl, hx, t, u, _, _, rfl, rfl, h, y, hy, rfl, rfl⟩

theorem edition_sound (h : Rule 1 ts w) (ht : TypedL w) : StrLitToks (textsOf 49 ts) ∧ texts w = spellEdition ⟨hasTok 2 ts, textsOf 49 ts⟩ := by
  obtain ⟨z, x, t, u, y, rfl, rfl, hz, hx, h, hy⟩ := edition_iff.1 h
  simp only [typedL_append, typedL_cons] at ht
  obtain ⟨y1, y2, y3, y4, _⟩ := ht
  have : textsOf 49 [PTree.leaf z, .leaf x, .node 49 t, .leaf y] = texts u := by simp [textsOf, derives_leaves h]
  rw [this]
  refine ⟨(str_texts y3).1 ⟨_, h⟩, ?_⟩
  rcases hz with hz | hz
  · simp [spellEdition, hz, hx, hy, (is1 y1).1 hz, (is40 y2).1 hx, (is39 y4).1 hy]
  · simp [spellEdition, hz, (is2 y1).1 hz, (is40 y2).1 hx, (is39 y4).1 hy]

theorem edition_complete {d : RawEdition} (h : StrLitToks d.lit) (ht : TypedL w) (e : texts w = spellEdition d) : Lang 1 w := by
  obtain ⟨z, v, rfl, hz, e1⟩ := texts_eq_cons e
  obtain ⟨x, v, rfl, hx, e2⟩ := texts_eq_cons e1
  obtain ⟨u, v, rfl, hu, e3⟩ := texts_eq_append e2
  obtain ⟨y, v, rfl, hy, e4⟩ := texts_eq_cons e3
  obtain rfl := texts_eq_nil e4
  simp only [typedL_append, typedL_cons] at ht
  obtain ⟨y1, y2, y3, y4, _⟩ := ht
  obtain ⟨t, g⟩ := (str_texts y3).2 (hu ▸ h)
  refine ⟨_, edition_iff.2 ⟨z, x, t, u, y, rfl, rfl, ?_, (is40 y2).2 hx, g, (is39 y4).2 hy⟩⟩
  split at hz
  · exact .inr ((is2 y1).2 hz)
  · exact .inl ((is1 y1).2 hz)

theorem proto_iff : Rule 0 ts w ↔ (∃ t u t' v, ts = .node 1 t :: t' ∧ w = u ++ v ∧ Rule 1 t u ∧ Many (Derives protoGram topItem) t' v) ∨
    Many (Derives protoGram topItem) ts w := by
  show Derives protoGram codeProto ts w ↔ _
  unfold codeProto
  simp only [s_sync, s_if, s_rule, s_done, s_while, d_eof]
  constructor
  · rintro (⟨t, u, _, _, rfl, rfl, h, t', v, _, _, rfl, rfl, h', rfl, rfl⟩ | ⟨t', v, _, _, rfl, rfl, h', rfl, rfl⟩)
    · exact .inl ⟨t, u, t', v, by simp, by simp, h, h'⟩
    · exact .inr (by simpa using h')
  · rintro (⟨t, u, t', v, rfl, rfl, h, h'⟩ | h)
    · exact .inl ⟨t, u, t', v, rfl, rfl, h, t', v, [], [], by simp, by simp, h', rfl, rfl⟩
    · exact .inr ⟨ts, w, [], [], by simp, by simp, h, rfl, rfl⟩

theorem kid_top (h : Many (Derives protoGram topItem) ts w) : kid 1 ts = none := by
  induction h with
  | nil => rfl
  | cons h _ ih =>
    obtain ⟨r, us, hr, g, rfl⟩ := topItem_iff.1 h
    simp only [List.mem_cons, List.not_mem_nil, or_false] at hr
    rcases hr with rfl | rfl | rfl | rfl | rfl <;> simpa using ih

theorem proto_sound (h : Rule 0 ts w) (ht : TypedL w) : WFProto (astProto ts) ∧ texts w = spellProto (astProto ts) := by
  rcases proto_iff.1 h with ⟨t, u, t', v, rfl, rfl, h, h'⟩ | g
  · simp only [typedL_append] at ht
    obtain ⟨i1, i2⟩ := edition_sound h ht.1
    obtain ⟨j1, j2⟩ := tops_sound h' ht.2
    have e : astProto (.node 1 t :: t') = ⟨some ⟨hasTok 2 t, textsOf 49 t⟩, t'.flatMap astTop⟩ := by simp [astProto, astTop]
    rw [e]
    refine ⟨⟨?_, j1⟩, by simp [spellProto, spellEditionOpt, i2, j2]⟩
    rintro _ ⟨⟩
    exact i1
  · obtain ⟨j1, j2⟩ := tops_sound g ht
    have e : astProto ts = ⟨none, ts.flatMap astTop⟩ := by simp [astProto, kid_top g]
    rw [e]
    exact ⟨⟨fun _ h => by simp at h, j1⟩, by simp [spellProto, spellEditionOpt, j2]⟩

theorem proto_complete {p : RawProto} (h : WFProto p) (ht : TypedL w) (e : texts w = spellProto p) : Lang 0 w := by
  obtain ⟨u, v, rfl, e1, e2⟩ := texts_eq_append e
  simp only [typedL_append] at ht
  obtain ⟨t', h'⟩ := many_complete (P := WFTop) (B := Derives protoGram topItem) (fun h _ ht e => top_complete h ht e) h.2 (Nat.le_refl _) ht.2 e2
  cases hp : p.edition with
  | none =>
    rw [hp] at e1
    obtain rfl := texts_eq_nil e1
    exact ⟨_, proto_iff.2 (.inr h')⟩
  | some d =>
    rw [hp] at e1
    obtain ⟨t, g⟩ := edition_complete (h.1 d hp) ht.1 e1
    exact ⟨_, proto_iff.2 (.inl ⟨t, u, t', v, rfl, rfl, g, h'⟩)⟩

end Verif.Lemmas.Gen.Antlr
