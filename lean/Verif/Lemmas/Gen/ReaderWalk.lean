import Verif.Lemmas.Gen.Reader
/-! Helper lemmas: the comments of declarations, in the order of the walk. -/
namespace Verif.Lemmas.Gen
open Verif.Model.Gen Verif.Spec.Gen

/-- The comments of declarations at the given places, and the directives in them. -/
def walkSpans (toks : List Tok) : List Nat → List (Nat × Nat) → List (List Str) × List Nat
  | c, [] => ([], c)
  | c, s :: ss =>
    let h := consumeHead toks c (visibleIndex toks s.1)
    let i := consumeInline toks h.2 (visibleIndex toks s.2)
    let r := walkSpans toks i.2 ss
    (dirParse [h.1, i.1] :: r.1, r.2)

theorem walkSpans_append (toks : List Tok) : ∀ (ss rr : List (Nat × Nat)) (c : List Nat), walkSpans toks c (ss ++ rr) =
    ((walkSpans toks c ss).1 ++ (walkSpans toks (walkSpans toks c ss).2 rr).1, (walkSpans toks (walkSpans toks c ss).2 rr).2)
  | [], rr, c => rfl
  | s :: ss, rr, c => by
    simp only [List.cons_append, walkSpans, walkSpans_append toks ss rr]

/-- The node of a declaration. -/
theorem walk_node (toks : List Tok) (c : List Nat) (k w : Nat) (ts : List Str) (h : w = ts.length) (ss : List (Nat × Nat)) :
    walkSpans toks c (span k ts :: ss) =
      ((nodeDirectives toks c k w).1 :: (walkSpans toks (nodeDirectives toks c k w).2 ss).1, (walkSpans toks (nodeDirectives toks c k w).2 ss).2) := by
  subst h
  rfl

/-- What reading a part does. -/
def Follows (toks : List Tok) (c : List Nat) (ss : List (Nat × Nat)) (ds : List (List Str)) (c' : List Nat) : Prop := walkSpans toks c ss = (ds, c')

section
variable {toks : List Tok}

theorem follows_append {c c1 c2 : List Nat} {ss rr : List (Nat × Nat)} {ds es : List (List Str)} (h1 : Follows toks c ss ds c1) (h2 : Follows toks c1 rr es c2) :
    Follows toks c (ss ++ rr) (ds ++ es) c2 := by
  unfold Follows at h1 h2 ⊢
  rw [walkSpans_append, h1]
  dsimp only
  rw [h2]

theorem follows_node {c c' : List Nat} {k w : Nat} {ts : List Str} {ss : List (Nat × Nat)} {ds : List (List Str)} (h : w = ts.length)
    (h' : Follows toks (nodeDirectives toks c k w).2 ss ds c') : Follows toks c (span k ts :: ss) ((nodeDirectives toks c k w).1 :: ds) c' := by
  unfold Follows at h' ⊢
  rw [walk_node toks c k w ts h, h']

theorem follows_nil (c : List Nat) : Follows toks c [] [] c := rfl

theorem follows_many {α β : Type} {width : α → Nat} {read : List Nat → Nat → α → β × List Nat} {spell : α → List Str} {spans : Nat → α → List (Nat × Nat)}
    {dirs : β → List (List Str)} (hw : ∀ x, width x = (spell x).length) (h : ∀ x c k, Follows toks c (spans k x) (dirs (read c k x).1) (read c k x).2) :
    ∀ (l : List α) (c : List Nat) (k : Nat), Follows toks c (partSpans spell spans k l) ((readMany width read c k l).1.flatMap dirs) (readMany width read c k l).2
  | [], c, k => follows_nil c
  | x :: xs, c, k => by
    simp only [partSpans, readMany, List.flatMap_cons]
    rw [← hw x]
    exact follows_append (h x c k) (follows_many hw h xs _ _)

theorem follows_field (c : List Nat) (k : Nat) (f : RawField) :
    Follows toks c [span k (spellField f)] [(readField toks c k f).1.directives] (readField toks c k f).2 :=
  follows_node (fieldWidth_eq f) (follows_nil _)

theorem follows_enumElem (e : RawEnumElem) (c : List Nat) (k : Nat) :
    Follows toks c (enumElemSpans k e) (enumElemDirs (readEnumElem toks c k e).1) (readEnumElem toks c k e).2 := by
  cases e with
  | value v => exact follows_node (enumValueWidth_eq v) (follows_nil _)
  | _ => exact follows_nil c

theorem follows_enum (e : RawEnum) (c : List Nat) (k : Nat) :
    Follows toks c (enumSpans k e) (enumDirs (readEnum toks c k e).1) (readEnum toks c k e).2 :=
  follows_node (enumWidth_eq e) (follows_many enumElemWidth_eq follows_enumElem _ _ _)

theorem follows_oneofElem (e : RawOneofElem) (c : List Nat) (k : Nat) :
    Follows toks c (oneofElemSpans k e) (oneofElemDirs (readOneofElem toks c k e).1) (readOneofElem toks c k e).2 := by
  cases e with
  | field f => exact follows_field c k f
  | _ => exact follows_nil c

mutual
theorem follows_elem : ∀ (e : RawElem) (c : List Nat) (k : Nat), Follows toks c (elemSpans k e) (elemDirs (readElem toks c k e).1) (readElem toks c k e).2
  | .field f, c, k => by
    rw [elemSpans, readElem]; dsimp only; rw [elemDirs]
    exact follows_field c k f
  | .enum e, c, k => by
    rw [elemSpans, readElem]; dsimp only; rw [elemDirs]
    exact follows_enum e c k
  | .message n es, c, k => by
    rw [elemSpans, readElem]; dsimp only; rw [elemDirs]
    exact follows_node (by rw [spellBlock_length, elemsWidth_eq]) (follows_elems es _ _)
  | .extend t fs, c, k => by rw [elemSpans, readElem]; dsimp only; rw [elemDirs]; exact follows_nil c; all_goals simp
  | .option o, c, k => by rw [elemSpans, readElem]; dsimp only; rw [elemDirs]; exact follows_nil c; all_goals simp
  | .oneof n es, c, k => by
    rw [elemSpans, readElem]; dsimp only; rw [elemDirs]
    exact follows_many oneofElemWidth_eq follows_oneofElem _ _ _
  | .mapField f, c, k => by
    rw [elemSpans, readElem]; dsimp only; rw [elemDirs]
    exact follows_field c k f
  | .reserved rr, c, k => by rw [elemSpans, readElem]; dsimp only; rw [elemDirs]; exact follows_nil c; all_goals simp
  | .reservedNames ss, c, k => by rw [elemSpans, readElem]; dsimp only; rw [elemDirs]; exact follows_nil c; all_goals simp
  | .extensions rr os, c, k => by rw [elemSpans, readElem]; dsimp only; rw [elemDirs]; exact follows_nil c; all_goals simp
  | .empty, c, k => by rw [elemSpans, readElem]; dsimp only; rw [elemDirs]; exact follows_nil c; all_goals simp
theorem follows_elems : ∀ (es : List RawElem) (c : List Nat) (k : Nat), Follows toks c (elemsSpans k es) (elemsDirs (readElems toks c k es).1) (readElems toks c k es).2
  | [], c, k => by rw [elemsSpans, readElems]; dsimp only; rw [elemsDirs]; exact follows_nil c
  | e :: es, c, k => by
    rw [elemsSpans, readElems]; dsimp only; rw [elemsDirs, ← elemWidth_eq]
    exact follows_append (follows_elem e c k) (follows_elems es _ _)
end

theorem follows_serviceElem (e : RawServiceElem) (c : List Nat) (k : Nat) :
    Follows toks c (serviceElemSpans k e) (serviceElemDirs (readServiceElem toks c k e).1) (readServiceElem toks c k e).2 := by
  cases e with
  | rpc r => exact follows_node (rpcWidth_eq r) (follows_nil _)
  | _ => exact follows_nil c

theorem follows_top (e : RawTop) (c : List Nat) (k : Nat) : Follows toks c (topSpans k e) (topDirs (readTop toks c k e).1) (readTop toks c k e).2 := by
  cases e with
  | message n es => exact follows_node (by rw [spellBlock_length, elemsWidth_eq]) (follows_elems es _ _)
  | enum e => exact follows_enum e c k
  | service n es =>
    exact follows_node (by rw [spellBlock_length, sum_eq (f := spellServiceElem) fun x _ => serviceElemWidth_eq x])
      (follows_many serviceElemWidth_eq follows_serviceElem _ _ _)
  | _ => exact follows_nil c

theorem follows_proto (p : RawProto) : ∃ c, Follows toks [] (protoSpans p) (protoDirs (readProto toks p).tree) c ∧
    (readProto toks p).directives = dirParse [(consumeHead toks c (visibleIndex toks 0)).1] := by
  refine ⟨_, ?_, rfl⟩
  unfold protoSpans
  rw [← editionWidth_eq]
  exact follows_many topWidth_eq follows_top _ _ _

end

/-! ## As calls -/

/-- The calls for declarations at the given places. -/
def spanCalls (toks : List Tok) (ss : List (Nat × Nat)) : List CommentCall :=
  ss.flatMap fun s => [.head (visibleIndex toks s.1), .inline (visibleIndex toks s.2)]

theorem consumeAll_append (toks : List Tok) : ∀ (ks ls : List CommentCall) (c : List Nat), ∃ c', consumeAll toks c (ks ++ ls) = consumeAll toks c ks ++ consumeAll toks c' ls
  | [], ls, c => ⟨c, rfl⟩
  | k :: ks, ls, c => by
    obtain ⟨c', h⟩ := consumeAll_append toks ks ls (consume toks c k).2
    exact ⟨c', by rw [List.cons_append, consumeAll, consumeAll, h]; rfl⟩

theorem walk_calls (toks : List Tok) (last : CommentCall) : ∀ (ss : List (Nat × Nat)) (c : List Nat),
    (consumeAll toks c (spanCalls toks ss ++ [last])).length = 2 * ss.length + 1 ∧
    (consumeAll toks c (spanCalls toks ss ++ [last]))[2 * ss.length]? = some (consume toks (walkSpans toks c ss).2 last).1 ∧
    (walkSpans toks c ss).1.length = ss.length ∧
    ∀ n ds, (walkSpans toks c ss).1[n]? = some ds → ∃ h i, (consumeAll toks c (spanCalls toks ss ++ [last]))[2 * n]? = some h ∧
      (consumeAll toks c (spanCalls toks ss ++ [last]))[2 * n + 1]? = some i ∧ ds = dirParse [h, i]
  | [], c => ⟨rfl, rfl, rfl, fun n ds h => by simp [walkSpans] at h⟩
  | s :: ss, c => by
    obtain ⟨h1, h2, h3, h4⟩ := walk_calls toks last ss (consumeInline toks (consumeHead toks c (visibleIndex toks s.1)).2 (visibleIndex toks s.2)).2
    have e : consumeAll toks c (spanCalls toks (s :: ss) ++ [last]) = (consumeHead toks c (visibleIndex toks s.1)).1 ::
        (consumeInline toks (consumeHead toks c (visibleIndex toks s.1)).2 (visibleIndex toks s.2)).1 ::
        consumeAll toks (consumeInline toks (consumeHead toks c (visibleIndex toks s.1)).2 (visibleIndex toks s.2)).2 (spanCalls toks ss ++ [last]) := rfl
    rw [e]
    refine ⟨by rw [List.length_cons, List.length_cons, h1, List.length_cons]; omega, ?_, ?_, ?_⟩
    · rw [List.length_cons, show 2 * (ss.length + 1) = 2 * ss.length + 1 + 1 by omega, List.getElem?_cons_succ, List.getElem?_cons_succ, h2]
      rfl
    · simp only [walkSpans, List.length_cons, h3]
    · intro n ds hn
      cases n with
      | zero =>
        simp only [walkSpans, List.getElem?_cons_zero, Option.some.injEq] at hn
        exact ⟨_, _, rfl, rfl, hn.symm⟩
      | succ n =>
        simp only [walkSpans, List.getElem?_cons_succ] at hn
        obtain ⟨h, i, e1, e2, e3⟩ := h4 n ds hn
        refine ⟨h, i, ?_, ?_, e3⟩
        · rw [show 2 * (n + 1) = 2 * n + 1 + 1 by omega, List.getElem?_cons_succ, List.getElem?_cons_succ, e1]
        · rw [show 2 * (n + 1) + 1 = 2 * n + 1 + 1 + 1 by omega, List.getElem?_cons_succ, List.getElem?_cons_succ, e2]

/-! ## Places of tokens -/

theorem visibleIndex_nth : ∀ {toks : List Tok} {k : Nat}, k < (toks.filter fun t => t.kind = .visible).length → NthVisible toks k (visibleIndex toks k)
  | [], k, h => by simp at h
  | t :: ts, k, h => by
    by_cases ht : t.kind = .visible
    · simp only [List.filter_cons, ht, decide_true, if_true, List.length_cons] at h
      cases k with
      | zero =>
        rw [visibleIndex, if_pos ht]
        exact ⟨⟨t, rfl, ht⟩, rfl⟩
      | succ k =>
        obtain ⟨⟨u, h1, h2⟩, h3⟩ := visibleIndex_nth (toks := ts) (k := k) (by omega)
        rw [visibleIndex, if_pos ht]
        refine ⟨⟨u, by rw [List.getElem?_cons_succ]; exact h1, h2⟩, ?_⟩
        simp only [List.take_succ_cons, List.filter_cons, ht, decide_true, if_true, List.length_cons, h3]
    · simp only [List.filter_cons, ht, decide_false, Bool.false_eq_true, if_false] at h
      obtain ⟨⟨u, h1, h2⟩, h3⟩ := visibleIndex_nth (toks := ts) (k := k) h
      have e : visibleIndex (t :: ts) k = visibleIndex ts k + 1 := by cases k <;> simp only [visibleIndex, if_neg ht]
      rw [e]
      refine ⟨⟨u, by rw [List.getElem?_cons_succ]; exact h1, h2⟩, ?_⟩
      simp only [List.take_succ_cons, List.filter_cons, ht, decide_false, Bool.false_eq_true, if_false, h3]

theorem nthVisible_unique : ∀ {toks : List Tok} {k i j : Nat}, NthVisible toks k i → NthVisible toks k j → i = j
  | [], k, i, j, h, _ => by
    obtain ⟨⟨t, h1, _⟩, _⟩ := h
    cases h1
  | t :: ts, k, i, j, ⟨⟨u, hu, hu'⟩, hi⟩, ⟨⟨w, hw, hw'⟩, hj⟩ => by
    by_cases ht : t.kind = .visible
    · cases i with
      | zero =>
        cases j with
        | zero => rfl
        | succ j =>
          simp only [List.take_zero, List.filter_nil, List.length_nil] at hi
          simp only [List.take_succ_cons, List.filter_cons, ht, decide_true, if_true, List.length_cons] at hj
          omega
      | succ i =>
        simp only [List.take_succ_cons, List.filter_cons, ht, decide_true, if_true, List.length_cons] at hi
        cases j with
        | zero =>
          simp only [List.take_zero, List.filter_nil, List.length_nil] at hj
          omega
        | succ j =>
          simp only [List.take_succ_cons, List.filter_cons, ht, decide_true, if_true, List.length_cons] at hj
          rw [nthVisible_unique (toks := ts) (k := k - 1) ⟨⟨u, hu, hu'⟩, by omega⟩ ⟨⟨w, hw, hw'⟩, by omega⟩]
    · cases i with
      | zero => cases hu; exact absurd hu' ht
      | succ i =>
        cases j with
        | zero => cases hw; exact absurd hw' ht
        | succ j =>
          simp only [List.take_succ_cons, List.filter_cons, ht, decide_false, Bool.false_eq_true, if_false] at hi hj
          rw [nthVisible_unique (toks := ts) ⟨⟨u, hu, hu'⟩, hi⟩ ⟨⟨w, hw, hw'⟩, hj⟩]

/-! ## Declarations are within the file -/

/-- Places within a part of `w` tokens after `k` tokens. -/
def Within (k w : Nat) (ss : List (Nat × Nat)) : Prop := ∀ s ∈ ss, k ≤ s.1 ∧ s.1 ≤ s.2 ∧ s.2 < k + w

theorem within_nil (k w : Nat) : Within k w [] := fun _ h => by cases h

theorem within_append {k w w1 : Nat} {ss rr : List (Nat × Nat)} (h1 : Within k w1 ss) (h2 : Within (k + w1) (w - w1) rr) (hw : w1 ≤ w) : Within k w (ss ++ rr) := by
  intro s hs
  rcases List.mem_append.1 hs with hs | hs
  · have := h1 s hs
    omega
  · have := h2 s hs
    omega

theorem within_part {k w d w1 : Nat} {ss : List (Nat × Nat)} (h : Within (k + d) w1 ss) (hw : d + w1 ≤ w) : Within k w ss := by
  intro s hs
  have := h s hs
  omega

theorem within_span {k : Nat} {ts : List Str} (h : ts ≠ []) {ss : List (Nat × Nat)} (hs : Within k ts.length ss) : Within k ts.length (span k ts :: ss) := by
  have := List.length_pos_iff.2 h
  intro s hm
  rcases List.mem_cons.1 hm with rfl | hm
  · dsimp only [span]
    omega
  · exact hs s hm

theorem within_many {α : Type} {spell : α → List Str} {spans : Nat → α → List (Nat × Nat)} (h : ∀ x k, Within k (spell x).length (spans k x)) :
    ∀ (l : List α) (k : Nat), Within k (l.flatMap spell).length (partSpans spell spans k l)
  | [], k => within_nil _ _
  | x :: xs, k => by
    have ih := within_many h xs (k + (spell x).length)
    rw [List.flatMap_cons, List.length_append]
    exact within_append (h x k) (by rw [Nat.add_sub_cancel_left]; exact ih) (by omega)

theorem spellField_ne (f : RawField) : spellField f ≠ [] := by
  intro e
  have := congrArg List.length e
  rw [← fieldWidth_eq, fieldWidth, List.length_nil] at this
  omega

theorem spellBlock_ne (k n : Str) (b : List Str) : spellBlock k n b ≠ [] := by
  unfold spellBlock
  exact List.cons_ne_nil _ _

theorem within_enumElem (e : RawEnumElem) (k : Nat) : Within k (spellEnumElem e).length (enumElemSpans k e) := by
  cases e with
  | value v => exact within_span (ts := spellEnumValue v) (by unfold spellEnumValue; exact List.cons_ne_nil _ _) (within_nil _ _)
  | _ => exact within_nil _ _

theorem within_enum (e : RawEnum) (k : Nat) : Within k (spellEnum e).length (enumSpans k e) := by
  refine within_span (spellBlock_ne _ _ _) (within_part (within_many within_enumElem e.elems (k + 3)) ?_)
  rw [spellBlock_length]
  omega

theorem within_oneofElem (e : RawOneofElem) (k : Nat) : Within k (spellOneofElem e).length (oneofElemSpans k e) := by
  cases e with
  | field f => exact within_span (spellField_ne f) (within_nil _ _)
  | _ => exact within_nil _ _

mutual
theorem within_elem : ∀ (e : RawElem) (k : Nat), Within k (spellElem e).length (elemSpans k e)
  | .field f, k => by rw [elemSpans, spellElem]; exact within_span (spellField_ne f) (within_nil _ _)
  | .enum e, k => by rw [elemSpans, spellElem]; exact within_enum e k
  | .message n es, k => by
    rw [elemSpans, spellElem]
    exact within_span (spellBlock_ne _ _ _) (within_part (within_elems es (k + 3)) (by rw [spellBlock_length]; omega))
  | .extend t fs, k => by rw [elemSpans]; exact within_nil _ _; all_goals simp
  | .option o, k => by rw [elemSpans]; exact within_nil _ _; all_goals simp
  | .oneof n es, k => by
    rw [elemSpans, spellElem]
    exact within_part (within_many within_oneofElem es (k + 3)) (by rw [spellBlock_length]; omega)
  | .mapField f, k => by rw [elemSpans, spellElem]; exact within_span (spellField_ne f) (within_nil _ _)
  | .reserved rr, k => by rw [elemSpans]; exact within_nil _ _; all_goals simp
  | .reservedNames ss, k => by rw [elemSpans]; exact within_nil _ _; all_goals simp
  | .extensions rr os, k => by rw [elemSpans]; exact within_nil _ _; all_goals simp
  | .empty, k => by rw [elemSpans]; exact within_nil _ _; all_goals simp
theorem within_elems : ∀ (es : List RawElem) (k : Nat), Within k (spellElems es).length (elemsSpans k es)
  | [], k => by rw [elemsSpans]; exact within_nil _ _
  | e :: es, k => by
    rw [elemsSpans, spellElems, List.length_append]
    exact within_append (within_elem e k) (by rw [Nat.add_sub_cancel_left]; exact within_elems es _) (by omega)
end

theorem within_serviceElem (e : RawServiceElem) (k : Nat) : Within k (spellServiceElem e).length (serviceElemSpans k e) := by
  cases e with
  | rpc r => exact within_span (ts := spellRpc r) (by unfold spellRpc; exact List.cons_ne_nil _ _) (within_nil _ _)
  | _ => exact within_nil _ _

theorem within_top (e : RawTop) (k : Nat) : Within k (spellTop e).length (topSpans k e) := by
  cases e with
  | message n es =>
    exact within_span (spellBlock_ne _ _ _) (within_part (within_elems es (k + 3)) (by rw [spellBlock_length]; omega))
  | enum e => exact within_enum e k
  | service n es =>
    exact within_span (spellBlock_ne _ _ _) (within_part (within_many within_serviceElem es (k + 3)) (by rw [spellBlock_length]; omega))
  | _ => exact within_nil _ _

theorem within_proto (p : RawProto) : ∀ s ∈ protoSpans p, s.1 ≤ s.2 ∧ s.2 < (spellProto p).length := by
  intro s hs
  have := within_many within_top p.elems _ s hs
  rw [spellProto, List.length_append]
  omega

end Verif.Lemmas.Gen
