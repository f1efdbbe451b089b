import Verif.Lemmas.Gen.Antlr.Inv
/-!
# The lists of tokens that belong to names, types, literals and constants
-/
namespace Verif.Lemmas.Gen.Antlr
open Verif.Model.Gen Verif.Model.Gen.Antlr Verif.Spec.Gen

variable {ts : List PTree} {w : List PTok}

macro "take_apart" : tactic => `(tactic|
  simp only [s_tok, s_set, s_rule, s_while, s_choose, s_sync, s_done, s_fail, s_if, s_seq, d_tok, d_set, d_rule, d_while, d_sync, d_done, d_fail, d_if,
    d_eof, or_false])

macro "take_apart" " at " h:ident : tactic => `(tactic|
  simp only [s_tok, s_set, s_rule, s_while, s_choose, s_sync, s_done, s_fail, s_if, s_seq, d_tok, d_set, d_rule, d_while, d_sync, d_done, d_fail, d_if,
    d_eof, or_false] at $h:ident)

/-- The tokens that a rule derives. -/
def Lang (r : Nat) (w : List PTok) : Prop := ∃ ts, Rule r ts w

theorem Derives.lang {r : Nat} (h : Rule r ts w) : Lang r w := ⟨ts, h⟩

/-! ## Single tokens -/

theorem rule_ident : Lang 38 w ↔ ∃ x, w = [x] ∧ x.typ ∈ nameTypes := by
  constructor
  · rintro ⟨ts, h⟩
    unfold Rule ruleCode codeIdent at h
    take_apart at h
    rcases h with ⟨x, hx, rfl, rfl⟩ | ⟨us, h, rfl⟩
    · exact ⟨x, rfl, by rw [hx]; decide⟩
    · unfold Rule ruleCode codeKeywords at h
      take_apart at h
      obtain ⟨x, hx, rfl, rfl⟩ := h
      refine ⟨x, rfl, ?_⟩
      simp only [nameTypes, List.mem_cons, List.not_mem_nil, or_false] at hx ⊢
      omega
  · rintro ⟨x, rfl, hx⟩
    unfold Lang Rule ruleCode codeIdent
    take_apart
    by_cases h : x.typ = 58
    · exact ⟨_, .inl ⟨x, h, rfl, rfl⟩⟩
    · refine ⟨_, .inr ⟨[.leaf x], ?_, rfl⟩⟩
      unfold Rule ruleCode codeKeywords
      take_apart
      refine ⟨x, ?_, rfl, rfl⟩
      simp only [nameTypes, List.mem_cons, List.not_mem_nil, or_false] at hx ⊢
      omega

/-- The rules for names. -/
theorem rule_name {r : Nat} (hr : r ∈ [38, 40, 41, 42, 43, 44, 45]) : Lang r w ↔ ∃ x, w = [x] ∧ x.typ ∈ nameTypes := by
  rw [← rule_ident]
  simp only [List.mem_cons, List.not_mem_nil, or_false] at hr
  rcases hr with rfl | rfl | rfl | rfl | rfl | rfl | rfl
  · rfl
  all_goals
    unfold Lang Rule ruleCode
    simp only [codeMessageName, codeEnumName, codeFieldName, codeOneofName, codeServiceName, codeRpcName]
    take_apart
    exact ⟨fun ⟨_, us, h, _⟩ => ⟨us, h⟩, fun ⟨us, h⟩ => ⟨_, us, h, rfl⟩⟩

theorem rule_int : Lang 48 w ↔ ∃ x, w = [x] ∧ x.typ = 57 := by
  unfold Lang Rule ruleCode codeIntLit
  take_apart
  exact ⟨fun ⟨_, x, h, _, e⟩ => ⟨x, e, h⟩, fun ⟨x, e, h⟩ => ⟨_, x, h, rfl, e⟩⟩

theorem rule_bool : Lang 50 w ↔ ∃ x, w = [x] ∧ x.typ = 55 := by
  unfold Lang Rule ruleCode codeBoolLit
  take_apart
  exact ⟨fun ⟨_, x, h, _, e⟩ => ⟨x, e, h⟩, fun ⟨x, e, h⟩ => ⟨_, x, h, rfl, e⟩⟩

theorem rule_float : Lang 51 w ↔ ∃ x, w = [x] ∧ x.typ = 56 := by
  unfold Lang Rule ruleCode codeFloatLit
  take_apart
  exact ⟨fun ⟨_, x, h, _, e⟩ => ⟨x, e, h⟩, fun ⟨x, e, h⟩ => ⟨_, x, h, rfl, e⟩⟩

theorem rule_number : Lang 10 w ↔ Lang 48 w := by
  unfold Lang Rule ruleCode codeFieldNumber
  take_apart
  exact ⟨fun ⟨_, us, h, _⟩ => ⟨us, h⟩, fun ⟨us, h⟩ => ⟨_, us, h, rfl⟩⟩

theorem rule_empty : Rule 37 ts w ↔ ∃ x, x.typ = 39 ∧ ts = [.leaf x] ∧ w = [x] := by
  unfold Rule ruleCode codeEmptyStatement
  take_apart

theorem rule_key : Lang 14 w ↔ ∃ x, w = [x] ∧ 13 ≤ x.typ ∧ x.typ ≤ 24 := by
  unfold Lang Rule ruleCode codeKeyType
  take_apart
  simp only [List.mem_cons, List.not_mem_nil, or_false]
  constructor
  · rintro ⟨_, x, h, _, e⟩
    exact ⟨x, e, by omega, by omega⟩
  · rintro ⟨x, e, h, h'⟩
    exact ⟨_, x, by omega, rfl, e⟩

theorem rule_label : Rule 6 ts w ↔ ∃ x, (x.typ = 8 ∨ x.typ = 9 ∨ x.typ = 10) ∧ ts = [.leaf x] ∧ w = [x] := by
  unfold Rule ruleCode codeFieldLabel
  take_apart
  simp only [List.mem_cons, List.not_mem_nil, or_false]

theorem many_texts {P : List PTree → List PTok → Prop} {Q : List PTok → Prop} (hn : Q []) (hc : ∀ {t u v}, P t u → Q v → Q (u ++ v)) (h : Many P ts w) : Q w := by
  induction h with
  | nil => exact hn
  | cons h _ ih => exact hc h ih

theorem many_str : ∀ {v : List PTok}, (∀ y ∈ v, y.typ = 54) → ∃ us, Many (Derives protoGram (Code.tok 54 ;; Code.sync 504)) us v
  | [], _ => ⟨[], .nil⟩
  | y :: v, h2 => by
    obtain ⟨us, h⟩ := many_str (v := v) (fun z hz => h2 z (List.mem_cons_of_mem _ hz))
    refine ⟨_, Many.cons (u := [y]) (ts := [.leaf y]) ?_ h⟩
    take_apart
    exact ⟨y, [], [], rfl, rfl, h2 y (by simp), rfl, rfl⟩

theorem rule_str : Lang 49 w ↔ w ≠ [] ∧ ∀ x ∈ w, x.typ = 54 := by
  unfold Lang Rule ruleCode codeStrLit
  take_apart
  constructor
  · rintro ⟨_, x, us, v, rfl, rfl, hx, h⟩
    refine ⟨by simp, ?_⟩
    have : ∀ y ∈ v, y.typ = 54 := by
      refine many_texts (Q := fun v => ∀ y ∈ v, y.typ = 54) (by simp) ?_ h
      intro t u v h ih
      take_apart at h
      obtain ⟨z, us, v', rfl, rfl, hz, rfl, rfl⟩ := h
      intro y hy
      simp only [List.cons_append, List.nil_append, List.mem_cons] at hy
      rcases hy with rfl | hy
      · exact hz
      · exact ih y hy
    intro y hy
    rcases List.mem_cons.1 hy with rfl | hy
    · exact hx
    · exact this y hy
  · rintro ⟨h1, h2⟩
    cases w with
    | nil => exact absurd rfl h1
    | cons x v =>
      obtain ⟨us, h⟩ := many_str (v := v) (fun y hy => h2 y (List.mem_cons_of_mem _ hy))
      exact ⟨_, x, us, v, rfl, rfl, h2 x (by simp), h⟩

/-! ## With texts -/

theorem name_texts {r : Nat} (hr : r ∈ [38, 40, 41, 42, 43, 44, 45]) (ht : TypedL w) : Lang r w ↔ ∃ n, texts w = [n] ∧ NameTok n := by
  rw [rule_name hr]
  constructor
  · rintro ⟨x, rfl, hx⟩
    exact ⟨x.text, rfl, (typed_name (ht x (by simp))).1 hx⟩
  · rintro ⟨n, h, hn⟩
    match w, h with
    | [x], h =>
      simp only [texts_cons, texts_nil, List.cons.injEq, and_true] at h
      exact ⟨x, rfl, (typed_name (ht x (by simp))).2 (h ▸ hn)⟩

theorem int_texts (ht : TypedL w) : Lang 48 w ↔ ∃ n, texts w = [n] ∧ IntTok n := by
  rw [rule_int]
  constructor
  · rintro ⟨x, rfl, hx⟩
    exact ⟨x.text, rfl, (typed_int (ht x (by simp))).1 hx⟩
  · rintro ⟨n, h, hn⟩
    match w, h with
    | [x], h =>
      simp only [texts_cons, texts_nil, List.cons.injEq, and_true] at h
      exact ⟨x, rfl, (typed_int (ht x (by simp))).2 (h ▸ hn)⟩

theorem str_texts (ht : TypedL w) : Lang 49 w ↔ StrLitToks (texts w) := by
  rw [rule_str, StrLitToks]
  simp only [texts, ne_eq, List.map_eq_nil_iff, List.mem_map, forall_exists_index, and_imp, forall_apply_eq_imp_iff₂]
  exact ⟨fun h => ⟨h.1, fun x hx => (typed_str (ht x hx)).1 (h.2 x hx)⟩, fun h => ⟨h.1, fun x hx => (typed_str (ht x hx)).2 (h.2 x hx)⟩⟩

theorem key_texts (ht : TypedL w) : Lang 14 w ↔ ∃ n, texts w = [n] ∧ KeyType n := by
  have key : ∀ (x : PTok), Typed x → ((13 ≤ x.typ ∧ x.typ ≤ 24) ↔ KeyType x.text) := by
    intro x hx
    have e : ∀ t s, 13 ≤ t → t ≤ 24 → fixedText t = some s → (x.typ = t ↔ x.text = s) := fun t s h h' hs => typed_is hx hs (by omega) (by omega)
    constructor
    · intro h
      have : x.typ = 13 ∨ x.typ = 14 ∨ x.typ = 15 ∨ x.typ = 16 ∨ x.typ = 17 ∨ x.typ = 18 ∨ x.typ = 19 ∨ x.typ = 20 ∨ x.typ = 21 ∨ x.typ = 22 ∨
          x.typ = 23 ∨ x.typ = 24 := by omega
      rcases this with h | h | h | h | h | h | h | h | h | h | h | h
      · exact ⟨"int32", by simp, (e 13 _ (by omega) (by omega) (by decide +kernel)).1 h⟩
      · exact ⟨"int64", by simp, (e 14 _ (by omega) (by omega) (by decide +kernel)).1 h⟩
      · exact ⟨"uint32", by simp, (e 15 _ (by omega) (by omega) (by decide +kernel)).1 h⟩
      · exact ⟨"uint64", by simp, (e 16 _ (by omega) (by omega) (by decide +kernel)).1 h⟩
      · exact ⟨"sint32", by simp, (e 17 _ (by omega) (by omega) (by decide +kernel)).1 h⟩
      · exact ⟨"sint64", by simp, (e 18 _ (by omega) (by omega) (by decide +kernel)).1 h⟩
      · exact ⟨"fixed32", by simp, (e 19 _ (by omega) (by omega) (by decide +kernel)).1 h⟩
      · exact ⟨"fixed64", by simp, (e 20 _ (by omega) (by omega) (by decide +kernel)).1 h⟩
      · exact ⟨"sfixed32", by simp, (e 21 _ (by omega) (by omega) (by decide +kernel)).1 h⟩
      · exact ⟨"sfixed64", by simp, (e 22 _ (by omega) (by omega) (by decide +kernel)).1 h⟩
      · exact ⟨"bool", by simp, (e 23 _ (by omega) (by omega) (by decide +kernel)).1 h⟩
      · exact ⟨"string", by simp, (e 24 _ (by omega) (by omega) (by decide +kernel)).1 h⟩
    · rintro ⟨k, hk, h⟩
      simp only [List.mem_cons, List.not_mem_nil, or_false] at hk
      rcases hk with rfl | rfl | rfl | rfl | rfl | rfl | rfl | rfl | rfl | rfl | rfl | rfl
      · have := (e 13 _ (by omega) (by omega) (by decide +kernel)).2 h; omega
      · have := (e 14 _ (by omega) (by omega) (by decide +kernel)).2 h; omega
      · have := (e 15 _ (by omega) (by omega) (by decide +kernel)).2 h; omega
      · have := (e 16 _ (by omega) (by omega) (by decide +kernel)).2 h; omega
      · have := (e 17 _ (by omega) (by omega) (by decide +kernel)).2 h; omega
      · have := (e 18 _ (by omega) (by omega) (by decide +kernel)).2 h; omega
      · have := (e 19 _ (by omega) (by omega) (by decide +kernel)).2 h; omega
      · have := (e 20 _ (by omega) (by omega) (by decide +kernel)).2 h; omega
      · have := (e 21 _ (by omega) (by omega) (by decide +kernel)).2 h; omega
      · have := (e 22 _ (by omega) (by omega) (by decide +kernel)).2 h; omega
      · have := (e 23 _ (by omega) (by omega) (by decide +kernel)).2 h; omega
      · have := (e 24 _ (by omega) (by omega) (by decide +kernel)).2 h; omega
  rw [rule_key]
  constructor
  · rintro ⟨x, rfl, h⟩
    exact ⟨x.text, rfl, (key x (ht x (by simp))).1 h⟩
  · rintro ⟨n, h, hn⟩
    match w, h with
    | [x], h =>
      simp only [texts_cons, texts_nil, List.cons.injEq, and_true] at h
      exact ⟨x, rfl, (key x (ht x (by simp))).2 (h ▸ hn)⟩

/-! ## Paths and types -/

/-- A token that is a dot. -/
theorem dot_is {x : PTok} (h : Typed x) : x.typ = 49 ↔ x.text = ".".toList := typed_is h (by decide +kernel) (by omega) (by omega)

theorem path_texts (ht : TypedL w) : Lang 39 w ↔ PathToks (texts w) := by
  unfold Lang Rule ruleCode codeFullIdent
  take_apart
  constructor
  · rintro ⟨_, us, u, ts', v, rfl, rfl, h, hm⟩
    rw [typedL_append] at ht
    obtain ⟨n, hn, hn'⟩ := (name_texts (r := 38) (by simp) ht.1).1 ⟨_, h⟩
    have : ∀ n, NameTok n → TypedL v → PathToks (n :: texts v) := by
      refine many_texts (Q := fun v => ∀ n, NameTok n → TypedL v → PathToks (n :: texts v)) (fun n hn _ => .one n hn) ?_ hm
      intro t u v h ih n hn ht
      take_apart at h
      obtain ⟨x, us, v', rfl, rfl, hx, us', u', ts'', v'', rfl, rfl, h, rfl, rfl⟩ := h
      simp only [List.append_nil, typedL_append, typedL_cons] at ht
      obtain ⟨m, hm, hm'⟩ := (name_texts (r := 38) (by simp) ht.1.2).1 ⟨_, h⟩
      simp only [List.append_nil, texts_append, texts_cons, hm, (dot_is ht.1.1).1 hx, List.cons_append, List.nil_append]
      exact .dot _ _ hn (ih m hm' ht.2)
    rw [texts_append, hn]
    exact this n hn' ht.2
  · intro h
    generalize e : texts w = p at h
    induction h generalizing w with
    | one n hn =>
      match w, e with
      | [x], e =>
        obtain ⟨us, h⟩ := (name_texts (r := 38) (by simp) ht).2 ⟨n, e, hn⟩
        exact ⟨_, us, [x], [], [], rfl, rfl, h, .nil⟩
    | dot n p hn _ ih =>
      match w, e with
      | x :: y :: w, e =>
        simp only [texts_cons, List.cons.injEq] at e
        simp only [typedL_cons] at ht
        obtain ⟨us, h⟩ := (name_texts (w := [x]) (r := 38) (by simp) (by simp [ht.1])).2 ⟨n, by simp [e.1], hn⟩
        obtain ⟨_, us', u', ts', v', rfl, rfl, h', hm⟩ := ih ht.2.2 e.2.2
        refine ⟨_, us, [x], .leaf y :: .node 38 us' :: ts', y :: (u' ++ v'), rfl, rfl, h, ?_⟩
        refine Many.cons (ts := [.leaf y, .node 38 us']) (u := y :: u') ?_ hm
        take_apart
        exact ⟨y, _, _, rfl, rfl, (dot_is ht.2.1).2 e.2.1, us', u', [], [], rfl, by simp, h', rfl, rfl⟩

/-- The decisions that read `( ident '.' )*`. -/
def Dots (d : Nat) : Prop := ∃ s s', altsCode d = [.call s 38 ;; .tok 49 ;; .sync s' ;; .choose d, .done]

theorem dots45 : Dots 45 := ⟨_, _, rfl⟩
theorem dots47 : Dots 47 := ⟨_, _, rfl⟩

theorem dots_iff {d : Nat} (hd : Dots d) : Derives protoGram (.choose d) ts w ↔
    (∃ us u x ts' v, ts = .node 38 us :: .leaf x :: ts' ∧ w = u ++ x :: v ∧ Rule 38 us u ∧ x.typ = 49 ∧ Derives protoGram (.choose d) ts' v) ∨ (ts = [] ∧ w = []) := by
  obtain ⟨s, s', hd⟩ := hd
  rw [d_alt hd]
  simp only [List.mem_cons, List.not_mem_nil, or_false, exists_eq_or_imp, exists_eq_left]
  take_apart
  constructor
  · rintro (⟨us, u, ts', v, rfl, rfl, h, x, us', v', rfl, rfl, hx, h'⟩ | h)
    · exact .inl ⟨us, u, x, us', v', rfl, rfl, h, hx, h'⟩
    · exact .inr h
  · rintro (⟨us, u, x, us', v', rfl, rfl, h, hx, h'⟩ | h)
    · exact .inl ⟨us, u, _, _, rfl, rfl, h, x, us', v', rfl, rfl, hx, h'⟩
    · exact .inr h

theorem dots_sound {d : Nat} (hd : Dots d) : ∀ (n : Nat) {ts : List PTree} {w : List PTok}, w.length ≤ n → Derives protoGram (.choose d) ts w → TypedL w →
    ∀ p, PathToks p → PathToks (texts w ++ p) := by
  intro n
  induction n with
  | zero =>
    intro ts w hn _ _ p hp
    match w, hn with
    | [], _ => exact hp
  | succ n ih =>
    intro ts w hn h ht p hp
    rcases (dots_iff hd).1 h with ⟨us, u, x, ts', v, rfl, rfl, h1, hx, h2⟩ | ⟨rfl, rfl⟩
    · simp only [typedL_append, typedL_cons] at ht
      obtain ⟨m, hm, hm'⟩ := (name_texts (r := 38) (by simp) ht.1).1 ⟨_, h1⟩
      simp only [texts_append, texts_cons, hm, (dot_is ht.2.1).1 hx, List.cons_append, List.nil_append]
      simp only [List.length_append, List.length_cons] at hn
      exact .dot _ _ hm' (ih (by omega) h2 ht.2.2 p hp)
    · exact hp

theorem dots_complete {d : Nat} (hd : Dots d) {w : List PTok} (ht : TypedL w) {p : List Str} (h : PathToks p) (e : texts w = p) :
    ∃ us u x, w = u ++ [x] ∧ Derives protoGram (.choose d) us u ∧ NameTok x.text := by
  induction h generalizing w with
  | one n hn =>
    match w, e with
    | [x], e =>
      simp only [texts_cons, texts_nil, List.cons.injEq, and_true] at e
      exact ⟨[], [], x, rfl, (dots_iff hd).2 (.inr ⟨rfl, rfl⟩), e ▸ hn⟩
  | dot n p hn _ ih =>
    match w, e with
    | x :: y :: w, e =>
      simp only [texts_cons, List.cons.injEq] at e
      simp only [typedL_cons] at ht
      obtain ⟨us, u, z, rfl, h, hz⟩ := ih ht.2.2 e.2.2
      obtain ⟨us', h'⟩ := (name_texts (w := [x]) (r := 38) (by simp) (by simp [ht.1])).2 ⟨n, by simp [e.1], hn⟩
      exact ⟨_, x :: y :: u, z, rfl, (dots_iff hd).2 (.inl ⟨us', [x], y, us, u, rfl, rfl, h', (dot_is ht.2.1).2 e.2.1, h⟩), hz⟩

theorem texts_eq_cons {s : Str} {l : List Str} (h : texts w = s :: l) : ∃ x v, w = x :: v ∧ x.text = s ∧ texts v = l := by
  cases w with
  | nil => cases h
  | cons x v =>
    simp only [texts_cons, List.cons.injEq] at h
    exact ⟨x, v, rfl, h.1, h.2⟩

theorem texts_eq_append {a b : List Str} (h : texts w = a ++ b) : ∃ u v, w = u ++ v ∧ texts u = a ∧ texts v = b := by
  obtain ⟨u, v, e, h1, h2⟩ := List.map_eq_append_iff.1 h
  exact ⟨u, v, e, h1, h2⟩

theorem texts_eq_nil (h : texts w = []) : w = [] := List.map_eq_nil_iff.1 h

/-- `messageType` and `enumType`. -/
theorem dotted_type {d s r : Nat} (hd : Dots d) (hr : r ∈ [38, 40, 41, 42, 43, 44, 45]) (ht : TypedL w) :
    (∃ ts, Derives protoGram (.choose d ;; .call s r) ts w) ↔ PathToks (texts w) := by
  take_apart
  constructor
  · rintro ⟨_, us, u, ts', v, rfl, rfl, h, us', h', rfl⟩
    simp only [typedL_append] at ht
    obtain ⟨m, hm, hm'⟩ := (name_texts hr ht.2).1 ⟨_, h'⟩
    rw [texts_append, hm]
    exact dots_sound hd _ (Nat.le_refl _) h ht.1 _ (.one m hm')
  · intro h
    obtain ⟨us, u, x, rfl, h, hx⟩ := dots_complete hd ht h rfl
    simp only [typedL_append, typedL_cons] at ht
    obtain ⟨us', h'⟩ := (name_texts (w := [x]) hr (by simp [ht.2.1])).2 ⟨x.text, rfl, hx⟩
    exact ⟨_, us, u, [.node r us'], [x], rfl, rfl, h, us', h', rfl⟩

theorem path_nodot {l : List Str} : ¬ PathToks (".".toList :: l) := by
  intro h
  have : NameTok ".".toList := by cases h with | one _ h => exact h | dot _ _ h _ => exact h
  exact absurd ((isNameTok_iff _).2 this) (by decide)

theorem typeToks_iff {l : List Str} : TypeToks l ↔ PathToks l ∨ ∃ p, l = ".".toList :: p ∧ PathToks p :=
  ⟨fun h => by
    cases h with
    | plain _ h => exact .inl h
    | rooted p h => exact .inr ⟨p, rfl, h⟩,
   fun h => by
    rcases h with h | ⟨p, rfl, h⟩
    · exact .plain _ h
    · exact .rooted _ h⟩

theorem rooted_type {d s r a b : Nat} (hd : Dots d) (hr : r ∈ [38, 40, 41, 42, 43, 44, 45]) (ht : TypedL w) :
    (∃ ts, Derives protoGram (.sync a ;; .ifLa [49] (.tok 49) .done ;; .sync b ;; .choose d ;; .call s r) ts w) ↔ TypeToks (texts w) := by
  have key := fun (v : List PTok) (hv : TypedL v) => dotted_type (s := s) hd hr hv
  generalize (Code.choose d ;; Code.call s r) = c at key ⊢
  simp only [s_sync, s_if, s_tok, s_done]
  constructor
  · rintro ⟨_, ⟨x, us, v, rfl, rfl, hx, h⟩ | h⟩
    · simp only [typedL_cons] at ht
      rw [texts_cons, (dot_is ht.1).1 hx]
      exact .rooted _ ((key v ht.2).1 ⟨_, h⟩)
    · exact .plain _ ((key w ht).1 ⟨_, h⟩)
  · intro h
    rcases typeToks_iff.1 h with h | ⟨p, e, h⟩
    · obtain ⟨ts, h⟩ := (key w ht).2 h
      exact ⟨ts, .inr h⟩
    · obtain ⟨x, v, rfl, hx, rfl⟩ := texts_eq_cons e
      simp only [typedL_cons] at ht
      obtain ⟨ts, h⟩ := (key v ht.2).2 h
      exact ⟨_, .inl ⟨x, ts, v, rfl, rfl, (dot_is ht.1).2 hx, h⟩⟩

theorem messageType_texts (ht : TypedL w) : Lang 46 w ↔ TypeToks (texts w) := rooted_type dots45 (by simp) ht
theorem enumType_texts (ht : TypedL w) : Lang 47 w ↔ TypeToks (texts w) := rooted_type dots47 (by simp) ht

theorem fieldType_texts (ht : TypedL w) : Lang 15 w ↔ TypeToks (texts w) := by
  constructor
  · rintro ⟨ts, h⟩
    unfold Rule ruleCode codeFieldType at h
    simp only [s_sync] at h
    rw [d_alt (d := 13) (l := alts13) rfl] at h
    obtain ⟨a, ha, h⟩ := h
    have tok : ∀ t, t ∈ nameTypes → Derives protoGram (.tok t) ts w → TypeToks (texts w) := by
      intro t hn h
      obtain ⟨x, rfl, rfl, rfl⟩ := d_tok.1 h
      exact .plain _ (.one _ ((typed_name (ht x (by simp))).1 hn))
    simp only [alts13, List.mem_cons, List.not_mem_nil, or_false] at ha
    rcases ha with rfl | rfl | rfl | rfl | rfl | rfl | rfl | rfl | rfl | rfl | rfl | rfl | rfl | rfl | rfl | rfl | rfl
    all_goals first | exact tok _ (by decide) h | skip
    · obtain ⟨us, g, _⟩ := d_rule.1 h
      exact (messageType_texts ht).1 ⟨_, g⟩
    · obtain ⟨us, g, _⟩ := d_rule.1 h
      exact (enumType_texts ht).1 ⟨_, g⟩
  · intro h
    obtain ⟨us, h⟩ := (messageType_texts ht).2 h
    refine ⟨[.node 46 us], ?_⟩
    unfold Rule ruleCode codeFieldType
    simp only [s_sync]
    rw [d_alt (d := 13) (l := alts13) rfl]
    exact ⟨.call 243 46, by simp [alts13], d_rule.2 ⟨us, h, rfl⟩⟩

/-! ## Names of options and constants -/

theorem open_is {x : PTok} (h : Typed x) : x.typ = 41 ↔ x.text = "(".toList := typed_is h (by decide +kernel) (by omega) (by omega)
theorem close_is {x : PTok} (h : Typed x) : x.typ = 42 ↔ x.text = ")".toList := typed_is h (by decide +kernel) (by omega) (by omega)

theorem optionName_texts (ht : TypedL w) : Lang 5 w ↔ OptNameToks (texts w) := by
  unfold Lang Rule ruleCode codeOptionName
  take_apart
  constructor
  · rintro ⟨_, ⟨us, h, rfl⟩ | ⟨x, us, v, rfl, rfl, hx, us', u', ts', v', rfl, rfl, h, y, us'', v'', rfl, rfl, hy, h'⟩⟩
    · exact .plain _ ((path_texts ht).1 ⟨_, h⟩)
    · simp only [typedL_cons, typedL_append] at ht
      have hp := (path_texts ht.2.1).1 ⟨_, h⟩
      rcases h' with ⟨z, us3, v3, rfl, rfl, hz, us4, h', rfl⟩ | ⟨rfl, rfl⟩
      · simp only [typedL_cons] at ht
        have hq := (path_texts ht.2.2.2.2).1 ⟨_, h'⟩
        simp only [texts_cons, texts_append, (open_is ht.1).1 hx, (close_is ht.2.2.1).1 hy, (dot_is ht.2.2.2.1).1 hz]
        exact .extDot _ _ hp hq
      · simp only [texts_cons, texts_append, (open_is ht.1).1 hx, (close_is ht.2.2.1).1 hy, texts_nil]
        exact .ext _ hp
  · intro h
    generalize e : texts w = l at h
    cases h with
    | plain _ h =>
      subst e
      obtain ⟨us, h⟩ := (path_texts ht).2 h
      exact ⟨_, .inl ⟨us, h, rfl⟩⟩
    | ext p h =>
      obtain ⟨x, v, rfl, hx, e⟩ := texts_eq_cons e
      obtain ⟨u, v, rfl, rfl, e₂⟩ := texts_eq_append e
      obtain ⟨y, v, rfl, hy, e₃⟩ := texts_eq_cons e₂
      obtain rfl := texts_eq_nil e₃
      simp only [typedL_cons, typedL_append] at ht
      obtain ⟨us, h⟩ := (path_texts ht.2.1).2 h
      exact ⟨_, .inr ⟨x, _, _, rfl, rfl, (open_is ht.1).2 hx, us, u, _, _, rfl, rfl, h, y, [], [], rfl, rfl, (close_is ht.2.2.1).2 hy, .inr ⟨rfl, rfl⟩⟩⟩
    | extDot p q h h' =>
      obtain ⟨x, v, rfl, hx, e⟩ := texts_eq_cons e
      obtain ⟨u, v, rfl, rfl, e₂⟩ := texts_eq_append e
      obtain ⟨y, v, rfl, hy, e₃⟩ := texts_eq_cons e₂
      obtain ⟨z, v, rfl, hz, rfl⟩ := texts_eq_cons e₃
      simp only [typedL_cons, typedL_append] at ht
      obtain ⟨us, h⟩ := (path_texts ht.2.1).2 h
      obtain ⟨us', h'⟩ := (path_texts ht.2.2.2.2).2 h'
      exact ⟨_, .inr ⟨x, _, _, rfl, rfl, (open_is ht.1).2 hx, us, u, _, _, rfl, rfl, h, y, _, _, rfl, rfl, (close_is ht.2.2.1).2 hy,
        .inl ⟨z, _, _, rfl, rfl, (dot_is ht.2.2.2.1).2 hz, us', h', rfl⟩⟩⟩

theorem fixed {x : PTok} (h : Typed x) (t : Nat) (s : Str) (hs : fixedText t = some s ∧ 0 < t ∧ t < 54) : x.typ = t ↔ x.text = s := typed_is h hs.1 hs.2.1 hs.2.2

/-- The alternatives of `constant`. -/
theorem rule_const : Lang 35 w ↔ Lang 39 w ∨ (∃ v, (Lang 48 v ∨ Lang 51 v) ∧ (w = v ∨ ∃ x, (x.typ = 52 ∨ x.typ = 53) ∧ w = x :: v)) ∨
    Lang 49 w ∨ Lang 50 w ∨ Lang 36 w := by
  have e : ∀ ts, Rule 35 ts w ↔ ∃ a ∈ alts39, Derives protoGram a ts w := by
    intro ts
    unfold Rule ruleCode codeConstant
    simp only [s_sync]
    exact d_alt rfl
  have sgn : ∀ a s r ts, Derives protoGram (.sync a ;; .ifLa [52, 53] (.set [52, 53]) .done ;; .call s r) ts w ↔
      ∃ us v, Rule r us v ∧ ((ts = [.node r us] ∧ w = v) ∨ ∃ x, (x.typ = 52 ∨ x.typ = 53) ∧ w = x :: v ∧ ts = [.leaf x, .node r us]) := by
    intro a s r ts
    take_apart
    simp only [List.mem_cons, List.not_mem_nil, or_false]
    constructor
    · rintro (⟨x, us, v, rfl, rfl, hx, us', h, rfl⟩ | ⟨us, h, rfl⟩)
      · exact ⟨us', v, h, .inr ⟨x, hx, rfl, rfl⟩⟩
      · exact ⟨us, w, h, .inl ⟨rfl, rfl⟩⟩
    · rintro ⟨us, v, h, ⟨rfl, rfl⟩ | ⟨x, hx, rfl, rfl⟩⟩
      · exact .inr ⟨us, h, rfl⟩
      · exact .inl ⟨x, _, v, rfl, rfl, hx, us, h, rfl⟩
  constructor
  · rintro ⟨ts, h⟩
    obtain ⟨a, ha, h⟩ := (e ts).1 h
    simp only [alts39, List.mem_cons, List.not_mem_nil, or_false] at ha
    rcases ha with rfl | rfl | rfl | rfl | rfl | rfl
    · obtain ⟨us, g, _⟩ := d_rule.1 h
      exact .inl ⟨_, g⟩
    · obtain ⟨us, v, g, g'⟩ := (sgn _ _ _ _).1 h
      exact .inr (.inl ⟨v, .inl ⟨_, g⟩, g'.imp (fun h => h.2) (fun ⟨x, h1, h2, _⟩ => ⟨x, h1, h2⟩)⟩)
    · obtain ⟨us, v, g, g'⟩ := (sgn _ _ _ _).1 h
      exact .inr (.inl ⟨v, .inr ⟨_, g⟩, g'.imp (fun h => h.2) (fun ⟨x, h1, h2, _⟩ => ⟨x, h1, h2⟩)⟩)
    · obtain ⟨us, g, _⟩ := d_rule.1 h
      exact .inr (.inr (.inl ⟨_, g⟩))
    · obtain ⟨us, g, _⟩ := d_rule.1 h
      exact .inr (.inr (.inr (.inl ⟨_, g⟩)))
    · obtain ⟨us, g, _⟩ := d_rule.1 h
      exact .inr (.inr (.inr (.inr ⟨_, g⟩)))
  · rintro (⟨us, h⟩ | ⟨v, h, hv⟩ | ⟨us, h⟩ | ⟨us, h⟩ | ⟨us, h⟩)
    · exact ⟨_, (e _).2 ⟨.call 419 39, by simp [alts39], d_rule.2 ⟨us, h, rfl⟩⟩⟩
    · rcases h with ⟨us, h⟩ | ⟨us, h⟩
      · rcases hv with rfl | ⟨x, hx, rfl⟩
        · exact ⟨_, (e _).2 ⟨_, by simp [alts39]; exact ⟨rfl, rfl⟩, (sgn _ _ _ _).2 ⟨us, w, h, .inl ⟨rfl, rfl⟩⟩⟩⟩
        · exact ⟨_, (e _).2 ⟨_, by simp [alts39]; exact ⟨rfl, rfl⟩, (sgn _ _ _ _).2 ⟨us, v, h, .inr ⟨x, hx, rfl, rfl⟩⟩⟩⟩
      · rcases hv with rfl | ⟨x, hx, rfl⟩
        · exact ⟨_, (e _).2 ⟨_, by simp [alts39]; exact ⟨rfl, rfl⟩, (sgn _ _ _ _).2 ⟨us, w, h, .inl ⟨rfl, rfl⟩⟩⟩⟩
        · exact ⟨_, (e _).2 ⟨_, by simp [alts39]; exact ⟨rfl, rfl⟩, (sgn _ _ _ _).2 ⟨us, v, h, .inr ⟨x, hx, rfl, rfl⟩⟩⟩⟩
    · exact ⟨_, (e _).2 ⟨.call 428 49, by simp [alts39], d_rule.2 ⟨us, h, rfl⟩⟩⟩
    · exact ⟨_, (e _).2 ⟨.call 429 50, by simp [alts39], d_rule.2 ⟨us, h, rfl⟩⟩⟩
    · exact ⟨_, (e _).2 ⟨.call 430 36, by simp [alts39], d_rule.2 ⟨us, h, rfl⟩⟩⟩

/-- One entry of `blockLit`. -/
def entryCode : Code := .call 434 38 ;; .tok 51 ;; .call 436 35 ;; .sync 438 ;; .ifLa [39, 50] (.set [39, 50]) .done ;; .sync 444

theorem rule_block : Lang 36 w ↔ ∃ x us u y, x.typ = 45 ∧ y.typ = 46 ∧ Many (Derives protoGram entryCode) us u ∧ w = x :: (u ++ [y]) := by
  unfold Lang Rule ruleCode codeBlockLit
  simp only [s_tok, s_sync, s_while, d_tok]
  constructor
  · rintro ⟨_, x, _, _, rfl, rfl, hx, us, u, _, _, rfl, rfl, h, y, hy, rfl, rfl⟩
    exact ⟨x, us, u, y, hx, hy, h, rfl⟩
  · rintro ⟨x, us, u, y, hx, hy, h, rfl⟩
    exact ⟨_, x, _, _, rfl, rfl, hx, us, u, _, _, rfl, rfl, h, y, hy, rfl, rfl⟩

theorem entry_iff : (∃ ts, Derives protoGram entryCode ts w) ↔
    ∃ n x c sep, Lang 38 n ∧ x.typ = 51 ∧ Lang 35 c ∧ (sep = [] ∨ ∃ y, (y.typ = 39 ∨ y.typ = 50) ∧ sep = [y]) ∧ w = n ++ x :: (c ++ sep) := by
  unfold entryCode
  take_apart
  simp only [List.mem_cons, List.not_mem_nil, or_false]
  constructor
  · rintro ⟨_, us, n, _, _, rfl, rfl, h, x, _, _, rfl, rfl, hx, us', c, _, _, rfl, rfl, h', ⟨y, _, _, rfl, rfl, hy, rfl, rfl⟩ | ⟨rfl, rfl⟩⟩
    · exact ⟨n, x, c, [y], ⟨_, h⟩, hx, ⟨_, h'⟩, .inr ⟨y, hy, rfl⟩, rfl⟩
    · exact ⟨n, x, c, [], ⟨_, h⟩, hx, ⟨_, h'⟩, .inl rfl, rfl⟩
  · rintro ⟨n, x, c, sep, ⟨us, h⟩, hx, ⟨us', h'⟩, rfl | ⟨y, hy, rfl⟩, rfl⟩
    · exact ⟨_, us, n, _, _, rfl, rfl, h, x, _, _, rfl, rfl, hx, us', c, _, _, rfl, rfl, h', .inr ⟨rfl, rfl⟩⟩
    · exact ⟨_, us, n, _, _, rfl, rfl, h, x, _, _, rfl, rfl, hx, us', c, _, _, rfl, rfl, h', .inl ⟨y, [], [], rfl, rfl, hy, rfl, rfl⟩⟩

theorem const_sound : ∀ (n : Nat) {w : List PTok}, w.length ≤ n → TypedL w → Lang 35 w → ConstToks (texts w) := by
  intro n
  induction n with
  | zero =>
    intro w hn ht h
    match w, hn with
    | [], _ =>
      rcases rule_const.1 h with h | ⟨v, h, h'⟩ | h | h | h
      · have := (path_texts ht).1 h; cases this
      · rcases h' with rfl | ⟨x, _, h'⟩
        · rcases h with h | h
          · obtain ⟨x, h, _⟩ := rule_int.1 h; cases h
          · obtain ⟨x, h, _⟩ := rule_float.1 h; cases h
        · cases h'
      · exact absurd rfl (rule_str.1 h).1
      · obtain ⟨x, h, _⟩ := rule_bool.1 h; cases h
      · obtain ⟨x, us, u, y, _, _, _, h⟩ := rule_block.1 h; cases h
  | succ n ih =>
    intro w hn ht h
    rcases rule_const.1 h with h | ⟨v, h, h'⟩ | h | h | h
    · exact .path _ ((path_texts ht).1 h)
    · have num : TypedL v → ∃ s, texts v = [s] ∧ (IntTok s ∨ FloatTok s) := by
        intro hv
        rcases h with h | h
        · obtain ⟨x, rfl, hx⟩ := rule_int.1 h
          exact ⟨x.text, rfl, .inl ((typed_int (hv x (by simp))).1 hx)⟩
        · obtain ⟨x, rfl, hx⟩ := rule_float.1 h
          exact ⟨x.text, rfl, .inr ((typed_float (hv x (by simp))).1 hx)⟩
      rcases h' with rfl | ⟨x, hx, rfl⟩
      · obtain ⟨s, e, hs⟩ := num ht
        rw [e]
        exact .num s hs
      · simp only [typedL_cons] at ht
        obtain ⟨s, e, hs⟩ := num ht.2
        rw [texts_cons, e]
        refine .signed _ s ?_ hs
        rcases hx with hx | hx
        · exact .inr ((fixed ht.1 52 _ (by decide +kernel)).1 hx)
        · exact .inl ((fixed ht.1 53 _ (by decide +kernel)).1 hx)
    · exact .str _ ((str_texts ht).1 h)
    · obtain ⟨x, rfl, hx⟩ := rule_bool.1 h
      exact .path _ (.one _ ((typed_name (ht x (by simp))).1 (by rw [hx]; decide)))
    · obtain ⟨x, us, u, y, hx, hy, hm, rfl⟩ := rule_block.1 h
      simp only [typedL_cons, typedL_append] at ht
      simp only [List.length_cons, List.length_append] at hn
      have : u.length ≤ n → TypedL u → EntriesToks (texts u) := by
        refine many_texts (Q := fun u => u.length ≤ n → TypedL u → EntriesToks (texts u)) (fun _ _ => .nil) ?_ hm
        intro t u v h ihv hn ht
        obtain ⟨m, z, c, sep, h1, hz, h2, hs, rfl⟩ := entry_iff.1 ⟨_, h⟩
        simp only [typedL_cons, typedL_append] at ht
        simp only [List.length_cons, List.length_append] at hn
        obtain ⟨s, e, hs'⟩ := (name_texts (r := 38) (by simp) ht.1.1).1 h1
        simp only [texts_append, texts_cons, e, List.cons_append, List.nil_append, List.append_assoc, (fixed ht.1.2.1 51 ":".toList (by decide +kernel)).1 hz]
        refine .cons s _ _ _ hs' (ih (by omega) ht.1.2.2.1 h2) ?_ (ihv (by omega) ht.2)
        rcases hs with rfl | ⟨k, hk | hk, rfl⟩
        · exact .inl rfl
        · exact .inr (.inl (by simp [(fixed (ht.1.2.2.2 k (by simp)) 39 ";".toList (by decide +kernel)).1 hk]))
        · exact .inr (.inr (by simp [(fixed (ht.1.2.2.2 k (by simp)) 50 ",".toList (by decide +kernel)).1 hk]))
      simp only [texts_cons, texts_append, texts_nil, (fixed ht.1 45 "{".toList (by decide +kernel)).1 hx, (fixed ht.2.2.1 46 "}".toList (by decide +kernel)).1 hy]
      exact .block _ (this (by omega) ht.2.1)

theorem const_complete : ∀ (n : Nat) {w : List PTok}, w.length ≤ n → TypedL w → ConstToks (texts w) → Lang 35 w := by
  intro n
  induction n with
  | zero =>
    intro w hn ht h
    match w, hn with
    | [], _ =>
      exfalso
      generalize e : texts ([] : List PTok) = l at h
      cases h with
      | path _ h => subst e; cases h
      | num | signed | block => cases e
      | str _ h => exact h.1 e.symm
  | succ n ih =>
    intro w hn ht h
    rw [rule_const]
    generalize e : texts w = l at h
    cases h with
    | path _ h => subst e; exact .inl ((path_texts ht).2 h)
    | num s h =>
      obtain ⟨x, v, rfl, rfl, e₁⟩ := texts_eq_cons e
      obtain rfl := texts_eq_nil e₁
      refine .inr (.inl ⟨[x], ?_, .inl rfl⟩)
      rcases h with h | h
      · exact .inl (rule_int.2 ⟨x, rfl, (typed_int (ht x (by simp))).2 h⟩)
      · exact .inr (rule_float.2 ⟨x, rfl, (typed_float (ht x (by simp))).2 h⟩)
    | signed sign s hs h =>
      obtain ⟨y, v, rfl, rfl, e₁⟩ := texts_eq_cons e
      obtain ⟨x, v, rfl, rfl, e'⟩ := texts_eq_cons e₁
      obtain rfl := texts_eq_nil e'
      simp only [typedL_cons] at ht
      refine .inr (.inl ⟨[x], ?_, .inr ⟨y, ?_, rfl⟩⟩)
      · rcases h with h | h
        · exact .inl (rule_int.2 ⟨x, rfl, (typed_int ht.2.1).2 h⟩)
        · exact .inr (rule_float.2 ⟨x, rfl, (typed_float ht.2.1).2 h⟩)
      · rcases hs with hs | hs
        · exact .inr ((fixed ht.1 53 _ (by decide +kernel)).2 hs)
        · exact .inl ((fixed ht.1 52 _ (by decide +kernel)).2 hs)
    | str _ h => subst e; exact .inr (.inr (.inl ((str_texts ht).2 h)))
    | block es h =>
      obtain ⟨x, v, rfl, hx, e⟩ := texts_eq_cons e
      obtain ⟨u, v, rfl, eu, e'⟩ := texts_eq_append e
      obtain ⟨y, v, rfl, hy, e₃⟩ := texts_eq_cons e'
      obtain rfl := texts_eq_nil e₃
      simp only [typedL_cons, typedL_append] at ht
      simp only [List.length_cons, List.length_append] at hn
      have key : ∀ (m : Nat) (u : List PTok), u.length ≤ m → u.length ≤ n → TypedL u → EntriesToks (texts u) → ∃ us, Many (Derives protoGram entryCode) us u := by
        intro m
        induction m with
        | zero =>
          intro u hu _ _ _
          match u, hu with
          | [], _ => exact ⟨[], .nil⟩
        | succ m ihm =>
          intro u hu hn ht h
          generalize e : texts u = es at h
          cases h with
          | nil => obtain rfl := texts_eq_nil e; exact ⟨[], .nil⟩
          | cons nm c sep es hnm hc hsep hes =>
            obtain ⟨x, v, rfl, rfl, e₁⟩ := texts_eq_cons e
            obtain ⟨z, v, rfl, hz, e₂⟩ := texts_eq_cons e₁
            obtain ⟨c', v, rfl, rfl, e₃⟩ := texts_eq_append e₂
            obtain ⟨sep', v, rfl, rfl, rfl⟩ := texts_eq_append e₃
            simp only [typedL_cons, typedL_append] at ht
            simp only [List.length_cons, List.length_append] at hn hu
            obtain ⟨us, h1⟩ := ihm v (by omega) (by omega) ht.2.2.2.2 hes
            obtain ⟨ts, h2⟩ := entry_iff.2 ⟨[x], z, c', sep', (name_texts (w := [x]) (by simp) (by simp [ht.1])).2 ⟨x.text, rfl, hnm⟩,
              (fixed ht.2.1 51 _ (by decide +kernel)).2 hz, ih (by omega) ht.2.2.1 hc, (by
                rcases hsep with h | h | h
                · exact .inl (texts_eq_nil h)
                · obtain ⟨k, v', rfl, hk, e⟩ := texts_eq_cons h
                  obtain rfl := texts_eq_nil e
                  exact .inr ⟨k, .inl ((fixed (ht.2.2.2.1 k (by simp)) 39 _ (by decide +kernel)).2 hk), rfl⟩
                · obtain ⟨k, v', rfl, hk, e⟩ := texts_eq_cons h
                  obtain rfl := texts_eq_nil e
                  exact .inr ⟨k, .inr ((fixed (ht.2.2.2.1 k (by simp)) 50 _ (by decide +kernel)).2 hk), rfl⟩), rfl⟩
            have := Many.cons h2 h1
            simp only [List.cons_append, List.nil_append, List.append_assoc] at this
            exact ⟨_, this⟩
      obtain ⟨us, h⟩ := key _ u (Nat.le_refl _) (by omega) ht.2.1 (eu ▸ h)
      exact .inr (.inr (.inr (.inr (rule_block.2 ⟨x, us, u, y, (fixed ht.1 45 _ (by decide +kernel)).2 hx, (fixed ht.2.2.1 46 _ (by decide +kernel)).2 hy, h, rfl⟩))))

theorem const_texts (ht : TypedL w) : Lang 35 w ↔ ConstToks (texts w) := ⟨const_sound _ (Nat.le_refl _) ht, const_complete _ (Nat.le_refl _) ht⟩

end Verif.Lemmas.Gen.Antlr
