import Verif.Lemmas.Gen.Antlr.Lang
/-!
# The trees of the parser are trees of the grammar
-/
namespace Verif.Lemmas.Gen.Antlr
open Verif.Model.Gen Verif.Model.Gen.Antlr Verif.Spec.Gen

variable {ts : List PTree} {w : List PTok}

theorem is1 {x : PTok} (h : Typed x) : x.typ = 1 ↔ x.text = "syntax".toList := fixed h _ _ (by decide +kernel)
theorem is2 {x : PTok} (h : Typed x) : x.typ = 2 ↔ x.text = "edition".toList := fixed h _ _ (by decide +kernel)
theorem is3 {x : PTok} (h : Typed x) : x.typ = 3 ↔ x.text = "import".toList := fixed h _ _ (by decide +kernel)
theorem is4 {x : PTok} (h : Typed x) : x.typ = 4 ↔ x.text = "weak".toList := fixed h _ _ (by decide +kernel)
theorem is5 {x : PTok} (h : Typed x) : x.typ = 5 ↔ x.text = "public".toList := fixed h _ _ (by decide +kernel)
theorem is6 {x : PTok} (h : Typed x) : x.typ = 6 ↔ x.text = "package".toList := fixed h _ _ (by decide +kernel)
theorem is7 {x : PTok} (h : Typed x) : x.typ = 7 ↔ x.text = "option".toList := fixed h _ _ (by decide +kernel)
theorem is8 {x : PTok} (h : Typed x) : x.typ = 8 ↔ x.text = "optional".toList := fixed h _ _ (by decide +kernel)
theorem is9 {x : PTok} (h : Typed x) : x.typ = 9 ↔ x.text = "required".toList := fixed h _ _ (by decide +kernel)
theorem is10 {x : PTok} (h : Typed x) : x.typ = 10 ↔ x.text = "repeated".toList := fixed h _ _ (by decide +kernel)
theorem is11 {x : PTok} (h : Typed x) : x.typ = 11 ↔ x.text = "oneof".toList := fixed h _ _ (by decide +kernel)
theorem is12 {x : PTok} (h : Typed x) : x.typ = 12 ↔ x.text = "map".toList := fixed h _ _ (by decide +kernel)
theorem is28 {x : PTok} (h : Typed x) : x.typ = 28 ↔ x.text = "reserved".toList := fixed h _ _ (by decide +kernel)
theorem is29 {x : PTok} (h : Typed x) : x.typ = 29 ↔ x.text = "extensions".toList := fixed h _ _ (by decide +kernel)
theorem is30 {x : PTok} (h : Typed x) : x.typ = 30 ↔ x.text = "to".toList := fixed h _ _ (by decide +kernel)
theorem is31 {x : PTok} (h : Typed x) : x.typ = 31 ↔ x.text = "max".toList := fixed h _ _ (by decide +kernel)
theorem is32 {x : PTok} (h : Typed x) : x.typ = 32 ↔ x.text = "enum".toList := fixed h _ _ (by decide +kernel)
theorem is33 {x : PTok} (h : Typed x) : x.typ = 33 ↔ x.text = "message".toList := fixed h _ _ (by decide +kernel)
theorem is34 {x : PTok} (h : Typed x) : x.typ = 34 ↔ x.text = "service".toList := fixed h _ _ (by decide +kernel)
theorem is35 {x : PTok} (h : Typed x) : x.typ = 35 ↔ x.text = "extend".toList := fixed h _ _ (by decide +kernel)
theorem is36 {x : PTok} (h : Typed x) : x.typ = 36 ↔ x.text = "rpc".toList := fixed h _ _ (by decide +kernel)
theorem is37 {x : PTok} (h : Typed x) : x.typ = 37 ↔ x.text = "stream".toList := fixed h _ _ (by decide +kernel)
theorem is38 {x : PTok} (h : Typed x) : x.typ = 38 ↔ x.text = "returns".toList := fixed h _ _ (by decide +kernel)
theorem is39 {x : PTok} (h : Typed x) : x.typ = 39 ↔ x.text = ";".toList := fixed h _ _ (by decide +kernel)
theorem is40 {x : PTok} (h : Typed x) : x.typ = 40 ↔ x.text = "=".toList := fixed h _ _ (by decide +kernel)
theorem is41 {x : PTok} (h : Typed x) : x.typ = 41 ↔ x.text = "(".toList := fixed h _ _ (by decide +kernel)
theorem is42 {x : PTok} (h : Typed x) : x.typ = 42 ↔ x.text = ")".toList := fixed h _ _ (by decide +kernel)
theorem is43 {x : PTok} (h : Typed x) : x.typ = 43 ↔ x.text = "[".toList := fixed h _ _ (by decide +kernel)
theorem is44 {x : PTok} (h : Typed x) : x.typ = 44 ↔ x.text = "]".toList := fixed h _ _ (by decide +kernel)
theorem is45 {x : PTok} (h : Typed x) : x.typ = 45 ↔ x.text = "{".toList := fixed h _ _ (by decide +kernel)
theorem is46 {x : PTok} (h : Typed x) : x.typ = 46 ↔ x.text = "}".toList := fixed h _ _ (by decide +kernel)
theorem is47 {x : PTok} (h : Typed x) : x.typ = 47 ↔ x.text = "<".toList := fixed h _ _ (by decide +kernel)
theorem is48 {x : PTok} (h : Typed x) : x.typ = 48 ↔ x.text = ">".toList := fixed h _ _ (by decide +kernel)
theorem is49 {x : PTok} (h : Typed x) : x.typ = 49 ↔ x.text = ".".toList := fixed h _ _ (by decide +kernel)
theorem is50 {x : PTok} (h : Typed x) : x.typ = 50 ↔ x.text = ",".toList := fixed h _ _ (by decide +kernel)
theorem is51 {x : PTok} (h : Typed x) : x.typ = 51 ↔ x.text = ":".toList := fixed h _ _ (by decide +kernel)
theorem is52 {x : PTok} (h : Typed x) : x.typ = 52 ↔ x.text = "+".toList := fixed h _ _ (by decide +kernel)
theorem is53 {x : PTok} (h : Typed x) : x.typ = 53 ↔ x.text = "-".toList := fixed h _ _ (by decide +kernel)

/-! ## Accessors -/

@[simp] theorem kid_nil (r : Nat) : kid r [] = none := rfl
@[simp] theorem kid_leaf (r : Nat) (x : PTok) (l : List PTree) : kid r (.leaf x :: l) = kid r l := rfl
@[simp] theorem kid_node (r q : Nat) (ts : List PTree) (l : List PTree) : kid r (.node q ts :: l) = if q = r then some ts else kid r l := rfl
@[simp] theorem kids_nil (r : Nat) : kids r [] = [] := rfl
@[simp] theorem kids_leaf (r : Nat) (x : PTok) (l : List PTree) : kids r (.leaf x :: l) = kids r l := rfl
@[simp] theorem kids_node (r q : Nat) (ts : List PTree) (l : List PTree) : kids r (.node q ts :: l) = if q = r then ts :: kids r l else kids r l := rfl
@[simp] theorem hasTok_nil (t : Nat) : hasTok t [] = false := rfl
@[simp] theorem hasTok_leaf (t : Nat) (x : PTok) (l : List PTree) : hasTok t (.leaf x :: l) = if x.typ = t then true else hasTok t l := rfl
@[simp] theorem hasTok_node (t q : Nat) (ts : List PTree) (l : List PTree) : hasTok t (.node q ts :: l) = hasTok t l := rfl

theorem kids_append (r : Nat) : ∀ a b : List PTree, kids r (a ++ b) = kids r a ++ kids r b
  | [], _ => rfl
  | .leaf _ :: a, b => by simpa using kids_append r a b
  | .node q ts :: a, b => by
    simp only [List.cons_append, kids_node, kids_append r a b]
    split <;> simp

/-! ## Lists separated by commas -/

inductive Commas (q : Nat) : List PTree → List PTok → Prop
  | one {us : List PTree} {u : List PTok} : Rule q us u → Commas q [.node q us] u
  | more {us ts : List PTree} {x : PTok} {u v : List PTok} : Rule q us u → x.typ = 50 → Commas q ts v → Commas q (.node q us :: .leaf x :: ts) (u ++ x :: v)

theorem commas_iff {s s' a b q : Nat} : Derives protoGram (.call s q ;; .sync a ;; .whileLa [50] (.tok 50 ;; .call s' q ;; .sync b)) ts w ↔ Commas q ts w := by
  simp only [s_rule, s_sync, d_while]
  constructor
  · rintro ⟨us, u, ts, v, rfl, rfl, h, hm⟩
    generalize hP : Derives protoGram (.tok 50 ;; .call s' q ;; .sync b) = P at hm
    induction hm generalizing us u with
    | nil => simpa using Commas.one h
    | cons h1 _ ih =>
      subst hP
      take_apart at h1
      obtain ⟨x, _, _, rfl, rfl, hx, us', u', _, _, rfl, rfl, h', rfl, rfl⟩ := h1
      have := Commas.more h hx (ih us' u' h')
      simpa using this
  · intro h
    induction h with
    | one h => exact ⟨_, _, [], [], rfl, by simp, h, .nil⟩
    | more h hx _ ih =>
      obtain ⟨us', u', ts', v', rfl, rfl, h', hm⟩ := ih
      refine ⟨_, _, _, _, rfl, rfl, h, ?_⟩
      rename_i x _ _
      refine Many.cons (ts := [.leaf x, .node q us']) (u := x :: u') ?_ hm
      take_apart
      exact ⟨x, _, _, rfl, rfl, hx, us', u', [], [], rfl, by simp, h', rfl, rfl⟩

theorem commas_sound {q : Nat} {α : Type} {f : List PTree → α} {g : α → List Str} {P : α → Prop}
    (item : ∀ {us u}, Rule q us u → TypedL u → P (f us) ∧ texts u = g (f us)) (h : Commas q ts w) (ht : TypedL w) :
    (kids q ts).map f ≠ [] ∧ (∀ x ∈ (kids q ts).map f, P x) ∧ texts w = commaSep g ((kids q ts).map f) := by
  induction h with
  | one h =>
    obtain ⟨h1, h2⟩ := item h ht
    simpa [commaSep] using ⟨h1, h2⟩
  | more h hx h' ih =>
    simp only [typedL_append, typedL_cons] at ht
    obtain ⟨h1, h2⟩ := item h ht.1
    obtain ⟨i1, i2, i3⟩ := ih ht.2.2
    refine ⟨by simp, ?_, ?_⟩
    · simp only [kids_node, kids_leaf, if_pos, List.map_cons, List.mem_cons]
      rintro x (rfl | hx)
      · exact h1
      · exact i2 x hx
    · rename_i us ts x u v
      simp only [kids_node, kids_leaf, if_pos, List.map_cons, texts_append, texts_cons, h2, i3, (is50 ht.2.1).1 hx]
      cases hk : (kids q ts).map f with
      | nil => exact absurd hk i1
      | cons y ys => rfl

theorem commas_complete {q : Nat} {α : Type} {g : α → List Str} {P : α → Prop}
    (item : ∀ {x u}, P x → TypedL u → texts u = g x → Lang q u) : ∀ {l : List α} {w : List PTok}, l ≠ [] → (∀ x ∈ l, P x) → TypedL w → texts w = commaSep g l →
    ∃ ts, Commas q ts w
  | [], _, h, _, _, _ => absurd rfl h
  | [x], w, _, hP, ht, e => by
    obtain ⟨us, h⟩ := item (hP x (by simp)) ht e
    exact ⟨_, .one h⟩
  | x :: y :: l, w, _, hP, ht, e => by
    obtain ⟨u, v, rfl, e1, e2⟩ := texts_eq_append e
    obtain ⟨z, v, rfl, hz, e3⟩ := texts_eq_cons e2
    simp only [typedL_append, typedL_cons] at ht
    obtain ⟨us, h⟩ := item (hP x (by simp)) ht.1 e1
    obtain ⟨ts, h'⟩ := commas_complete item (l := y :: l) (by simp) (fun a ha => hP a (List.mem_cons_of_mem _ ha)) ht.2.2 e3
    exact ⟨_, .more h ((is50 ht.2.1).2 hz) h'⟩

/-! ## Options -/

theorem option_iff {s s' : Nat} : Derives protoGram (.call s 5 ;; .tok 40 ;; .call s' 35) ts w ↔
    ∃ us u x vs v, ts = [.node 5 us, .leaf x, .node 35 vs] ∧ w = u ++ x :: v ∧ Rule 5 us u ∧ x.typ = 40 ∧ Rule 35 vs v := by
  take_apart
  constructor
  · rintro ⟨us, u, _, _, rfl, rfl, h, x, _, v, rfl, rfl, hx, vs, h', rfl⟩
    exact ⟨us, u, x, vs, v, rfl, rfl, h, hx, h'⟩
  · rintro ⟨us, u, x, vs, v, rfl, rfl, h, hx, h'⟩
    exact ⟨us, u, _, _, rfl, rfl, h, x, _, v, rfl, rfl, hx, vs, h', rfl⟩

theorem option_sound {s s' : Nat} (h : Derives protoGram (.call s 5 ;; .tok 40 ;; .call s' 35) ts w) (ht : TypedL w) :
    WFOption (astOption ts) ∧ texts w = spellOption (astOption ts) := by
  obtain ⟨us, u, x, vs, v, rfl, rfl, h1, hx, h2⟩ := option_iff.1 h
  simp only [typedL_append, typedL_cons] at ht
  simp only [astOption, textsOf, kid_node, kid_leaf, if_pos, reduceIte, derives_leaves h1, derives_leaves h2, Nat.reduceEqDiff]
  exact ⟨⟨(optionName_texts ht.1).1 ⟨_, h1⟩, (const_texts ht.2.2).1 ⟨_, h2⟩⟩, by simp [spellOption, (is40 ht.2.1).1 hx]⟩

theorem option_complete {s s' : Nat} {o : RawOption} (h : WFOption o) (ht : TypedL w) (e : texts w = spellOption o) :
    ∃ ts, Derives protoGram (.call s 5 ;; .tok 40 ;; .call s' 35) ts w := by
  obtain ⟨u, v, rfl, e1, e2⟩ := texts_eq_append e
  obtain ⟨x, v, rfl, hx, e3⟩ := texts_eq_cons e2
  simp only [typedL_append, typedL_cons] at ht
  obtain ⟨us, h1⟩ := (optionName_texts ht.1).2 (e1 ▸ h.1)
  obtain ⟨vs, h2⟩ := (const_texts ht.2.2).2 (e3 ▸ h.2)
  exact ⟨_, option_iff.2 ⟨us, u, x, vs, v, rfl, rfl, h1, (is40 ht.2.1).2 hx, h2⟩⟩

theorem optionStmt_iff : Rule 4 ts w ↔ ∃ k us u x vs v e, ts = [.leaf k, .node 5 us, .leaf x, .node 35 vs, .leaf e] ∧ w = k :: (u ++ x :: (v ++ [e])) ∧
    k.typ = 7 ∧ Rule 5 us u ∧ x.typ = 40 ∧ Rule 35 vs v ∧ e.typ = 39 := by
  unfold Rule ruleCode codeOptionStatement
  take_apart
  constructor
  · rintro ⟨k, _, _, rfl, rfl, hk, us, u, _, _, rfl, rfl, h, x, _, _, rfl, rfl, hx, vs, v, _, _, rfl, rfl, h', e, he, rfl, rfl⟩
    exact ⟨k, us, u, x, vs, v, e, rfl, rfl, hk, h, hx, h', he⟩
  · rintro ⟨k, us, u, x, vs, v, e, rfl, rfl, hk, h, hx, h', he⟩
    exact ⟨k, _, _, rfl, rfl, hk, us, u, _, _, rfl, rfl, h, x, _, _, rfl, rfl, hx, vs, v, _, _, rfl, rfl, h', e, he, rfl, rfl⟩

theorem optionStmt_sound (h : Rule 4 ts w) (ht : TypedL w) : WFOption (astOption ts) ∧ texts w = spellOptionStmt (astOption ts) := by
  obtain ⟨k, us, u, x, vs, v, e, rfl, rfl, hk, h1, hx, h2, he⟩ := optionStmt_iff.1 h
  simp only [typedL_append, typedL_cons] at ht
  simp only [astOption, textsOf, kid_node, kid_leaf, if_pos, reduceIte, derives_leaves h1, derives_leaves h2, Nat.reduceEqDiff]
  exact ⟨⟨(optionName_texts ht.2.1).1 ⟨_, h1⟩, (const_texts ht.2.2.2.1).1 ⟨_, h2⟩⟩,
    by simp [spellOptionStmt, spellOption, (is40 ht.2.2.1).1 hx, (is7 ht.1).1 hk, (is39 ht.2.2.2.2.1).1 he]⟩

theorem optionStmt_complete {o : RawOption} (h : WFOption o) (ht : TypedL w) (e : texts w = spellOptionStmt o) : Lang 4 w := by
  obtain ⟨k, w, rfl, hk, e0⟩ := texts_eq_cons e
  simp only [spellOption, List.append_assoc, List.cons_append] at e0
  obtain ⟨u, v, rfl, e1, e2⟩ := texts_eq_append e0
  obtain ⟨x, v, rfl, hx, e3⟩ := texts_eq_cons e2
  obtain ⟨v, v', rfl, e4, e5⟩ := texts_eq_append e3
  obtain ⟨z, v', rfl, hz, e6⟩ := texts_eq_cons e5
  obtain rfl := texts_eq_nil e6
  simp only [typedL_append, typedL_cons] at ht
  obtain ⟨us, h1⟩ := (optionName_texts ht.2.1).2 (e1 ▸ h.1)
  obtain ⟨vs, h2⟩ := (const_texts ht.2.2.2.1).2 (e4 ▸ h.2)
  exact ⟨_, optionStmt_iff.2 ⟨k, us, u, x, vs, v, z, rfl, rfl, (is7 ht.1).2 hk, h1, (is40 ht.2.2.1).2 hx, h2, (is39 ht.2.2.2.2.1).2 hz⟩⟩

theorem fieldOptions_iff : Rule 8 ts w ↔ Commas 9 ts w := commas_iff

theorem fieldOptions_sound (h : Rule 8 ts w) (ht : TypedL w) :
    (kids 9 ts).map astOption ≠ [] ∧ (∀ o ∈ (kids 9 ts).map astOption, WFOption o) ∧ texts w = commaSep spellOption ((kids 9 ts).map astOption) :=
  commas_sound (fun h ht => option_sound h ht) (fieldOptions_iff.1 h) ht

theorem fieldOptions_complete {os : List RawOption} (hn : os ≠ []) (h : ∀ o ∈ os, WFOption o) (ht : TypedL w) (e : texts w = commaSep spellOption os) : Lang 8 w := by
  obtain ⟨ts, h⟩ := commas_complete (q := 9) (g := spellOption) (P := WFOption) (fun h ht e => option_complete h ht e) hn h ht e
  exact ⟨ts, fieldOptions_iff.2 h⟩

/-! ## The end of a field: options in brackets and a semicolon -/

/-- `[ … ];` or `;` -/
def EndOf (ts : List PTree) (w : List PTok) : Prop :=
  (∃ x us u y z, ts = [.leaf x, .node 8 us, .leaf y, .leaf z] ∧ w = x :: (u ++ [y, z]) ∧ x.typ = 43 ∧ Rule 8 us u ∧ y.typ = 44 ∧ z.typ = 39) ∨
    ∃ z, ts = [.leaf z] ∧ w = [z] ∧ z.typ = 39

theorem endOf_iff {s : Nat} : Derives protoGram (.ifLa [43] (.tok 43 ;; .call s 8 ;; .tok 44) .done ;; .tok 39) ts w ↔ EndOf ts w := by
  unfold EndOf
  take_apart
  constructor
  · rintro (⟨x, _, _, rfl, rfl, hx, us, u, _, _, rfl, rfl, h, y, _, _, rfl, rfl, hy, z, hz, rfl, rfl⟩ | ⟨z, hz, rfl, rfl⟩)
    · exact .inl ⟨x, us, u, y, z, rfl, rfl, hx, h, hy, hz⟩
    · exact .inr ⟨z, rfl, rfl, hz⟩
  · rintro (⟨x, us, u, y, z, rfl, rfl, hx, h, hy, hz⟩ | ⟨z, rfl, rfl, hz⟩)
    · exact .inl ⟨x, _, _, rfl, rfl, hx, us, u, _, _, rfl, rfl, h, y, _, _, rfl, rfl, hy, z, hz, rfl, rfl⟩
    · exact .inr ⟨z, hz, rfl, rfl⟩

theorem endOf_sound (h : EndOf ts w) (ht : TypedL w) :
    (∀ o ∈ astFieldOptions ts, WFOption o) ∧ texts w = spellBrackets (astFieldOptions ts) ++ [";".toList] ∧ ∀ r, r ≠ 8 → kid r ts = none := by
  rcases h with ⟨x, us, u, y, z, rfl, rfl, hx, h, hy, hz⟩ | ⟨z, rfl, rfl, hz⟩
  · simp only [typedL_append, typedL_cons] at ht
    obtain ⟨h1, h2, h3⟩ := fieldOptions_sound h ht.2.1
    simp only [astFieldOptions, kid_leaf, kid_node, if_pos, reduceIte]
    refine ⟨h2, ?_, ?_⟩
    · rw [spellBrackets, if_neg h1]
      simp [h3, (is43 ht.1).1 hx, (is44 ht.2.2.1).1 hy, (is39 ht.2.2.2.1).1 hz]
    · intro r hr
      rw [if_neg (Ne.symm hr)]
      rfl
  · simp only [typedL_cons] at ht
    simp [astFieldOptions, spellBrackets, (is39 ht.1).1 hz]

theorem endOf_complete {os : List RawOption} (h : ∀ o ∈ os, WFOption o) (ht : TypedL w) (e : texts w = spellBrackets os ++ [";".toList]) : ∃ ts, EndOf ts w := by
  unfold spellBrackets at e
  split at e
  · obtain ⟨z, v, rfl, hz, e1⟩ := texts_eq_cons e
    obtain rfl := texts_eq_nil e1
    exact ⟨_, .inr ⟨z, rfl, rfl, (is39 (ht z (by simp))).2 hz⟩⟩
  · rename_i hn
    simp only [List.cons_append, List.append_assoc, List.nil_append] at e
    obtain ⟨x, v, rfl, hx, e1⟩ := texts_eq_cons e
    obtain ⟨u, v, rfl, e2, e3⟩ := texts_eq_append e1
    obtain ⟨y, v, rfl, hy, e4⟩ := texts_eq_cons e3
    obtain ⟨z, v, rfl, hz, e5⟩ := texts_eq_cons e4
    obtain rfl := texts_eq_nil e5
    simp only [typedL_append, typedL_cons] at ht
    obtain ⟨us, h⟩ := fieldOptions_complete hn h ht.2.1 e2
    exact ⟨_, .inl ⟨x, us, u, y, z, rfl, rfl, (is43 ht.1).2 hx, h, (is44 ht.2.2.1).2 hy, (is39 ht.2.2.2.1).2 hz⟩⟩

/-! ## Fields -/

/-- A field from its type on. -/
def FieldRest (ts : List PTree) (w : List PTok) : Prop :=
  ∃ t1 u1 t2 u2 x t3 u3 te ue, ts = .node 15 t1 :: .node 42 t2 :: .leaf x :: .node 10 t3 :: te ∧ w = u1 ++ (u2 ++ x :: (u3 ++ ue)) ∧
    Rule 15 t1 u1 ∧ Rule 42 t2 u2 ∧ x.typ = 40 ∧ Rule 10 t3 u3 ∧ EndOf te ue

theorem fieldRest_iff {a b c d s : Nat} :
    Derives protoGram (.call a 15 ;; .call b 42 ;; .tok 40 ;; .call c 10 ;; .sync d ;; .ifLa [43] (.tok 43 ;; .call s 8 ;; .tok 44) .done ;; .tok 39) ts w ↔
      FieldRest ts w := by
  have key := fun (ts : List PTree) (w : List PTok) => endOf_iff (ts := ts) (w := w) (s := s)
  generalize (Code.ifLa [43] (.tok 43 ;; .call s 8 ;; .tok 44) .done ;; .tok 39) = e at key ⊢
  unfold FieldRest
  take_apart
  simp only [key]
  constructor
  · rintro ⟨t1, u1, _, _, rfl, rfl, h1, t2, u2, _, _, rfl, rfl, h2, x, _, _, rfl, rfl, hx, t3, u3, te, ue, rfl, rfl, h3, h4⟩
    exact ⟨t1, u1, t2, u2, x, t3, u3, te, ue, rfl, rfl, h1, h2, hx, h3, h4⟩
  · rintro ⟨t1, u1, t2, u2, x, t3, u3, te, ue, rfl, rfl, h1, h2, hx, h3, h4⟩
    exact ⟨t1, u1, _, _, rfl, rfl, h1, t2, u2, _, _, rfl, rfl, h2, x, _, _, rfl, rfl, hx, t3, u3, te, ue, rfl, rfl, h3, h4⟩

theorem flatten_one {s : Str} : [s].flatten = s := by simp

theorem number_texts (ht : TypedL w) : Lang 10 w ↔ ∃ n, texts w = [n] ∧ IntTok n := rule_number.trans (int_texts ht)

/-- What is read of a field from its type on. -/
theorem fieldRest_sound (h : FieldRest ts w) (ht : TypedL w) : WFFieldEnd (astField ts) ∧ astLabel ts = none ∧ astKey ts = none ∧
    texts w = (astField ts).typ ++ ((astField ts).name :: "=".toList :: (astField ts).number :: (spellBrackets (astField ts).options ++ [";".toList])) := by
  obtain ⟨t1, u1, t2, u2, x, t3, u3, te, ue, rfl, rfl, h1, h2, hx, h3, h4⟩ := h
  simp only [typedL_append, typedL_cons] at ht
  obtain ⟨i1, i2, i3⟩ := endOf_sound h4 ht.2.2.2.2
  obtain ⟨n, e1, hn⟩ := (name_texts (r := 42) (by simp) ht.2.1).1 ⟨_, h2⟩
  obtain ⟨m, e2, hm⟩ := (number_texts ht.2.2.2.1).1 ⟨_, h3⟩
  have e3 := (fieldType_texts ht.1).1 ⟨_, h1⟩
  have eo : astFieldOptions (.node 15 t1 :: .node 42 t2 :: .leaf x :: .node 10 t3 :: te) = astFieldOptions te := by simp [astFieldOptions]
  simp only [WFFieldEnd, astField, astLabel, astKey, eo, textOf, textsOf, kid_node, kid_leaf, Nat.reduceEqDiff, reduceIte, i3 6 (by omega), i3 14 (by omega),
    derives_leaves h1, derives_leaves h2, derives_leaves h3, e1, e2, flatten_one, texts_append, texts_cons, i2, (is40 ht.2.2.1).1 hx]
  exact ⟨⟨e3, hn, hm, i1⟩, trivial, trivial, rfl⟩

theorem fieldRest_complete {f : RawField} (h : WFFieldEnd f) (ht : TypedL w)
    (e : texts w = f.typ ++ (f.name :: "=".toList :: f.number :: (spellBrackets f.options ++ [";".toList]))) : ∃ ts, FieldRest ts w := by
  obtain ⟨u1, v, rfl, e1, e'⟩ := texts_eq_append e
  obtain ⟨x1, v, rfl, e2, e3⟩ := texts_eq_cons e'
  obtain ⟨x, v, rfl, hx, e4⟩ := texts_eq_cons e3
  obtain ⟨x2, v, rfl, e5, e6⟩ := texts_eq_cons e4
  simp only [typedL_append, typedL_cons] at ht
  obtain ⟨t1, h1⟩ := (fieldType_texts ht.1).2 (e1 ▸ h.1)
  obtain ⟨t2, h2⟩ := (name_texts (w := [x1]) (r := 42) (by simp) (by simp [ht.2.1])).2 ⟨f.name, by simp [e2], h.2.1⟩
  obtain ⟨t3, h3⟩ := (number_texts (w := [x2]) (by simp [ht.2.2.2.1])).2 ⟨f.number, by simp [e5], h.2.2.1⟩
  obtain ⟨te, h4⟩ := endOf_complete h.2.2.2 ht.2.2.2.2 e6
  exact ⟨_, t1, u1, t2, [x1], x, t3, [x2], te, v, rfl, rfl, h1, h2, (is40 ht.2.2.1).2 hx, h3, h4⟩

theorem oneofField_iff : Rule 12 ts w ↔ FieldRest ts w := fieldRest_iff

theorem oneofField_sound (h : Rule 12 ts w) (ht : TypedL w) : WFOneofField (astField ts) ∧ texts w = spellField (astField ts) := by
  obtain ⟨h1, h2, h3, h4⟩ := fieldRest_sound (oneofField_iff.1 h) ht
  refine ⟨⟨h1, h3, h2⟩, ?_⟩
  rw [h4]
  have e1 : (astField ts).label = none := h2
  have e2 : (astField ts).key = none := h3
  rw [spellField, e1, e2]
  rfl

theorem oneofField_complete {f : RawField} (h : WFOneofField f) (ht : TypedL w) (e : texts w = spellField f) : Lang 12 w := by
  rw [spellField, h.2.1, h.2.2] at e
  obtain ⟨ts, h⟩ := fieldRest_complete h.1 ht e
  exact ⟨ts, oneofField_iff.2 h⟩

theorem field_iff : Rule 7 ts w ↔ FieldRest ts w ∨ ∃ x us v, (x.typ = 8 ∨ x.typ = 9 ∨ x.typ = 10) ∧ ts = .node 6 [.leaf x] :: us ∧ w = x :: v ∧ FieldRest us v := by
  have e : Rule 7 ts w ↔ ∃ us u ts' v, ts = us ++ ts' ∧ w = u ++ v ∧ Derives protoGram (.choose 6) us u ∧ FieldRest ts' v := by
    show Derives protoGram codeField ts w ↔ _
    unfold codeField
    rw [s_sync, s_choose]
    simp only [fieldRest_iff]
  have e6 : ∀ us u, Derives protoGram (.choose 6) us u ↔ (∃ x, (x.typ = 8 ∨ x.typ = 9 ∨ x.typ = 10) ∧ us = [.node 6 [.leaf x]] ∧ u = [x]) ∨ (us = [] ∧ u = []) := by
    intro us u
    rw [d_alt (d := 6) (l := alts6) rfl]
    simp only [alts6, List.mem_cons, List.not_mem_nil, or_false, exists_eq_or_imp, exists_eq_left, d_rule, rule_label, d_done]
    constructor
    · rintro (⟨us', ⟨x, hx, rfl, rfl⟩, rfl⟩ | h)
      · exact .inl ⟨x, hx, rfl, rfl⟩
      · exact .inr h
    · rintro (⟨x, hx, rfl, rfl⟩ | h)
      · exact .inl ⟨_, ⟨x, hx, rfl, rfl⟩, rfl⟩
      · exact .inr h
  rw [e]
  constructor
  · rintro ⟨us, u, ts', v, rfl, rfl, h1, h2⟩
    rcases (e6 _ _).1 h1 with ⟨x, hx, rfl, rfl⟩ | ⟨rfl, rfl⟩
    · exact .inr ⟨x, ts', v, hx, rfl, rfl, h2⟩
    · exact .inl h2
  · rintro (h | ⟨x, us, v, hx, rfl, rfl, h⟩)
    · exact ⟨[], [], ts, w, rfl, rfl, (e6 _ _).2 (.inr ⟨rfl, rfl⟩), h⟩
    · exact ⟨[.node 6 [.leaf x]], [x], us, v, rfl, rfl, (e6 _ _).2 (.inl ⟨x, hx, rfl, rfl⟩), h⟩

theorem field_sound (h : Rule 7 ts w) (ht : TypedL w) : WFField (astField ts) ∧ texts w = spellField (astField ts) := by
  rcases field_iff.1 h with g | ⟨x, us, v, hx, rfl, rfl, g⟩
  · obtain ⟨h1, h2, h3, h4⟩ := fieldRest_sound g ht
    refine ⟨⟨h1, h3⟩, ?_⟩
    rw [h4]
    have e1 : (astField ts).label = none := h2
    have e2 : (astField ts).key = none := h3
    rw [spellField, e1, e2]
    rfl
  · simp only [typedL_cons] at ht
    obtain ⟨h1, h2, h3, h4⟩ := fieldRest_sound g ht.2
    have e1 : astField (.node 6 [.leaf x] :: us) = { astField us with label := if x.typ = 8 then some .optional else if x.typ = 9 then some .required else if x.typ = 10 then some .repeated else none } := by
      simp [astField, astLabel, astKey, astFieldOptions, textOf, textsOf]
    have e2 : (astField us).key = none := h3
    refine ⟨⟨?_, ?_⟩, ?_⟩
    · rw [e1]; exact h1
    · rw [e1]; exact h3
    · rw [texts_cons, h4, e1, spellField]
      simp only [e2]
      rcases hx with hx | hx | hx
      · simp [hx, spellLabel, (is8 ht.1).1 hx]
      · simp [hx, spellLabel, (is9 ht.1).1 hx]
      · simp [hx, spellLabel, (is10 ht.1).1 hx]

theorem field_complete {f : RawField} (h : WFField f) (ht : TypedL w) (e : texts w = spellField f) : Lang 7 w := by
  rw [spellField, h.2] at e
  cases hl : f.label with
  | none =>
    rw [hl] at e
    obtain ⟨ts, h⟩ := fieldRest_complete h.1 ht e
    exact ⟨ts, field_iff.2 (.inl h)⟩
  | some l =>
    rw [hl] at e
    have : ∃ s, spellLabel (some l) = [s] ∧ ∀ x, Typed x → x.text = s → x.typ = 8 ∨ x.typ = 9 ∨ x.typ = 10 := by
      cases l
      · exact ⟨_, rfl, fun x h e => .inl ((is8 h).2 e)⟩
      · exact ⟨_, rfl, fun x h e => .inr (.inl ((is9 h).2 e))⟩
      · exact ⟨_, rfl, fun x h e => .inr (.inr ((is10 h).2 e))⟩
    obtain ⟨s, hs, hs'⟩ := this
    rw [hs] at e
    obtain ⟨x, v, rfl, hx, e1⟩ := texts_eq_cons e
    simp only [typedL_cons] at ht
    obtain ⟨us, h⟩ := fieldRest_complete h.1 ht.2 e1
    exact ⟨_, field_iff.2 (.inr ⟨x, us, v, hs' x ht.1 hx, rfl, rfl, h⟩)⟩

theorem mapField_iff : Rule 13 ts w ↔ ∃ x1 x2 tk uk x3 t1 u1 x4 t2 u2 x t3 u3 te ue,
    ts = .leaf x1 :: .leaf x2 :: .node 14 tk :: .leaf x3 :: .node 15 t1 :: .leaf x4 :: .node 42 t2 :: .leaf x :: .node 10 t3 :: te ∧
    w = x1 :: x2 :: (uk ++ x3 :: (u1 ++ x4 :: (u2 ++ x :: (u3 ++ ue)))) ∧
    x1.typ = 12 ∧ x2.typ = 47 ∧ Rule 14 tk uk ∧ x3.typ = 50 ∧ Rule 15 t1 u1 ∧ x4.typ = 48 ∧ Rule 42 t2 u2 ∧ x.typ = 40 ∧ Rule 10 t3 u3 ∧ EndOf te ue := by
  have key := fun (ts : List PTree) (w : List PTok) => endOf_iff (ts := ts) (w := w) (s := 219)
  unfold Rule ruleCode codeMapField
  generalize (Code.ifLa [43] (.tok 43 ;; .call 219 8 ;; .tok 44) .done ;; .tok 39) = e at key ⊢
  take_apart
  simp only [key]
  constructor
  · rintro ⟨x1, _, _, rfl, rfl, g1, x2, _, _, rfl, rfl, g2, tk, uk, _, _, rfl, rfl, hk, x3, _, _, rfl, rfl, g3, t1, u1, _, _, rfl, rfl, h1, x4, _, _, rfl, rfl, g4,
      t2, u2, _, _, rfl, rfl, h2, x, _, _, rfl, rfl, hx, t3, u3, te, ue, rfl, rfl, h3, h4⟩
    exact ⟨x1, x2, tk, uk, x3, t1, u1, x4, t2, u2, x, t3, u3, te, ue, rfl, rfl, g1, g2, hk, g3, h1, g4, h2, hx, h3, h4⟩
  · rintro ⟨x1, x2, tk, uk, x3, t1, u1, x4, t2, u2, x, t3, u3, te, ue, rfl, rfl, g1, g2, hk, g3, h1, g4, h2, hx, h3, h4⟩
    exact ⟨x1, _, _, rfl, rfl, g1, x2, _, _, rfl, rfl, g2, tk, uk, _, _, rfl, rfl, hk, x3, _, _, rfl, rfl, g3, t1, u1, _, _, rfl, rfl, h1, x4, _, _, rfl, rfl, g4,
      t2, u2, _, _, rfl, rfl, h2, x, _, _, rfl, rfl, hx, t3, u3, te, ue, rfl, rfl, h3, h4⟩

theorem mapField_sound (h : Rule 13 ts w) (ht : TypedL w) : WFMapField (astField ts) ∧ texts w = spellField (astField ts) := by
  obtain ⟨x1, x2, tk, uk, x3, t1, u1, x4, t2, u2, x, t3, u3, te, ue, rfl, rfl, g1, g2, hk, g3, h1, g4, h2, hx, h3, h4⟩ := mapField_iff.1 h
  simp only [typedL_append, typedL_cons] at ht
  obtain ⟨y1, y2, yk, y3, y4, y5, y6, y7, y8, y9⟩ := ht
  obtain ⟨i1, i2, i3⟩ := endOf_sound h4 y9
  obtain ⟨k, e0, hk'⟩ := (key_texts yk).1 ⟨_, hk⟩
  obtain ⟨n, e1, hn⟩ := (name_texts (r := 42) (by simp) y6).1 ⟨_, h2⟩
  obtain ⟨m, e2, hm⟩ := (number_texts y8).1 ⟨_, h3⟩
  have e3 := (fieldType_texts y4).1 ⟨_, h1⟩
  have e : astField (.leaf x1 :: .leaf x2 :: .node 14 tk :: .leaf x3 :: .node 15 t1 :: .leaf x4 :: .node 42 t2 :: .leaf x :: .node 10 t3 :: te) =
      ⟨none, some k, texts u1, n, m, astFieldOptions te⟩ := by
    simp [astField, astLabel, astKey, astFieldOptions, textOf, textsOf, i3 6, derives_leaves h1, derives_leaves h2, derives_leaves h3, derives_leaves hk, e0, e1, e2]
  rw [e]
  refine ⟨⟨⟨e3, hn, hm, i1⟩, rfl, k, rfl, hk'⟩, ?_⟩
  simp [spellField, spellLabel, i2, e0, e1, e2, (is12 y1).1 g1, (is47 y2).1 g2, (is50 y3).1 g3, (is48 y5).1 g4, (is40 y7).1 hx]

theorem mapField_complete {f : RawField} (h : WFMapField f) (ht : TypedL w) (e : texts w = spellField f) : Lang 13 w := by
  obtain ⟨hf, hl, k, hk, hk'⟩ := h
  rw [spellField, hl, hk] at e
  simp only [spellLabel, List.nil_append, List.cons_append, List.append_assoc] at e
  obtain ⟨x1, v, rfl, g1, e1⟩ := texts_eq_cons e
  obtain ⟨x2, v, rfl, g2, e2⟩ := texts_eq_cons e1
  obtain ⟨x0, v, rfl, g0, e3⟩ := texts_eq_cons e2
  obtain ⟨x3, v, rfl, g3, e4⟩ := texts_eq_cons e3
  obtain ⟨u1, v, rfl, f1, e5⟩ := texts_eq_append e4
  obtain ⟨x4, v, rfl, g4, e6⟩ := texts_eq_cons e5
  obtain ⟨x5, v, rfl, g5, e7⟩ := texts_eq_cons e6
  obtain ⟨x6, v, rfl, g6, e8⟩ := texts_eq_cons e7
  obtain ⟨x7, v, rfl, g7, e9⟩ := texts_eq_cons e8
  simp only [typedL_append, typedL_cons] at ht
  obtain ⟨y1, y2, y0, y3, z1, y4, y5, y6, y7, y8⟩ := ht
  obtain ⟨tk, h0⟩ := (key_texts (w := [x0]) (by simp [y0])).2 ⟨k, by simp [g0], hk'⟩
  obtain ⟨t1, h1⟩ := (fieldType_texts z1).2 (f1 ▸ hf.1)
  obtain ⟨t2, h2⟩ := (name_texts (w := [x5]) (r := 42) (by simp) (by simp [y5])).2 ⟨f.name, by simp [g5], hf.2.1⟩
  obtain ⟨t3, h3⟩ := (number_texts (w := [x7]) (by simp [y7])).2 ⟨f.number, by simp [g7], hf.2.2.1⟩
  obtain ⟨te, h4⟩ := endOf_complete hf.2.2.2 y8 e9
  exact ⟨_, mapField_iff.2 ⟨x1, x2, tk, [x0], x3, t1, u1, x4, t2, [x5], x6, t3, [x7], te, v, rfl, rfl, (is12 y1).2 g1, (is47 y2).2 g2, h0, (is50 y3).2 g3, h1,
    (is48 y4).2 g4, h2, (is40 y6).2 g6, h3, h4⟩⟩

/-! ## Ranges and reserved names -/

theorem range_iff : Rule 19 ts w ↔ ∃ t1 u1 ts' v, ts = .node 48 t1 :: ts' ∧ w = u1 ++ v ∧ Rule 48 t1 u1 ∧
    ((ts' = [] ∧ v = []) ∨ (∃ x t2 u2, ts' = [.leaf x, .node 48 t2] ∧ v = x :: u2 ∧ x.typ = 30 ∧ Rule 48 t2 u2) ∨
      ∃ x y, ts' = [.leaf x, .leaf y] ∧ v = [x, y] ∧ x.typ = 30 ∧ y.typ = 31) := by
  show Derives protoGram codeOneRange ts w ↔ _
  unfold codeOneRange
  take_apart
  constructor
  · rintro ⟨t1, u1, ts', v, rfl, rfl, h, ⟨x, _, _, rfl, rfl, hx, ⟨t2, h2, rfl⟩ | ⟨y, hy, rfl, rfl⟩⟩ | ⟨rfl, rfl⟩⟩
    · exact ⟨t1, u1, _, _, rfl, rfl, h, .inr (.inl ⟨x, t2, _, rfl, rfl, hx, h2⟩)⟩
    · exact ⟨t1, u1, _, _, rfl, rfl, h, .inr (.inr ⟨x, y, rfl, rfl, hx, hy⟩)⟩
    · exact ⟨t1, u1, _, _, rfl, rfl, h, .inl ⟨rfl, rfl⟩⟩
  · rintro ⟨t1, u1, ts', v, rfl, rfl, h, ⟨rfl, rfl⟩ | ⟨x, t2, u2, rfl, rfl, hx, h2⟩ | ⟨x, y, rfl, rfl, hx, hy⟩⟩
    · exact ⟨t1, u1, _, _, rfl, rfl, h, .inr ⟨rfl, rfl⟩⟩
    · exact ⟨t1, u1, _, _, rfl, rfl, h, .inl ⟨x, _, _, rfl, rfl, hx, .inl ⟨t2, h2, rfl⟩⟩⟩
    · exact ⟨t1, u1, _, _, rfl, rfl, h, .inl ⟨x, _, _, rfl, rfl, hx, .inr ⟨y, hy, rfl, rfl⟩⟩⟩

theorem range_sound (h : Rule 19 ts w) (ht : TypedL w) : WFRange (astRange ts) ∧ texts w = spellRange (astRange ts) := by
  obtain ⟨t1, u1, ts', v, rfl, rfl, h1, h2⟩ := range_iff.1 h
  simp only [typedL_append] at ht
  obtain ⟨n, e1, hn⟩ := (int_texts ht.1).1 ⟨_, h1⟩
  rcases h2 with ⟨rfl, rfl⟩ | ⟨x, t2, u2, rfl, rfl, hx, h2⟩ | ⟨x, y, rfl, rfl, hx, hy⟩
  · have : astRange [.node 48 t1] = ⟨n, .single⟩ := by simp [astRange, derives_leaves h1, e1]
    rw [this]
    exact ⟨⟨hn, fun s hs => by cases hs⟩, by simp [spellRange, e1]⟩
  · simp only [typedL_cons] at ht
    obtain ⟨m, e2, hm⟩ := (int_texts ht.2.2).1 ⟨_, h2⟩
    have : astRange [.node 48 t1, .leaf x, .node 48 t2] = ⟨n, .lit m⟩ := by simp [astRange, derives_leaves h1, derives_leaves h2, e1, e2]
    rw [this]
    refine ⟨⟨hn, fun s hs => by cases hs; exact hm⟩, ?_⟩
    simp [spellRange, e1, e2, (is30 ht.2.1).1 hx]
  · simp only [typedL_cons] at ht
    have : astRange [.node 48 t1, .leaf x, .leaf y] = ⟨n, .max⟩ := by simp [astRange, derives_leaves h1, e1, hx, hy]
    rw [this]
    exact ⟨⟨hn, fun s hs => by cases hs⟩, by simp [spellRange, e1, (is30 ht.2.1).1 hx, (is31 ht.2.2.1).1 hy]⟩

theorem range_complete {r : RangeNode} (h : WFRange r) (ht : TypedL w) (e : texts w = spellRange r) : Lang 19 w := by
  obtain ⟨lo, hi⟩ := r
  have step : ∀ {l : List Str} {w : List PTok}, TypedL w → texts w = lo :: l → ∃ x v us, w = x :: v ∧ texts v = l ∧ TypedL v ∧ Rule 48 us [x] := by
    intro l w ht e
    obtain ⟨x, v, rfl, hx, e1⟩ := texts_eq_cons e
    simp only [typedL_cons] at ht
    obtain ⟨us, h1⟩ := (int_texts (w := [x]) (by simp [ht.1])).2 ⟨lo, by simp [hx], h.1⟩
    exact ⟨x, v, us, rfl, e1, ht.2, h1⟩
  cases hi with
  | single =>
    obtain ⟨x, v, us, rfl, e1, _, h1⟩ := step ht e
    obtain rfl := texts_eq_nil e1
    exact ⟨_, range_iff.2 ⟨us, [x], [], [], rfl, rfl, h1, .inl ⟨rfl, rfl⟩⟩⟩
  | max =>
    obtain ⟨x, v, us, rfl, e1, hv, h1⟩ := step ht e
    obtain ⟨y, v, rfl, hy, e2⟩ := texts_eq_cons e1
    obtain ⟨z, v, rfl, hz, e3⟩ := texts_eq_cons e2
    obtain rfl := texts_eq_nil e3
    simp only [typedL_cons] at hv
    exact ⟨_, range_iff.2 ⟨us, [x], _, _, rfl, rfl, h1, .inr (.inr ⟨y, z, rfl, rfl, (is30 hv.1).2 hy, (is31 hv.2.1).2 hz⟩)⟩⟩
  | lit s =>
    obtain ⟨x, v, us, rfl, e1, hv, h1⟩ := step ht e
    obtain ⟨y, v, rfl, hy, e2⟩ := texts_eq_cons e1
    obtain ⟨z, v, rfl, hz, e3⟩ := texts_eq_cons e2
    obtain rfl := texts_eq_nil e3
    simp only [typedL_cons] at hv
    obtain ⟨us', h2⟩ := (int_texts (w := [z]) (by simp [hv.2.1])).2 ⟨s, by simp [hz], h.2 s rfl⟩
    exact ⟨_, range_iff.2 ⟨us, [x], _, _, rfl, rfl, h1, .inr (.inl ⟨y, us', [z], rfl, rfl, (is30 hv.1).2 hy, h2⟩)⟩⟩

theorem ranges_sound (h : Rule 18 ts w) (ht : TypedL w) :
    WFRanges ((kids 19 ts).map astRange) ∧ texts w = commaSep spellRange ((kids 19 ts).map astRange) := by
  obtain ⟨h1, h2, h3⟩ := commas_sound (fun h ht => range_sound h ht) (commas_iff.1 h) ht
  exact ⟨⟨h1, h2⟩, h3⟩

theorem ranges_complete {rr : List RangeNode} (h : WFRanges rr) (ht : TypedL w) (e : texts w = commaSep spellRange rr) : Lang 18 w := by
  obtain ⟨ts, h⟩ := commas_complete (q := 19) (g := spellRange) (P := WFRange) (fun h ht e => range_complete h ht e) h.1 h.2 ht e
  exact ⟨ts, commas_iff.2 h⟩

theorem names_sound (h : Rule 20 ts w) (ht : TypedL w) : WFNames ((kids 49 ts).map leavesL) ∧ texts w = commaSep id ((kids 49 ts).map leavesL) := by
  obtain ⟨h1, h2, h3⟩ := commas_sound (q := 49) (f := leavesL) (g := id) (P := StrLitToks) (by
    intro us u h ht
    rw [derives_leaves h]
    exact ⟨(str_texts ht).1 ⟨_, h⟩, rfl⟩) (commas_iff.1 h) ht
  exact ⟨⟨h1, h2⟩, h3⟩

theorem names_complete {ss : List (List Str)} (h : WFNames ss) (ht : TypedL w) (e : texts w = commaSep id ss) : Lang 20 w := by
  obtain ⟨ts, h⟩ := commas_complete (q := 49) (g := id) (P := StrLitToks) (fun h ht e => (str_texts ht).2 (e ▸ h)) h.1 h.2 ht e
  exact ⟨ts, commas_iff.2 h⟩

theorem reserved_iff : Rule 16 ts w ↔ ∃ x t u y, x.typ = 28 ∧ y.typ = 39 ∧ w = x :: (u ++ [y]) ∧
    ((Rule 18 t u ∧ ts = [.leaf x, .node 18 t, .leaf y]) ∨ (Rule 20 t u ∧ ts = [.leaf x, .node 20 t, .leaf y])) := by
  show Derives protoGram codeReserved ts w ↔ _
  unfold codeReserved
  take_apart
  constructor
  · rintro ⟨x, _, _, rfl, rfl, hx, ⟨t, u, _, _, rfl, rfl, h, y, hy, rfl, rfl⟩ | ⟨t, u, _, _, rfl, rfl, h, y, hy, rfl, rfl⟩⟩
    · exact ⟨x, t, u, y, hx, hy, rfl, .inl ⟨h, rfl⟩⟩
    · exact ⟨x, t, u, y, hx, hy, rfl, .inr ⟨h, rfl⟩⟩
  · rintro ⟨x, t, u, y, hx, hy, rfl, ⟨h, rfl⟩ | ⟨h, rfl⟩⟩
    · exact ⟨x, _, _, rfl, rfl, hx, .inl ⟨t, u, _, _, rfl, rfl, h, y, hy, rfl, rfl⟩⟩
    · exact ⟨x, _, _, rfl, rfl, hx, .inr ⟨t, u, _, _, rfl, rfl, h, y, hy, rfl, rfl⟩⟩

theorem reserved_sound (h : Rule 16 ts w) (ht : TypedL w) :
    ((kid 18 ts).isSome = true ∧ WFRanges (astRanges ts) ∧ texts w = spellReserved (astRanges ts)) ∨
      ((kid 18 ts).isSome = false ∧ WFNames (astNames ts) ∧ texts w = spellReservedNames (astNames ts)) := by
  obtain ⟨x, t, u, y, hx, hy, rfl, ⟨g, rfl⟩ | ⟨g, rfl⟩⟩ := reserved_iff.1 h
  · simp only [typedL_cons, typedL_append] at ht
    obtain ⟨h1, h2⟩ := ranges_sound g ht.2.1
    refine .inl ⟨by simp, by simpa [astRanges] using h1, ?_⟩
    simp [astRanges, spellReserved, h2, (is28 ht.1).1 hx, (is39 ht.2.2.1).1 hy]
  · simp only [typedL_cons, typedL_append] at ht
    obtain ⟨h1, h2⟩ := names_sound g ht.2.1
    refine .inr ⟨by simp, by simpa [astNames] using h1, ?_⟩
    simp [astNames, spellReservedNames, h2, (is28 ht.1).1 hx, (is39 ht.2.2.1).1 hy]

theorem reserved_split {l : List Str} (ht : TypedL w) (e : texts w = "reserved".toList :: (l ++ [";".toList])) :
    ∃ x u y, w = x :: (u ++ [y]) ∧ x.typ = 28 ∧ y.typ = 39 ∧ TypedL u ∧ texts u = l := by
  obtain ⟨x, v, rfl, hx, e1⟩ := texts_eq_cons e
  obtain ⟨u, v, rfl, e2, e3⟩ := texts_eq_append e1
  obtain ⟨y, v, rfl, hy, e4⟩ := texts_eq_cons e3
  obtain rfl := texts_eq_nil e4
  simp only [typedL_cons, typedL_append] at ht
  exact ⟨x, u, y, rfl, (is28 ht.1).2 hx, (is39 ht.2.2.1).2 hy, ht.2.1, e2⟩

theorem reserved_complete {rr : List RangeNode} (h : WFRanges rr) (ht : TypedL w) (e : texts w = spellReserved rr) : Lang 16 w := by
  obtain ⟨x, u, y, rfl, hx, hy, hu, e1⟩ := reserved_split ht e
  obtain ⟨t, h⟩ := ranges_complete h hu e1
  exact ⟨_, reserved_iff.2 ⟨x, t, u, y, hx, hy, rfl, .inl ⟨h, rfl⟩⟩⟩

theorem reservedNames_complete {ss : List (List Str)} (h : WFNames ss) (ht : TypedL w) (e : texts w = spellReservedNames ss) : Lang 16 w := by
  obtain ⟨x, u, y, rfl, hx, hy, hu, e1⟩ := reserved_split ht e
  obtain ⟨t, h⟩ := names_complete h hu e1
  exact ⟨_, reserved_iff.2 ⟨x, t, u, y, hx, hy, rfl, .inr ⟨h, rfl⟩⟩⟩

theorem extensions_iff : Rule 17 ts w ↔ ∃ x t u te ue, ts = .leaf x :: .node 18 t :: te ∧ w = x :: (u ++ ue) ∧ x.typ = 29 ∧ Rule 18 t u ∧ EndOf te ue := by
  show Derives protoGram codeExtensions ts w ↔ _
  have key := fun (ts : List PTree) (w : List PTok) => endOf_iff (ts := ts) (w := w) (s := 257)
  unfold codeExtensions
  generalize (Code.ifLa [43] (.tok 43 ;; .call 257 8 ;; .tok 44) .done ;; .tok 39) = e at key ⊢
  take_apart
  simp only [key]
  constructor
  · rintro ⟨x, _, _, rfl, rfl, hx, t, u, te, ue, rfl, rfl, h1, h2⟩
    exact ⟨x, t, u, te, ue, rfl, rfl, hx, h1, h2⟩
  · rintro ⟨x, t, u, te, ue, rfl, rfl, hx, h1, h2⟩
    exact ⟨x, _, _, rfl, rfl, hx, t, u, te, ue, rfl, rfl, h1, h2⟩

theorem extensions_sound (h : Rule 17 ts w) (ht : TypedL w) : (WFRanges (astRanges ts) ∧ ∀ o ∈ astFieldOptions ts, WFOption o) ∧
    texts w = spellExtensions (astRanges ts) (astFieldOptions ts) := by
  obtain ⟨x, t, u, te, ue, rfl, rfl, hx, h1, h2⟩ := extensions_iff.1 h
  simp only [typedL_cons, typedL_append] at ht
  obtain ⟨i1, i2⟩ := ranges_sound h1 ht.2.1
  obtain ⟨j1, j2, _⟩ := endOf_sound h2 ht.2.2
  have e1 : astRanges (.leaf x :: .node 18 t :: te) = (kids 19 t).map astRange := by simp [astRanges]
  have e2 : astFieldOptions (.leaf x :: .node 18 t :: te) = astFieldOptions te := by simp [astFieldOptions]
  rw [e1, e2]
  exact ⟨⟨i1, j1⟩, by simp [spellExtensions, i2, j2, (is29 ht.1).1 hx]⟩

theorem extensions_complete {rr : List RangeNode} {os : List RawOption} (h : WFRanges rr) (ho : ∀ o ∈ os, WFOption o) (ht : TypedL w)
    (e : texts w = spellExtensions rr os) : Lang 17 w := by
  obtain ⟨x, v, rfl, hx, e1⟩ := texts_eq_cons e
  obtain ⟨u, v, rfl, e2, e3⟩ := texts_eq_append e1
  simp only [typedL_cons, typedL_append] at ht
  obtain ⟨t, h1⟩ := ranges_complete h ht.2.1 e2
  obtain ⟨te, h2⟩ := endOf_complete ho ht.2.2 e3
  exact ⟨_, extensions_iff.2 ⟨x, t, u, te, v, rfl, rfl, (is29 ht.1).2 hx, h1, h2⟩⟩

end Verif.Lemmas.Gen.Antlr
