import Verif.Spec.Gen.Derives
import Verif.Spec.Gen.ProtoGrammar
import Verif.Model.Gen.Antlr.Ast
import Verif.Lemmas.Gen.Antlr.Types
import Verif.Lemmas.Gen.Grammar
/-!
# Derivations of the rules of the parser, taken apart
-/
namespace Verif.Lemmas.Gen.Antlr
open Verif.Model.Gen Verif.Model.Gen.Antlr Verif.Spec.Gen

variable {G : Gram} {ts : List PTree} {w : List PTok}

theorem d_done : Derives G .done ts w ↔ ts = [] ∧ w = [] :=
  ⟨fun h => by cases h; exact ⟨rfl, rfl⟩, fun ⟨h, g⟩ => by subst h g; exact .done⟩

theorem d_fail : Derives G .fail ts w ↔ False := ⟨(fun h => by cases h), False.elim⟩

theorem d_sync {s : Nat} : Derives G (.sync s) ts w ↔ ts = [] ∧ w = [] :=
  ⟨fun h => by cases h; exact ⟨rfl, rfl⟩, fun ⟨h, g⟩ => by subst h g; exact .sync s⟩

theorem d_eof : Derives G .eof ts w ↔ ts = [] ∧ w = [] :=
  ⟨fun h => by cases h; exact ⟨rfl, rfl⟩, fun ⟨h, g⟩ => by subst h g; exact .eof⟩

theorem d_tok {t : Nat} : Derives G (.tok t) ts w ↔ ∃ x : PTok, x.typ = t ∧ ts = [.leaf x] ∧ w = [x] :=
  ⟨fun h => by cases h with | tok x => exact ⟨x, rfl, rfl, rfl⟩, fun ⟨x, h, g, k⟩ => by subst h g k; exact .tok x⟩

theorem d_set {l : List Nat} : Derives G (.set l) ts w ↔ ∃ x : PTok, x.typ ∈ l ∧ ts = [.leaf x] ∧ w = [x] :=
  ⟨fun h => by cases h with | set _ x hx => exact ⟨x, hx, rfl, rfl⟩, fun ⟨x, h, g, k⟩ => by subst g k; exact .set l x h⟩

theorem d_call {s r : Nat} : Derives G (.call s r) ts w ↔ ∃ us, Derives G (G.rule r) us w ∧ ts = [.node r us] :=
  ⟨fun h => by cases h with | call _ _ h => exact ⟨_, h, rfl⟩, fun ⟨us, h, g⟩ => by subst g; exact .call s r h⟩

theorem d_seq {a b : Code} : Derives G (.seq a b) ts w ↔ ∃ t₁ u₁, Derives G a t₁ u₁ ∧ ∃ t₂ u₂, Derives G b t₂ u₂ ∧ ts = t₁ ++ t₂ ∧ w = u₁ ++ u₂ :=
  ⟨fun h => by cases h with | seq h g => exact ⟨_, _, h, _, _, g, rfl, rfl⟩, fun ⟨_, _, h, _, _, g, e, f⟩ => by subst e f; exact .seq h g⟩

theorem d_if {l : List Nat} {a b : Code} : Derives G (.ifLa l a b) ts w ↔ Derives G a ts w ∨ Derives G b ts w :=
  ⟨fun h => by
    cases h with
    | ifThen _ _ h => exact .inl h
    | ifElse _ _ h => exact .inr h,
   fun h => h.elim (.ifThen l b) (.ifElse l a)⟩

/-- Repetition. -/
inductive Many (P : List PTree → List PTok → Prop) : List PTree → List PTok → Prop
  | nil : Many P [] []
  | cons {ts us : List PTree} {u v : List PTok} : P ts u → Many P us v → Many P (ts ++ us) (u ++ v)

theorem d_while {l : List Nat} {a : Code} : Derives G (.whileLa l a) ts w ↔ Many (Derives G a) ts w := by
  constructor
  · intro h
    generalize hc : Code.whileLa l a = c at h
    induction h with
    | stop => exact .nil
    | again h _ _ ih =>
      cases hc
      exact .cons h (ih rfl)
    | _ => cases hc
  · intro h
    induction h with
    | nil => exact .stop l a
    | cons h _ ih => exact .again h ih

theorem d_choose {d : Nat} : Derives G (.choose d) ts w ↔ ∃ a ∈ G.alts d, Derives G a ts w :=
  ⟨fun h => by
    cases h with
    | choose _ i hi h => exact ⟨_, List.mem_of_getElem? hi, h⟩,
   fun ⟨a, ha, h⟩ => by
    obtain ⟨i, hi, rfl⟩ := List.getElem_of_mem ha
    exact .choose d i (List.getElem?_eq_getElem hi) h⟩

/-- What the function of a rule derives. -/
abbrev Rule (r : Nat) (ts : List PTree) (w : List PTok) : Prop := Derives protoGram (ruleCode r) ts w

theorem d_rule {s r : Nat} : Derives protoGram (.call s r) ts w ↔ ∃ us, Rule r us w ∧ ts = [.node r us] := d_call

theorem d_alts {d : Nat} : Derives protoGram (.choose d) ts w ↔ ∃ a ∈ altsCode d, Derives protoGram a ts w := d_choose

/-! ### The first statement of a sequence -/

variable {b : Code}

theorem s_tok {t : Nat} : Derives G (.tok t ;; b) ts w ↔ ∃ x us v, ts = .leaf x :: us ∧ w = x :: v ∧ x.typ = t ∧ Derives G b us v := by
  constructor
  · intro h₀
    obtain ⟨_, _, h, us, v, g, rfl, rfl⟩ := d_seq.1 h₀
    obtain ⟨x, hx, rfl, rfl⟩ := d_tok.1 h
    exact ⟨x, us, v, rfl, rfl, hx, g⟩
  · rintro ⟨x, us, v, rfl, rfl, hx, g⟩
    exact d_seq.2 ⟨[.leaf x], [x], d_tok.2 ⟨x, hx, rfl, rfl⟩, us, v, g, rfl, rfl⟩

theorem s_set {l : List Nat} : Derives G (.set l ;; b) ts w ↔ ∃ x us v, ts = .leaf x :: us ∧ w = x :: v ∧ x.typ ∈ l ∧ Derives G b us v := by
  constructor
  · intro h₀
    obtain ⟨_, _, h, us, v, g, rfl, rfl⟩ := d_seq.1 h₀
    obtain ⟨x, hx, rfl, rfl⟩ := d_set.1 h
    exact ⟨x, us, v, rfl, rfl, hx, g⟩
  · rintro ⟨x, us, v, rfl, rfl, hx, g⟩
    exact d_seq.2 ⟨[.leaf x], [x], d_set.2 ⟨x, hx, rfl, rfl⟩, us, v, g, rfl, rfl⟩

theorem s_rule {s r : Nat} : Derives protoGram (.call s r ;; b) ts w ↔
    ∃ us u ts' v, ts = .node r us :: ts' ∧ w = u ++ v ∧ Rule r us u ∧ Derives protoGram b ts' v := by
  constructor
  · intro h₀
    obtain ⟨_, u, h, ts', v, g, rfl, rfl⟩ := d_seq.1 h₀
    obtain ⟨us, k, rfl⟩ := d_rule.1 h
    exact ⟨us, u, ts', v, rfl, rfl, k, g⟩
  · rintro ⟨us, u, ts', v, rfl, rfl, h, g⟩
    exact d_seq.2 ⟨[.node r us], u, d_rule.2 ⟨us, h, rfl⟩, ts', v, g, rfl, rfl⟩

theorem s_while {l : List Nat} {a : Code} : Derives G (.whileLa l a ;; b) ts w ↔
    ∃ us u ts' v, ts = us ++ ts' ∧ w = u ++ v ∧ Many (Derives G a) us u ∧ Derives G b ts' v := by
  constructor
  · intro h₀
    obtain ⟨us, u, h, ts', v, g, rfl, rfl⟩ := d_seq.1 h₀
    exact ⟨us, u, ts', v, rfl, rfl, d_while.1 h, g⟩
  · rintro ⟨us, u, ts', v, rfl, rfl, h, g⟩
    exact d_seq.2 ⟨us, u, d_while.2 h, ts', v, g, rfl, rfl⟩

theorem s_choose {d : Nat} : Derives protoGram (.choose d ;; b) ts w ↔
    ∃ us u ts' v, ts = us ++ ts' ∧ w = u ++ v ∧ Derives protoGram (.choose d) us u ∧ Derives protoGram b ts' v := by
  constructor
  · intro h₀
    obtain ⟨us, u, h, ts', v, g, rfl, rfl⟩ := d_seq.1 h₀
    exact ⟨us, u, ts', v, rfl, rfl, h, g⟩
  · rintro ⟨us, u, ts', v, rfl, rfl, h, g⟩
    exact d_seq.2 ⟨us, u, h, ts', v, g, rfl, rfl⟩

theorem s_sync {s : Nat} : Derives G (.sync s ;; b) ts w ↔ Derives G b ts w := by
  constructor
  · intro h₀
    obtain ⟨_, _, h, us, v, g, rfl, rfl⟩ := d_seq.1 h₀
    obtain ⟨rfl, rfl⟩ := d_sync.1 h
    exact g
  · intro g
    exact d_seq.2 ⟨[], [], .sync s, ts, w, g, rfl, rfl⟩

theorem s_done : Derives G (.done ;; b) ts w ↔ Derives G b ts w := by
  constructor
  · intro h₀
    obtain ⟨_, _, h, us, v, g, rfl, rfl⟩ := d_seq.1 h₀
    obtain ⟨rfl, rfl⟩ := d_done.1 h
    exact g
  · intro g
    exact d_seq.2 ⟨[], [], .done, ts, w, g, rfl, rfl⟩

theorem s_fail : Derives G (.fail ;; b) ts w ↔ False := by
  constructor
  · intro h₀
    obtain ⟨_, _, h, _⟩ := d_seq.1 h₀
    exact d_fail.1 h
  · exact False.elim

theorem s_if {l : List Nat} {a c : Code} : Derives G (.ifLa l a c ;; b) ts w ↔ Derives G (a ;; b) ts w ∨ Derives G (c ;; b) ts w := by
  constructor
  · intro h₀
    obtain ⟨us, u, h, ts', v, g, rfl, rfl⟩ := d_seq.1 h₀
    exact (d_if.1 h).imp (.seq · g) (.seq · g)
  · rintro (h₀ | h₀) <;> obtain ⟨us, u, h, ts', v, g, rfl, rfl⟩ := d_seq.1 h₀
    · exact .seq (.ifThen l c h) g
    · exact .seq (.ifElse l a h) g

theorem s_seq {a c : Code} : Derives G ((a ;; c) ;; b) ts w ↔ Derives G (a ;; (c ;; b)) ts w := by
  constructor
  · intro h₀
    obtain ⟨_, _, h₁, _, _, g, rfl, rfl⟩ := d_seq.1 h₀
    obtain ⟨_, _, h, _, _, k, rfl, rfl⟩ := d_seq.1 h₁
    simp only [List.append_assoc]
    exact .seq h (.seq k g)
  · intro h₀
    obtain ⟨_, _, h, _, _, g₁, rfl, rfl⟩ := d_seq.1 h₀
    obtain ⟨_, _, g, _, _, k, rfl, rfl⟩ := d_seq.1 g₁
    simp only [← List.append_assoc]
    exact .seq (.seq h g) k

theorem d_alt {d : Nat} {l : List Code} (hl : altsCode d = l) : Derives protoGram (.choose d) ts w ↔ ∃ a ∈ l, Derives protoGram a ts w := by
  rw [d_alts, hl]

/-- The texts of tokens. -/
def texts (w : List PTok) : List Str := w.map PTok.text

@[simp] theorem texts_nil : texts [] = [] := rfl
@[simp] theorem texts_cons (x : PTok) (w : List PTok) : texts (x :: w) = x.text :: texts w := rfl
@[simp] theorem texts_append (u v : List PTok) : texts (u ++ v) = texts u ++ texts v := List.map_append

theorem leavesL_append (a b : List PTree) : leavesL (a ++ b) = leavesL a ++ leavesL b := by
  induction a with
  | nil => rfl
  | cons t a ih => simp [leavesL, ih]

/-- The leaves of the trees are the tokens. -/
theorem derives_leaves {c : Code} (h : Derives G c ts w) : leavesL ts = texts w := by
  induction h with
  | done | sync | eof | stop => rfl
  | tok | set => rfl
  | call s r _ ih => simpa [leavesL, leaves] using ih
  | seq _ _ ih₁ ih₂ => rw [leavesL_append, ih₁, ih₂, texts_append]
  | ifThen _ _ _ ih => exact ih
  | ifElse _ _ _ ih => exact ih
  | again _ _ ih₁ ih₂ => rw [leavesL_append, ih₁, ih₂, texts_append]
  | choose _ _ _ _ ih => exact ih

/-! ## Types and texts of tokens -/

/-- A token has the type that belongs to its text. -/
def Typed (x : PTok) : Prop := TokenType ⟨.visible, x.text⟩ x.typ 0

def TypedL (w : List PTok) : Prop := ∀ x ∈ w, Typed x

@[simp] theorem typedL_nil : TypedL [] ↔ True := by simp [TypedL]
@[simp] theorem typedL_cons (x : PTok) (w : List PTok) : TypedL (x :: w) ↔ Typed x ∧ TypedL w := by simp [TypedL]
@[simp] theorem typedL_append (u v : List PTok) : TypedL (u ++ v) ↔ TypedL u ∧ TypedL v := by
  simp only [TypedL, List.mem_append]
  exact ⟨fun h => ⟨fun x hx => h x (.inl hx), fun x hx => h x (.inr hx)⟩, fun h x hx => hx.elim (h.1 x) (h.2 x)⟩

/-- The text of a keyword or symbol. -/
def fixedText (t : Nat) : Option Str := if t < 39 then Keywords[t - 1]? else (Symbols[t - 39]?).map fun c => [c]

theorem typed_fixed {x : PTok} (h : Typed x) (ht : x.typ < 54) : fixedText x.typ = some x.text := by
  obtain ⟨t, s⟩ := x
  simp only [Typed] at h ht ⊢
  cases h with
  | keyword i w hi =>
    have : i < 38 := (List.getElem?_eq_some_iff.mp hi).1
    rw [fixedText, if_pos (by omega)]
    simpa using hi
  | symbol i c hi =>
    rw [fixedText, if_neg (by omega)]
    simp [hi]
  | str | bool | inf | float | int | ident => simp at ht

theorem typed_text {x : PTok} (h : Typed x) {t : Nat} {s : Str} (ht : x.typ = t) (hs : fixedText t = some s) (h54 : t < 54) : x.text = s := by
  have := typed_fixed h (by omega)
  rw [ht, hs] at this
  exact (Option.some.inj this).symm

/-- The types of the tokens that may be names. -/
def nameTypes : List Nat :=
  [1, 2, 3, 4, 5, 6, 7, 8, 10, 11, 12, 13, 14, 15, 16, 17, 18, 19, 20, 21, 22, 23, 24, 25, 26, 27, 28, 29, 30, 31, 32, 33, 34, 35, 36, 37, 38, 55, 58]

theorem keywords_names : ∀ i w, Keywords[i]? = some w → (i + 1 ∈ nameTypes ↔ NameTok w) := by
  intro i w h
  have hi : i < 38 := (List.getElem?_eq_some_iff.mp h).1
  have : ((List.range 38).all fun i => match Keywords[i]? with | some w => nameTypes.contains (i + 1) == isNameTok w | none => false) = true := by
    decide +kernel
  have := List.all_eq_true.mp this i (List.mem_range.mpr hi)
  rw [h] at this
  simp only [beq_iff_eq] at this
  rw [← isNameTok_iff, ← this, List.contains_iff_mem]

theorem symbols_names : ∀ i c, Symbols[i]? = some c → ¬ NameTok [c] ∧ i < 15 := by
  intro i c h
  have hi : i < 15 := (List.getElem?_eq_some_iff.mp h).1
  have : ((List.range 15).all fun i => match Symbols[i]? with | some c => !isNameTok [c] | none => false) = true := by decide +kernel
  have := List.all_eq_true.mp this i (List.mem_range.mpr hi)
  rw [h] at this
  rw [← isNameTok_iff]
  exact ⟨by simpa using this, hi⟩

theorem typed_visible {x : PTok} (h : Typed x) {a : Nat} (g : TokenType ⟨.visible, x.text⟩ a 0) : x.typ = a := (tokenType_unique h g).1

theorem nameTok_typed {s : Str} (h : NameTok s) : ∃ a, a ∈ nameTypes ∧ TokenType ⟨.visible, s⟩ a 0 := by
  by_cases h1 : s ∈ Keywords
  · obtain ⟨i, hi, rfl⟩ := List.getElem_of_mem h1
    exact ⟨i + 1, (keywords_names i _ (List.getElem?_eq_getElem hi)).2 h, .keyword i _ (List.getElem?_eq_getElem hi)⟩
  · by_cases h2 : s = "true".toList ∨ s = "false".toList
    · exact ⟨55, by decide, .bool s h2⟩
    · refine ⟨58, by decide, .ident s h.1 h1 ?_⟩
      simp only [List.map_cons, List.map_nil, List.mem_cons, List.not_mem_nil, or_false, not_or]
      exact ⟨fun e => h2 (.inl e), fun e => h2 (.inr e), h.2.2.1, h.2.2.2⟩

theorem typed_name {x : PTok} (h : Typed x) : x.typ ∈ nameTypes ↔ NameTok x.text := by
  constructor
  · intro hx
    obtain ⟨t, s⟩ := x
    simp only [Typed] at h hx ⊢
    cases h with
    | keyword i w hi => exact (keywords_names i _ hi).1 hx
    | symbol i c hi =>
      have := (symbols_names i c hi).2
      simp only [nameTypes, List.mem_cons, List.not_mem_nil, or_false] at hx
      omega
    | bool w hw => rcases hw with rfl | rfl <;> exact (isNameTok_iff _).1 (by decide +kernel)
    | ident w h1 h2 h3 =>
      simp only [List.map_cons, List.map_nil, List.mem_cons, List.not_mem_nil, or_false, not_or] at h3
      exact ⟨h1, fun e => h2 (e ▸ by decide +kernel), h3.2.2.1, h3.2.2.2⟩
    | str | inf | float | int => exact absurd hx (by decide)
  · intro hn
    obtain ⟨a, ha, ht⟩ := nameTok_typed hn
    exact typed_visible h ht ▸ ha

theorem typed_int {x : PTok} (h : Typed x) : x.typ = 57 ↔ IntTok x.text := by
  constructor
  · intro hx
    obtain ⟨t, s⟩ := x
    simp only [Typed] at h hx ⊢
    cases h with
    | keyword i w hi => have := (List.getElem?_eq_some_iff.mp hi).1; simp [Keywords] at this; omega
    | symbol i c hi => have := (symbols_names i c hi).2; omega
    | int s v hv => exact ⟨v, hv⟩
    | str | inf | float | bool | ident => cases hx
  · intro hn
    obtain ⟨v, hv⟩ := hn
    exact typed_visible h (.int _ v hv)

theorem typed_float {x : PTok} (h : Typed x) : x.typ = 56 ↔ FloatTok x.text := by
  constructor
  · intro hx
    obtain ⟨t, s⟩ := x
    simp only [Typed] at h hx ⊢
    cases h with
    | keyword i w hi => have := (List.getElem?_eq_some_iff.mp hi).1; simp [Keywords] at this; omega
    | symbol i c hi => have := (symbols_names i c hi).2; omega
    | float s hs => exact .inl hs
    | inf s hs => exact .inr hs
    | str | int | bool | ident => cases hx
  · rintro (hn | hn)
    · exact typed_visible h (.float _ hn)
    · exact typed_visible h (.inf _ hn)

theorem typed_str {x : PTok} (h : Typed x) : x.typ = 54 ↔ StrTok x.text := by
  constructor
  · intro hx
    obtain ⟨t, s⟩ := x
    simp only [Typed] at h hx ⊢
    cases h with
    | keyword i w hi => have := (List.getElem?_eq_some_iff.mp hi).1; simp [Keywords] at this; omega
    | symbol i c hi => have := (symbols_names i c hi).2; omega
    | str q s hq hs => exact ⟨q, s, rfl, hq, hs⟩
    | inf | float | int | bool | ident => cases hx
  · rintro ⟨q, r, e, hq, hs⟩
    exact typed_visible h (e ▸ .str q r hq hs)

/-- A keyword or symbol and its type. -/
theorem typed_is {x : PTok} (h : Typed x) {t : Nat} {s : Str} (hs : fixedText t = some s) (h0 : 0 < t) (h54 : t < 54) : x.typ = t ↔ x.text = s := by
  constructor
  · intro ht
    exact typed_text h ht hs h54
  · rintro rfl
    unfold fixedText at hs
    split at hs
    · have := typed_visible h (.keyword _ _ hs)
      omega
    · simp only [Option.map_eq_some_iff] at hs
      obtain ⟨c, hc, e⟩ := hs
      have := typed_visible h (e ▸ TokenType.symbol _ c hc)
      omega

end Verif.Lemmas.Gen.Antlr
