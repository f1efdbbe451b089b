import Verif.Spec.Gen.Source
import Verif.Props.Gen.Literals
/-!
# Lemmas about the listeners
-/
namespace Verif.Props.Gen
open Verif.Model.Gen Verif.Spec.Gen

/-! ## Computations that succeed in exactly one case -/

/-- `x` gives a result with `Q` if `P`, and stops with a message if not. -/
def Ends {α : Type} (P : Prop) (x : LRes α) (Q : α → Prop) : Prop :=
  (P → ∃ a, x = .ok a ∧ Q a) ∧ (¬ P → x = .error .fatal)

theorem Ends.pure {α : Type} {P : Prop} {a : α} {Q : α → Prop} (hp : P) (h : Q a) : Ends P (.ok a) Q :=
  ⟨fun _ => ⟨a, rfl, h⟩, fun n => absurd hp n⟩

theorem Ends.fail {α : Type} {P : Prop} {Q : α → Prop} (hp : ¬ P) : Ends P (.error .fatal : LRes α) Q :=
  ⟨fun h => absurd h hp, fun _ => rfl⟩

theorem Ends.bind {α β : Type} {P1 P2 P : Prop} {x : LRes α} {f : α → LRes β} {Q1 : α → Prop} {Q2 : β → Prop} (h1 : Ends P1 x Q1)
    (h2 : ∀ a, Q1 a → Ends P2 (f a) Q2) (hp : P ↔ P1 ∧ P2) : Ends P (x >>= f) Q2 := by
  constructor
  · intro h
    obtain ⟨a, hx, hq⟩ := h1.1 (hp.1 h).1
    rw [hx]
    exact (h2 a hq).1 (hp.1 h).2
  · intro h
    by_cases hp1 : P1
    · obtain ⟨a, hx, hq⟩ := h1.1 hp1
      rw [hx]
      exact (h2 a hq).2 (fun hp2 => h (hp.2 ⟨hp1, hp2⟩))
    · rw [h1.2 hp1]; rfl

theorem Ends.mono {α : Type} {P P' : Prop} {x : LRes α} {Q Q' : α → Prop} (h : Ends P x Q) (hp : P' ↔ P) (hq : ∀ a, Q a → Q' a) : Ends P' x Q' :=
  ⟨fun p => (h.1 (hp.1 p)).elim fun a ha => ⟨a, ha.1, hq a ha.2⟩, fun n => h.2 (fun p => n (hp.2 p))⟩

/-- The calls one after another. -/
def run (evs : List Event) (s : LState) : LRes LState := evs.foldlM step s

theorem run_append (a b : List Event) (s : LState) : run (a ++ b) s = run a s >>= run b := by
  simp only [run, List.foldlM_append]; rfl

theorem run_cons (e : Event) (es : List Event) (s : LState) : run (e :: es) s = step s e >>= run es := by
  simp only [run, List.foldlM_cons]; rfl

theorem run_nil (s : LState) : run [] s = .ok s := rfl

theorem run_one (e : Event) (s : LState) : run [e] s = step s e := by
  rw [run_cons]
  cases step s e <;> rfl

theorem Ends.append {P1 P2 P : Prop} {a b : List Event} {s : LState} {Q1 Q2 : LState → Prop} (h1 : Ends P1 (run a s) Q1)
    (h2 : ∀ s1, Q1 s1 → Ends P2 (run b s1) Q2) (hp : P ↔ P1 ∧ P2) : Ends P (run (a ++ b) s) Q2 := by
  rw [run_append]
  exact h1.bind h2 hp

/-! ## Lists -/

theorem all2_append {α β : Type} {R : α → β → Prop} {xs xs' : List α} {ys ys' : List β} (h : All2 R xs ys) (h' : All2 R xs' ys') :
    All2 R (xs ++ xs') (ys ++ ys') := by
  induction h with
  | nil => exact h'
  | cons hx _ ih => exact .cons hx ih

theorem all2_one {α β : Type} {R : α → β → Prop} {x : α} {y : β} (h : R x y) : All2 R [x] [y] := .cons h .nil

theorem all2_length {α β : Type} {R : α → β → Prop} {xs : List α} {ys : List β} (h : All2 R xs ys) : xs.length = ys.length := by
  induction h with
  | nil => rfl
  | cons _ _ ih => simp [ih]

theorem optionsAre_append {a b : List OptionNode} {x y : List Opt} (h : OptionsAre a x) (h' : OptionsAre b y) : OptionsAre (a ++ b) (x ++ y) := by
  unfold OptionsAre at *
  rw [List.map_append, List.map_append, h, h']

theorem optionsAre_nil : OptionsAre [] [] := rfl

theorem optionsAre_one {o : OptionNode} {v : Str} (h : o.value = some v) : OptionsAre [o] [(o.name, v)] := by
  simp [OptionsAre, h]

/-! ## Numbers, options and ranges -/

theorem parseInt10_decimal {s : Str} {v : Nat} (h : Decimal s v) : parseInt10 s = if v < 2 ^ 31 then some (v : Int) else none := by
  by_cases hv : v < 2 ^ 31
  · rw [if_pos hv]; exact parseInt10_iff.2 ⟨h.1, v, h.2, hv, rfl⟩
  · rw [if_neg hv]
    cases hp : parseInt10 s with
    | none => rfl
    | some w =>
      obtain ⟨_, n, hn, hlt, _⟩ := parseInt10_iff.1 hp
      rw [digits_inj hn h.2] at hlt
      exact absurd hlt hv

theorem intLit_inj {s : Str} {v w : Nat} (h : IntLit s v) (h' : IntLit s w) (hv : v < 2 ^ 31) : v = w := by
  have e := unmarshalI32_lit h
  rw [unmarshalI32_lit h', if_pos hv] at e
  split at e
  · simp only [Option.some.injEq] at e; omega
  · cases e

theorem small_iff {s : Str} {v : Nat} (h : IntLit s v) : Small s ↔ v < 2 ^ 31 := by
  constructor
  · rintro ⟨w, hw, hlt⟩
    rw [← intLit_inj hw h hlt]; exact hlt
  · intro hv; exact ⟨v, h, hv⟩

theorem decimal_inj {s : Str} {v w : Nat} (h : Decimal s v) (h' : Decimal s w) : v = w := digits_inj h.2 h'.2

theorem smallDecimal_iff {s : Str} {v : Nat} (h : Decimal s v) : (∃ w, Decimal s w ∧ w < 2 ^ 31) ↔ v < 2 ^ 31 := by
  constructor
  · rintro ⟨w, hw, hlt⟩
    rw [← decimal_inj hw h]; exact hlt
  · intro hv; exact ⟨v, h, hv⟩

theorem bracketOptions_ends : ∀ (oo : List OptionNode), Ends (GoodLits oo) (bracketOptions oo) (OptionsAre oo)
  | [] => .pure (by simp [GoodLits]) optionsAre_nil
  | o :: oo => by
    rw [bracketOptions]
    cases hv : o.value with
    | none => exact .fail (fun h => h o (List.mem_cons_self ..) hv)
    | some v =>
      refine (bracketOptions_ends oo).bind (P2 := True) (fun a ha => .pure trivial ?_) ?_
      · exact optionsAre_append (optionsAre_one hv) ha
      · simp [GoodLits, hv]

theorem newField_ends {f : FieldNode} (hf : IsNumber f.number) : Ends (GoodField f) (newField f) (FieldIs (none, f, none)) := by
  obtain ⟨v, hv⟩ := hf
  rw [newField, unmarshalI32_lit hv]
  by_cases hlt : v < 2 ^ 31
  · rw [if_pos hlt]
    refine (bracketOptions_ends f.options).bind (P2 := True) (fun oo hoo => .pure trivial ?_) ?_
    · exact ⟨rfl, rfl, rfl, ⟨v, hv, rfl⟩, rfl, hoo, rfl, by simp, by simp, by simp⟩
    · simp [GoodField, small_iff hv, hlt]
  · rw [if_neg hlt]
    exact .fail (fun h => hlt ((small_iff hv).1 h.1))

theorem oneRange_ends {r : RangeNode} (h : DecimalRange r) :
    (SmallRange r → ∃ v, oneRange r.lo r.hi = some v ∧ RangeIs r v) ∧ (¬ SmallRange r → oneRange r.lo r.hi = none) := by
  obtain ⟨⟨a, ha⟩, hb⟩ := h
  obtain ⟨lo, hi⟩ := r
  unfold SmallRange RangeIs oneRange
  dsimp only at ha hb ⊢
  rw [parseInt10_decimal ha, smallDecimal_iff ha]
  by_cases hlt : a < 2 ^ 31
  · simp only [hlt, true_and, if_true]
    cases hi with
    | single =>
      constructor
      · intro _; exact ⟨_, rfl, ⟨a, ha, rfl⟩, rfl⟩
      · intro h; exact absurd (fun s hs => by cases hs) h
    | max =>
      constructor
      · intro _; exact ⟨_, rfl, ⟨a, ha, rfl⟩, rfl⟩
      · intro h; exact absurd (fun s hs => by cases hs) h
    | lit s =>
      obtain ⟨b, hb⟩ := hb s rfl
      dsimp only
      rw [parseInt10_decimal hb]
      by_cases hlb : b < 2 ^ 31
      · simp only [hlb, if_true]
        constructor
        · intro _; exact ⟨_, rfl, ⟨a, ha, rfl⟩, b, hb, rfl⟩
        · intro h; exact absurd (fun s' hs => by cases hs; exact ⟨b, hb, hlb⟩) h
      · simp only [hlb, if_false]
        constructor
        · intro h; exact absurd ((smallDecimal_iff hb).1 (h s rfl)) hlb
        · intro _; trivial
  · simp only [hlt, false_and, if_false, not_false_eq_true, true_implies]
    exact ⟨fun h => h.elim, trivial⟩

theorem reservedRanges_ends : ∀ (rr : List RangeNode), (∀ r ∈ rr, DecimalRange r) →
    Ends (∀ r ∈ rr, SmallRange r) (reservedRanges rr) (All2 RangeIs rr)
  | [], _ => .pure (by simp) .nil
  | r :: rr, h => by
    obtain ⟨h1, h2⟩ := oneRange_ends (h r (List.mem_cons_self ..))
    rw [reservedRanges]
    by_cases hs : SmallRange r
    · obtain ⟨v, hv, hr⟩ := h1 hs
      rw [hv]
      refine (reservedRanges_ends rr (fun x hx => h x (List.mem_cons_of_mem _ hx))).bind (P2 := True) (fun a ha => .pure trivial ?_) ?_
      · exact .cons hr ha
      · simp [hs]
    · rw [h2 hs]
      exact .fail (fun h => hs (h r (List.mem_cons_self ..)))

theorem options_iff {n a b c d v e p x i t f : Str} (ab : a ≠ b) (ac : a ≠ c) (ad : a ≠ d) (bc : b ≠ c) (bd : b ≠ d) :
    ((n = a → v = e ∨ v = p) ∧ (n = b → v = x ∨ v = i) ∧ (n = c ∨ n = d → v = t ∨ v = f)) ↔
      (if n = a then decide (v = e) || decide (v = p) else if n = b then decide (v = x) || decide (v = i)
        else if decide (n = c) || decide (n = d) then decide (v = t) || decide (v = f) else true) = true := by
  by_cases h1 : n = a
  · subst h1; simp [ab, ac, ad]
  · by_cases h2 : n = b
    · subst h2; simp [h1, bc, bd]
    · by_cases h3 : n = c ∨ n = d
      · have : (decide (n = c) || decide (n = d)) = true := by simpa using h3
        simp only [h1, h2, h3, this, if_true, if_false, false_implies, true_implies, true_and, Bool.or_eq_true, decide_eq_true_eq]
      · have : (decide (n = c) || decide (n = d)) = false := by simpa using h3
        simp [h1, h2, h3, this]

theorem verifyOption_iff {o : OptionNode} {v : Str} (hv : o.value = some v) : GoodOption o ↔ verifyOption o.name v = true := by
  unfold GoodOption verifyOption
  rw [hv]
  simp only [ne_eq, reduceCtorEq, not_false_eq_true, true_and, Option.some.injEq]
  exact options_iff (by decide) (by decide) (by decide) (by decide) (by decide)

theorem exitOption_ends {s : LState} {parent : Parent} {o : OptionNode} {Q : LState → Prop}
    (h : ∀ v, o.value = some v → ∃ s', addOption s parent (o.name, v) = .ok s' ∧ Q s') : Ends (GoodOption o) (exitOption s parent o) Q := by
  unfold exitOption
  cases hv : o.value with
  | none => exact .fail (fun h => h.1 hv)
  | some v =>
    dsimp only
    cases hk : verifyOption o.name v with
    | false => exact .fail (fun h => by rw [verifyOption_iff hv, hk] at h; cases h)
    | true =>
      obtain ⟨s', h1, h2⟩ := h v hv
      rw [if_neg (by simp), h1]
      exact .pure ((verifyOption_iff hv).2 hk) h2

/-! ## Changing an element -/

theorem updateAt_ok {α : Type} {i : Nat} {g : α → LRes α} {xs : List α} {x y : α} (h : xs[i]? = some x) (hg : g x = .ok y) :
    updateAt i g xs = .ok (xs.set i y) := by
  rw [updateAt, h]
  dsimp only
  rw [hg]; rfl

theorem updateLast_ok {α : Type} {g : α → LRes α} {xs : List α} {x y : α} (hg : g x = .ok y) : updateLast g (xs ++ [x]) = .ok (xs ++ [y]) := by
  rw [updateLast, updateAt_ok (x := x) (y := y) (by simp) hg]
  simp

theorem updateAt_pure {α : Type} {i : Nat} {g : α → α} {xs : List α} {x : α} (h : xs[i]? = some x) :
    updateAt i (fun x => .ok (g x)) xs = .ok (xs.set i (g x)) := updateAt_ok h rfl

theorem updateLast_pure {α : Type} {g : α → α} {xs : List α} {x : α} : updateLast (fun x => .ok (g x)) (xs ++ [x]) = .ok (xs ++ [g x]) :=
  updateLast_ok rfl

theorem updateMsg_pure {s : LState} {g : MsgRec → MsgRec} {i : Nat} {st : List Nat} {r : MsgRec} (hs : s.msgstack = i :: st)
    (h : s.msgStore[i]? = some r) : updateMsg s (fun m => .ok (g m)) = .ok { s with msgStore := s.msgStore.set i (g r) } := by
  rw [updateMsg, hs]
  dsimp only
  rw [updateAt_pure h]; rfl

theorem updateMsg_ok {s : LState} {g : MsgRec → LRes MsgRec} {i : Nat} {st : List Nat} {r r' : MsgRec} (hs : s.msgstack = i :: st)
    (h : s.msgStore[i]? = some r) (hg : g r = .ok r') : updateMsg s g = .ok { s with msgStore := s.msgStore.set i r' } := by
  rw [updateMsg, hs]
  dsimp only
  rw [updateAt_ok h hg]; rfl

theorem updateEnum_ok {s : LState} {g : EnumDecl → EnumDecl} {i : Nat} {d : EnumDecl} {p : Option Nat} (hs : s.enum = some i)
    (h : s.enumStore[i]? = some ⟨d, p⟩) : updateEnum s g = .ok { s with enumStore := s.enumStore.set i ⟨g d, p⟩ } := by
  rw [updateEnum, hs]
  dsimp only
  rw [updateAt_pure h]; rfl

theorem getElem?_set_same {α : Type} {xs : List α} {i : Nat} {x y : α} (h : xs[i]? = some x) : (xs.set i y)[i]? = some y := by
  obtain ⟨hlt, _⟩ := List.getElem?_eq_some_iff.1 h
  simp [hlt]

/-! ## Enums -/

/-- The elements were added. -/
def EnumGrown (es : List EnumElem) (d d' : EnumDecl) : Prop :=
  d'.name = d.name ∧ d'.directives = d.directives ∧ (∃ fs, d'.fields = d.fields ++ fs ∧ All2 ValueIs (enumValues es) fs) ∧
    (∃ oo, d'.options = d.options ++ oo ∧ OptionsAre (enumOptions es) oo) ∧ ∃ rr, d'.reserved = d.reserved ++ rr ∧ All2 RangeIs (enumRanges es) rr

theorem enumValues_cons (e : EnumElem) (es : List EnumElem) : enumValues (e :: es) = enumValues [e] ++ enumValues es := by
  cases e <;> simp [enumValues]

theorem enumOptions_cons (e : EnumElem) (es : List EnumElem) : enumOptions (e :: es) = enumOptions [e] ++ enumOptions es := by
  cases e <;> simp [enumOptions]

theorem enumRanges_cons (e : EnumElem) (es : List EnumElem) : enumRanges (e :: es) = enumRanges [e] ++ enumRanges es := by
  cases e <;> simp [enumRanges]

theorem EnumGrown.trans {e : EnumElem} {es : List EnumElem} {d d1 d2 : EnumDecl} (h1 : EnumGrown [e] d d1) (h2 : EnumGrown es d1 d2) :
    EnumGrown (e :: es) d d2 := by
  obtain ⟨a1, b1, ⟨f1, c1, m1⟩, ⟨o1, p1, q1⟩, r1, s1, t1⟩ := h1
  obtain ⟨a2, b2, ⟨f2, c2, m2⟩, ⟨o2, p2, q2⟩, r2, s2, t2⟩ := h2
  refine ⟨a2.trans a1, b2.trans b1, ⟨f1 ++ f2, ?_, ?_⟩, ⟨o1 ++ o2, ?_, ?_⟩, r1 ++ r2, ?_, ?_⟩
  · rw [c2, c1, List.append_assoc]
  · rw [enumValues_cons]; exact all2_append m1 m2
  · rw [p2, p1, List.append_assoc]
  · rw [enumOptions_cons]; exact optionsAre_append q1 q2
  · rw [s2, s1, List.append_assoc]
  · rw [enumRanges_cons]; exact all2_append t1 t2

theorem EnumGrown.same {es : List EnumElem} {d : EnumDecl} (h1 : enumValues es = []) (h2 : enumOptions es = []) (h3 : enumRanges es = []) :
    EnumGrown es d d :=
  ⟨rfl, rfl, ⟨[], by simp, by rw [h1]; exact .nil⟩, ⟨[], by simp, by rw [h2]; exact optionsAre_nil⟩, [], by simp, by rw [h3]; exact .nil⟩

theorem enumElem_ends {e : EnumElem} {s : LState} {i : Nat} {d : EnumDecl} {p : Option Nat} (hs : s.enum = some i)
    (h : s.enumStore[i]? = some ⟨d, p⟩) (hv : ∀ v ∈ enumValues [e], IsNumber v.number) (hr : ∀ r ∈ enumRanges [e], DecimalRange r) :
    Ends (GoodEnumElem e) (run (evEnumElem e) s) (fun s' => ∃ d', s' = { s with enumStore := s.enumStore.set i ⟨d', p⟩ } ∧ EnumGrown [e] d d') := by
  have same : s = { s with enumStore := s.enumStore.set i ⟨d, p⟩ } := by
    have : s.enumStore.set i ⟨d, p⟩ = s.enumStore := by
      obtain ⟨hlt, e⟩ := List.getElem?_eq_some_iff.1 h
      rw [← e]; exact List.set_getElem_self hlt
    rw [this]
  cases e with
  | option o =>
    rw [evEnumElem, run_one]
    refine exitOption_ends (fun v hv => ⟨_, by rw [addOption, updateEnum_ok hs h], _, rfl, ?_⟩)
    exact ⟨rfl, rfl, ⟨[], by simp, .nil⟩, ⟨_, rfl, optionsAre_one hv⟩, [], by simp, .nil⟩
  | value v =>
    rw [evEnumElem, run_one]
    simp only [step, exitEnumField, enumValue]
    obtain ⟨n, hn⟩ := hv v (by simp [enumValues])
    rw [unmarshalI32_lit hn]
    by_cases hlt : n < 2 ^ 31
    · rw [if_pos hlt]
      dsimp only
      refine (bracketOptions_ends v.options).bind (P2 := True) (fun oo hoo => ?_) ?_
      · rw [updateEnum_ok hs h]
        refine .pure trivial ⟨_, rfl, rfl, rfl, ⟨_, rfl, ?_⟩, ⟨[], by simp, optionsAre_nil⟩, [], by simp, .nil⟩
        exact all2_one ⟨rfl, ⟨n, hn, rfl⟩, rfl, hoo⟩
      · simp [GoodEnumElem, small_iff hn, hlt]
    · rw [if_neg hlt]
      exact .fail (fun h => hlt ((small_iff hn).1 h.1))
  | reserved rr =>
    rw [evEnumElem, run_one]
    simp only [step, exitReservedStmt]
    refine (reservedRanges_ends rr (by simpa [enumRanges] using hr)).bind (P2 := True) (fun x hx => ?_) (by simp [GoodEnumElem])
    rw [updateEnum_ok hs h]
    refine .pure trivial ⟨_, rfl, rfl, rfl, ⟨[], by simp, .nil⟩, ⟨[], by simp, optionsAre_nil⟩, x, rfl, ?_⟩
    simpa [enumRanges] using hx
  | reservedNames ss =>
    rw [evEnumElem, run_one]
    exact .pure trivial ⟨d, same, .same rfl rfl rfl⟩
  | empty => exact .pure trivial ⟨d, same, .same rfl rfl rfl⟩

theorem enumElems_ends : ∀ (es : List EnumElem) {s : LState} {i : Nat} {d : EnumDecl} {p : Option Nat}, s.enum = some i →
    s.enumStore[i]? = some ⟨d, p⟩ → (∀ v ∈ enumValues es, IsNumber v.number) → (∀ r ∈ enumRanges es, DecimalRange r) →
    Ends (∀ x ∈ es, GoodEnumElem x) (run (es.flatMap evEnumElem) s)
      (fun s' => ∃ d', s' = { s with enumStore := s.enumStore.set i ⟨d', p⟩ } ∧ EnumGrown es d d')
  | [], s, i, d, p, hs, h, _, _ => by
    refine .pure (by simp) ⟨d, ?_, .same rfl rfl rfl⟩
    have : s.enumStore.set i ⟨d, p⟩ = s.enumStore := by
      obtain ⟨hlt, e⟩ := List.getElem?_eq_some_iff.1 h
      rw [← e]; exact List.set_getElem_self hlt
    rw [this]
  | e :: es, s, i, d, p, hs, h, hv, hr => by
    rw [List.flatMap_cons]
    rw [enumValues_cons] at hv
    rw [enumRanges_cons] at hr
    refine (enumElem_ends hs h (fun v hm => hv v (List.mem_append_left _ hm)) (fun v hm => hr v (List.mem_append_left _ hm))).append
      (P2 := ∀ x ∈ es, GoodEnumElem x) ?_ (by simp)
    rintro s1 ⟨d1, rfl, g1⟩
    refine (enumElems_ends es (s := { s with enumStore := s.enumStore.set i ⟨d1, p⟩ }) (i := i) (d := d1) (p := p) hs (getElem?_set_same h) (fun v hm => hv v (List.mem_append_right _ hm))
      (fun v hm => hr v (List.mem_append_right _ hm))).mono Iff.rfl ?_
    rintro s2 ⟨d2, rfl, g2⟩
    exact ⟨d2, by simp [List.set_set], g1.trans g2⟩

/-- The enum after the calls for it, when `pre` is the effect of `enterEnum`. -/
theorem enum_ends {n : EnumNode} {parent : Parent} {s t : LState} {p : Option Nat}
    (he : enterEnum s parent n.name n.directives = .ok { t with
      enumStore := s.enumStore ++ [⟨{ name := n.name, fields := [], directives := n.directives }, p⟩], enum := some s.enumStore.length })
    (hv : ∀ v ∈ enumValues n.elems, IsNumber v.number) (hr : ∀ r ∈ enumRanges n.elems, DecimalRange r) :
    Ends (∀ x ∈ n.elems, GoodEnumElem x) (run (evEnum parent n) s)
      (fun s' => ∃ d, s' = { t with enumStore := s.enumStore ++ [⟨d, p⟩], enum := none } ∧ EnumIs n d) := by
  rw [evEnum, run_cons]
  simp only [step]
  rw [he]
  show Ends _ (run _ _) _
  refine Ends.append (P2 := True) (enumElems_ends n.elems (i := s.enumStore.length)
    (d := { name := n.name, fields := [], directives := n.directives }) (p := p) rfl (by simp) hv hr) ?_ (by simp)
  rintro s1 ⟨d, rfl, a, b, ⟨fs, c1, c2⟩, ⟨oo, o1, o2⟩, rr, r1, r2⟩
  rw [run_one]
  refine .pure trivial ⟨d, by simp, a, b, ?_, ?_, ?_⟩
  · rw [c1]; simpa using c2
  · rw [o1]; simpa using o2
  · rw [r1]; simpa using r2

/-! ## Oneofs -/

theorem oneofElems_ends : ∀ (es : List OneofElem) {s : LState} {i : Nat} {st : List Nat} {r : MsgRec} {os : List OneofRec} {o : OneofRec},
    s.msgstack = i :: st → s.msgStore[i]? = some r → r.oneofs = os ++ [o] → (∀ f ∈ oneofFields es, IsNumber f.number) →
    Ends (∀ x ∈ es, GoodOneofElem x) (run (es.flatMap evOneofElem) s)
      (fun s' => ∃ fs oo, s' = { s with msgStore := s.msgStore.set i { r with fields := r.fields ++ fs, oneofs := os ++ [{ o with
            options := o.options ++ oo, fields := o.fields ++ List.range' r.fields.length (oneofFields es).length }] } } ∧
        All2 FieldIs ((oneofFields es).map fun f => (none, f, some os.length)) fs ∧ OptionsAre (oneofOptions es) oo)
  | [], s, i, st, r, os, o, hs, h, ho, _ => by
    refine .pure (by simp) ⟨[], [], ?_, .nil, optionsAre_nil⟩
    have : s.msgStore.set i r = s.msgStore := by
      obtain ⟨hlt, e⟩ := List.getElem?_eq_some_iff.1 h
      rw [← e]; exact List.set_getElem_self hlt
    simp [oneofFields, ← ho, this]
  | .empty :: es, s, i, st, r, os, o, hs, h, ho, hn => by
    refine (oneofElems_ends es hs h ho hn).mono (by simp [GoodOneofElem]) ?_
    exact fun _ h => h
  | .option x :: es, s, i, st, r, os, o, hs, h, ho, hn => by
    rw [List.flatMap_cons]
    refine Ends.append (P1 := GoodOption x) (P2 := ∀ x ∈ es, GoodOneofElem x) (Q1 := fun s1 => ∃ v, x.value = some v ∧
      s1 = { s with msgStore := s.msgStore.set i { r with oneofs := os ++ [{ o with options := o.options ++ [(x.name, v)] }] } }) ?_ ?_
      (by simp [GoodOneofElem])
    · rw [evOneofElem, run_one]
      refine exitOption_ends (fun v hv => ⟨_, ?_, v, hv, rfl⟩)
      simp only [addOption]
      refine updateMsg_ok hs h ?_
      rw [ho, updateLast_pure]; rfl
    · rintro s1 ⟨v, hv, rfl⟩
      refine (oneofElems_ends es (s := { s with msgStore := s.msgStore.set i _ }) (i := i) hs (getElem?_set_same h) rfl hn).mono Iff.rfl ?_
      rintro s2 ⟨fs, oo, rfl, hf, hoo⟩
      refine ⟨fs, (x.name, v) :: oo, ?_, hf, ?_⟩
      · simp [List.set_set, oneofFields]
      · exact optionsAre_append (a := [x]) (optionsAre_one hv) hoo
  | .field f :: es, s, i, st, r, os, o, hs, h, ho, hn => by
    rw [List.flatMap_cons]
    refine Ends.append (P1 := GoodField f) (P2 := ∀ x ∈ es, GoodOneofElem x) (Q1 := fun s1 => ∃ d, FieldIs (none, f, some os.length) d ∧
      s1 = { s with msgStore := s.msgStore.set i { r with fields := r.fields ++ [d],
                                                          oneofs := os ++ [{ o with fields := o.fields ++ [r.fields.length] }] } }) ?_ ?_
      (by simp [GoodOneofElem])
    · rw [evOneofElem, run_one]
      simp only [step, exitOneofField]
      refine (newField_ends (hn f (by simp [oneofFields]))).bind (P2 := True) (fun d hd => ?_) (by simp)
      rw [updateMsg_ok hs h (r' := { r with fields := r.fields ++ [{ d with oneof := some os.length }],
                                            oneofs := os ++ [{ o with fields := o.fields ++ [r.fields.length] }] }) (by
        rw [ho, updateLast_pure]
        simp [pure, Except.pure, bind, Except.bind])]
      exact .pure trivial ⟨{ d with oneof := some os.length }, ⟨hd.1, hd.2.1, hd.2.2.1, hd.2.2.2.1, hd.2.2.2.2.1, hd.2.2.2.2.2.1, rfl, hd.2.2.2.2.2.2.2⟩, rfl⟩
    · rintro s1 ⟨d, hd, rfl⟩
      refine (oneofElems_ends es (s := { s with msgStore := s.msgStore.set i _ }) (i := i) hs (getElem?_set_same h) rfl (fun g hg => hn g (by simp [oneofFields, hg]))).mono Iff.rfl ?_
      rintro s2 ⟨fs, oo, rfl, hf, hoo⟩
      refine ⟨d :: fs, oo, ?_, .cons hd hf, hoo⟩
      simp [List.set_set, oneofFields, List.range'_succ]

end Verif.Props.Gen
