import Verif.Spec.Gen.Scope
import Verif.Spec.Gen.Declared
/-!
# C55: type names refer to the declaration the scoping rules choose
-/
namespace Verif.Props
open Verif.Model.Gen Verif.Spec.Gen

namespace Gen

/-! ## Names as lists of identifiers -/

theorem trimPath_iff : ∀ (a b t : Str), trimPathPrefix a b = some t ↔ a = b ++ '.' :: t
  | [], [], t => by simp [trimPathPrefix]
  | [], y :: b, t => by simp [trimPathPrefix]
  | x :: a, [], t => by
    by_cases h : x = '.'
    · subst h; simp [trimPathPrefix]
    · have : trimPathPrefix (x :: a) [] = none := by
        unfold trimPathPrefix
        split <;> simp_all
      simp [this, h]
  | x :: a, y :: b, t => by
    have e : trimPathPrefix (x :: a) (y :: b) = if x = y then trimPathPrefix a b else none := by
      conv => lhs; unfold trimPathPrefix
      split <;> simp_all
    rw [e]
    split
    · rename_i h
      subst h
      rw [trimPath_iff a b t]
      simp
    · rename_i h
      simp [h]

theorem cut_first {a b x y : Str} (ha : '.' ∉ a) (hb : '.' ∉ b) (h : a ++ '.' :: x = b ++ '.' :: y) : a = b ∧ x = y := by
  induction a generalizing b with
  | nil =>
    cases b with
    | nil => simpa using h
    | cons c b =>
      simp only [List.nil_append, List.cons_append, List.cons.injEq] at h
      exact absurd (by rw [← h.1]; simp) hb
  | cons c a ih =>
    cases b with
    | nil =>
      simp only [List.nil_append, List.cons_append, List.cons.injEq] at h
      exact absurd (by rw [h.1]; simp) ha
    | cons d b =>
      simp only [List.cons_append, List.cons.injEq] at h
      obtain ⟨e1, e2⟩ := ih (fun h => ha (List.mem_cons_of_mem _ h)) (fun h => hb (List.mem_cons_of_mem _ h)) h.2
      exact ⟨by rw [h.1, e1], e2⟩

theorem joinDots_cons {a : Str} {l : List Str} (h : l ≠ []) : joinDots (a :: l) = a ++ '.' :: joinDots l := by
  cases l with
  | nil => exact absurd rfl h
  | cons b l => rfl

theorem joinDots_append : ∀ {p l : List Str}, p ≠ [] → l ≠ [] → joinDots (p ++ l) = joinDots p ++ '.' :: joinDots l
  | [], _, h, _ => absurd rfl h
  | [a], l, _, hl => by rw [List.singleton_append, joinDots_cons hl]; rfl
  | a :: b :: p, l, _, hl => by
    have ih := joinDots_append (p := b :: p) (l := l) (by simp) hl
    rw [List.cons_append, joinDots_cons (a := a) (by simp), ih, joinDots_cons (a := a) (l := b :: p) (by simp)]
    simp

theorem joinDots_inj : ∀ {a b : List Str}, (∀ s ∈ a, Ident s) → (∀ s ∈ b, Ident s) → joinDots a = joinDots b → a = b
  | [], [], _, _, _ => rfl
  | [], [y], _, hb, h => absurd h.symm (hb y (by simp)).1
  | [], y :: z :: b, _, hb, h => by
    rw [joinDots_cons (a := y) (by simp)] at h
    have := congrArg List.length h
    simp [joinDots] at this
  | [x], [], ha, _, h => absurd h (ha x (by simp)).1
  | x :: z :: a, [], ha, _, h => by
    rw [joinDots_cons (a := x) (by simp)] at h
    have := congrArg List.length h
    simp [joinDots] at this
  | [x], [y], _, _, h => by rw [show x = y from h]
  | [x], y :: z :: b, ha, _, h => by
    rw [joinDots_cons (a := y) (by simp)] at h
    have : x = y ++ '.' :: joinDots (z :: b) := h
    exact absurd (by rw [this]; simp) (ha x (by simp)).2
  | x :: z :: a, [y], _, hb, h => by
    rw [joinDots_cons (a := x) (by simp)] at h
    have : y = x ++ '.' :: joinDots (z :: a) := h.symm
    exact absurd (by rw [this]; simp) (hb y (by simp)).2
  | x :: z :: a, y :: w :: b, ha, hb, h => by
    rw [joinDots_cons (a := x) (by simp), joinDots_cons (a := y) (by simp)] at h
    obtain ⟨e1, e2⟩ := cut_first (ha x (by simp)).2 (hb y (by simp)).2 h
    have := joinDots_inj (a := z :: a) (b := w :: b) (fun s hs => ha s (List.mem_cons_of_mem _ hs)) (fun s hs => hb s (List.mem_cons_of_mem _ hs)) e2
    rw [e1, this]

/-- Cutting off one identifier. -/
theorem trim_ident {n : Str} {name : List Str} {t : Str} (hn : Ident n) (hi : ∀ s ∈ name, Ident s) :
    trimPathPrefix (joinDots name) n = some t ↔ ∃ rest, rest ≠ [] ∧ name = n :: rest ∧ t = joinDots rest := by
  rw [trimPath_iff]
  constructor
  · intro h
    match name, hi, h with
    | [], _, h => simp [joinDots] at h
    | [a], hi, h =>
      have : a = n ++ '.' :: t := h
      exact absurd (by rw [this]; simp) (hi a (by simp)).2
    | a :: b :: rest, hi, h =>
      rw [joinDots_cons (by simp)] at h
      obtain ⟨e1, e2⟩ := cut_first (hi a (by simp)).2 hn.2 h
      exact ⟨b :: rest, by simp, by rw [e1], e2.symm⟩
  · rintro ⟨rest, h1, h2, h3⟩
    subst h2 h3
    exact joinDots_cons h1

/-- Cutting off a package. -/
theorem trim_pkg : ∀ {ps name : List Str} {t : Str}, (∀ s ∈ ps, Ident s) → (∀ s ∈ name, Ident s) →
    (trimPathPrefix (joinDots name) (joinDots ps) = some t ↔ ps ≠ [] ∧ ∃ rest, rest ≠ [] ∧ name = ps ++ rest ∧ t = joinDots rest)
  | [], name, t, _, hi => by
    rw [trimPath_iff]
    simp only [joinDots, List.nil_append, ne_eq, not_true_eq_false, false_and, iff_false]
    intro h
    match name, hi, h with
    | [], _, h => simp [joinDots] at h
    | [a], hi, h =>
      have : a = '.' :: t := h
      exact absurd (by rw [this]; simp) (hi a (by simp)).2
    | a :: b :: rest, hi, h =>
      rw [joinDots_cons (by simp)] at h
      have ha := hi a (by simp)
      cases a with
      | nil => exact ha.1 rfl
      | cons c a =>
        simp only [List.cons_append, List.cons.injEq] at h
        exact ha.2 (by rw [h.1]; simp)
  | [p], name, t, hp, hi => by
    have := trim_ident (n := p) (name := name) (t := t) (hp p (by simp)) hi
    simp only [joinDots, ne_eq, reduceCtorEq, not_false_eq_true, true_and, List.singleton_append]
    exact this
  | p :: q :: ps, name, t, hp, hi => by
    rw [trimPath_iff]
    constructor
    · intro h
      refine ⟨by simp, ?_⟩
      rw [joinDots_cons (by simp), List.append_assoc, List.cons_append] at h
      have h1 := (trim_ident (n := p) (name := name) (hp p (by simp)) hi).1 ((trimPath_iff _ _ _).2 h)
      obtain ⟨rest, h2, h3, h4⟩ := h1
      subst h3
      have ih := (trim_pkg (ps := q :: ps) (name := rest) (t := t) (fun s hs => hp s (List.mem_cons_of_mem _ hs)) (fun s hs => hi s (List.mem_cons_of_mem _ hs))).1
        ((trimPath_iff _ _ _).2 h4.symm)
      obtain ⟨_, r, h5, h6, h7⟩ := ih
      exact ⟨r, h5, by rw [h6]; rfl, h7⟩
    · rintro ⟨_, rest, h1, h2, h3⟩
      subst h2 h3
      exact joinDots_append (by simp) h1

/-! ## Messages -/

theorem declares_ne {ms : List MsgDecl} {es : List EnumDecl} {p : List Str} {k : Bool} (h : Declares ms es p k) : p ≠ [] := by
  cases h <;> simp

/-- All declared names are identifiers. -/
def Idents (ms : List MsgDecl) (es : List EnumDecl) : Prop := ∀ p k, Declares ms es p k → ∀ s ∈ p, Ident s

theorem idents_nested {ms : List MsgDecl} {es : List EnumDecl} {m : MsgDecl} (h : Idents ms es) (hm : m ∈ ms) : Idents m.messages m.enums :=
  fun p k hd s hs => h _ k (.nested hm hd) s (List.mem_cons_of_mem _ hs)

theorem declares_mono {ms ms' : List MsgDecl} {es es' : List EnumDecl} {p : List Str} {k : Bool} (h : Declares ms es p k) (h1 : ∀ m ∈ ms, m ∈ ms')
    (h2 : ∀ e ∈ es, e ∈ es') : Declares ms' es' p k := by
  cases h with
  | enum h => exact .enum (h2 _ h)
  | msg h => exact .msg (h1 _ h)
  | nested h hd => exact .nested (h1 _ h) hd

theorem enum_any {es : List EnumDecl} {n : Str} : (es.any fun e => e.name = n) = true ↔ ∃ e ∈ es, e.name = n := by
  simp [List.any_eq_true]

mutual
theorem msg_sound {f : Nat} : ∀ {outer : List Str} {m : MsgDecl} {name : List Str} {r : Ref}, Idents [m] [] → name ≠ [] → (∀ s ∈ name, Ident s) →
    msgGetType f outer m (joinDots name) = some r → ∃ k, r = ⟨k, f, outer ++ name⟩ ∧ Declares [m] [] name k
  | outer, .mk n enums messages a b c d e, name, r, hid, hne, hi, h => by
    have hn : Ident n := hid [n] false (.msg (m := .mk n enums messages a b c d e) (by simp)) n (by simp)
    unfold msgGetType at h
    split at h
    · rename_i hh
      have : [n] = name := joinDots_inj (by simpa using hn) hi hh
      subst this
      simp only [Option.some.injEq] at h
      exact ⟨false, h.symm, .msg (m := .mk n enums messages a b c d e) (by simp)⟩
    · split at h
      · cases h
      · rename_i t ht
        obtain ⟨rest, h1, h2, h3⟩ := (trim_ident hn hi).1 ht
        subst h2 h3
        have hi' : ∀ s ∈ rest, Ident s := fun s hs => hi s (List.mem_cons_of_mem _ hs)
        split at h
        · rename_i he
          obtain ⟨e', he1, he2⟩ := enum_any.1 he
          have hd : Declares [.mk n enums messages a b c d e] [] [n, e'.name] true :=
            .nested (m := .mk n enums messages a b c d e) (by simp) (.enum he1)
          have := joinDots_inj (a := [e'.name]) (b := rest) (fun s hs => hid _ _ hd s (List.mem_cons_of_mem _ hs)) hi' he2
          subst this
          simp only [Option.some.injEq] at h
          exact ⟨true, h.symm, hd⟩
        · have hid' : Idents messages [] := fun p k hd => by
            have := idents_nested hid (m := .mk n enums messages a b c d e) (by simp)
            exact this p k (declares_mono hd (fun _ h => h) (by simp))
          obtain ⟨k, e1, hd⟩ := msgs_sound (outer := outer ++ [n]) (ms := messages) hid' h1 hi' h
          refine ⟨k, by rw [e1]; simp, .nested (m := .mk n enums messages a b c d e) (by simp) (declares_mono hd (fun _ h => h) (by simp))⟩
theorem msgs_sound {f : Nat} : ∀ {outer : List Str} {ms : List MsgDecl} {name : List Str} {r : Ref}, Idents ms [] → name ≠ [] → (∀ s ∈ name, Ident s) →
    msgsGetType f outer ms (joinDots name) = some r → ∃ k, r = ⟨k, f, outer ++ name⟩ ∧ Declares ms [] name k
  | _, [], _, _, _, _, _, h => by simp [msgsGetType] at h
  | outer, m :: ms, name, r, hid, hne, hi, h => by
    unfold msgsGetType at h
    split at h
    · rename_i r' hr
      simp only [Option.some.injEq] at h
      subst h
      obtain ⟨k, e, hd⟩ := msg_sound (fun p k hd => hid p k (declares_mono hd (by simp) (by simp))) hne hi hr
      exact ⟨k, e, declares_mono hd (by simp) (by simp)⟩
    · obtain ⟨k, e, hd⟩ := msgs_sound (ms := ms) (fun p k hd => hid p k (declares_mono hd (fun _ h => List.mem_cons_of_mem _ h) (by simp))) hne hi h
      exact ⟨k, e, declares_mono hd (fun _ h => List.mem_cons_of_mem _ h) (by simp)⟩
end

mutual
theorem msg_complete {f : Nat} : ∀ {outer : List Str} {m : MsgDecl} {name : List Str} {k : Bool}, Idents [m] [] → Declares [m] [] name k →
    (msgGetType f outer m (joinDots name)).isSome
  | outer, .mk n enums messages a b c d e, name, k, hid, hd => by
    have hn : Ident n := hid [n] false (.msg (m := .mk n enums messages a b c d e) (by simp)) n (by simp)
    have hi := hid _ _ hd
    unfold msgGetType
    cases hd with
    | enum h => cases h
    | msg h =>
      rw [List.mem_singleton.1 h]
      split
      · rfl
      · rename_i hh
        exact absurd rfl hh
    | nested h hd =>
      rename_i m' path
      have em := List.mem_singleton.1 h
      subst em
      have hp := declares_ne hd
      have ht := (trim_ident (name := n :: path) hn hi).2 ⟨path, hp, rfl, rfl⟩
      split
      · rfl
      · show (match trimPathPrefix (joinDots (n :: path)) n with
          | none => none
          | some rest => _).isSome = true
        rw [ht]
        dsimp only
        split
        · rfl
        · rename_i hno
          have hid' : Idents messages [] := fun p k hd => by
            have := idents_nested hid (m := .mk n enums messages a b c d e) (by simp)
            exact this p k (declares_mono hd (fun _ h => h) (by simp))
          cases hd with
          | enum he => exact absurd (enum_any.2 ⟨_, he, rfl⟩) hno
          | msg hm => exact msgs_complete hid' (.msg hm)
          | nested hm hd => exact msgs_complete hid' (.nested hm hd)
theorem msgs_complete {f : Nat} : ∀ {outer : List Str} {ms : List MsgDecl} {name : List Str} {k : Bool}, Idents ms [] → Declares ms [] name k →
    (msgsGetType f outer ms (joinDots name)).isSome
  | _, [], _, _, _, hd => by
    cases hd with
    | enum h => cases h
    | msg h => cases h
    | nested h _ => cases h
  | outer, m :: ms, name, k, hid, hd => by
    unfold msgsGetType
    have split_hd : Declares [m] [] name k ∨ Declares ms [] name k := by
      cases hd with
      | enum h => cases h
      | msg h =>
        cases h with
        | head => exact .inl (.msg (by simp))
        | tail _ h => exact .inr (.msg h)
      | nested h hd =>
        cases h with
        | head => exact .inl (.nested (by simp) hd)
        | tail _ h => exact .inr (.nested h hd)
    split
    · rfl
    · rename_i hnone
      rcases split_hd with h | h
      · have := msg_complete (f := f) (outer := outer) (fun p k hd => hid p k (declares_mono hd (by simp) (by simp))) h
        rw [hnone] at this
        cases this
      · exact msgs_complete (fun p k hd => hid p k (declares_mono hd (fun _ h => List.mem_cons_of_mem _ h) (by simp))) h
end

/-- A whole file, or the inside of a message: enums and messages. -/
theorem declares_split {ms : List MsgDecl} {es : List EnumDecl} {name : List Str} {k : Bool} (h : Declares ms es name k) :
    (∃ e ∈ es, name = [e.name] ∧ k = true) ∨ Declares ms [] name k := by
  cases h with
  | enum h => exact .inl ⟨_, h, rfl, rfl⟩
  | msg h => exact .inr (.msg h)
  | nested h hd => exact .inr (.nested h hd)

theorem idents_weaken {ms : List MsgDecl} {es : List EnumDecl} (h : Idents ms es) : Idents ms [] :=
  fun p k hd => h p k (declares_mono hd (fun _ h => h) (by simp))

/-- The first name of a longer path is a message. -/
theorem declares_head {ms : List MsgDecl} {es : List EnumDecl} {s : Str} {name : List Str} {k : Bool} (hne : name ≠ []) (h : Declares ms es (s :: name) k) :
    Declares ms es [s] false := by
  cases h with
  | enum h => exact absurd rfl hne
  | msg h => exact absurd rfl hne
  | nested h hd => exact .msg h

/-- Any prefix of a path but the whole is a message. -/
theorem declares_prefix : ∀ {p : List Str} {ms : List MsgDecl} {es : List EnumDecl} {name : List Str} {k : Bool}, p ≠ [] → name ≠ [] →
    Declares ms es (p ++ name) k → Declares ms es p false
  | [], _, _, _, _, h, _, _ => absurd rfl h
  | [s], _, _, _, _, _, hne, hd => declares_head hne hd
  | s :: t :: p, ms, es, name, k, _, hne, hd => by
    generalize e : s :: t :: p ++ name = q at hd
    cases hd with
    | enum h => simp at e
    | msg h => simp at e
    | nested h hd =>
      rw [List.cons_append, List.cons.injEq] at e
      obtain ⟨e1, e2⟩ := e
      subst e1
      rw [← e2] at hd
      exact .nested h (declares_prefix (p := t :: p) (by simp) hne hd)

/-! ## The messages around -/

theorem within_step {ms : List MsgDecl} {x m : MsgDecl} (h : Within ms x) (hm : m ∈ x.messages) : Within ms m := by
  induction h with
  | here h => exact .deeper h (.here hm)
  | deeper h _ ih => exact .deeper h (ih hm)

theorem around_within {ms : List MsgDecl} {outer : List Str} {x : MsgDecl} {rest : List (List Str × MsgDecl)} (h : Around ms ((outer, x) :: rest)) :
    Within ms x := by
  generalize e : (outer, x) :: rest = c at h
  induction h generalizing outer x rest with
  | top hm =>
    simp only [List.cons.injEq, Prod.mk.injEq] at e
    rw [e.1.2]
    exact .here hm
  | inner h hm ih =>
    simp only [List.cons.injEq, Prod.mk.injEq] at e
    rw [e.1.2]
    exact within_step (ih rfl) hm

/-- What is declared inside a message that is around. -/
theorem around_declares {ms : List MsgDecl} {es : List EnumDecl} (hnt : NoTwinsIn ms) {outer : List Str} {x : MsgDecl}
    {rest : List (List Str × MsgDecl)} (h : Around ms ((outer, x) :: rest)) {name : List Str} {k : Bool} (hne : name ≠ []) :
    Declares ms es (outer ++ x.name :: name) k ↔ Declares x.messages x.enums name k := by
  generalize e : (outer, x) :: rest = c at h
  induction h generalizing outer x rest name k with
  | top hm =>
    simp only [List.cons.injEq, Prod.mk.injEq] at e
    obtain ⟨⟨e1, e2⟩, e3⟩ := e
    subst e1 e2
    constructor
    · intro hd
      generalize eq : [] ++ x.name :: name = q at hd
      cases hd with
      | enum h => simp at eq; exact absurd eq.2 hne
      | msg h => simp at eq; exact absurd eq.2 hne
      | nested h hd =>
        simp only [List.nil_append, List.cons.injEq] at eq
        rw [hnt.1 _ _ hm h eq.1, eq.2]
        exact hd
    · exact .nested hm
  | inner h hm ih =>
    rename_i m outer' x' rest'
    simp only [List.cons.injEq, Prod.mk.injEq] at e
    obtain ⟨⟨e1, e2⟩, e3⟩ := e
    subst e1 e2
    have := ih (name := x.name :: name) (k := k) (by simp) rfl
    rw [List.append_assoc, List.singleton_append, this]
    constructor
    · intro hd
      generalize eq : x.name :: name = q at hd
      cases hd with
      | enum h => simp at eq; exact absurd eq.2 hne
      | msg h => simp at eq; exact absurd eq.2 hne
      | nested h hd =>
        simp only [List.cons.injEq] at eq
        rw [hnt.2 _ (around_within (by assumption)) _ _ hm h eq.1, eq.2]
        exact hd
    · exact .nested hm

/-- A message that is around is declared. -/
theorem around_self {ms : List MsgDecl} {es : List EnumDecl} {outer : List Str} {x : MsgDecl}
    {rest : List (List Str × MsgDecl)} (h : Around ms ((outer, x) :: rest)) : Declares ms es (outer ++ [x.name]) false ∧
      ∀ name k, Declares x.messages x.enums name k → Declares ms es (outer ++ x.name :: name) k := by
  generalize e : (outer, x) :: rest = c at h
  induction h generalizing outer x rest with
  | top hm =>
    simp only [List.cons.injEq, Prod.mk.injEq] at e
    obtain ⟨⟨e1, e2⟩, e3⟩ := e
    subst e1 e2
    exact ⟨.msg hm, fun name k h => .nested hm h⟩
  | inner h hm ih =>
    simp only [List.cons.injEq, Prod.mk.injEq] at e
    obtain ⟨⟨e1, e2⟩, e3⟩ := e
    subst e1 e2
    obtain ⟨_, h2⟩ := ih rfl
    refine ⟨by rw [List.append_assoc]; exact h2 _ _ (.msg hm), fun name k hd => ?_⟩
    rw [List.append_assoc]
    exact h2 _ _ (.nested hm hd)

/-- What a message finds is what starts with its name. -/
theorem self_declares {x : MsgDecl} {name : List Str} {k : Bool} (h : Declares [x] [] name k) :
    (name = [x.name] ∧ k = false) ∨ ∃ rest, rest ≠ [] ∧ name = x.name :: rest ∧ Declares x.messages x.enums rest k := by
  cases h with
  | enum h => cases h
  | msg h => rw [List.mem_singleton.1 h]; exact .inl ⟨rfl, rfl⟩
  | nested h hd => rw [List.mem_singleton.1 h] at *; exact .inr ⟨_, declares_ne hd, rfl, hd⟩

theorem around_idents {ms : List MsgDecl} {es : List EnumDecl} (hid : Idents ms es) {outer : List Str} {x : MsgDecl}
    {rest : List (List Str × MsgDecl)} (h : Around ms ((outer, x) :: rest)) : Idents x.messages x.enums ∧ Idents [x] [] := by
  have hx : Idents x.messages x.enums := fun p k hd s hs =>
    hid _ _ ((around_self (es := es) h).2 p k hd) s (by simp [hs])
  refine ⟨hx, fun p k hd s hs => ?_⟩
  have hn : Ident x.name := hid _ _ (around_self (es := es) h).1 _ (by simp)
  rcases self_declares hd with ⟨e, _⟩ | ⟨rest, _, e, hd⟩
  · rw [e] at hs; rw [List.mem_singleton.1 hs]; exact hn
  · rw [e] at hs
    cases hs with
    | head => exact hn
    | tail _ hs => exact hx _ _ hd s hs

theorem around_tail {ms : List MsgDecl} {outer : List Str} {x : MsgDecl} {rest : List (List Str × MsgDecl)} (h : Around ms ((outer, x) :: rest)) :
    (rest = [] ∧ outer = []) ∨ (Around ms rest ∧ scopeOf rest = outer) := by
  cases h with
  | top h => exact .inl ⟨rfl, rfl⟩
  | inner h hm => exact .inr ⟨h, rfl⟩

/-- What the search in the messages around finds has the name after one of the scopes. -/
theorem search_sound {f : Nat} {ms : List MsgDecl} {es : List EnumDecl} (hid : Idents ms es) {name : List Str} (hne : name ≠ [])
    (hi : ∀ s ∈ name, Ident s) : ∀ {chain : List (List Str × MsgDecl)} {r : Ref}, Around ms chain → searchMessages f chain (joinDots name) = some r →
    ∃ k j, j ≤ (scopeOf chain).length ∧ r = ⟨k, f, (scopeOf chain).take j ++ name⟩ ∧ Declares ms es r.path k
  | [], _, _, h => by cases h
  | (outer, x) :: rest, r, ha, h => by
    obtain ⟨hx, hx1⟩ := around_idents hid ha
    obtain ⟨a1, a2⟩ := around_self (es := es) ha
    unfold searchMessages at h
    split at h
    · rename_i r' hr
      simp only [Option.some.injEq] at h
      subst h
      obtain ⟨k, e, hd⟩ := msg_sound hx1 hne hi hr
      refine ⟨k, outer.length, by simp [scopeOf], by rw [e]; simp [scopeOf], ?_⟩
      rw [e]
      rcases self_declares hd with ⟨e1, e2⟩ | ⟨rest, _, e1, hd⟩
      · rw [e1, e2]; exact a1
      · rw [e1]; exact a2 _ _ hd
    · split at h
      · rename_i he
        obtain ⟨e', he1, he2⟩ := enum_any.1 he
        have := joinDots_inj (a := [e'.name]) (b := name) (hx _ _ (.enum he1)) hi he2
        subst this
        simp only [Option.some.injEq] at h
        refine ⟨true, outer.length + 1, by simp [scopeOf], ?_, ?_⟩
        · rw [← h, List.take_of_length_le (by simp [scopeOf])]; simp [scopeOf, joinDots]
        · rw [← h]; exact a2 _ _ (.enum he1)
      · split at h
        · rename_i r' hr
          simp only [Option.some.injEq] at h
          subst h
          obtain ⟨k, e, hd⟩ := msgs_sound (idents_weaken hx) hne hi hr
          refine ⟨k, outer.length + 1, by simp [scopeOf], ?_, ?_⟩
          · rw [e, List.take_of_length_le (by simp [scopeOf])]; simp [scopeOf]
          · rw [e, List.append_assoc]; exact a2 _ _ (declares_mono hd (fun _ h => h) (by simp))
        · rcases around_tail ha with ⟨e1, e2⟩ | ⟨ha', e⟩
          · subst e1; cases h
          · obtain ⟨k, j, h1, h2, h3⟩ := search_sound hid hne hi ha' h
            rw [e] at h1 h2
            refine ⟨k, j, by simp [scopeOf]; omega, ?_, h3⟩
            rw [h2]
            simp only [scopeOf]
            rw [List.take_append_of_le_length h1]

/-- The search does not pass over an inner scope. -/
theorem search_complete {f : Nat} {ms : List MsgDecl} {es : List EnumDecl} (hid : Idents ms es) (hnt : NoTwinsIn ms) {name : List Str} (hne : name ≠ [])
    (hi : ∀ s ∈ name, Ident s) : ∀ {chain : List (List Str × MsgDecl)}, Around ms chain →
    (∀ c ∈ chain, name.head? = some c.2.name → ¬ ∃ k, Declares c.2.messages c.2.enums name k) →
    ∀ {j : Nat} {k : Bool}, 0 < j → j ≤ (scopeOf chain).length → Declares ms es ((scopeOf chain).take j ++ name) k →
    ∃ r k' j', searchMessages f chain (joinDots name) = some r ∧ j ≤ j' ∧ j' ≤ (scopeOf chain).length ∧ r = ⟨k', f, (scopeOf chain).take j' ++ name⟩
  | [], _, _, j, _, h0, hj, _ => by simp [scopeOf] at hj; omega
  | (outer, x) :: rest, ha, hself, j, k, h0, hj, hd => by
    obtain ⟨hx, hx1⟩ := around_idents hid ha
    obtain ⟨a1, a2⟩ := around_self (es := es) ha
    have hlen : (scopeOf ((outer, x) :: rest)).length = outer.length + 1 := by simp [scopeOf]
    have hfull : (scopeOf ((outer, x) :: rest)).take (outer.length + 1) = outer ++ [x.name] := by rw [List.take_of_length_le (by omega)]; rfl
    have hlast : j = outer.length + 1 → Declares x.messages x.enums name k := by
      intro e
      subst e
      rw [hfull, List.append_assoc] at hd
      exact (around_declares hnt ha hne).1 hd
    unfold searchMessages
    split
    · rename_i r hr
      obtain ⟨k', e, hd'⟩ := msg_sound hx1 hne hi hr
      have hhead : name.head? = some x.name := by
        rcases self_declares hd' with ⟨e1, e2⟩ | ⟨rest, _, e1, _⟩ <;> rw [e1] <;> rfl
      refine ⟨r, k', outer.length, rfl, ?_, by omega, by rw [e]; simp [scopeOf]⟩
      have : j ≠ outer.length + 1 := fun e => hself (outer, x) (by simp) hhead ⟨k, hlast e⟩
      omega
    · split
      · rename_i he
        obtain ⟨e', he1, he2⟩ := enum_any.1 he
        have := joinDots_inj (a := [e'.name]) (b := name) (hx _ _ (.enum he1)) hi he2
        refine ⟨_, true, outer.length + 1, rfl, by omega, by omega, ?_⟩
        rw [hfull, ← this]
        simp [joinDots]
      · rename_i hnoe
        split
        · rename_i r hr
          obtain ⟨k', e, hd'⟩ := msgs_sound (idents_weaken hx) hne hi hr
          exact ⟨r, k', outer.length + 1, rfl, by omega, by omega, by rw [hfull, e]⟩
        · rename_i hnom
          have hj' : j ≤ outer.length := by
            have : j ≠ outer.length + 1 := fun e => by
              rcases declares_split (hlast e) with ⟨e', h1, h2, _⟩ | h
              · exact hnoe (enum_any.2 ⟨e', h1, by rw [h2]; rfl⟩)
              · have := msgs_complete (f := f) (outer := outer ++ [x.name]) (idents_weaken hx) h
                rw [hnom] at this
                cases this
            omega
          rcases around_tail ha with ⟨e1, e2⟩ | ⟨ha', e⟩
          · rw [e2] at hj'; simp at hj'; omega
          · have htake : ∀ i, i ≤ outer.length → (scopeOf ((outer, x) :: rest)).take i = (scopeOf rest).take i := fun i hi => by
              rw [e]
              simp only [scopeOf]
              rw [List.take_append_of_le_length hi]
            obtain ⟨r, k', j', h1, h2, h3, h4⟩ := search_complete hid hnt hne hi ha' (fun c hc => hself c (List.mem_cons_of_mem _ hc)) (j := j) (k := k) h0
              (by rw [e]; exact hj') (by rw [← htake j hj']; exact hd)
            rw [e] at h3
            exact ⟨r, k', j', h1, h2, by omega, by rw [htake j' h3]; exact h4⟩

/-! ## Files -/

theorem firstRef_some {α β : Type} {get : α → Option β} {r : β} : ∀ {l : List α}, firstRef get l = some r → ∃ x ∈ l, get x = some r
  | [], h => by cases h
  | x :: xs, h => by
    unfold firstRef at h
    split at h
    · rename_i r' hr
      exact ⟨x, by simp, by rw [hr]; exact h⟩
    · obtain ⟨y, h1, h2⟩ := firstRef_some h
      exact ⟨y, List.mem_cons_of_mem _ h1, h2⟩

theorem firstRef_isSome {α β : Type} {get : α → Option β} {x : α} : ∀ {l : List α}, x ∈ l → (get x).isSome → (firstRef get l).isSome
  | y :: l, hx, h => by
    unfold firstRef
    split
    · rfl
    · rename_i hn
      cases hx with
      | head => rw [hn] at h; cases h
      | tail _ hx => exact firstRef_isSome hx h

theorem firstRef_append {α β : Type} {get : α → Option β} {b : List α} : ∀ {a : List α}, (firstRef get a).isSome → firstRef get (a ++ b) = firstRef get a
  | [], h => by cases h
  | x :: a, h => by
    rw [List.cons_append]
    unfold firstRef at h ⊢
    split
    · rfl
    · rename_i hn
      rw [hn] at h
      exact firstRef_append h

theorem public_pkg {W : World} {pkg : Nat → List Str} {f : Nat} (ht : Tidy W pkg f) {g x : Nat} (h : Public W g x) :
    pkg x = pkg g ∧ (W.file x).goImport = (W.file g).goImport := by
  induction h with
  | refl => exact ⟨rfl, rfl⟩
  | step hi _ ih =>
    obtain ⟨h1, h2⟩ := ht.publics _ _ hi
    exact ⟨ih.1.trans h1, ih.2.trans h2⟩

theorem file_idents {W : World} {pkg : Nat → List Str} {f : Nat} (ht : Tidy W pkg f) (g : Nat) : Idents (W.file g).messages (W.file g).enums :=
  fun p k hd => ht.idents ⟨k, g, p⟩ hd

/-- What a file finds is declared in it, or in a file that it imports publicly, under the name without some copies of the package. -/
theorem file_sound {W : World} {pkg : Nat → List Str} {f : Nat} (hp : Packages W pkg) (ht : Tidy W pkg f) : ∀ {n g : Nat} {name : List Str} {r : Ref},
    name ≠ [] → (∀ s ∈ name, Ident s) → fileGetType W n g (joinDots name) = some r →
    Public W g r.file ∧ Exists W r ∧ ∃ k, name = (List.replicate k (pkg g)).flatten ++ r.path
  | 0, _, _, _, _, _, h => by cases h
  | n + 1, g, name, r, hne, hi, h => by
    have hid := file_idents ht g
    unfold fileGetType at h
    split at h
    · rename_i r' hr
      simp only [Option.some.injEq] at h
      subst h
      obtain ⟨k, e, hd⟩ := msgs_sound (idents_weaken hid) hne hi hr
      subst e
      exact ⟨.refl _, declares_mono hd (fun _ h => h) (by simp), 0, by simp⟩
    · split at h
      · rename_i he
        obtain ⟨e', he1, he2⟩ := enum_any.1 he
        have := joinDots_inj (a := [e'.name]) (b := name) (hid _ _ (.enum he1)) hi he2
        subst this
        simp only [Option.some.injEq] at h
        subst h
        exact ⟨.refl _, .enum he1, 0, by simp [joinDots]⟩
      · split at h
        · rename_i r' hr
          simp only [Option.some.injEq] at h
          subst h
          obtain ⟨x, hx, hg⟩ := firstRef_some hr
          split at hg
          · rename_i hpub
            obtain ⟨h1, h2, k, h3⟩ := file_sound hp ht hne hi hg
            have hx' : (x.1, true) ∈ W.imports g := by rw [← hpub]; exact hx
            refine ⟨.step hx' h1, h2, k, ?_⟩
            rw [← (ht.publics _ _ hx').1]
            exact h3
          · cases hg
        · split at h
          · rename_i name1 hn
            rw [hp.spelled] at hn
            obtain ⟨h1, rest, h2, h3, h4⟩ := (trim_pkg (hp.idents g) hi).1 hn
            subst h3 h4
            obtain ⟨a1, a2, k, a3⟩ := file_sound hp ht h2 (fun s hs => hi s (by simp [hs])) h
            refine ⟨a1, a2, k + 1, ?_⟩
            conv => lhs; rw [a3]
            simp [List.replicate_succ]
          · cases h

theorem file_isSome {W : World} {n f : Nat} {name : Str} (h : (msgsGetType f [] (W.file f).messages name).isSome ∨
    ((W.file f).enums.any fun e => e.name = name) = true ∨ (∃ x, (x, true) ∈ W.imports f ∧ (fileGetType W n x name).isSome) ∨
    ∃ t, trimPathPrefix name (W.file f).package = some t ∧ (fileGetType W n f t).isSome) : (fileGetType W (n + 1) f name).isSome := by
  unfold fileGetType
  split
  · rfl
  · rename_i h1
    split
    · rfl
    · rename_i h2
      split
      · rfl
      · rename_i h3
        rcases h with h | h | ⟨x, hx, h⟩ | ⟨t, ht, h⟩
        · rw [h1] at h; cases h
        · exact absurd h h2
        · have := firstRef_isSome (get := fun x : Nat × Bool => if x.2 then fileGetType W n x.1 name else none) hx (by simpa using h)
          rw [h3] at this
          cases this
        · rw [ht]
          exact h

theorem file_here {W : World} {pkg : Nat → List Str} {f : Nat} (ht : Tidy W pkg f) {n : Nat} {r : Ref} (hr : Exists W r) :
    (fileGetType W (n + 1) r.file (joinDots r.path)).isSome := by
  refine file_isSome ?_
  rcases declares_split hr with ⟨e, h1, h2, _⟩ | h
  · exact .inr (.inl (enum_any.2 ⟨e, h1, by rw [h2]; rfl⟩))
  · exact .inl (msgs_complete (idents_weaken (file_idents ht r.file)) h)

/-- A declaration is found by its name without the package. -/
theorem file_relative {W : World} {pkg : Nat → List Str} {f : Nat} (ht : Tidy W pkg f) {r : Ref} (hr : Exists W r) {g x : Nat} (h : Public W g x) :
    r.file = x → ∀ n, W.files.length - g + 1 ≤ n → (fileGetType W n g (joinDots r.path)).isSome := by
  induction h with
  | refl g =>
    intro e n hn
    subst e
    cases n with
    | zero => omega
    | succ n => exact file_here ht hr
  | step hi _ ih =>
    intro e n hn
    obtain ⟨h1, h2⟩ := ht.sorted _ _ hi
    cases n with
    | zero => omega
    | succ n => exact file_isSome (.inr (.inr (.inl ⟨_, hi, ih e n (by simp only at h1 h2; omega)⟩)))

/-- A declaration is found by its name with the package. -/
theorem file_full {W : World} {pkg : Nat → List Str} {f : Nat} (hp : Packages W pkg) (ht : Tidy W pkg f) {r : Ref} (hr : Exists W r) (hpk : pkg r.file ≠ [])
    {g x : Nat} (h : Public W g x) :
    r.file = x → ∀ n, W.files.length - g + 2 ≤ n → (fileGetType W n g (joinDots (pkg r.file ++ r.path))).isSome := by
  have hi : ∀ s ∈ pkg r.file ++ r.path, Ident s := fun s hs => (List.mem_append.1 hs).elim (hp.idents _ s) (ht.idents _ hr s)
  induction h with
  | refl g =>
    intro e n hn
    subst e
    match n, hn with
    | n + 2, _ =>
      refine file_isSome (.inr (.inr (.inr ⟨joinDots r.path, ?_, file_here ht hr⟩)))
      rw [hp.spelled]
      exact (trim_pkg (hp.idents _) hi).2 ⟨hpk, r.path, declares_ne hr, rfl, rfl⟩
  | step hi _ ih =>
    intro e n hn
    obtain ⟨h1, h2⟩ := ht.sorted _ _ hi
    cases n with
    | zero => omega
    | succ n => exact file_isSome (.inr (.inr (.inl ⟨_, hi, ih e n (by simp only at h1 h2; omega)⟩)))

/-- An inner scope that has the whole name has its first identifier. -/
theorem taken_of {W : World} {pkg : Nat → List Str} {f : Nat} {name pre : List Str} {r : Ref} (hne : name ≠ []) (hv : Visible W f r.file) (hr : Exists W r)
    (h : FullName pkg r = pre ++ name) : Taken W pkg f (name.length = 1) (pre ++ name.take 1) := by
  match name, hne with
  | [s], _ =>
    exact .inl ⟨r, hv, hr, by rw [h]; rfl, .inl (by simp)⟩
  | s :: t :: rest, _ =>
    have e : pkg r.file ++ r.path = (pre ++ [s]) ++ (t :: rest) := by
      have : pkg r.file ++ r.path = pre ++ s :: t :: rest := h
      rw [this]; simp
    have e1 : pre ++ (s :: t :: rest).take 1 = pre ++ [s] := rfl
    rw [e1]
    rcases List.append_eq_append_iff.1 e with ⟨q, h1, h2⟩ | ⟨q, h1, h2⟩
    · by_cases hq : q = []
      · subst hq
        refine .inr ⟨by simp, by simp, r.file, hv, ?_⟩
        rw [h1]; simp
      · refine .inl ⟨⟨false, r.file, q⟩, hv, ?_, h1.symm, .inr rfl⟩
        have hr' : Declares (W.file r.file).messages (W.file r.file).enums r.path r.isEnum := hr
        rw [h2] at hr'
        exact declares_prefix hq (by simp) hr'
    · refine .inr ⟨by simp, by simp, r.file, hv, ?_⟩
      rw [h1]
      exact List.prefix_append ..

theorem flatten_replicate_nil {α : Type} (k : Nat) : (List.replicate k ([] : List α)).flatten = [] := by
  induction k with
  | zero => rfl
  | succ k ih => rw [List.replicate_succ, List.flatten_cons, ih]; rfl

end Gen

open Gen

namespace Gen

/-- `C55_resolves_partial` also for the types of methods (no messages around, no scalar types). -/
theorem resolves_any (W : World) (pkg : Nat → List Str) (f : Nat) (chain : List (List Str × MsgDecl)) (b : Bool) (name : List Str) (r : Ref) (i : Nat)
    (hp : Packages W pkg) (ht : Tidy W pkg f) (ha : chain = [] ∨ Around (W.file f).messages chain)
    (hne : name ≠ []) (hi : ∀ s ∈ name, Ident s) (hsc : b = true → scalarTypes.lookup (joinDots name) = none)
    (hself : ∀ c ∈ chain, name.head? = some c.2.name → ¬ ∃ k, Declares c.2.messages c.2.enums name k)
    (hdbl : ∀ x, Visible W f x → pkg x ≠ [] → ¬ pkg x ++ pkg x <+: name)
    (hm : Means W pkg f (pkg f ++ scopeOf chain) name r i)
    (hscope : (pkg r.file = pkg f ∧ (pkg f).length ≤ i) ∨ (i = 0 ∧ pkg r.file ≠ [])) :
    ∃ p, typeResolve W f chain b (joinDots name) = some (.decl r p) ∧ resolvedImport W f p = (W.file r.file).goImport := by
  have hsome : ∀ r', searchMessages f chain (joinDots name) = some r' → Around (W.file f).messages chain := by
    intro r' h
    rcases ha with e | ha
    · rw [e] at h; cases h
    · exact ha
  obtain ⟨hil, hv, hr, hfull, hnot⟩ := hm
  have hid := file_idents ht f
  -- a name further in cannot exist
  have inner : ∀ {r' : Ref} {j : Nat}, Visible W f r'.file → Exists W r' → i < j → j ≤ (pkg f ++ scopeOf chain).length →
      FullName pkg r' = (pkg f ++ scopeOf chain).take j ++ name → False :=
    fun hv' hr' h1 h2 h3 => hnot _ h1 h2 (taken_of hne hv' hr' h3)
  have htake : ∀ j, (pkg f ++ scopeOf chain).take ((pkg f).length + j) = pkg f ++ (scopeOf chain).take j := fun j => by
    rw [List.take_append, List.take_of_length_le (by omega)]
    simp
  -- a declaration in a message around is found there
  have around : (pkg f).length < i → ∃ r' k' j', searchMessages f chain (joinDots name) = some r' ∧ i - (pkg f).length ≤ j' ∧ j' ≤ (scopeOf chain).length ∧
      r' = ⟨k', f, (scopeOf chain).take j' ++ name⟩ := by
    intro hlt
    have hpk : pkg r.file = pkg f := by
      rcases hscope with h | h
      · exact h.1
      · omega
    have hpath : r.path = (scopeOf chain).take (i - (pkg f).length) ++ name := by
      have e := htake (i - (pkg f).length)
      rw [show (pkg f).length + (i - (pkg f).length) = i by omega] at e
      have h : pkg r.file ++ r.path = (pkg f ++ scopeOf chain).take i ++ name := hfull
      rw [e, hpk, List.append_assoc] at h
      exact List.append_cancel_left h
    have hlen : i - (pkg f).length ≤ (scopeOf chain).length := by rw [List.length_append] at hil; omega
    have ha : Around (W.file f).messages chain := ha.resolve_left (fun e => by rw [e] at hlen; simp [scopeOf] at hlen; omega)
    -- the outermost message is declared in both files, so they are the same
    have hfile : r.file = f := by
      obtain ⟨s, scope, hs⟩ : ∃ s scope, scopeOf chain = s :: scope := by
        cases h : scopeOf chain with
        | nil => rw [h] at hlen; simp at hlen; omega
        | cons s scope => exact ⟨s, scope, rfl⟩
      have h1 : Declares (W.file r.file).messages (W.file r.file).enums [s] false := by
        have hd : Declares (W.file r.file).messages (W.file r.file).enums r.path r.isEnum := hr
        rw [hpath, hs, show i - (pkg f).length = (i - (pkg f).length - 1) + 1 by omega, List.take_succ_cons, List.cons_append] at hd
        exact declares_head (by simp [hne]) hd
      have h2 : Declares (W.file f).messages (W.file f).enums [s] false := by
        cases chain with
        | nil => cases hs
        | cons c rest =>
          obtain ⟨outer, x⟩ := c
          obtain ⟨a1, _⟩ := around_self (es := (W.file f).enums) ha
          have hs' : outer ++ [x.name] = s :: scope := hs
          rw [hs'] at a1
          cases scope with
          | nil => exact a1
          | cons t scope => exact declares_head (by simp) a1
      have := ht.unique ⟨false, r.file, [s]⟩ ⟨false, f, [s]⟩ hv (.inl (.refl f)) h1 h2 (by simp [FullName, hpk])
      simp only [Ref.mk.injEq, and_true, true_and] at this
      exact this
    have hd : Declares (W.file f).messages (W.file f).enums ((scopeOf chain).take (i - (pkg f).length) ++ name) r.isEnum := by
      have hd : Declares (W.file r.file).messages (W.file r.file).enums r.path r.isEnum := hr
      rw [hpath, hfile] at hd
      exact hd
    exact search_complete hid ht.twins hne hi ha hself (by omega) hlen hd
  -- what is found in the messages around is right
  have found : ∀ r', searchMessages f chain (joinDots name) = some r' → r' = r := by
    intro r' h
    obtain ⟨k, j, h1, h2, h3⟩ := search_sound hid hne hi (hsome _ h) h
    have hf : r'.file = f := by rw [h2]
    have hv' : Visible W f r'.file := by rw [hf]; exact .inl (.refl f)
    have hr' : Exists W r' := by
      show Declares (W.file r'.file).messages (W.file r'.file).enums r'.path r'.isEnum
      rw [hf, show r'.isEnum = k by rw [h2]]
      exact h3
    have hfull' : FullName pkg r' = (pkg f ++ scopeOf chain).take ((pkg f).length + j) ++ name := by
      rw [htake, List.append_assoc]
      unfold FullName
      rw [hf, h2]
    have hj : (pkg f).length + j ≤ (pkg f ++ scopeOf chain).length := by rw [List.length_append]; omega
    rcases Nat.lt_trichotomy i ((pkg f).length + j) with hlt | heq | hgt
    · exact (inner hv' hr' hlt hj hfull').elim
    · exact ht.unique _ _ hv' hv hr' hr (by rw [hfull', ← heq]; exact hfull.symm)
    · obtain ⟨r2, k2, j2, b1, b2, b3, b4⟩ := around (by omega)
      rw [h] at b1
      simp only [Option.some.injEq] at b1
      rw [← b1, h2] at b4
      simp only [Ref.mk.injEq, true_and] at b4
      have := congrArg List.length b4.2
      simp only [List.length_append, List.length_take] at this
      omega
  have hplain : joinDots name ≠ [] ∧ ∀ s, joinDots name ≠ '.' :: s := by
    match name, hi, hne with
    | a :: rest, hi, _ =>
      have hid := hi a (by simp)
      have : ∃ t, joinDots (a :: rest) = a ++ t := by
        cases rest with
        | nil => exact ⟨[], by simp [joinDots]⟩
        | cons b rest => exact ⟨_, joinDots_cons (by simp)⟩
      obtain ⟨t, e⟩ := this
      rw [e]
      cases a with
      | nil => exact absurd rfl hid.1
      | cons c a =>
        refine ⟨by simp, fun s h => ?_⟩
        simp only [List.cons_append, List.cons.injEq] at h
        exact hid.2 (by rw [h.1]; simp)
  unfold typeResolve
  have hb : (if b = true then scalarTypes.lookup (joinDots name) else none) = none := by
    cases b with
    | false => rfl
    | true => rw [if_pos rfl, hsc rfl]
  rw [hb]
  dsimp only
  split
  · -- the message itself, looked at first
    rename_i r' h0
    have : searchMessages f chain (joinDots name) = some r' := by
      cases chain with
      | nil => cases h0
      | cons c rest =>
        obtain ⟨outer, x⟩ := c
        dsimp only at h0
        unfold searchMessages
        rw [h0]
    have hrr := found r' this
    obtain ⟨k, j, _, h2, _⟩ := search_sound hid hne hi (hsome _ this) this
    refine ⟨none, by rw [hrr], ?_⟩
    rw [← hrr, h2]
    rfl
  · split
    · rename_i r' h0
      have hrr := found r' h0
      obtain ⟨k, j, _, h2, _⟩ := search_sound hid hne hi (hsome _ h0) h0
      refine ⟨none, by rw [hrr], ?_⟩
      rw [← hrr, h2]
      rfl
    · rename_i hnone
      have hile : i ≤ (pkg f).length := by
        rcases Nat.lt_or_ge (pkg f).length i with hlt | hge
        · obtain ⟨r2, k2, j2, b1, _⟩ := around hlt
          rw [hnone] at b1
          cases b1
        · exact hge
      have hsf : searchFiles W f (joinDots name) = (f :: ((W.imports f).filter fun x => (W.file f).package = (W.file x.1).package).map Prod.fst ++
          ((W.imports f).filter fun x => hasPathPrefix (joinDots name) (W.file x.1).package).map Prod.fst, joinDots name) := by
        unfold searchFiles
        dsimp only
        split
        · rename_i s heq
          exact absurd heq (hplain.2 _)
        · rfl
      rw [hsf]
      dsimp only
      generalize hget : (fun x => match fileGetType W (W.files.length + (joinDots name).length + 1) x (joinDots name) with
          | some r => some (Resolved.decl r (if (W.file x).goImport ≠ (W.file f).goImport then some x else none))
          | none => none) = get
      have hfuel : 1 ≤ (joinDots name).length := by
        cases h : joinDots name with
        | nil => exact absurd h hplain.1
        | cons a b => simp
      -- what a file finds
      have sound : ∀ x v, (x = f ∨ ∃ b, (x, b) ∈ W.imports f) → get x = some v → ∃ r' p, v = .decl r' p ∧ resolvedImport W f p = (W.file r'.file).goImport ∧ Visible W f r'.file ∧
          Exists W r' ∧ pkg r'.file = pkg x ∧ ∃ k, name = (List.replicate k (pkg x)).flatten ++ r'.path := by
        intro x v hx h
        rw [← hget] at h
        dsimp only at h
        split at h
        · rename_i r' hr'
          obtain ⟨h1, h2, h3⟩ := file_sound hp ht hne hi hr'
          simp only [Option.some.injEq] at h
          refine ⟨r', _, h.symm, ?_, ?_, h2, (public_pkg ht h1).1, h3⟩
          · rw [(public_pkg ht h1).2]
            split
            · rfl
            · rename_i hh
              simp only [ne_eq, Decidable.not_not] at hh
              exact hh.symm
          · rcases hx with e | ⟨b, e⟩
            · rw [e] at h1; exact .inl h1
            · exact .inr ⟨_, e, h1⟩
        · cases h
      have some_of : ∀ x, (fileGetType W (W.files.length + (joinDots name).length + 1) x (joinDots name)).isSome → (get x).isSome := by
        intro x h
        rw [← hget]
        dsimp only
        split
        · rfl
        · rename_i hh; rw [hh] at h; cases h
      have same_iff : ∀ x : Nat × Bool, x ∈ (W.imports f).filter (fun x => (W.file f).package = (W.file x.1).package) ↔ x ∈ W.imports f ∧ pkg x.1 = pkg f := by
        intro x
        rw [List.mem_filter]
        refine and_congr_right fun _ => ?_
        rw [decide_eq_true_eq, hp.spelled, hp.spelled]
        constructor
        · exact fun h => (joinDots_inj (hp.idents _) (hp.idents _) h).symm
        · exact fun h => by rw [h]
      by_cases hrel : pkg r.file = pkg f ∧ (pkg f).length ≤ i
      · -- a name without package
        obtain ⟨hpk, hge⟩ := hrel
        have hpath : r.path = name := by
          have e := htake 0
          rw [show (pkg f).length + 0 = i by omega] at e
          have h : pkg r.file ++ r.path = (pkg f ++ scopeOf chain).take i ++ name := hfull
          rw [e, hpk] at h
          simpa using h
        have hsome : (firstRef get (f :: ((W.imports f).filter fun x => (W.file f).package = (W.file x.1).package).map Prod.fst)).isSome := by
          rcases hv with h | ⟨x, hx, h⟩
          · refine firstRef_isSome (List.mem_cons_self ..) (some_of _ ?_)
            have := file_relative ht hr h rfl (W.files.length + (joinDots name).length + 1) (by omega)
            rw [hpath] at this
            exact this
          · have hx' : x.1 ∈ ((W.imports f).filter fun x => (W.file f).package = (W.file x.1).package).map Prod.fst :=
              List.mem_map.2 ⟨x, (same_iff x).2 ⟨hx, by rw [← (public_pkg ht h).1]; exact hpk⟩, rfl⟩
            refine firstRef_isSome (List.mem_cons_of_mem _ hx') (some_of _ ?_)
            have := file_relative ht hr h rfl (W.files.length + (joinDots name).length + 1) (by omega)
            rw [hpath] at this
            exact this
        rw [firstRef_append hsome]
        obtain ⟨v, hvv⟩ := Option.isSome_iff_exists.1 hsome
        rw [hvv]
        obtain ⟨x, hx, hgx⟩ := firstRef_some hvv
        have hxp : (x = f ∨ ∃ b, (x, b) ∈ W.imports f) ∧ pkg x = pkg f := by
          cases hx with
          | head => exact ⟨.inl rfl, rfl⟩
          | tail _ hx =>
            obtain ⟨y, h1, h2⟩ := List.mem_map.1 hx
            obtain ⟨h3, h4⟩ := (same_iff y).1 h1
            exact ⟨.inr ⟨y.2, by rw [← h2]; exact h3⟩, by rw [← h2]; exact h4⟩
        obtain ⟨r', p, e1, e2, e3, e4, e5, k, e6⟩ := sound x v hxp.1 hgx
        have hname : name = r'.path := by
          by_cases hpe : pkg x = []
          · rw [hpe, flatten_replicate_nil] at e6; exact e6
          · cases k with
            | zero => simpa using e6
            | succ k =>
              refine absurd ?_ (ht.heads r hv hr (by rw [hpk, ← hxp.2]; exact hpe))
              rw [hpath, e6, List.replicate_succ, List.flatten_cons, hpk, ← hxp.2]
              cases hpx : pkg x with
              | nil => exact absurd hpx hpe
              | cons a b => rfl
        have hrr : r' = r := ht.unique _ _ e3 hv e4 hr (by unfold FullName; rw [e5, hxp.2, hpk, hpath, hname])
        subst hrr
        exact ⟨p, by rw [e1], e2⟩
      · -- a name with package
        obtain ⟨hi0, hpk⟩ := hscope.resolve_left hrel
        subst hi0
        have hname : pkg r.file ++ r.path = name := by
          have h : pkg r.file ++ r.path = (pkg f ++ scopeOf chain).take 0 ++ name := hfull
          simpa using h
        have hsome : (firstRef get (f :: ((W.imports f).filter fun x => (W.file f).package = (W.file x.1).package).map Prod.fst ++
            ((W.imports f).filter fun x => hasPathPrefix (joinDots name) (W.file x.1).package).map Prod.fst)).isSome := by
          have key : ∀ x, Public W x r.file → (get x).isSome := fun x h => some_of _ (by
            have := file_full hp ht hr hpk h rfl (W.files.length + (joinDots name).length + 1) (by omega)
            rw [hname] at this
            exact this)
          rcases hv with h | ⟨x, hx, h⟩
          · exact firstRef_isSome (x := f) (by simp) (key f h)
          · refine firstRef_isSome (x := x.1) ?_ (key _ h)
            refine List.mem_append_right _ (List.mem_map.2 ⟨x, List.mem_filter.2 ⟨hx, ?_⟩, rfl⟩)
            unfold hasPathPrefix
            rw [hp.spelled]
            rw [(trim_pkg (hp.idents _) hi).2 ⟨by rw [← (public_pkg ht h).1]; exact hpk, r.path, declares_ne hr, by rw [← (public_pkg ht h).1]; exact hname.symm, rfl⟩]
            rfl
        obtain ⟨v, hvv⟩ := Option.isSome_iff_exists.1 hsome
        rw [hvv]
        obtain ⟨x, hx, hgx⟩ := firstRef_some hvv
        have hxp : (x = f ∨ ∃ b, (x, b) ∈ W.imports f) ∧ (pkg x = pkg f ∨ (pkg x ≠ [] ∧ ∃ rest, name = pkg x ++ rest)) := by
          rcases List.mem_append.1 hx with hx | hx
          · cases hx with
            | head => exact ⟨.inl rfl, .inl rfl⟩
            | tail _ hx =>
              obtain ⟨y, h1, h2⟩ := List.mem_map.1 hx
              obtain ⟨h3, h4⟩ := (same_iff y).1 h1
              exact ⟨.inr ⟨y.2, by rw [← h2]; exact h3⟩, .inl (by rw [← h2]; exact h4)⟩
          · obtain ⟨y, h1, h2⟩ := List.mem_map.1 hx
            obtain ⟨h3, h4⟩ := List.mem_filter.1 h1
            unfold hasPathPrefix at h4
            obtain ⟨t, h5⟩ := Option.isSome_iff_exists.1 h4
            rw [hp.spelled] at h5
            obtain ⟨h6, rest, _, h7, _⟩ := (trim_pkg (hp.idents _) hi).1 h5
            exact ⟨.inr ⟨y.2, by rw [← h2]; exact h3⟩, .inr (by rw [← h2]; exact ⟨h6, rest, h7⟩)⟩
        obtain ⟨r', p, e1, e2, e3, e4, e5, k, e6⟩ := sound x v hxp.1 hgx
        have hvx : Visible W f x := by
          rcases hxp.1 with e | ⟨b, e⟩
          · rw [e]; exact .inl (.refl f)
          · exact .inr ⟨_, e, .refl _⟩
        have hfn : FullName pkg r' = name := by
          unfold FullName
          rw [e5]
          by_cases hpe : pkg x = []
          · rw [hpe, flatten_replicate_nil] at e6
            rw [hpe]; exact e6.symm
          · match k, e6 with
            | 0, e6 =>
              have e6 : name = r'.path := by simpa using e6
              rcases hxp.2 with h | ⟨_, rest, h⟩
              · refine (inner e3 e4 (j := (pkg f).length + 0) ?_ ?_ ?_).elim
                · rw [← h]; cases hh : pkg x with
                  | nil => exact absurd hh hpe
                  | cons a b => simp
                · rw [List.length_append]; omega
                · rw [htake]
                  unfold FullName
                  rw [e5, h, e6]
                  simp
              · refine absurd ?_ (ht.heads r' e3 e4 (by rw [e5]; exact hpe))
                rw [← e6, h, e5]
                cases hpx : pkg x with
                | nil => exact absurd hpx hpe
                | cons a b => rfl
            | 1, e6 => rw [e6]; simp
            | k + 2, e6 =>
              refine absurd ?_ (hdbl x hvx hpe)
              rw [e6, List.replicate_succ, List.replicate_succ, List.flatten_cons, List.flatten_cons]
              exact ⟨(List.replicate k (pkg x)).flatten ++ r'.path, by simp⟩
        have hrr : r' = r := ht.unique _ _ e3 hv e4 hr (by rw [hfn]; exact hname.symm)
        subst hrr
        exact ⟨p, by rw [e1], e2⟩

/-- `C55_candidate_partial` also for the types of methods. -/
theorem candidate_any (W : World) (pkg : Nat → List Str) (f : Nat) (chain : List (List Str × MsgDecl)) (b : Bool) (name : List Str) (r : Ref) (p : Option Nat)
    (hp : Packages W pkg) (ht : Tidy W pkg f) (ha : chain = [] ∨ Around (W.file f).messages chain)
    (hne : name ≠ []) (hi : ∀ s ∈ name, Ident s) (hdbl : ∀ x, Visible W f x → pkg x ≠ [] → ¬ pkg x ++ pkg x <+: name)
    (h : typeResolve W f chain b (joinDots name) = some (.decl r p)) :
    Visible W f r.file ∧ Exists W r ∧ resolvedImport W f p = (W.file r.file).goImport ∧
    ∃ i, i ≤ (pkg f ++ scopeOf chain).length ∧ FullName pkg r = (pkg f ++ scopeOf chain).take i ++ name := by
  have hsome : ∀ r', searchMessages f chain (joinDots name) = some r' → Around (W.file f).messages chain := by
    intro r' h
    rcases ha with e | ha
    · rw [e] at h; cases h
    · exact ha
  have hid := file_idents ht f
  have htake : ∀ j, (pkg f ++ scopeOf chain).take ((pkg f).length + j) = pkg f ++ (scopeOf chain).take j := fun j => by
    rw [List.take_append, List.take_of_length_le (by omega)]
    simp
  have found : ∀ r', searchMessages f chain (joinDots name) = some r' → Visible W f r'.file ∧ Exists W r' ∧ resolvedImport W f none = (W.file r'.file).goImport ∧
      ∃ i, i ≤ (pkg f ++ scopeOf chain).length ∧ FullName pkg r' = (pkg f ++ scopeOf chain).take i ++ name := by
    intro r' h
    obtain ⟨k, j, h1, h2, h3⟩ := search_sound hid hne hi (hsome _ h) h
    have hf : r'.file = f := by rw [h2]
    refine ⟨by rw [hf]; exact .inl (.refl f), ?_, by rw [hf]; rfl, (pkg f).length + j, by rw [List.length_append]; omega, ?_⟩
    · show Declares (W.file r'.file).messages (W.file r'.file).enums r'.path r'.isEnum
      rw [hf, show r'.isEnum = k by rw [h2]]
      exact h3
    · rw [htake, List.append_assoc]
      unfold FullName
      rw [hf, h2]
  unfold typeResolve at h
  generalize (if b = true then scalarTypes.lookup (joinDots name) else none) = q at h
  split at h
  · cases h
  · split at h
    · rename_i r' h0
      simp only [Option.some.injEq, Resolved.decl.injEq] at h
      obtain ⟨e1, e2⟩ := h
      subst e1 e2
      refine found _ ?_
      cases chain with
      | nil => cases h0
      | cons c rest =>
        obtain ⟨outer, x⟩ := c
        dsimp only at h0
        unfold searchMessages
        rw [h0]
    · split at h
      · rename_i r' h0
        simp only [Option.some.injEq, Resolved.decl.injEq] at h
        obtain ⟨e1, e2⟩ := h
        subst e1 e2
        exact found _ h0
      · have hplain : ∀ s, joinDots name ≠ '.' :: s := by
          match name, hi, hne with
          | a :: rest, hi, _ =>
            have hid := hi a (by simp)
            have : ∃ t, joinDots (a :: rest) = a ++ t := by
              cases rest with
              | nil => exact ⟨[], by simp [joinDots]⟩
              | cons b rest => exact ⟨_, joinDots_cons (by simp)⟩
            obtain ⟨t, e⟩ := this
            rw [e]
            cases a with
            | nil => exact absurd rfl hid.1
            | cons c a =>
              intro s h
              simp only [List.cons_append, List.cons.injEq] at h
              exact hid.2 (by rw [h.1]; simp)
        have hsf : searchFiles W f (joinDots name) = (f :: ((W.imports f).filter fun x => (W.file f).package = (W.file x.1).package).map Prod.fst ++
            ((W.imports f).filter fun x => hasPathPrefix (joinDots name) (W.file x.1).package).map Prod.fst, joinDots name) := by
          unfold searchFiles
          dsimp only
          split
          · rename_i s heq
            exact absurd heq (hplain _)
          · rfl
        rw [hsf] at h
        dsimp only at h
        obtain ⟨x, hx, hgx⟩ := firstRef_some h
        split at hgx
        · rename_i r' hr'
          simp only [Option.some.injEq, Resolved.decl.injEq] at hgx
          obtain ⟨e1, e2⟩ := hgx
          subst e1
          obtain ⟨h1, h2, k, h3⟩ := file_sound hp ht hne hi hr'
          obtain ⟨e5, e6⟩ := public_pkg ht h1
          have hxp : (x = f ∨ ∃ b, (x, b) ∈ W.imports f) ∧ (pkg x = pkg f ∨ (pkg x ≠ [] ∧ ∃ rest, name = pkg x ++ rest)) := by
            rcases List.mem_append.1 hx with hx | hx
            · cases hx with
              | head => exact ⟨.inl rfl, .inl rfl⟩
              | tail _ hx =>
                obtain ⟨y, h1, h2⟩ := List.mem_map.1 hx
                obtain ⟨h3, h4⟩ := List.mem_filter.1 h1
                rw [decide_eq_true_eq, hp.spelled, hp.spelled] at h4
                exact ⟨.inr ⟨y.2, by rw [← h2]; exact h3⟩, .inl (by rw [← h2]; exact (joinDots_inj (hp.idents _) (hp.idents _) h4).symm)⟩
            · obtain ⟨y, h1, h2⟩ := List.mem_map.1 hx
              obtain ⟨h3, h4⟩ := List.mem_filter.1 h1
              unfold hasPathPrefix at h4
              obtain ⟨t, h5⟩ := Option.isSome_iff_exists.1 h4
              rw [hp.spelled] at h5
              obtain ⟨h6, rest, _, h7, _⟩ := (trim_pkg (hp.idents _) hi).1 h5
              exact ⟨.inr ⟨y.2, by rw [← h2]; exact h3⟩, .inr (by rw [← h2]; exact ⟨h6, rest, h7⟩)⟩
          have hvx : Visible W f x := by
            rcases hxp.1 with e | ⟨b, e⟩
            · rw [e]; exact .inl (.refl f)
            · exact .inr ⟨_, e, .refl _⟩
          have hv : Visible W f r'.file := by
            rcases hxp.1 with e | ⟨b, e⟩
            · rw [e] at h1; exact .inl h1
            · exact .inr ⟨_, e, h1⟩
          refine ⟨hv, h2, ?_, ?_⟩
          · rw [← e2, e6]
            split
            · rfl
            · rename_i hh
              simp only [ne_eq, Decidable.not_not] at hh
              exact hh.symm
          · have rel : name = r'.path → pkg x = pkg f → ∃ i, i ≤ (pkg f ++ scopeOf chain).length ∧ FullName pkg r' = (pkg f ++ scopeOf chain).take i ++ name := by
              intro e7 e8
              refine ⟨(pkg f).length + 0, by rw [List.length_append]; omega, ?_⟩
              rw [htake]
              unfold FullName
              rw [e5, e8, e7]
              simp
            by_cases hpe : pkg x = []
            · rw [hpe, flatten_replicate_nil] at h3
              refine ⟨0, Nat.zero_le _, ?_⟩
              unfold FullName
              rw [e5, hpe, h3]
              simp
            · match k, h3 with
              | 0, h3 =>
                have h3 : name = r'.path := by simpa using h3
                rcases hxp.2 with e | ⟨_, rest, e⟩
                · exact rel h3 e
                · refine absurd ?_ (ht.heads r' hv h2 (by rw [e5]; exact hpe))
                  rw [← h3, e, e5]
                  cases hpx : pkg x with
                  | nil => exact absurd hpx hpe
                  | cons a b => rfl
              | 1, h3 =>
                refine ⟨0, Nat.zero_le _, ?_⟩
                unfold FullName
                rw [e5, h3]
                simp
              | k + 2, h3 =>
                refine absurd ?_ (hdbl x hvx hpe)
                rw [h3, List.replicate_succ, List.replicate_succ, List.flatten_cons, List.flatten_cons]
                exact ⟨(List.replicate k (pkg x)).flatten ++ r'.path, by simp⟩
        · cases hgx

end Gen

/-- C55 (partial): in a tidy world, the name of a type resolves to the declaration that the scoping rules choose, and generated code refers to
it in the Go package of the file that declares it.  Missing: names that are found in a package around the file's own package, and
declarations without package used from a file with a package (`C55_outer_package_violated`, `C55_no_package_violated`: they are not found); names that start with a dot
(`C55_rooted_violated`); a message in which a type with the message's own name is declared (`C55_self_violated`); packages repeated at the start of the name
(`C55_doubled_violated`). -/
theorem C55_resolves_partial (W : World) (pkg : Nat → List Str) (f : Nat) (chain : List (List Str × MsgDecl)) (name : List Str) (r : Ref) (i : Nat)
    (hp : Packages W pkg) (ht : Tidy W pkg f) (ha : Around (W.file f).messages chain)
    (hne : name ≠ []) (hi : ∀ s ∈ name, Ident s) (hsc : scalarTypes.lookup (joinDots name) = none)
    (hself : ∀ c ∈ chain, name.head? = some c.2.name → ¬ ∃ k, Declares c.2.messages c.2.enums name k)
    (hdbl : ∀ x, Visible W f x → pkg x ≠ [] → ¬ pkg x ++ pkg x <+: name)
    (hm : Means W pkg f (pkg f ++ scopeOf chain) name r i)
    (hscope : (pkg r.file = pkg f ∧ (pkg f).length ≤ i) ∨ (i = 0 ∧ pkg r.file ≠ [])) :
    ∃ p, typeResolve W f chain true (joinDots name) = some (.decl r p) ∧ resolvedImport W f p = (W.file r.file).goImport :=
  resolves_any W pkg f chain true name r i hp ht (.inr ha) hne hi (fun _ => hsc) hself hdbl hm hscope

/-- C55 (partial): what a name resolves to is always one of the declarations it could mean: a visible declaration whose full name is one of the scopes
around followed by the name; and generated code refers to it in the right Go package. -/
theorem C55_candidate_partial (W : World) (pkg : Nat → List Str) (f : Nat) (chain : List (List Str × MsgDecl)) (name : List Str) (r : Ref) (p : Option Nat)
    (hp : Packages W pkg) (ht : Tidy W pkg f) (ha : Around (W.file f).messages chain)
    (hne : name ≠ []) (hi : ∀ s ∈ name, Ident s) (hdbl : ∀ x, Visible W f x → pkg x ≠ [] → ¬ pkg x ++ pkg x <+: name)
    (h : typeResolve W f chain true (joinDots name) = some (.decl r p)) :
    Visible W f r.file ∧ Exists W r ∧ resolvedImport W f p = (W.file r.file).goImport ∧
    ∃ i, i ≤ (pkg f ++ scopeOf chain).length ∧ FullName pkg r = (pkg f ++ scopeOf chain).take i ++ name :=
  candidate_any W pkg f chain true name r p hp ht (.inr ha) hne hi hdbl h

/-! ## A concrete world -/

namespace Gen

mutual
/-- All declarations of a message. -/
def msgPaths : MsgDecl → List (List Str × Bool)
  | .mk n enums messages _ _ _ _ _ => ([n], false) :: (enums.map (fun e => ([n, e.name], true)) ++ (msgsPaths messages).map fun p => (n :: p.1, p.2))
def msgsPaths : List MsgDecl → List (List Str × Bool)
  | [] => []
  | m :: ms => msgPaths m ++ msgsPaths ms
end

mutual
theorem msgPaths_mem : ∀ (m : MsgDecl) {p : List Str} {k : Bool}, Declares [m] [] p k → (p, k) ∈ msgPaths m
  | .mk n enums messages a b c d e, p, k, h => by
    unfold msgPaths
    rcases self_declares h with ⟨e1, e2⟩ | ⟨rest, hne, e1, hd⟩
    · subst e1 e2; exact List.mem_cons_self ..
    · subst e1
      refine List.mem_cons_of_mem _ ?_
      rcases declares_split hd with ⟨e', h1, h2, h3⟩ | h
      · subst h2 h3
        exact List.mem_append_left _ (List.mem_map.2 ⟨e', h1, rfl⟩)
      · exact List.mem_append_right _ (List.mem_map.2 ⟨(rest, k), msgsPaths_mem _ h, rfl⟩)
theorem msgsPaths_mem : ∀ (ms : List MsgDecl) {p : List Str} {k : Bool}, Declares ms [] p k → (p, k) ∈ msgsPaths ms
  | [], p, k, h => by
    cases h with
    | enum h => cases h
    | msg h => cases h
    | nested h _ => cases h
  | m :: ms, p, k, h => by
    unfold msgsPaths
    have split_hd : Declares [m] [] p k ∨ Declares ms [] p k := by
      cases h with
      | enum h => cases h
      | msg h =>
        cases h with
        | head => exact .inl (.msg (by simp))
        | tail _ h => exact .inr (.msg h)
      | nested h hd =>
        cases h with
        | head => exact .inl (.nested (by simp) hd)
        | tail _ h => exact .inr (.nested h hd)
    rcases split_hd with h | h
    · exact List.mem_append_left _ (msgPaths_mem m h)
    · exact List.mem_append_right _ (msgsPaths_mem ms h)
end

/-- All declarations of a world. -/
def allRefs (W : World) : List Ref :=
  (List.range W.files.length).flatMap fun f => (msgsPaths (W.file f).messages ++ (W.file f).enums.map fun e => ([e.name], true)).map fun p => ⟨p.2, f, p.1⟩

theorem allRefs_mem {W : World} {r : Ref} (h : Exists W r) : r ∈ allRefs W := by
  have hlt : r.file < W.files.length := by
    refine Nat.lt_of_not_le fun hge => ?_
    have e : W.file r.file = { edition := .proto3 } := by
      unfold World.file
      rw [List.getD_eq_getElem?_getD, List.getElem?_eq_none hge]
      rfl
    have h' : Declares (W.file r.file).messages (W.file r.file).enums r.path r.isEnum := h
    rw [e] at h'
    generalize r.path = p at h'
    generalize r.isEnum = k at h'
    cases h' with
    | enum h => cases h
    | msg h => cases h
    | nested h _ => cases h
  refine List.mem_flatMap.2 ⟨r.file, List.mem_range.2 hlt, List.mem_map.2 ⟨(r.path, r.isEnum), ?_, rfl⟩⟩
  rcases declares_split h with ⟨e, h1, h2, h3⟩ | h
  · exact List.mem_append_right _ (List.mem_map.2 ⟨e, h1, by rw [h2, h3]⟩)
  · exact List.mem_append_left _ (msgsPaths_mem _ h)

/-- A test for `Taken` that ignores what is visible. -/
def takenTest (W : World) (pks : List (List Str)) (last : Bool) (full : List Str) : Bool :=
  (allRefs W).any (fun r => pks.getD r.file [] ++ r.path = full && (last || !r.isEnum)) || (!last && pks.any (fun p => full.isPrefixOf p))

theorem taken_test {W : World} {pks : List (List Str)} {f : Nat} {last : Bool} {full : List Str} (h : Taken W (pks.getD · []) f last full) :
    takenTest W pks last full = true := by
  unfold takenTest
  rcases h with ⟨r, _, h1, h2, h3⟩ | ⟨h1, h2, x, _, h3⟩
  · rw [Bool.or_eq_true]
    refine .inl (List.any_eq_true.2 ⟨r, allRefs_mem h1, ?_⟩)
    have h2' : pks.getD r.file [] ++ r.path = full := h2
    rw [h2']
    rcases h3 with h | h <;> simp [h]
  · rw [Bool.or_eq_true]
    refine .inr ?_
    rw [h1]
    refine (List.any_eq_true.2 ⟨pks.getD x [], ?_, List.isPrefixOf_iff_prefix.2 h3⟩)
    by_cases hx : x < pks.length
    · rw [List.getD_eq_getElem?_getD, List.getElem?_eq_getElem hx]; exact List.getElem_mem _
    · dsimp only at h3
      rw [List.getD_eq_getElem?_getD, List.getElem?_eq_none (by omega)] at h3
      exact absurd (List.prefix_nil.1 h3) h2

/-- A test for the conditions on a world. -/
def tidyTest (W : World) (pks : List (List Str)) : Bool :=
  (allRefs W).all (fun r => r.path.all (fun s => s ≠ [] && !s.contains '.')) &&
  (allRefs W).all (fun r => (allRefs W).all fun r' => pks.getD r.file [] ++ r.path ≠ pks.getD r'.file [] ++ r'.path || r = r') &&
  (allRefs W).all (fun r => pks.getD r.file [] = [] || r.path.head? ≠ (pks.getD r.file []).head?)

theorem tidy_of_test {W : World} {pks : List (List Str)} {f : Nat} (h : tidyTest W pks = true)
    (hs : ∀ g, ∀ i ∈ W.imports g, g < i.1 ∧ i.1 < W.files.length) (htw : NoTwinsIn (W.file f).messages)
    (hpub : ∀ g x, (x, true) ∈ W.imports g → pks.getD x [] = pks.getD g [] ∧ (W.file x).goImport = (W.file g).goImport) : Tidy W (pks.getD · []) f := by
  unfold tidyTest at h
  simp only [Bool.and_eq_true, List.all_eq_true] at h
  obtain ⟨⟨h1, h2⟩, h3⟩ := h
  refine ⟨hs, fun r hr s hs => ?_, fun r r' _ _ hr hr' e => ?_, htw, hpub, fun r _ hr hne => ?_⟩
  · have := h1 r (allRefs_mem hr) s hs
    simp at this
    exact ⟨this.1, this.2⟩
  · have := h2 r (allRefs_mem hr) r' (allRefs_mem hr')
    simp at this
    rcases this with h | h
    · exact absurd e (by simpa [FullName] using h)
    · exact h
  · have := h3 r (allRefs_mem hr)
    simp at this
    rcases this with h | h
    · exact absurd (by simpa using h) hne
    · simpa using h

/-- `message <n> { ... }`, with only the types declared in it. -/
def tmsg (n : String) (es : List String := []) (ms : List MsgDecl := []) : MsgDecl :=
  .mk n.toList (es.map fun e => { name := e.toList, fields := [] }) ms [] [] [] [] []

def idents (ss : List String) : List Str := ss.map String.toList

/-- The packages `a.b`, `a.b`, `c`, `a.b`. -/
def samplePks : List (List Str) := [idents ["a", "b"], idents ["a", "b"], idents ["c"], idents ["a", "b"]]

/-- `message Outer { enum Color; message Inner { message Leaf {} } }` -/
def sampleInner : MsgDecl := tmsg "Inner" [] [tmsg "Leaf"]
def sampleOuter : MsgDecl := tmsg "Outer" ["Color"] [sampleInner]

/-- Four files: the first imports the second and third, the second imports the fourth publicly. -/
def sampleWorld : World where
  files := [
    { edition := .proto3, package := "a.b".toList, goImport := "x/ab".toList, messages := [sampleOuter, tmsg "Leaf"], enums := [{ name := "Color".toList, fields := [] }] },
    { edition := .proto3, package := "a.b".toList, goImport := "x/ab2".toList, messages := [tmsg "Shared"] },
    { edition := .proto3, package := "c".toList, goImport := "x/c".toList, messages := [tmsg "Ext" [] [tmsg "Leaf"]] },
    { edition := .proto3, package := "a.b".toList, goImport := "x/ab2".toList, messages := [tmsg "Hidden" ["Kind"] []] }]
  imports := fun f => if f = 0 then [(1, false), (2, false)] else if f = 1 then [(3, true)] else []

/-- A place in `Inner`. -/
def sampleChain : List (List Str × MsgDecl) := [(["Outer".toList], sampleInner), ([], sampleOuter)]

theorem sample_around : Around (sampleWorld.file 0).messages sampleChain := by
  have h : Around (sampleWorld.file 0).messages [([], sampleOuter)] := .top (by exact List.mem_cons_self ..)
  exact .inner h (List.mem_cons_self ..)

theorem sample_packages : Packages sampleWorld (samplePks.getD · []) := by
  refine ⟨fun f => ?_, fun f => ?_⟩
  · match f with
    | 0 | 1 | 2 | 3 => decide +kernel
    | f + 4 => rfl
  · match f with
    | 0 | 1 | 2 | 3 => simp only [Ident]; decide +kernel
    | f + 4 => intro s hs; cases hs

theorem noTwins_of_test {ms : List MsgDecl} (h : (ms.map MsgDecl.name).Nodup) : NoTwins ms := by
  intro m m' hm hm' e
  obtain ⟨i, hi, rfl⟩ := List.mem_iff_getElem.1 hm
  obtain ⟨j, hj, rfl⟩ := List.mem_iff_getElem.1 hm'
  have := (List.getElem_inj (xs := ms.map MsgDecl.name) (i := i) (j := j) (h₀ := by simpa using hi) (h₁ := by simpa using hj) h).1 (by simpa using e)
  subst this
  rfl

theorem within_inv {ms : List MsgDecl} {m : MsgDecl} (h : Within ms m) : ∃ x ∈ ms, m = x ∨ Within x.messages m := by
  cases h with
  | here h => exact ⟨_, h, .inl rfl⟩
  | deeper h hw => exact ⟨_, h, .inr hw⟩

theorem sample_tidy : Tidy sampleWorld (samplePks.getD · []) 0 := by
  refine tidy_of_test (by decide +kernel) ?_ ?_ ?_
  · intro g i hi
    match g, hi with
    | 0, hi =>
      rcases List.mem_cons.1 hi with e | hi
      · subst e; exact ⟨by decide, by decide⟩
      · rw [List.mem_singleton.1 hi]; exact ⟨by decide, by decide⟩
    | 1, hi => rw [List.mem_singleton.1 hi]; exact ⟨by decide, by decide⟩
    | g + 2, hi => cases hi
  · refine ⟨noTwins_of_test (by decide +kernel), fun m hm => ?_⟩
    obtain ⟨x, hx, h⟩ := within_inv hm
    have leaf : ∀ {n : String} {m : MsgDecl}, ¬ Within (tmsg n).messages m := fun h => by
      obtain ⟨x, hx, _⟩ := within_inv h
      cases hx
    rcases List.mem_cons.1 hx with e | hx
    · subst e
      rcases h with e | h
      · subst e; exact noTwins_of_test (by decide +kernel)
      · obtain ⟨x, hx, h⟩ := within_inv h
        rw [List.mem_singleton.1 hx] at h
        rcases h with e | h
        · subst e; exact noTwins_of_test (by decide +kernel)
        · obtain ⟨x, hx, h⟩ := within_inv h
          rw [List.mem_singleton.1 hx] at h
          rcases h with e | h
          · subst e; exact noTwins_of_test (by decide +kernel)
          · exact absurd h leaf
    · rw [List.mem_singleton.1 hx] at h
      rcases h with e | h
      · subst e; exact noTwins_of_test (by decide +kernel)
      · exact absurd h leaf
  · intro g x hx
    match g, hx with
    | 0, hx =>
      rcases List.mem_cons.1 hx with e | hx
      · cases e
      · cases List.mem_singleton.1 hx
    | 1, hx =>
      cases List.mem_singleton.1 hx
      exact ⟨by decide +kernel, by decide +kernel⟩
    | g + 2, hx => cases hx

theorem sample_self (name : List Str) (h : name.head? ≠ some "Outer".toList ∧ name.head? ≠ some "Inner".toList) :
    ∀ c ∈ sampleChain, name.head? = some c.2.name → ¬ ∃ k, Declares c.2.messages c.2.enums name k := by
  intro c hc e
  rcases List.mem_cons.1 hc with e' | hc
  · subst e'; exact absurd e h.2
  · rw [List.mem_singleton.1 hc] at e; exact absurd e h.1

theorem sample_double (name : List Str) (h : ∀ p ∈ samplePks, ¬ (p ++ p).isPrefixOf name = true) :
    ∀ x, Visible sampleWorld 0 x → samplePks.getD x [] ≠ [] → ¬ samplePks.getD x [] ++ samplePks.getD x [] <+: name := by
  intro x _ hne hp
  by_cases hx : x < samplePks.length
  · refine h (samplePks.getD x []) ?_ (List.isPrefixOf_iff_prefix.2 hp)
    rw [List.getD_eq_getElem?_getD, List.getElem?_eq_getElem hx]; exact List.getElem_mem _
  · exact hne (by rw [List.getD_eq_getElem?_getD, List.getElem?_eq_none (by omega)]; rfl)

theorem means_of_test {W : World} {pks : List (List Str)} {f : Nat} {scope name : List Str} {r : Ref} {i : Nat} (hi : i ≤ scope.length)
    (hv : Visible W f r.file) (hr : Exists W r) (hn : pks.getD r.file [] ++ r.path = scope.take i ++ name)
    (h : ∀ j, i < j → j ≤ scope.length → takenTest W pks (name.length = 1) (scope.take j ++ name.take 1) = false) :
    Means W (pks.getD · []) f scope name r i :=
  ⟨hi, hv, hr, hn, fun j h1 h2 ht => by
    have := taken_test ht
    rw [h j h1 h2] at this
    cases this⟩

end Gen

/-- Non-vacuity: inside of `Inner`, `Leaf` is the innermost of the three. -/
example : ∃ p, typeResolve sampleWorld 0 sampleChain true (joinDots (idents ["Leaf"])) = some (.decl ⟨false, 0, idents ["Outer", "Inner", "Leaf"]⟩ p) ∧
    resolvedImport sampleWorld 0 p = "x/ab".toList := by
  refine C55_resolves_partial sampleWorld (samplePks.getD · []) 0 sampleChain (idents ["Leaf"]) ⟨false, 0, idents ["Outer", "Inner", "Leaf"]⟩ 4
    sample_packages sample_tidy sample_around (by decide) (by simp only [Ident]; decide +kernel) (by decide +kernel) (sample_self _ (by decide +kernel)) (sample_double _ (by decide +kernel))
    (means_of_test (by decide +kernel) (.inl (.refl 0)) ?_ (by decide +kernel) ?_) (.inl ⟨by decide +kernel, by decide +kernel⟩)
  · exact .nested (m := sampleOuter) (List.mem_cons_self ..) (.nested (m := sampleInner) (List.mem_cons_self ..) (.msg (m := tmsg "Leaf") (List.mem_cons_self ..)))
  · intro j h1 h2
    have h2 : j ≤ 4 := h2
    omega

/-- Non-vacuity: `Hidden.Kind` is found in a file that an imported file imports publicly. -/
example : ∃ p, typeResolve sampleWorld 0 sampleChain true (joinDots (idents ["Hidden", "Kind"])) = some (.decl ⟨true, 3, idents ["Hidden", "Kind"]⟩ p) ∧
    resolvedImport sampleWorld 0 p = "x/ab2".toList := by
  refine C55_resolves_partial sampleWorld (samplePks.getD · []) 0 sampleChain (idents ["Hidden", "Kind"]) ⟨true, 3, idents ["Hidden", "Kind"]⟩ 2
    sample_packages sample_tidy sample_around (by decide) (by simp only [Ident]; decide +kernel) (by decide +kernel) (sample_self _ (by decide +kernel)) (sample_double _ (by decide +kernel))
    (means_of_test (by decide +kernel) (.inr ⟨(1, false), List.mem_cons_self .., .step (List.mem_cons_self ..) (.refl 3)⟩) ?_ (by decide +kernel) ?_)
    (.inl ⟨by decide +kernel, by decide +kernel⟩)
  · exact .nested (m := tmsg "Hidden" ["Kind"] []) (List.mem_cons_self ..) (.enum (e := { name := "Kind".toList, fields := [] }) (List.mem_cons_self ..))
  · intro j h1 h2
    have h2 : j ≤ 4 := h2
    have : j = 3 ∨ j = 4 := by omega
    rcases this with e | e <;> subst e <;> decide +kernel

/-- Non-vacuity: `c.Ext.Leaf` names a declaration with its package. -/
example : ∃ p, typeResolve sampleWorld 0 sampleChain true (joinDots (idents ["c", "Ext", "Leaf"])) = some (.decl ⟨false, 2, idents ["Ext", "Leaf"]⟩ p) ∧
    resolvedImport sampleWorld 0 p = "x/c".toList := by
  refine C55_resolves_partial sampleWorld (samplePks.getD · []) 0 sampleChain (idents ["c", "Ext", "Leaf"]) ⟨false, 2, idents ["Ext", "Leaf"]⟩ 0
    sample_packages sample_tidy sample_around (by decide) (by simp only [Ident]; decide +kernel) (by decide +kernel) (sample_self _ (by decide +kernel)) (sample_double _ (by decide +kernel))
    (means_of_test (by decide +kernel) (.inr ⟨(2, false), List.mem_cons_of_mem _ (List.mem_cons_self ..), .refl 2⟩) ?_ (by decide +kernel) ?_)
    (.inr ⟨rfl, by decide +kernel⟩)
  · exact .nested (m := tmsg "Ext" [] [tmsg "Leaf"]) (List.mem_cons_self ..) (.msg (m := tmsg "Leaf") (List.mem_cons_self ..))
  · intro j h1 h2
    have h2 : j ≤ 4 := h2
    have : j = 1 ∨ j = 2 ∨ j = 3 ∨ j = 4 := by omega
    rcases this with e | e | e | e <;> subst e <;> decide +kernel

/-! ## Where it is violated -/

namespace Gen

/-- `message A { message A {} }` -/
def selfWorld : World := { files := [{ edition := .proto3, messages := [tmsg "A" [] [tmsg "A"]] }], imports := fun _ => [] }

/-- Package `a.b`, which imports a file of package `a` and a file without package, and a file of package `c`. -/
def outerPks : List (List Str) := [idents ["a", "b"], idents ["a"], [], idents ["c"]]
def outerWorld : World where
  files := [{ edition := .proto3, package := "a.b".toList, messages := [tmsg "M"] }, { edition := .proto3, package := "a".toList, messages := [tmsg "Foo"] },
    { edition := .proto3, messages := [tmsg "Bar"] }, { edition := .proto3, package := "c".toList, messages := [tmsg "Baz"] }]
  imports := fun f => if f = 0 then [(1, false), (2, false), (3, false)] else []

/-- The first file imports the second, which imports the third publicly; each has its own Go package. -/
def publicWorld : World where
  files := [{ edition := .proto3, package := "a".toList, goImport := "x/a0".toList, messages := [tmsg "M"] },
    { edition := .proto3, package := "a".toList, goImport := "x/a1".toList }, { edition := .proto3, package := "a".toList, goImport := "x/a2".toList, messages := [tmsg "Foo"] }]
  imports := fun f => if f = 0 then [(1, false)] else if f = 1 then [(2, true)] else []

end Gen

/-- Violation of C55: inside of `message A { message A {} }`, the name `A` is the inner message, but resolves to the outer one. -/
theorem C55_self_violated :
    Means selfWorld ([[]].getD · []) 0 (idents ["A"]) (idents ["A"]) ⟨false, 0, idents ["A", "A"]⟩ 1 ∧
    typeResolve selfWorld 0 [([], tmsg "A" [] [tmsg "A"])] true "A".toList = some (.decl ⟨false, 0, idents ["A"]⟩ none) := by
  refine ⟨means_of_test (by decide) (.inl (.refl 0)) ?_ (by decide +kernel) ?_, by decide +kernel⟩
  · exact .nested (m := tmsg "A" [] [tmsg "A"]) (List.mem_cons_self ..) (.msg (m := tmsg "A") (List.mem_cons_self ..))
  · intro j h1 h2
    have h2 : j ≤ 1 := h2
    omega

/-- Violation of C55: in package `a.b`, the name `Foo` means `a.Foo` when there is no `a.b.Foo`, but is not found. -/
theorem C55_outer_package_violated :
    Means outerWorld (outerPks.getD · []) 0 (idents ["a", "b", "M"]) (idents ["Foo"]) ⟨false, 1, idents ["Foo"]⟩ 1 ∧
    typeResolve outerWorld 0 [([], tmsg "M")] true "Foo".toList = none := by
  refine ⟨means_of_test (by decide) (.inr ⟨(1, false), List.mem_cons_self .., .refl 1⟩) (.msg (m := tmsg "Foo") (List.mem_cons_self ..)) (by decide +kernel) ?_, by decide +kernel⟩
  intro j h1 h2
  have h2 : j ≤ 3 := h2
  have : j = 2 ∨ j = 3 := by omega
  rcases this with e | e <;> subst e <;> decide +kernel

/-- Violation of C55: a declaration of a file without package is not found from a file with a package. -/
theorem C55_no_package_violated :
    Means outerWorld (outerPks.getD · []) 0 (idents ["a", "b", "M"]) (idents ["Bar"]) ⟨false, 2, idents ["Bar"]⟩ 0 ∧
    typeResolve outerWorld 0 [([], tmsg "M")] true "Bar".toList = none := by
  refine ⟨means_of_test (by decide) (.inr ⟨(2, false), List.mem_cons_of_mem _ (List.mem_cons_self ..), .refl 2⟩) (.msg (m := tmsg "Bar") (List.mem_cons_self ..)) (by decide +kernel) ?_,
    by decide +kernel⟩
  intro j h1 h2
  have h2 : j ≤ 3 := h2
  have : j = 1 ∨ j = 2 ∨ j = 3 := by omega
  rcases this with e | e | e <;> subst e <;> decide +kernel

/-- Violation of C55: `.c.Baz` names `Baz` of package `c` from anywhere, but is not found from another package (`c.Baz` is). -/
theorem C55_rooted_violated :
    Exists outerWorld ⟨false, 3, idents ["Baz"]⟩ ∧ FullName (outerPks.getD · []) ⟨false, 3, idents ["Baz"]⟩ = idents ["c", "Baz"] ∧
    typeResolve outerWorld 0 [([], tmsg "M")] true ".c.Baz".toList = none ∧
    typeResolve outerWorld 0 [([], tmsg "M")] true "c.Baz".toList = some (.decl ⟨false, 3, idents ["Baz"]⟩ none) :=
  ⟨.msg (m := tmsg "Baz") (List.mem_cons_self ..), by decide +kernel, by decide +kernel, by decide +kernel⟩

/-- Violation of C55: `c.c.Baz` names nothing at all, but is taken for `c.Baz`. -/
theorem C55_doubled_violated :
    (¬ ∃ r i, Means outerWorld (outerPks.getD · []) 0 (idents ["a", "b", "M"]) (idents ["c", "c", "Baz"]) r i) ∧
    typeResolve outerWorld 0 [([], tmsg "M")] true "c.c.Baz".toList = some (.decl ⟨false, 3, idents ["Baz"]⟩ none) := by
  refine ⟨fun ⟨r, i, h1, _, h2, h3, _⟩ => ?_, by decide +kernel⟩
  have hm := allRefs_mem h2
  have h1 : i ≤ 3 := h1
  have key : ∀ i ≤ 3, ∀ r ∈ allRefs outerWorld, FullName (outerPks.getD · []) r ≠ (idents ["a", "b", "M"]).take i ++ idents ["c", "c", "Baz"] := by
    decide +kernel
  exact key i h1 r hm h3

/-- Violation of C55: a type that comes from a publicly imported file is found, but generated code refers to it in the Go package of the file that
imports it publicly, where it is not declared. -/
theorem C55_public_violated :
    typeResolve publicWorld 0 [([], tmsg "M")] true "Foo".toList = some (.decl ⟨false, 2, idents ["Foo"]⟩ (some 1)) ∧
    resolvedImport publicWorld 0 (some 1) ≠ (publicWorld.file 2).goImport := by decide +kernel

end Verif.Props
