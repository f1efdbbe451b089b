import Verif.Lemmas.Gen.GoScan
import Verif.Props.Gen.Enum
/-!
# The declarations of a Go file are unique

Different files of declarations have different tokens.
-/
namespace Verif.Props.Gen
open Verif.Spec.Gen
open Verif.Model.Gen (Str)

/-- What comes after is not a dot. -/
def NoDot (r : List GTok) : Prop := r.head? ≠ some (go ".")

theorem type_unique : ∀ {t t' : TypeSyn} {r r' : List GTok}, t.Plain → t'.Plain → NoDot r → NoDot r' → t.toks ++ r = t'.toks ++ r' → t = t' ∧ r = r'
  | .name s, t', r, r', h, h', n, n', e => by
    cases t' with
    | name s' =>
      injection e with e1 e2
      injection e1 with e1
      subst e1
      exact ⟨rfl, e2⟩
    | qual p s' =>
      injection e with e1 e2
      have e2 : r = go "." :: .word s' :: r' := e2
      exact absurd (by rw [e2]; rfl) n
    | map k v =>
      injection e with e1 e2
      injection e1 with e1
      exact absurd e1 h
    | ptr t => injection e with e1 e2; cases e1
    | slice t => injection e with e1 e2; cases e1
  | .qual p s, t', r, r', h, h', n, n', e => by
    cases t' with
    | name s' =>
      injection e with e1 e2
      have e2 : go "." :: .word s :: r = r' := e2
      exact absurd (by rw [← e2]; rfl) n'
    | qual p' s' =>
      injection e with e1 e2
      injection e2 with e2 e3
      injection e3 with e3 e4
      injection e1 with e1
      injection e3 with e3
      subst e1
      subst e3
      exact ⟨rfl, e4⟩
    | map k v =>
      injection e with e1 e2
      injection e1 with e1
      exact absurd e1 h
    | ptr t => injection e with e1 e2; cases e1
    | slice t => injection e with e1 e2; cases e1
  | .ptr t, t', r, r', h, h', n, n', e => by
    cases t' with
    | ptr u =>
      injection e with e1 e2
      obtain ⟨rfl, h1⟩ := type_unique (t := t) (t' := u) h h' n n' e2
      exact ⟨rfl, h1⟩
    | slice u =>
      injection e with e1 e2
      exact absurd e1 (by decide +kernel)
    | name s => injection e with e1 e2; cases e1
    | qual p s => injection e with e1 e2; cases e1
    | map k v => injection e with e1 e2; cases e1
  | .slice t, t', r, r', h, h', n, n', e => by
    cases t' with
    | slice u =>
      injection e with e1 e2
      injection e2 with e2 e3
      obtain ⟨rfl, h1⟩ := type_unique (t := t) (t' := u) h h' n n' e3
      exact ⟨rfl, h1⟩
    | ptr u =>
      injection e with e1 e2
      exact absurd e1 (by decide +kernel)
    | name s => injection e with e1 e2; cases e1
    | qual p s => injection e with e1 e2; cases e1
    | map k v => injection e with e1 e2; cases e1
  | .map k v, t', r, r', h, h', n, n', e => by
    cases t' with
    | map k' v' =>
      have e : gw "map" :: go "[" :: (k.toks ++ go "]" :: v.toks) ++ r = gw "map" :: go "[" :: (k'.toks ++ go "]" :: v'.toks) ++ r' := e
      injection e with e1 e2
      injection e2 with e2 e3
      have e3 : (k.toks ++ go "]" :: v.toks) ++ r = (k'.toks ++ go "]" :: v'.toks) ++ r' := e3
      rw [List.append_assoc, List.append_assoc] at e3
      have nd : ∀ x, NoDot (go "]" :: x) := fun x hx => absurd (Option.some.inj hx) (by decide +kernel)
      obtain ⟨rfl, h1⟩ := type_unique h.1 h'.1 (nd _) (nd _) e3
      injection h1 with _ h1
      obtain ⟨rfl, h2⟩ := type_unique h.2 h'.2 n n' h1
      exact ⟨rfl, h2⟩
    | name s =>
      injection e with e1 e2
      injection e1 with e1
      exact absurd e1.symm h'
    | qual p s =>
      injection e with e1 e2
      injection e1 with e1
      exact absurd e1.symm h'
    | ptr u => injection e with e1 e2; cases e1
    | slice u => injection e with e1 e2; cases e1

theorem nodot_semi (r : List GTok) : NoDot (.semi :: r) := fun h => by cases h
theorem nodot_brace (r : List GTok) : NoDot (go "{" :: r) := fun h => absurd (Option.some.inj h) (by decide +kernel)
theorem nodot_str (s : Str) (r : List GTok) : NoDot (.str s :: r) := fun h => by cases h

/-- The tokens of a type do not start like an expression for another zero value. -/
theorem type_head (t : TypeSyn) : ∃ x xs, t.toks = x :: xs ∧ ((∃ s, x = .word s) ∨ x = go "*" ∨ x = go "[") := by
  cases t with
  | name s => exact ⟨_, _, rfl, .inl ⟨s, rfl⟩⟩
  | qual p s => exact ⟨_, _, rfl, .inl ⟨p, rfl⟩⟩
  | ptr t => exact ⟨_, _, rfl, .inr (.inl rfl)⟩
  | slice t => exact ⟨_, _, rfl, .inr (.inr rfl)⟩
  | map k v => exact ⟨_, _, rfl, .inl ⟨_, rfl⟩⟩

/-- No type is written as one or three words and dots that are followed by a semicolon. -/
theorem lit_ne {t : TypeSyn} {r : List GTok} {ts : List GTok} (hb : go "{" ∉ ts) (hs : GTok.semi ∉ t.toks) (r' : List GTok) : t.toks ++ go "{" :: r ≠ ts ++ .semi :: r' := by
  intro e
  rcases List.append_eq_append_iff.1 e with ⟨as, h1, h2⟩ | ⟨as, h1, h2⟩
  · cases as with
    | nil => injection h2 with h2; cases h2
    | cons a as =>
      injection h2 with h2 h3
      exact hb (by rw [h1, ← h2]; exact List.mem_append_right _ (List.mem_cons_self ..))
  · cases as with
    | nil => injection h2 with h2; cases h2
    | cons a as =>
      injection h2 with h2 h3
      exact hs (by rw [h1, ← h2]; exact List.mem_append_right _ (List.mem_cons_self ..))

theorem type_nosemi : ∀ t : TypeSyn, GTok.semi ∉ t.toks
  | .name s => by simp [TypeSyn.toks]
  | .qual p s => by simp [TypeSyn.toks, go]
  | .ptr t => by simp [TypeSyn.toks, go, type_nosemi t]
  | .slice t => by simp [TypeSyn.toks, go, type_nosemi t]
  | .map k v => by simp [TypeSyn.toks, go, gw, type_nosemi k, type_nosemi v]

theorem zero_unique {z z' : ZeroSyn} {r r' : List GTok} (h : z.Plain) (h' : z'.Plain) (e : z.toks ++ .semi :: r = z'.toks ++ .semi :: r') : z = z' ∧ r = r' := by
  have hl : ∀ (t : TypeSyn) (ts : List GTok) (r r' : List GTok), go "{" ∉ ts → (ZeroSyn.lit t).toks ++ .semi :: r ≠ ts ++ .semi :: r' := by
    intro t ts r r' hb e
    rw [ZeroSyn.toks, List.append_assoc] at e
    exact lit_ne hb (type_nosemi t) _ e
  have nb : ∀ z : ZeroSyn, (∀ t, z ≠ .lit t) → go "{" ∉ z.toks := by
    intro z hz
    cases z with
    | lit t => exact absurd rfl (hz t)
    | nil => decide +kernel
    | zero => decide +kernel
    | false => decide +kernel
    | empty => decide +kernel
    | const s => simp [ZeroSyn.toks, go]
    | qual p s =>
      intro hm
      rcases List.mem_cons.1 hm with hm | hm
      · cases hm
      · rcases List.mem_cons.1 hm with hm | hm
        · exact absurd hm (by decide +kernel)
        · cases List.mem_singleton.1 hm
  cases z with
  | lit t =>
    cases z' with
    | lit t' =>
      rw [ZeroSyn.toks, ZeroSyn.toks, List.append_assoc, List.append_assoc] at e
      obtain ⟨rfl, h1⟩ := type_unique h h' (nodot_brace _) (nodot_brace _) e
      injection h1 with _ h1
      injection h1 with _ h1
      injection h1 with _ h1
      exact ⟨rfl, h1⟩
    | _ => exact absurd e (hl _ _ _ _ (nb _ (fun t => by intro hh; cases hh)))
  | nil =>
    cases z' with
    | lit t' => exact absurd e.symm (hl _ _ _ _ (nb _ (fun t => by intro hh; cases hh)))
    | nil => injection e with e1 e2; injection e2 with e2 e3; exact ⟨rfl, e3⟩
    | zero => injection e with e1 e2; cases e1
    | false => injection e with e1 e2; exact absurd e1 (by decide +kernel)
    | empty => injection e with e1 e2; cases e1
    | const s => injection e with e1 e2; injection e1 with e1; exact absurd e1.symm h'.1
    | qual p s => injection e with e1 e2; injection e2 with e2 e3; cases e2
  | zero =>
    cases z' with
    | lit t' => exact absurd e.symm (hl _ _ _ _ (nb _ (fun t => by intro hh; cases hh)))
    | zero => injection e with e1 e2; injection e2 with e2 e3; exact ⟨rfl, e3⟩
    | _ => injection e with e1 e2; cases e1
  | false =>
    cases z' with
    | lit t' => exact absurd e.symm (hl _ _ _ _ (nb _ (fun t => by intro hh; cases hh)))
    | false => injection e with e1 e2; injection e2 with e2 e3; exact ⟨rfl, e3⟩
    | zero => injection e with e1 e2; cases e1
    | nil => injection e with e1 e2; exact absurd e1 (by decide +kernel)
    | empty => injection e with e1 e2; cases e1
    | const s => injection e with e1 e2; injection e1 with e1; exact absurd e1.symm h'.2
    | qual p s => injection e with e1 e2; injection e2 with e2 e3; cases e2
  | empty =>
    cases z' with
    | lit t' => exact absurd e.symm (hl _ _ _ _ (nb _ (fun t => by intro hh; cases hh)))
    | empty => injection e with e1 e2; injection e2 with e2 e3; exact ⟨rfl, e3⟩
    | _ => injection e with e1 e2; cases e1
  | const s =>
    cases z' with
    | lit t' => exact absurd e.symm (hl _ _ _ _ (nb _ (fun t => by intro hh; cases hh)))
    | nil => injection e with e1 e2; injection e1 with e1; exact absurd e1 h.1
    | false => injection e with e1 e2; injection e1 with e1; exact absurd e1 h.2
    | const s' => injection e with e1 e2; injection e1 with e1; injection e2 with e2 e3; exact ⟨by rw [e1], e3⟩
    | qual p s => injection e with e1 e2; injection e2 with e2 e3; cases e2
    | zero => injection e with e1 e2; cases e1
    | empty => injection e with e1 e2; cases e1
  | qual p s =>
    cases z' with
    | lit t' => exact absurd e.symm (hl _ _ _ _ (nb _ (fun t => by intro hh; cases hh)))
    | qual p' s' =>
      injection e with e1 e2
      injection e2 with e2 e3
      injection e3 with e3 e4
      injection e4 with e4 e5
      injection e1 with e1
      injection e3 with e3
      exact ⟨by rw [e1, e3], e5⟩
    | zero => injection e with e1 e2; cases e1
    | empty => injection e with e1 e2; cases e1
    | _ => injection e with e1 e2; injection e2 with e2 e3; cases e2

theorem int_unique {i i' : Int} {r r' : List GTok} (e : intToks i ++ r = intToks i' ++ r') : i = i' ∧ r = r' := by
  unfold intToks at e
  split at e <;> split at e
  · injection e with e1 e2
    injection e2 with e2 e3
    injection e2 with e2
    have := toDigits_inj e2
    exact ⟨by omega, e3⟩
  · injection e with e1 e2
    cases e1
  · injection e with e1 e2
    cases e1
  · injection e with e1 e2
    injection e1 with e1
    have := toDigits_inj e1
    exact ⟨by omega, e2⟩

/-- Lists of items with an end that is not the start of an item. -/
theorem items_unique {α : Type} {g : α → List GTok} {stop : GTok} {P : α → Prop} (hu : ∀ a a' r r', P a → P a' → g a ++ r = g a' ++ r' → a = a' ∧ r = r')
    (hs : ∀ a r, (g a ++ r).head? ≠ some stop) : ∀ {l l' : List α} {r r' : List GTok}, (∀ a ∈ l, P a) → (∀ a ∈ l', P a) →
      l.flatMap g ++ stop :: r = l'.flatMap g ++ stop :: r' → l = l' ∧ r = r'
  | [], [], r, r', _, _, e => by
    injection e with _ e
    exact ⟨rfl, e⟩
  | [], a :: l, r, r', _, _, e => by
    rw [List.flatMap_cons, List.append_assoc] at e
    exact absurd (by rw [← e]; rfl) (hs a _)
  | a :: l, [], r, r', _, _, e => by
    rw [List.flatMap_cons, List.append_assoc] at e
    exact absurd (by rw [e]; rfl) (hs a _)
  | a :: l, a' :: l', r, r', h, h', e => by
    rw [List.flatMap_cons, List.flatMap_cons, List.append_assoc, List.append_assoc] at e
    obtain ⟨rfl, e1⟩ := hu a a' _ _ (h a (List.mem_cons_self ..)) (h' a' (List.mem_cons_self ..)) e
    obtain ⟨rfl, e2⟩ := items_unique hu hs (fun x hx => h x (List.mem_cons_of_mem _ hx)) (fun x hx => h' x (List.mem_cons_of_mem _ hx)) e1
    exact ⟨rfl, e2⟩

theorem guard_unique {g g' : GuardSyn} {r r' : List GTok} (e : g.toks ++ r = g'.toks ++ r') : g = g' ∧ r = r' := by
  cases g <;> cases g' <;> simp [GuardSyn.toks, go, gw] at e
  all_goals simp_all

/-! ## Declarations -/

/-- The kind of a declaration. -/
def declTag : GoDecl → Nat
  | .intType _ => 0
  | .consts _ => 1
  | .nameVar .. => 2
  | .valueVar .. => 3
  | .stringer .. => 4
  | .struct .. => 5
  | .iface .. => 6
  | .marker .. => 7
  | .reset _ => 8
  | .marshal _ => 9
  | .unmarshal _ => 10
  | .getter .. => 11
  | .wrappers .. => 12

/-- The kind of the declaration at the start of tokens. -/
def toksTag (ts : List GTok) : Nat :=
  if ts[0]? = some (gw "const") then 1
  else if ts[0]? = some (gw "var") then if ts[5]? = some (gw "int32") then 2 else 3
  else if ts[0]? = some (gw "type") then if ts[2]? = some (gw "int32") then 0 else if ts[2]? = some (gw "struct") then 5 else 6
  else if ts[2]? = some (go "*") then if ts[8]? = some (go "{") then 7 else 12
  else if ts[3]? = some (go "*") then
    if ts[8]? = some (gw "in") then if ts[6]? = some (gw "Marshal") then 9 else 10
    else if ts[9]? = some (go "{") then 8 else 11
  else 4

theorem toks_tag (d : GoDecl) (r : List GTok) : toksTag (d.toks ++ r) = declTag d := by
  cases d with
  | getter t n ty g z =>
    obtain ⟨x, xs, h1, h2⟩ := type_head ty
    have h3 : x ≠ go "{" := by
      rcases h2 with ⟨s, rfl⟩ | rfl | rfl
      · intro h
        cases h
      · decide +kernel
      · decide +kernel
    simp [GoDecl.toks, h1, recvToks, toksTag, declTag, go, gw] at h3 ⊢
    exact h3
  | _ => simp [GoDecl.toks, recvToks, toksTag, declTag, go, gw]

theorem head_ne {x y : GTok} {r : List GTok} (h : x ≠ y) : (x :: r).head? ≠ some y := fun e => h (Option.some.inj e)

theorem decl_unique {d d' : GoDecl} {r r' : List GTok} (h : d.Plain) (h' : d'.Plain) (e : d.toks ++ r = d'.toks ++ r') : d = d' ∧ r = r' := by
  have ht : declTag d = declTag d' := by rw [← toks_tag d r, e, toks_tag]
  cases d <;> cases d' <;> first | cases ht | skip
  case intType =>
    simp [GoDecl.toks] at e ⊢
    exact e
  case consts l l' =>
    simp only [GoDecl.toks, List.append_assoc, List.cons_append, List.nil_append, List.cons.injEq, true_and] at e
    obtain ⟨rfl, f⟩ := items_unique (P := fun _ => True) (fun a a' r r' _ _ e => by
      simp only [List.append_assoc, List.cons_append, List.nil_append, List.cons.injEq, true_and, GTok.word.injEq] at e
      obtain ⟨e1, e2, e3⟩ := e
      obtain ⟨e3, e4⟩ := int_unique e3
      obtain ⟨a, b, c⟩ := a
      obtain ⟨a', b', c'⟩ := a'
      injection e4 with _ e4
      cases e1; cases e2; cases e3
      exact ⟨rfl, e4⟩) (fun a r => head_ne (by intro hh; cases hh)) (fun _ _ => trivial) (fun _ _ => trivial) e
    injection f with _ f
    exact ⟨rfl, f⟩
  case nameVar v l v' l' =>
    simp only [GoDecl.toks, List.append_assoc, List.cons_append, List.nil_append, List.cons.injEq, true_and, GTok.word.injEq] at e
    obtain ⟨rfl, e⟩ := e
    obtain ⟨rfl, f⟩ := items_unique (P := fun _ => True) (fun a a' r r' _ _ e => by
      simp only [List.append_assoc, List.cons_append, List.nil_append] at e
      obtain ⟨e3, e4⟩ := int_unique e
      simp only [List.cons.injEq, true_and, GTok.str.injEq] at e4
      obtain ⟨a, b⟩ := a
      obtain ⟨a', b'⟩ := a'
      obtain ⟨e1, e2⟩ := e4
      cases e3; cases e1
      exact ⟨rfl, e2⟩) (fun a r => by
        unfold intToks
        split <;> exact head_ne (by simp [go])) (fun _ _ => trivial) (fun _ _ => trivial) e
    injection f with _ f
    exact ⟨rfl, f⟩
  case valueVar v l v' l' =>
    simp only [GoDecl.toks, List.append_assoc, List.cons_append, List.nil_append, List.cons.injEq, true_and, GTok.word.injEq] at e
    obtain ⟨rfl, e⟩ := e
    obtain ⟨rfl, f⟩ := items_unique (P := fun _ => True) (fun a a' r r' _ _ e => by
      simp only [List.append_assoc, List.cons_append, List.nil_append, List.cons.injEq, true_and, GTok.str.injEq] at e
      obtain ⟨e1, e2⟩ := e
      obtain ⟨e3, e4⟩ := int_unique e2
      injection e4 with _ e4
      obtain ⟨a, b⟩ := a
      obtain ⟨a', b'⟩ := a'
      cases e3; cases e1
      exact ⟨rfl, e4⟩) (fun a r => head_ne (by intro hh; cases hh)) (fun _ _ => trivial) (fun _ _ => trivial) e
    injection f with _ f
    exact ⟨rfl, f⟩
  case stringer =>
    simp [GoDecl.toks] at e ⊢
    exact ⟨⟨e.1, e.2.1⟩, e.2.2⟩
  case struct n l n' l' =>
    simp only [GoDecl.toks, List.append_assoc, List.cons_append, List.nil_append, List.cons.injEq, true_and, GTok.word.injEq] at e
    obtain ⟨rfl, e⟩ := e
    obtain ⟨rfl, f⟩ := items_unique (P := fun f : Str × TypeSyn × Str => f.2.1.Plain) (fun a a' r r' p p' e => by
      simp only [List.append_assoc, List.cons_append, List.nil_append, List.cons.injEq, true_and, GTok.word.injEq] at e
      obtain ⟨e1, e2⟩ := e
      obtain ⟨e3, e4⟩ := type_unique p p' (nodot_str _ _) (nodot_str _ _) e2
      simp only [List.cons.injEq, true_and, GTok.str.injEq] at e4
      obtain ⟨a, b, c⟩ := a
      obtain ⟨a', b', c'⟩ := a'
      obtain ⟨e4, e5⟩ := e4
      cases e1; cases e3; cases e4
      exact ⟨rfl, e5⟩) (fun a r => head_ne (by intro hh; cases hh)) h h' e
    injection f with _ f
    exact ⟨rfl, f⟩
  case iface =>
    simp [GoDecl.toks] at e ⊢
    exact ⟨⟨e.1, e.2.1⟩, e.2.2⟩
  case marker =>
    simp [GoDecl.toks] at e ⊢
    exact ⟨⟨e.1, e.2.1⟩, e.2.2⟩
  case reset =>
    simp [GoDecl.toks, recvToks] at e ⊢
    exact e
  case marshal =>
    simp [GoDecl.toks, recvToks] at e ⊢
    exact e
  case unmarshal =>
    simp [GoDecl.toks, recvToks] at e ⊢
    exact e
  case getter t n ty g z t' n' ty' g' z' =>
    simp only [GoDecl.toks, recvToks, List.append_assoc, List.cons_append, List.nil_append, List.cons.injEq, true_and, GTok.word.injEq] at e
    obtain ⟨rfl, rfl, e⟩ := e
    obtain ⟨rfl, e1⟩ := type_unique h.1 h'.1 (nodot_brace _) (nodot_brace _) e
    injection e1 with _ e1
    obtain ⟨rfl, e2⟩ := guard_unique e1
    injection e2 with _ e2
    obtain ⟨rfl, e3⟩ := zero_unique h.2 h'.2 e2
    simp at e3
    exact ⟨rfl, e3⟩
  case wrappers t l t' l' =>
    simp only [GoDecl.toks, List.append_assoc, List.cons_append, List.nil_append, List.cons.injEq, true_and, GTok.word.injEq] at e
    obtain ⟨rfl, e⟩ := e
    obtain ⟨rfl, f⟩ := items_unique (P := fun _ => True) (fun a a' r r' _ _ e => by
      simp only [List.cons_append, List.nil_append, List.cons.injEq, true_and, GTok.word.injEq] at e
      exact e) (fun a r => head_ne (by decide +kernel)) (fun _ _ => trivial) (fun _ _ => trivial) e
    injection f with _ f
    injection f with _ f
    exact ⟨rfl, f⟩

theorem decl_head (d : GoDecl) : ∃ x xs, d.toks = x :: xs ∧ x ≠ gw "import" := by
  cases d <;> exact ⟨_, _, rfl, by decide +kernel⟩

theorem decls_unique : ∀ {l l' : List GoDecl}, (∀ d ∈ l, d.Plain) → (∀ d ∈ l', d.Plain) → l.flatMap GoDecl.toks = l'.flatMap GoDecl.toks → l = l'
  | [], [], _, _, _ => rfl
  | [], d :: l, _, _, e => by
    obtain ⟨x, xs, h, _⟩ := decl_head d
    rw [List.flatMap_cons, h] at e
    cases e
  | d :: l, [], _, _, e => by
    obtain ⟨x, xs, h, _⟩ := decl_head d
    rw [List.flatMap_cons, h] at e
    cases e
  | d :: l, d' :: l', h, h', e => by
    rw [List.flatMap_cons, List.flatMap_cons] at e
    obtain ⟨rfl, e1⟩ := decl_unique (h d (List.mem_cons_self ..)) (h' d' (List.mem_cons_self ..)) e
    rw [decls_unique (fun x hx => h x (List.mem_cons_of_mem _ hx)) (fun x hx => h' x (List.mem_cons_of_mem _ hx)) e1]

/-! ## Imports -/

theorem spec_unique {i i' : Str × Str} {r r' : List GTok}
    (e : (if i.1 = [] then [] else [GTok.word i.1]) ++ .str i.2 :: .semi :: r = (if i'.1 = [] then [] else [GTok.word i'.1]) ++ .str i'.2 :: .semi :: r') : i = i' ∧ r = r' := by
  obtain ⟨a, b⟩ := i
  obtain ⟨a', b'⟩ := i'
  dsimp only at e
  split at e <;> split at e
  · rename_i h1 h2
    injection e with e1 e2
    injection e1 with e1
    injection e2 with _ e2
    exact ⟨by rw [h1, h2, e1], e2⟩
  · injection e with e1 e2
    cases e1
  · injection e with e1 e2
    cases e1
  · injection e with e1 e2
    injection e2 with e2 e3
    injection e3 with _ e3
    injection e1 with e1
    injection e2 with e2
    exact ⟨by rw [e1, e2], e3⟩

theorem imports_unique {l l' : List (Str × Str)} {r r' : List GTok} (hr : r.head? ≠ some (gw "import")) (hr' : r'.head? ≠ some (gw "import"))
    (e : importToks l ++ r = importToks l' ++ r') : l = l' ∧ r = r' := by
  have hw : ∀ i : Str × Str, ∀ r, ((if i.1 = [] then [] else [GTok.word i.1]) ++ GTok.str i.2 :: r).head? ≠ some (go "(") := by
    intro i r hh
    split at hh <;> cases hh
  have hend : ∀ i : Str × Str, ∀ r, (((if i.1 = [] then [] else [GTok.word i.1]) ++ [GTok.str i.2, GTok.semi]) ++ r).head? ≠ some (go ")") := by
    intro i r hh
    split at hh <;> cases hh
  match l, l' with
  | [], [] => exact ⟨rfl, e⟩
  | [], [(a, p)] => exact absurd (by rw [show r = _ from e]; rfl) hr
  | [], i :: j :: l' => exact absurd (by rw [show r = _ from e]; rfl) hr
  | [(a, p)], [] => exact absurd (by rw [← show _ = r' from e]; rfl) hr'
  | i :: j :: l', [] => exact absurd (by rw [← show _ = r' from e]; rfl) hr'
  | [(a, p)], [(a', p')] =>
    simp only [importToks, List.append_assoc, List.cons_append, List.nil_append, List.cons.injEq, true_and] at e
    obtain ⟨h1, h2⟩ := spec_unique (i := (a, p)) (i' := (a', p')) e
    exact ⟨by rw [h1], h2⟩
  | [(a, p)], i :: j :: l' =>
    simp only [importToks, List.append_assoc, List.cons_append, List.nil_append, List.cons.injEq, true_and] at e
    exact absurd (by rw [e]; rfl) (hw (a, p) _)
  | i :: j :: l, [(a, p)] =>
    simp only [importToks, List.append_assoc, List.cons_append, List.nil_append, List.cons.injEq, true_and] at e
    exact absurd (by rw [← e]; rfl) (hw (a, p) _)
  | i :: j :: l, i' :: j' :: l' =>
    simp only [importToks, List.append_assoc, List.cons_append, List.nil_append, List.cons.injEq, true_and] at e
    obtain ⟨h1, f⟩ := items_unique (P := fun _ => True) (fun a a' r r' _ _ e => by
      simp only [List.append_assoc, List.cons_append, List.nil_append] at e
      exact spec_unique e) hend (fun _ _ => trivial) (fun _ _ => trivial) e
    injection f with _ f
    exact ⟨h1, f⟩

/-- A text is read as at most one file. -/
theorem reads_unique {text : Str} {f f' : GoFile} (h : f.Plain) (h' : f'.Plain) (e : ReadsAs text f) (e' : ReadsAs text f') : f = f' := by
  have e := lexes_unique e e'
  obtain ⟨p, i, l⟩ := f
  obtain ⟨p', i', l'⟩ := f'
  simp only [GoFile.toks, List.cons_append, List.cons.injEq, true_and, GTok.word.injEq] at e
  obtain ⟨rfl, e⟩ := e
  have hd : ∀ l : List GoDecl, (l.flatMap GoDecl.toks).head? ≠ some (gw "import") := by
    intro l
    cases l with
    | nil =>
      intro hh
      cases hh
    | cons d l =>
      obtain ⟨x, xs, h1, h2⟩ := decl_head d
      rw [List.flatMap_cons, h1]
      exact head_ne h2
  obtain ⟨rfl, e1⟩ := imports_unique (hd l) (hd l') e
  rw [show l = l' from decls_unique h h' e1]

end Verif.Props.Gen
