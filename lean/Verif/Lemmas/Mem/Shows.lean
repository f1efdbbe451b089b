import Verif.Lemmas.Mem.Enc
import Verif.Lemmas.Mem.Rep
import Verif.Spec.Same
/-!
# Messages in memory, and the order of the entries of maps
-/
namespace Verif.Lemmas.Mem
open Verif.Model Verif.Model.Mem Verif.Spec

variable {α γ : Type}

mutual
/-- A message that shares no memory is shown. -/
theorem shows_of_rep {h : Store} {K : Blocks} : ∀ {v : MVal} {t : Val} {F : Blocks},
    MemRep h v t F → (∀ x, F x → K x) → MemShows h stored K v t
  | _, _, _, .w32 v _, _ => .w32 v
  | _, _, _, .w64 v _, _ => .w64 v
  | _, _, _, .bool b _, _ => .bool b
  | _, _, _, .opaque n _, _ => .opaque n
  | _, _, _, .undef _, _ => .undef
  | _, _, _, .strNil _, _ => .strNil
  | _, _, _, .str v s _ h1 h2, hk => .str v s h1 (hk _ h2)
  | _, _, _, .bytesNil _, _ => .bytesNil
  | _, _, _, .bytes v s _ h1 h2, hk => .bytes v s h1 (hk _ h2)
  | _, _, _, .ptrNil _, _ => .ptrNil
  | _, _, _, .ptr a v t _ _ h1 h2 _ h4 h5, hk =>
    .ptr a v t h1 (hk _ h4) (shows_of_rep h2 (fun x hx => hk x (h5 x hx)))
  | _, _, _, .sliceNil _, _ => .sliceNil
  | _, _, _, .slice a len xs ts _ _ h1 h2 h3 _ h5 h6, hk =>
    .slice a len xs ts h1 (hk _ h5) h2 (showsList_of_rep h3 (fun x hx => hk x (h6 x hx)))
  | _, _, _, .mapNil _, _ => .mapNil
  | _, _, _, .map a es ts _ _ h1 h2 _ h4 h5, hk =>
    .map a es ts h1 (hk _ h4) (showsTable_of_rep h2 (fun x hx => hk x (h5 x hx)))
  | _, _, _, .struct fs ts _ h1, hk => .struct fs ts (showsList_of_rep h1 hk)
  | _, _, _, .ifaceNil _, _ => .ifaceNil
  | _, _, _, .ifaceNilPtr w _, _ => .ifaceNilPtr w
  | _, _, _, .iface w a v t _ _ h1 h2 _ h4 h5, hk =>
    .iface w a v t h1 (hk _ h4) (shows_of_rep h2 (fun x hx => hk x (h5 x hx)))
theorem showsList_of_rep {h : Store} {K : Blocks} : ∀ {vs : List MVal} {ts : List Val} {F : Blocks},
    MemRepList h vs ts F → (∀ x, F x → K x) → MemShowsList h stored K vs ts
  | _, _, _, .nil _, _ => .nil
  | _, _, _, .cons _ _ _ _ _ _ _ h1 h2 _ h4 h5, hk =>
    .cons _ _ _ _ (shows_of_rep h1 (fun x hx => hk x (h4 x hx)))
      (showsList_of_rep h2 (fun x hx => hk x (h5 x hx)))
theorem showsTable_of_rep {h : Store} {K : Blocks} : ∀ {es : List (MVal × MVal)} {ts : List (Key × Val)}
    {F : Blocks}, MemRepTable h es ts F → (∀ x, F x → K x) → MemShowsTable h stored K es ts
  | _, _, _, .nil _, _ => .nil
  | _, _, _, .cons _ _ _ _ _ _ _ _ _ _ h1 h2 h3 _ _ _ h7 h8 h9, hk =>
    .cons _ _ _ _ _ _ (shows_of_rep h1 (fun x hx => hk x (h7 x hx)))
      (shows_of_rep h2 (fun x hx => hk x (h8 x hx))) (showsTable_of_rep h3 (fun x hx => hk x (h9 x hx)))
end

/-! ## Other orders -/

theorem both_perm {rel : α → γ → Prop} {as as' : List α} (hp : as.Perm as') : ∀ {cs : List γ}, Both rel as cs →
    ∃ cs', cs.Perm cs' ∧ Both rel as' cs' := by
  induction hp with
  | nil => exact fun h => ⟨_, .refl _, h⟩
  | cons a _ ih =>
    intro cs h
    cases h with
    | cons h1 h2 =>
      obtain ⟨cs', p, b⟩ := ih h2
      exact ⟨_, p.cons _, .cons h1 b⟩
  | swap a b l =>
    intro cs h
    cases h with
    | cons h1 h2 =>
      cases h2 with
      | cons h2 h3 => exact ⟨_, .swap _ _ _, .cons h2 (.cons h1 h3)⟩
  | trans _ _ ih1 ih2 =>
    intro cs h
    obtain ⟨c1, p1, b1⟩ := ih1 h
    obtain ⟨c2, p2, b2⟩ := ih2 b1
    exact ⟨c2, p1.trans p2, b2⟩

theorem both_swap {rel : α → γ → Prop} {as : List α} {cs : List γ} (h : Both rel as cs) :
    Both (fun c a => rel a c) cs as := by
  induction h with
  | nil => exact .nil
  | cons h _ ih => exact .cons h ih

theorem both_length {rel : α → γ → Prop} {as : List α} {cs : List γ} (h : Both rel as cs) :
    as.length = cs.length := by
  induction h with
  | nil => rfl
  | cons _ _ ih => simp only [List.length_cons, ih]

theorem both_at {rel : α → γ → Prop} {as : List α} {cs : List γ} (h : Both rel as cs) :
    ∀ (i : Nat) (a : α) (c : γ), as[i]? = some a → cs[i]? = some c → rel a c := by
  induction h with
  | nil => intro i a c h; cases h
  | cons h _ ih =>
    intro i a c ha hc
    cases i with
    | zero => cases ha; cases hc; exact h
    | succ i => exact ih i a c ha hc

/-- The same entry, up to the order of the entries of maps in its value. -/
def EntryPerm (e e' : Key × Val) : Prop := e.1 = e'.1 ∧ MapPerm e.2 e'.2

theorem both_keys {m m' : List (Key × Val)} (h : Both EntryPerm m m') : m.map (·.1) = m'.map (·.1) := by
  induction h with
  | nil => rfl
  | cons h _ ih => simp only [List.map_cons, ih, h.1]

theorem table_both {h : Store} {π : Order} {K : Blocks} {es : List (MVal × MVal)} {ts : List (Key × Val)} :
    MemShowsTable h π K es ts ↔
      Both (fun e c => MemShows h π K e.1 c.1.toVal ∧ MemShows h π K e.2 c.2) es ts := by
  constructor
  · intro hs
    induction es generalizing ts with
    | nil => cases hs; exact .nil
    | cons e es ih =>
      cases hs with
      | cons _ _ _ _ _ _ h1 h2 h3 => exact .cons ⟨h1, h2⟩ (ih h3)
  · intro hb
    induction hb with
    | nil => exact .nil
    | cons h _ ih => exact .cons _ _ _ _ _ _ h.1 h.2 ih

/-- Keys do not depend on the order. -/
theorem shows_key {h : Store} {π π' : Order} {K : Blocks} {k : MVal} {c : Key}
    (hs : MemShows h π K k c.toVal) : MemShows h π' K k c.toVal := by
  cases c <;> cases hs <;> constructor <;> assumption

mutual
/-- The same memory seen by a call that iterates over maps in another order. -/
theorem shows_order {h : Store} {π : Order} {K : Blocks} (hπ : ∀ a es, (π a es).Perm es) :
    ∀ {v : MVal} {t : Val}, MemShows h stored K v t → ∃ t', MemShows h π K v t' ∧ MapPerm t t'
  | _, _, .w32 v => ⟨_, .w32 v, .refl _⟩
  | _, _, .w64 v => ⟨_, .w64 v, .refl _⟩
  | _, _, .bool b => ⟨_, .bool b, .refl _⟩
  | _, _, .opaque n => ⟨_, .opaque n, .refl _⟩
  | _, _, .undef => ⟨_, .undef, .refl _⟩
  | _, _, .strNil => ⟨_, .strNil, .refl _⟩
  | _, _, .str v s h1 h2 => ⟨_, .str v s h1 h2, .refl _⟩
  | _, _, .bytesNil => ⟨_, .bytesNil, .refl _⟩
  | _, _, .bytes v s h1 h2 => ⟨_, .bytes v s h1 h2, .refl _⟩
  | _, _, .ptrNil => ⟨_, .ptrNil, .refl _⟩
  | _, _, .ptr a v t h1 h2 h3 => by
    obtain ⟨t', g1, g2⟩ := shows_order hπ h3
    exact ⟨_, .ptr a v t' h1 h2 g1, .ptr _ _ g2⟩
  | _, _, .sliceNil => ⟨_, .sliceNil, .refl _⟩
  | _, _, .slice a len xs ts h1 h2 h3 h4 => by
    obtain ⟨ts', g1, g2⟩ := showsList_order hπ h4
    exact ⟨_, .slice a len xs ts' h1 h2 h3 g1, .slice _ _ (both_length g2) (both_at g2)⟩
  | _, _, .mapNil => ⟨_, .mapNil, .refl _⟩
  | _, _, .map a es ts h1 h2 h3 => by
    obtain ⟨ts', g1, g2⟩ := showsTable_order hπ h3
    obtain ⟨m', p, g3⟩ := both_perm (hπ a es).symm (table_both.1 g1)
    obtain ⟨m1, p1, g4⟩ := both_perm p (both_swap g2)
    have g5 := both_swap g4
    exact ⟨_, .map a es m' h1 h2 (table_both.2 g3),
      .map _ m1 _ p1 (both_keys g5) (fun i e e' he he' => (both_at g5 i e e' he he').2)⟩
  | _, _, .struct fs ts h1 => by
    obtain ⟨ts', g1, g2⟩ := showsList_order hπ h1
    exact ⟨_, .struct fs ts' g1, .struct _ _ (both_length g2) (both_at g2)⟩
  | _, _, .ifaceNil => ⟨_, .ifaceNil, .refl _⟩
  | _, _, .ifaceNilPtr w => ⟨_, .ifaceNilPtr w, .refl _⟩
  | _, _, .iface w a v t h1 h2 h3 => by
    obtain ⟨t', g1, g2⟩ := shows_order hπ h3
    exact ⟨_, .iface w a v t' h1 h2 g1, .iface _ _ _ g2⟩
theorem showsList_order {h : Store} {π : Order} {K : Blocks} (hπ : ∀ a es, (π a es).Perm es) :
    ∀ {vs : List MVal} {ts : List Val}, MemShowsList h stored K vs ts →
      ∃ ts', MemShowsList h π K vs ts' ∧ Both MapPerm ts ts'
  | _, _, .nil => ⟨_, .nil, .nil⟩
  | _, _, .cons _ _ _ _ h1 h2 => by
    obtain ⟨t', g1, g2⟩ := shows_order hπ h1
    obtain ⟨ts', g3, g4⟩ := showsList_order hπ h2
    exact ⟨_, .cons _ _ _ _ g1 g3, .cons g2 g4⟩
theorem showsTable_order {h : Store} {π : Order} {K : Blocks} (hπ : ∀ a es, (π a es).Perm es) :
    ∀ {es : List (MVal × MVal)} {ts : List (Key × Val)}, MemShowsTable h stored K es ts →
      ∃ ts', MemShowsTable h π K es ts' ∧ Both EntryPerm ts ts'
  | _, _, .nil => ⟨_, .nil, .nil⟩
  | _, _, .cons _ c _ _ _ _ h1 h2 h3 => by
    obtain ⟨t', g1, g2⟩ := shows_order hπ h2
    obtain ⟨ts', g3, g4⟩ := showsTable_order hπ h3
    exact ⟨(c, t') :: ts', .cons _ _ _ _ _ _ (shows_key h1) g1 g3, .cons ⟨rfl, g2⟩ g4⟩
end

end Verif.Lemmas.Mem
