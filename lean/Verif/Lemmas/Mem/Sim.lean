import Verif.Lemmas.Mem.Rep
/-!
# Computations on memory that do what a function on trees does
-/
namespace Verif.Lemmas.Mem
open Verif.Model Verif.Model.Mem Verif.Spec

/-- From `h` to `h'` only blocks in `F` and new blocks were written. -/
structure Step (h h' : Store) (F : Blocks) : Prop where
  next : h.next ≤ h'.next
  frame : ∀ x, x < h.next → ¬ F x → h'.mem x = h.mem x

/-- `F` and the blocks allocated from `h` to `h'`. -/
def grow (F : Blocks) (h h' : Store) : Blocks := fun x => F x ∨ (h.next ≤ x ∧ x < h'.next)

/-- All blocks of `F` exist. -/
def Below (F : Blocks) (h : Store) : Prop := ∀ x, F x → x < h.next

/-- No block. -/
def none' : Blocks := fun _ => False

theorem step_refl (h : Store) (F : Blocks) : Step h h F := ⟨Nat.le_refl _, fun _ _ _ => rfl⟩

theorem step_trans {h h1 h2 : Store} {F G : Blocks} (s1 : Step h h1 F) (s2 : Step h1 h2 G)
    (hg : ∀ x, G x → grow F h h1 x) : Step h h2 F := by
  refine ⟨Nat.le_trans s1.next s2.next, fun x hx hf => ?_⟩
  have n1 := s1.next
  rw [s2.frame x (by omega), s1.frame x hx hf]
  intro hgx
  rcases hg x hgx with h1 | h1
  · exact hf h1
  · omega

theorem step_mono {h h' : Store} {F G : Blocks} (s : Step h h' F) (hg : ∀ x, F x → G x) :
    Step h h' G := ⟨s.next, fun x hx hgx => s.frame x hx (fun h => hgx (hg x h))⟩

theorem grow_mono {h h1 h2 : Store} {F G : Blocks} (s1 : h.next ≤ h1.next) (s2 : h1.next ≤ h2.next)
    (hg : ∀ x, G x → grow F h h1 x) : ∀ x, grow G h1 h2 x → grow F h h2 x := by
  intro x hx
  rcases hx with hx | hx
  · rcases hg x hx with h3 | h3
    · exact .inl h3
    · exact .inr ⟨h3.1, by omega⟩
  · exact .inr ⟨by omega, hx.2⟩

theorem below_grow {h h' : Store} {F : Blocks} (hb : Below F h) (hn : h.next ≤ h'.next) :
    Below (grow F h h') h' := by
  intro x hx
  rcases hx with hx | hx
  · have := hb x hx; omega
  · exact hx.2

theorem below_none (h : Store) : Below none' h := fun _ hx => hx.elim

theorem below_mono {h : Store} {F G : Blocks} (hb : Below F h) (hg : ∀ x, G x → F x) :
    Below G h := fun x hx => hb x (hg x hx)

/-- The input: the bytes of a view outside of `F`. -/
structure Input (h : Store) (v : View) (bs : Bytes) (F : Blocks) : Prop where
  read : h.read v = .ok bs
  old : v.addr < h.next
  out : ¬ F v.addr

theorem input_step {h h' : Store} {v : View} {bs : Bytes} {F : Blocks} (hi : Input h v bs F)
    (hs : Step h h' F) : Input h' v bs (grow F h h') := by
  refine ⟨(read_congr (hs.frame _ hi.old hi.out)).trans hi.read,
    Nat.lt_of_lt_of_le hi.old hs.next, fun hx => ?_⟩
  rcases hx with hx | hx
  · exact hi.out hx
  · have := hi.old; omega

theorem input_mono {h : Store} {v : View} {bs : Bytes} {F G : Blocks} (hi : Input h v bs F)
    (hg : ∀ x, G x → F x) : Input h v bs G := ⟨hi.read, hi.old, fun hx => hi.out (hg _ hx)⟩

theorem read_ok_iff {h : Store} {v : View} {bs : Bytes} : h.read v = .ok bs ↔
    ∃ b, h.mem v.addr = .bytes b ∧ v.off + v.len ≤ b.length ∧ (b.drop v.off).take v.len = bs := by
  unfold Store.read
  cases hb : h.mem v.addr with
  | bytes b =>
    constructor
    · intro h1
      simp only at h1
      by_cases hle : v.off + v.len ≤ b.length
      · rw [if_pos hle] at h1
        injection h1 with h1
        exact ⟨b, rfl, hle, h1⟩
      · rw [if_neg hle] at h1; cases h1
    · rintro ⟨b', h1, h2, h3⟩
      injection h1 with h1
      subst h1 h3
      simp only
      rw [if_pos h2]
  | object v => simp
  | array xs => simp
  | table es => simp

theorem input_len {h : Store} {v : View} {bs : Bytes} {F : Blocks} (hi : Input h v bs F) :
    bs.length = v.len := by
  obtain ⟨b, h1, h2, rfl⟩ := read_ok_iff.1 hi.read
  simp; omega

theorem input_drop {h : Store} {v : View} {bs : Bytes} {F : Blocks} (hi : Input h v bs F) (n : Nat) :
    Input h (v.drop n) (bs.drop n) F := by
  refine ⟨?_, hi.old, hi.out⟩
  obtain ⟨b, h1, h2, rfl⟩ := read_ok_iff.1 hi.read
  refine read_ok_iff.2 ⟨b, h1, ?_, ?_⟩
  · simp only [View.drop]; omega
  · simp only [View.drop, List.drop_take, List.drop_drop]
    by_cases hn : n ≤ v.len
    · rw [Nat.min_eq_left hn]
    · have : v.len - n = 0 := by omega
      simp [this]

theorem input_take {h : Store} {v : View} {bs : Bytes} {F : Blocks} (hi : Input h v bs F) (n : Nat) :
    Input h (v.take n) (bs.take n) F := by
  refine ⟨?_, hi.old, hi.out⟩
  obtain ⟨b, h1, h2, rfl⟩ := read_ok_iff.1 hi.read
  refine read_ok_iff.2 ⟨b, h1, ?_, ?_⟩
  · simp only [View.take]; omega
  · simp only [View.take, List.take_take]

/-- Starting in `h`, the computation `c` on memory does what `r` says: it writes only blocks of `F`
and new ones, and it ends with the same error or with results related by `Q`. -/
def Sim {α β : Type} (h : Store) (F : Blocks) (c : M α) (r : Res β) (Q : Store → α → β → Prop) :
    Prop :=
  Step h (c h).2 F ∧
    match (c h).1, r with
    | .ok a, .ok b => Q (c h).2 a b
    | .error e, .error e' => e = e'
    | _, _ => False

theorem sim_pure {α β : Type} {h : Store} {F : Blocks} {a : α} {b : β} {Q : Store → α → β → Prop}
    (hq : Q h a b) : Sim h F (pure a) (.ok b) Q := ⟨step_refl _ _, hq⟩

theorem sim_fail {α β : Type} {h : Store} {F : Blocks} {e : Fault} {Q : Store → α → β → Prop} :
    Sim h F (fail e) (.error e) Q := ⟨step_refl _ _, rfl⟩

theorem sim_mono {α β : Type} {h : Store} {F G : Blocks} {c : M α} {r : Res β}
    {P Q : Store → α → β → Prop} (hs : Sim h F c r P) (hg : ∀ x, F x → G x)
    (hq : ∀ h' a b, Step h h' F → P h' a b → Q h' a b) : Sim h G c r Q := by
  obtain ⟨h1, h2⟩ := hs
  refine ⟨step_mono h1 hg, ?_⟩
  revert h2
  cases (c h).1 <;> cases r <;> simp only [imp_self]
  exact hq _ _ _ h1

theorem bind_ok {α β : Type} {c : M α} {f : α → M β} {h h' : Store} {a : α}
    (hc : c h = (.ok a, h')) : (c >>= f) h = f a h' := by
  show M.bind c f h = _
  unfold M.bind; rw [hc]

theorem bind_err {α β : Type} {c : M α} {f : α → M β} {h h' : Store} {e : Fault}
    (hc : c h = (.error e, h')) : (c >>= f) h = (.error e, h') := by
  show M.bind c f h = _
  unfold M.bind; rw [hc]

theorem sim_bind {α β α' β' : Type} {h : Store} {F : Blocks} {c : M α} {r : Res β} {f : α → M α'}
    {g : β → Res β'} {P : Store → α → β → Prop} {Q : Store → α' → β' → Prop}
    (hs : Sim h F c r P)
    (hf : ∀ h' a b, Step h h' F → P h' a b →
      ∃ G : Blocks, (∀ x, G x → grow F h h' x) ∧ Sim h' G (f a) (g b) Q) :
    Sim h F (c >>= f) (r >>= g) Q := by
  obtain ⟨h1, h2⟩ := hs
  rcases hc : c h with ⟨o, h'⟩
  rw [hc] at h1 h2
  cases o with
  | error e =>
    have he := bind_err (f := f) hc
    cases r with
    | ok b => exact h2.elim
    | error e' =>
      refine ⟨by rw [he]; exact h1, ?_⟩
      rw [he]; exact h2
  | ok a =>
    have he := bind_ok (f := f) hc
    cases r with
    | error e' => exact h2.elim
    | ok b =>
      obtain ⟨G, hG, h3, h4⟩ := hf h' a b h1 h2
      refine ⟨by rw [he]; exact step_trans h1 h3 hG, ?_⟩
      rw [he]; exact h4

/-- A step without counterpart on trees. -/
theorem sim_left {α α' β' : Type} {h h' : Store} {F : Blocks} (G : Blocks) {c : M α} {a : α}
    {r : Res β'} {f : α → M α'} {Q : Store → α' → β' → Prop}
    (hc : c h = (.ok a, h')) (h1 : Step h h' F) (hG : ∀ x, G x → grow F h h' x)
    (hs : Sim h' G (f a) r Q) : Sim h F (c >>= f) r Q := by
  obtain ⟨h3, h4⟩ := hs
  have he := bind_ok (f := f) hc
  refine ⟨by rw [he]; exact step_trans h1 h3 hG, ?_⟩
  rw [he]; exact h4

/-- A step that only reads. -/
theorem sim_read {α β α' β' : Type} {h : Store} {F : Blocks} {c : M α} {r : Res β} {f : α → M α'}
    {g : β → Res β'} {P : α → β → Prop} {Q : Store → α' → β' → Prop}
    (hs : Sim h F c r (fun h' a b => h' = h ∧ P a b))
    (hf : ∀ a b, P a b → Sim h F (f a) (g b) Q) :
    Sim h F (c >>= f) (r >>= g) Q := by
  refine sim_bind hs (fun h' a b _ hp => ⟨F, fun x hx => .inl hx, ?_⟩)
  obtain ⟨rfl, hp⟩ := hp
  exact hf a b hp

theorem sim_ok {α β : Type} {h h' : Store} {F : Blocks} {c : M α} {r : Res β} {a : α} {b : β}
    {Q : Store → α → β → Prop} (hc : c h = (.ok a, h')) (hr : r = .ok b) (hs : Step h h' F)
    (hq : Q h' a b) : Sim h F c r Q := by
  unfold Sim; rw [hc, hr]; exact ⟨hs, hq⟩

theorem sim_err {α β : Type} {h h' : Store} {F : Blocks} {c : M α} {r : Res β} {e : Fault}
    {Q : Store → α → β → Prop} (hc : c h = (.error e, h')) (hr : r = .error e) (hs : Step h h' F) :
    Sim h F c r Q := by
  unfold Sim; rw [hc, hr]; exact ⟨hs, rfl⟩

theorem parse_eq {α : Type} {h : Store} {F : Blocks} {v : View} {bs : Bytes} (p : Bytes → Res α)
    (hi : Input h v bs F) : parse v p h = (p bs, h) := by
  show (h.read v >>= p, h) = _; rw [hi.read]; rfl

theorem sim_parse {α : Type} {h : Store} {F G : Blocks} {v : View} {bs : Bytes}
    {p : Bytes → Res α} (hi : Input h v bs G) :
    Sim h F (parse v p) (p bs) (fun h' a b => h' = h ∧ a = b) := by
  have he := parse_eq p hi
  cases hp : p bs with
  | ok a => rw [hp] at he; exact sim_ok he rfl (step_refl _ _) ⟨rfl, rfl⟩
  | error e => rw [hp] at he; exact sim_err he rfl (step_refl _ _)

/-! ## New blocks and copies -/

/-- The memory after `new b`. -/
def pushed (h : Store) (b : Block) : Store := { h.set h.next b with next := h.after h.next }

theorem new_eq (b : Block) (h : Store) : new b h = (.ok h.next, pushed h b) := rfl

theorem step_pushed (h : Store) (b : Block) (F : Blocks) : Step h (pushed h b) F := by
  refine ⟨?_, fun x hx _ => ?_⟩
  · show h.next ≤ h.next + 1 + h.skip h.next; omega
  show (if x = h.next then b else h.mem x) = h.mem x
  rw [if_neg (by omega)]

theorem pushed_mem (h : Store) (b : Block) : (pushed h b).mem h.next = b := by
  show (if h.next = h.next then b else h.mem h.next) = b
  rw [if_pos rfl]

theorem pushed_next (h : Store) (b : Block) : h.next + 1 ≤ (pushed h b).next := by
  show h.next + 1 ≤ h.next + 1 + h.skip h.next; omega

theorem set_mem (h : Store) (a : Nat) (b : Block) : (h.set a b).mem a = b := by
  show (if a = a then b else h.mem a) = b
  rw [if_pos rfl]

theorem set_mem_ne (h : Store) (a : Nat) (b : Block) {x : Nat} (hx : x ≠ a) :
    (h.set a b).mem x = h.mem x := by
  show (if x = a then b else h.mem x) = _
  rw [if_neg hx]

theorem step_set (h : Store) (a : Nat) (b : Block) {F : Blocks} (ha : F a) :
    Step h (h.set a b) F := by
  refine ⟨Nat.le_refl _, fun x hx hf => set_mem_ne h a b (fun he => hf (he ▸ ha))⟩

theorem read_whole {h : Store} {a : Nat} {bs : Bytes} (hm : h.mem a = .bytes bs) :
    h.read ⟨a, 0, bs.length⟩ = .ok bs := by
  unfold Store.read
  rw [hm]
  simp

theorem sim_copyBytes {h : Store} {F G : Blocks} {b : View} {bs : Bytes} (hi : Input h b bs G) :
    Sim h F (MVal.bytes <$> copyBytes b) (.ok (.bytes (some bs)))
      (fun h' v t => MemRep h' v t (grow F h h')) := by
  have hc : copyBytes b h = (.ok (some ⟨h.next, 0, bs.length⟩), pushed h (.bytes bs)) := by
    unfold copyBytes
    rw [bind_ok (h' := h) (a := bs) (by show (h.read b >>= _, h) = _; rw [hi.read]; rfl)]
    rw [bind_ok (new_eq _ _)]
    rfl
  refine sim_left (grow F h (pushed h (.bytes bs))) (c := copyBytes b) (f := fun a => pure (MVal.bytes a)) hc (step_pushed h _ F)
    (fun x hx => hx) (sim_pure ?_)
  refine .bytes _ _ _ (read_whole (pushed_mem h _)) (.inr ⟨Nat.le_refl _, pushed_next _ _⟩)

theorem sim_copyString {h : Store} {F G : Blocks} {b : View} {bs : Bytes} (hi : Input h b bs G) :
    Sim h F (copyString b) (.ok bs)
      (fun h' v t => MemRep h' (.str v) (.str t) (grow F h h')) := by
  have hp : parse b (fun b => .ok b) h = (.ok bs, h) := by
    show (h.read b >>= _, h) = _; rw [hi.read]; rfl
  unfold copyString
  refine sim_left F hp (step_refl _ _) (fun x hx => .inl hx) ?_
  by_cases he : bs.length = 0
  · rw [if_pos he]
    refine sim_pure ?_
    have : bs = [] := by simpa using he
    subst this
    exact .strNil _
  · rw [if_neg he]
    refine sim_left (grow F h (pushed h (.bytes bs))) (new_eq _ _) (step_pushed h _ F)
      (fun x hx => hx) (sim_pure ?_)
    exact .str _ _ _ (read_whole (pushed_mem h _)) (.inr ⟨Nat.le_refl _, pushed_next _ _⟩)

/-! ## The payload of a length-delimited record -/

theorem consumeBytes_view {bs fb : Bytes} {n : Nat} (hc : consumeBytes bs = .ok (fb, n)) :
    (bs.take n).drop (n - fb.length) = fb := by
  unfold consumeBytes at hc
  cases h1 : consumeVarint bs with
  | error e => rw [h1] at hc; cases hc
  | ok r =>
    obtain ⟨m, k⟩ := r
    rw [h1] at hc
    simp only [bind, Except.bind] at hc
    split at hc
    · cases hc
    · rename_i hle
      injection hc with hc
      injection hc with h2 h3
      subst h2 h3
      have hl : (List.take m.toNat (List.drop k bs)).length = m.toNat := by
        simp at hle ⊢; omega
      rw [hl, Nat.add_sub_cancel, List.drop_take, Nat.add_sub_cancel_left]

theorem sim_consumeBytes {h : Store} {F G : Blocks} {b : View} {bs : Bytes} (hi : Input h b bs G) :
    Sim h F (consumeBytesM b) (liftP (consumeBytes bs))
      (fun h' p q => h' = h ∧ (p.2 = q.2 ∧ Input h p.1 q.1 G)) := by
  unfold consumeBytesM
  have he := parse_eq (fun b => liftP (consumeBytes b)) hi
  cases hc : consumeBytes bs with
  | error e =>
    rw [hc] at he
    exact sim_err (bind_err he) rfl (step_refl _ _)
  | ok q =>
    obtain ⟨fb, n⟩ := q
    rw [hc] at he
    refine sim_ok (bind_ok he) rfl (step_refl _ _) ⟨rfl, rfl, ?_⟩
    have := input_drop (input_take hi n) (n - fb.length)
    rwa [consumeBytes_view hc] at this

end Verif.Lemmas.Mem
