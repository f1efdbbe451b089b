import Verif.Spec.MemEncode
import Verif.Lemmas.Mem.Grow
import Verif.Lemmas.Mem.Interleave
/-!
# Programs that write to an output buffer

`Enc p r`: the program `p` changes the content of the output buffer as the function `r` says, and
touches no other old memory.
-/
namespace Verif.Lemmas.Mem
open Verif.Model Verif.Model.Mem Verif.Spec

variable {α β γ : Type} {W R : Blocks}

/-- The program, started on `h`, keeps to `W` and `R`, and its result and the memory after it are as `Q`
says. -/
def Wp (W R : Blocks) (Q : Res α → Store → Prop) : Prog α → Store → Prop
  | .done r, h => Q r h
  | .read a k, h => R a ∧ Wp W R Q (k (h.mem a)) h
  | .write a b k, h => W a ∧ Wp W R Q k (h.set a b)
  | .alloc b k, h => W h.next ∧ Wp W R Q (k h.next) { h.set h.next b with next := h.after h.next }
  | .slack n k, h => Wp W R Q (k (h.slack n)) h

theorem wp_keeps {Q : Res α → Store → Prop} : ∀ (p : Prog α) (h : Store), Wp W R Q p h → KeepsTo W R p h
  | .done _, _, _ => trivial
  | .read _ _, _, hk => ⟨hk.1, wp_keeps _ _ hk.2⟩
  | .write _ _ _, _, hk => ⟨hk.1, wp_keeps _ _ hk.2⟩
  | .alloc _ _, _, hk => ⟨hk.1, wp_keeps _ _ hk.2⟩
  | .slack _ k, _, hk => wp_keeps (k _) _ hk

theorem wp_run {Q : Res α → Store → Prop} : ∀ (p : Prog α) (h : Store), Wp W R Q p h →
    Q (p.run h).1 (p.run h).2
  | .done _, _, hk => hk
  | .read _ k, h, hk => wp_run (k _) h hk.2
  | .write a b k, h, hk => wp_run k (h.set a b) hk.2
  | .alloc b k, h, hk => wp_run (k h.next) { h.set h.next b with next := h.after h.next } hk.2
  | .slack _ k, _, hk => wp_run (k _) _ hk

theorem wp_mono {Q Q' : Res α → Store → Prop} (hq : ∀ r h, Q r h → Q' r h) : ∀ (p : Prog α) (h : Store),
    Wp W R Q p h → Wp W R Q' p h
  | .done _, _, hk => hq _ _ hk
  | .read _ _, _, hk => ⟨hk.1, wp_mono hq _ _ hk.2⟩
  | .write _ _ _, _, hk => ⟨hk.1, wp_mono hq _ _ hk.2⟩
  | .alloc _ _, _, hk => ⟨hk.1, wp_mono hq _ _ hk.2⟩
  | .slack _ k, _, hk => wp_mono hq (k _) _ hk

theorem wp_andThen {Q : Res β → Store → Prop} {f : Res α → Prog β} : ∀ (p : Prog α) (h : Store),
    Wp W R (fun r h' => Wp W R Q (f r) h') p h → Wp W R Q (p.andThen f) h
  | .done _, _, hk => hk
  | .read _ _, _, hk => ⟨hk.1, wp_andThen _ _ hk.2⟩
  | .write _ _ _, _, hk => ⟨hk.1, wp_andThen _ _ hk.2⟩
  | .alloc _ _, _, hk => ⟨hk.1, wp_andThen _ _ hk.2⟩
  | .slack _ k, _, hk => wp_andThen (k _) _ hk

/-! ## The memory while the output is written -/

/-- Where a call started: the memory, the buffer, its content; and the blocks of the message. -/
structure Site where
  mem : Store
  dst : Out
  bytes : Bytes
  msg : Blocks
  holds : Holds mem dst bytes
  old : ∀ x, Coming mem x → ∀ v, dst = some v → x ≠ v.addr
  apart : ∀ x, msg x → ¬ OutBlocks mem dst x

variable (s : Site)

/-- The blocks that may be written. -/
def Site.wr : Blocks := OutBlocks s.mem s.dst

/-- The blocks that may be read. -/
def Site.rd : Blocks := fun x => s.msg x ∨ OutBlocks s.mem s.dst x

/-- All other memory is as it was. -/
structure Site.Frame (h : Store) : Prop where
  same : ∀ x, ¬ OutBlocks s.mem s.dst x → h.mem x = s.mem.mem x
  next : Coming s.mem h.next
  skip : h.skip = s.mem.skip
  kept : KeptUpTo s.mem h s.dst

/-- The output so far is `b`, in the buffer `dst`. -/
structure Site.Writing (h : Store) (dst : Out) (b : Bytes) : Prop where
  frame : s.Frame h
  holds : Holds h dst b
  pre : s.bytes <+: b
  place : AppendedTo s.mem s.dst dst b.length

/-- What holds after writing. -/
def Site.Post (rb : Res Bytes) (res : Res Out) (h : Store) : Prop :=
  match rb with
  | .ok b => ∃ d, res = .ok d ∧ s.Writing h d b
  | .error e => res = .error e ∧ s.Frame h

/-- Started when the content is `b`, the program makes it `rb`. -/
def Site.EncAt (p : Out → Prog Out) (rb : Res Bytes) (b : Bytes) : Prop :=
  ∀ h dst, s.Writing h dst b → Wp s.wr s.rd (s.Post rb) (p dst) h

/-- The program changes the content as `r` says, and only appends to it. -/
structure Site.Enc (p : Out → Prog Out) (r : Bytes → Res Bytes) : Prop where
  at_ : ∀ b, s.bytes <+: b → s.EncAt p (r b) b
  grows : GrowsR r

/-- The program reads the message and has a result that is related to `r`. -/
def Site.Rd (p : Prog α) (r : Res γ) (rel : α → γ → Prop) : Prop :=
  ∀ h, s.Frame h → Wp s.wr s.rd (fun res h' => h' = h ∧
    match r with
    | .ok t => ∃ a, res = .ok a ∧ rel a t
    | .error e => res = .error e) p h

variable {s}

theorem frame_start : s.Frame s.mem :=
  ⟨fun _ _ => rfl, .next, rfl, fun _ blk _ hb => ⟨blk, hb, rfl, rfl⟩⟩

theorem holds_length {h : Store} {dst : Out} {b : Bytes} (hh : Holds h dst b) : Out.length dst = b.length := by
  cases dst with
  | none => cases hh; rfl
  | some v =>
    have hh : h.read v = .ok b := hh
    unfold Store.read at hh
    split at hh
    · split at hh
      · cases hh
        show v.len = _
        rw [List.length_take, List.length_drop]
        omega
      · cases hh
    · cases hh

theorem writing_start : s.Writing s.mem s.dst s.bytes := by
  refine ⟨frame_start, s.holds, List.prefix_refl _, ?_⟩
  have hh := s.holds
  unfold AppendedTo
  cases hd : s.dst with
  | none =>
    rw [hd] at hh
    have hh : s.bytes = [] := hh
    simp [hh]
  | some v =>
    rw [hd] at hh
    have hl := holds_length hh
    have hh : s.mem.read v = .ok s.bytes := hh
    unfold Store.read at hh
    dsimp only
    rw [if_pos]
    · exact ⟨v, rfl, rfl, rfl⟩
    · unfold capacity
      dsimp only
      split at hh
      · rename_i blk hb
        rw [hb]
        dsimp only
        split at hh
        · have hl : v.len = s.bytes.length := hl
          omega
        · cases hh
      · cases hh

theorem encAt_bind {p q : Out → Prog Out} {rb : Res Bytes} {t : Bytes → Res Bytes} {b : Bytes}
    (hp : s.EncAt p rb b) (hq : ∀ b', rb = .ok b' → s.EncAt q (t b') b') :
    s.EncAt (fun d => p d >>= q) (rb >>= t) b := by
  intro h dst hw
  refine wp_andThen _ _ (wp_mono ?_ _ _ (hp h dst hw))
  intro r h' hr
  cases rb with
  | error e =>
    obtain ⟨rfl, hf⟩ := hr
    exact ⟨rfl, hf⟩
  | ok b' =>
    obtain ⟨d, rfl, hw'⟩ := hr
    exact hq b' rfl h' d hw'

theorem encAt_read {p : Prog α} {r : Res γ} {rel : α → γ → Prop} {q : α → Out → Prog Out}
    {t : γ → Res Bytes} {b : Bytes} (hp : s.Rd p r rel)
    (hq : ∀ a c, r = .ok c → rel a c → s.EncAt (q a) (t c) b) :
    s.EncAt (fun d => p >>= fun a => q a d) (r >>= t) b := by
  intro h dst hw
  refine wp_andThen _ _ (wp_mono ?_ _ _ (hp h hw.frame))
  rintro res h' ⟨rfl, hr⟩
  cases r with
  | error e =>
    dsimp only at hr
    subst hr
    exact ⟨rfl, hw.frame⟩
  | ok c =>
    obtain ⟨a, rfl, ha⟩ := hr
    exact hq a c rfl ha h' dst hw

theorem encAt_pure (b : Bytes) : s.EncAt (fun d => pure d) (.ok b) b :=
  fun _ dst hw => ⟨dst, rfl, hw⟩

theorem encAt_fail (e : Fault) (b : Bytes) : s.EncAt (fun _ => failP e) (.error e) b :=
  fun _ _ hw => ⟨rfl, hw.frame⟩

theorem encAt_length {p : Nat → Out → Prog Out} {rb : Res Bytes} {b : Bytes} (h : s.EncAt (p b.length) rb b) :
    s.EncAt (fun d => p (Out.length d) d) rb b := by
  intro g dst hw
  have := h g dst hw
  rw [← holds_length hw.holds] at this
  exact this

theorem rd_done {a : α} {c : γ} {rel : α → γ → Prop} (h : rel a c) : s.Rd (.done (.ok a)) (.ok c) rel :=
  fun _ _ => ⟨rfl, a, rfl, h⟩

theorem rd_fail (e : Fault) {rel : α → γ → Prop} : s.Rd (failP e) (.error e) rel := fun _ _ => ⟨rfl, rfl⟩

theorem rd_res (r : Res α) : s.Rd (.done r) r Eq := by
  intro h hf
  cases r with
  | ok a => exact ⟨rfl, a, rfl, rfl⟩
  | error e => exact ⟨rfl, rfl⟩

theorem rd_bind {δ ε : Type} {p : Prog α} {r : Res γ} {rel : α → γ → Prop} {q : α → Prog δ} {t : γ → Res ε}
    {rel' : δ → ε → Prop} (hp : s.Rd p r rel) (hq : ∀ a c, r = .ok c → rel a c → s.Rd (q a) (t c) rel') :
    s.Rd (p >>= q) (r >>= t) rel' := by
  intro h hf
  refine wp_andThen _ _ (wp_mono ?_ _ _ (hp h hf))
  rintro res h' ⟨rfl, hr⟩
  cases r with
  | error e =>
    dsimp only at hr
    subst hr
    exact ⟨rfl, rfl⟩
  | ok c =>
    obtain ⟨a, rfl, ha⟩ := hr
    exact hq a c rfl ha h' hf

/-- Reading a block of the message. -/
theorem rd_read {x : Nat} {k : Block → Prog α} {r : Res γ} {rel : α → γ → Prop} (hx : s.msg x)
    (hk : s.Rd (k (s.mem.mem x)) r rel) : s.Rd (.read x k) r rel := by
  intro h hf
  refine ⟨.inl hx, ?_⟩
  rw [hf.same x (s.apart x hx)]
  exact hk h hf

/-- The elements of two lists are related. -/
inductive Both (rel : α → γ → Prop) : List α → List γ → Prop
  | nil : Both rel [] []
  | cons {a : α} {c : γ} {as : List α} {cs : List γ} : rel a c → Both rel as cs → Both rel (a :: as) (c :: cs)

theorem enc_foldlM {p : Out → α → Prog Out} {r : Bytes → γ → Res Bytes} {rel : α → γ → Prop} :
    ∀ {as : List α} {cs : List γ}, Both rel as cs →
      (∀ a c, rel a c → s.Enc (fun d => p d a) (fun b => r b c)) →
      s.Enc (fun d => as.foldlM p d) (fun b => cs.foldlM r b) := by
  intro as cs hf h
  induction hf with
  | nil => exact ⟨fun b _ => encAt_pure b, grows_id.ok⟩
  | cons ha _ ih =>
    have h1 := h _ _ ha
    refine ⟨fun b hb => ?_, fun b b' hb => ?_⟩
    · simp only [List.foldlM_cons]
      exact encAt_bind (h1.at_ b hb) fun b' hb' => ih.at_ b' (hb.trans (h1.grows b b' hb'))
    · rw [List.foldlM_cons] at hb
      exact h1.grows.bind ih.grows b b' hb

/-! ## Changing the output -/

theorem read_bytes {h : Store} {v : View} {b : Bytes} (hr : h.read v = .ok b) :
    ∃ blk, h.mem v.addr = .bytes blk ∧ v.off + v.len ≤ blk.length ∧ b = (blk.drop v.off).take v.len := by
  unfold Store.read at hr
  split at hr
  · rename_i blk hb
    split at hr
    · cases hr
      exact ⟨blk, hb, by assumption, rfl⟩
    · cases hr
  · cases hr

theorem read_start {h : Store} {a : Nat} {out rest : Bytes} (hb : h.mem a = .bytes (out ++ rest)) :
    h.read ⟨a, 0, out.length⟩ = .ok out := by
  unfold Store.read
  dsimp only
  rw [hb]
  dsimp only
  rw [if_pos (by rw [List.length_append]; omega), List.drop_zero, List.take_left]

/-- A new block for the output. -/
theorem writing_new {h : Store} {out rest : Bytes} (hf : s.Frame h) (hp : s.bytes <+: out)
    (hl : AppendedTo s.mem s.dst (some ⟨h.next, 0, out.length⟩) out.length) :
    s.Writing { h.set h.next (.bytes (out ++ rest)) with next := h.after h.next }
      (some ⟨h.next, 0, out.length⟩) out := by
  refine ⟨⟨fun x hx => ?_, ?_, hf.skip, fun v blk hd hb => ?_⟩, ?_, hp, hl⟩
  · have hn : x ≠ h.next := fun he => hx (.inr (he ▸ hf.next))
    exact (if_neg hn).trans (hf.same x hx)
  · have := Coming.after h.next hf.next
    unfold Store.after at this ⊢
    rw [hf.skip]
    exact this
  · obtain ⟨blk', h1, h2, h3⟩ := hf.kept v blk hd hb
    refine ⟨blk', ?_, h2, h3⟩
    exact (if_neg (fun he => s.old h.next hf.next v hd he.symm)).trans h1
  · exact read_start (if_pos rfl)

theorem encAt_edit {f : Bytes → Res Bytes} {b : Bytes}
    (hf : ∀ b', f b = .ok b' → s.bytes <+: b' ∧ b.length ≤ b'.length) : s.EncAt (editP f) (f b) b := by
  intro h dst hw
  have hold := hw.holds
  have hpl := hw.place
  cases dst with
  | none =>
    have hold : b = [] := hold
    subst hold
    have hdn : s.dst = none := by
      cases hd : s.dst with
      | none => rfl
      | some v =>
        unfold AppendedTo at hpl
        rw [hd] at hpl
        dsimp only at hpl
        split at hpl
        · obtain ⟨v', h1, -⟩ := hpl; cases h1
        · obtain ⟨v', h1, -⟩ := hpl; cases h1
    unfold editP
    dsimp only
    cases hr : f [] with
    | error e => exact ⟨rfl, hw.frame⟩
    | ok out =>
      obtain ⟨hp, hlen⟩ := hf out hr
      cases out with
      | nil => exact ⟨none, rfl, hw⟩
      | cons c cs =>
        refine ⟨.inr hw.frame.next, _, rfl, writing_new hw.frame hp ?_⟩
        unfold AppendedTo
        rw [hdn]
        dsimp only
        rw [if_neg (by simp)]
        exact ⟨_, rfl, hw.frame.next⟩
  | some v =>
    have hold : h.read v = .ok b := hold
    obtain ⟨blk, hb, hv, rfl⟩ := read_bytes hold
    have hin : OutBlocks s.mem s.dst v.addr := by
      unfold AppendedTo at hpl
      cases hd : s.dst with
      | none =>
        rw [hd] at hpl
        dsimp only at hpl
        split at hpl
        · cases hpl
        · obtain ⟨v', h1, h2⟩ := hpl; cases h1; exact .inr h2
      | some u =>
        rw [hd] at hpl
        dsimp only at hpl
        split at hpl
        · obtain ⟨v', h1, h2, -⟩ := hpl; cases h1; exact .inl ⟨u, rfl, h2⟩
        · obtain ⟨v', h1, h2⟩ := hpl; cases h1; exact .inr h2
    refine ⟨.inr hin, ?_⟩
    rw [hb]
    dsimp only
    rw [if_pos hv]
    cases hr : f ((blk.drop v.off).take v.len) with
    | error e => exact ⟨rfl, hw.frame⟩
    | ok out =>
      obtain ⟨hp, hlen⟩ := hf out hr
      have hbl : ((blk.drop v.off).take v.len).length = v.len := by
        rw [List.length_take, List.length_drop]; omega
      rw [hbl] at hlen hpl
      dsimp only
      split
      · rename_i hfit
        refine ⟨hin, _, rfl, ⟨⟨fun x hx => ?_, hw.frame.next, hw.frame.skip, ?_⟩, ?_, hp, ?_⟩⟩
        · exact (if_neg (fun (he : x = v.addr) => hx (he ▸ hin))).trans (hw.frame.same x hx)
        · intro u blk0 hd hb0
          obtain ⟨blk1, k1, k2, k3⟩ := hw.frame.kept u blk0 hd hb0
          by_cases hu : u.addr = v.addr
          · rw [hu, hb] at k1
            cases k1
            have hoff : v.off = u.off := by
              unfold AppendedTo at hpl
              rw [hd] at hpl
              dsimp only at hpl
              split at hpl
              · obtain ⟨v', h1, -, h3⟩ := hpl; cases h1; exact h3
              · obtain ⟨v', h1, h2⟩ := hpl; cases h1
                exact absurd hu.symm (s.old _ h2 u hd)
            refine ⟨_, if_pos hu, ?_, ?_⟩
            · simp only [List.length_append, List.length_take, List.length_drop]; omega
            · have h0 := s.holds
              rw [hd] at h0
              have hu0 := holds_length h0
              have h0 : s.mem.read u = .ok s.bytes := h0
              obtain ⟨blk', e1, e2, e3⟩ := read_bytes h0
              rw [hb0] at e1
              cases e1
              have hu0 : u.len = s.bytes.length := hu0
              have ht : blk0.take (u.off + u.len) = blk0.take u.off ++ s.bytes := by
                rw [e3, List.take_add]
              obtain ⟨tl, rfl⟩ := hp
              rw [ht, hoff]
              have hto : blk.take u.off = blk0.take u.off := by
                have := congrArg (List.take u.off) k3
                rw [List.take_take, List.take_take, Nat.min_eq_left (by omega)] at this
                exact this
              rw [hto, List.append_assoc, List.append_assoc, ← List.append_assoc]
              have hll : (blk0.take u.off ++ s.bytes).length = u.off + u.len := by
                rw [List.length_append, List.length_take, hu0]; omega
              rw [← hll, List.take_left]
          · exact ⟨blk1, (if_neg hu).trans k1, k2, k3⟩
        · show (h.set v.addr _).read _ = _
          unfold Store.read
          have hm : ∀ x, (h.set v.addr x).mem v.addr = x := fun x => if_pos rfl
          rw [hm]
          dsimp only
          have hvl : (blk.take v.off).length = v.off := by rw [List.length_take]; omega
          rw [if_pos (by simp only [List.length_append, List.length_take, List.length_drop]; omega),
            List.append_assoc, ← hvl]
          simp only [hvl]
          rw [show List.drop v.off (blk.take v.off ++ (out ++ blk.drop (v.off + out.length))) =
            out ++ blk.drop (v.off + out.length) from by
              conv => lhs; rw [← hvl]
              rw [hvl]; exact List.drop_left' hvl]
          rw [List.take_left]
        · unfold AppendedTo at hpl ⊢
          cases hd : s.dst with
          | none =>
            rw [hd] at hpl
            dsimp only at hpl ⊢
            split at hpl
            · cases hpl
            · rename_i hne
              rw [if_neg (by omega)]
              obtain ⟨v', h1, h2⟩ := hpl; cases h1
              exact ⟨_, rfl, h2⟩
          | some u =>
            rw [hd] at hpl
            dsimp only at hpl ⊢
            split at hpl
            · obtain ⟨v', h1, h2, h3⟩ := hpl
              cases h1
              rw [if_pos]
              · exact ⟨_, rfl, h2, h3⟩
              · unfold capacity
                dsimp only
                have h0 := s.holds
                rw [hd] at h0
                obtain ⟨blk0, e1, e2, e3⟩ := read_bytes (show s.mem.read u = .ok s.bytes from h0)
                obtain ⟨blk1, k1, k2, -⟩ := hw.frame.kept u blk0 hd e1
                rw [← h2, hb] at k1
                cases k1
                rw [e1]
                dsimp only
                omega
            · rename_i hcap
              obtain ⟨v', h1, h2⟩ := hpl
              cases h1
              rw [if_neg (by omega)]
              exact ⟨_, rfl, h2⟩
      · rename_i hfit
        refine ⟨.inr hw.frame.next, _, rfl, writing_new hw.frame hp ?_⟩
        unfold AppendedTo at hpl ⊢
        cases hd : s.dst with
        | none =>
          dsimp only
          rw [if_neg (by omega)]
          exact ⟨_, rfl, hw.frame.next⟩
        | some u =>
          rw [hd] at hpl
          dsimp only at hpl ⊢
          rw [if_neg]
          · exact ⟨_, rfl, hw.frame.next⟩
          · intro hcap
            rw [if_pos (by omega)] at hpl
            obtain ⟨v', h1, h2, h3⟩ := hpl
            cases h1
            unfold capacity at hcap
            dsimp only at hcap
            have h0 := s.holds
            rw [hd] at h0
            obtain ⟨blk0, e1, e2, e3⟩ := read_bytes (show s.mem.read u = .ok s.bytes from h0)
            obtain ⟨blk1, k1, k2, -⟩ := hw.frame.kept u blk0 hd e1
            rw [← h2, hb] at k1
            cases k1
            rw [e1] at hcap
            dsimp only at hcap
            omega

/-- Appending. -/
theorem encAt_append {f : Bytes → Res Bytes} (hf : GrowsR f) {b : Bytes} (hb : s.bytes <+: b) :
    s.EncAt (editP f) (f b) b :=
  encAt_edit fun b' h => ⟨hb.trans (hf b b' h), (hf b b' h).length_le⟩

theorem enc_edit {f : Bytes → Res Bytes} (hf : GrowsR f) : s.Enc (editP f) f :=
  ⟨fun _ hb => encAt_append hf hb, hf⟩

/-- Filling in a length. -/
theorem encAt_pack {b e : Bytes} (hb : s.bytes <+: b) :
    s.EncAt (editP fun b' => .ok (lenPack b' (b'.length - (lenReserve b).length)))
      (.ok (lenPack (lenReserve b ++ e) ((lenReserve b ++ e).length - (lenReserve b).length))) (lenReserve b ++ e) := by
  refine encAt_edit (f := fun b' => .ok (lenPack b' (b'.length - (lenReserve b).length))) ?_
  rintro b' ⟨⟩
  refine ⟨?_, lenPack_length _ _⟩
  rw [List.length_append, Nat.add_sub_cancel_left]
  exact hb.trans (prefix_lenPack b e)

end Verif.Lemmas.Mem
