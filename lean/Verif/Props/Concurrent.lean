import Verif.Lemmas.Mem.Keeps
import Verif.Props.Memory
/-!
# Unmarshal in several goroutines

Calls of `Unmarshal` whose steps are interleaved in any way (`Model/Goroutines.lean`).
-/
namespace Verif.Props
open Verif.Model Verif.Model.Mem Verif.Spec Verif.Lemmas Verif.Lemmas.Mem

section
variable {env : GoEnv} {S : Schema}

/-! ## What a call reads and writes -/

theorem call_prog {D : Descs} (hp : parseDescs env = .ok D) (c : Call) :
    c.prog env = decodeIntoP D c.view c.id c.addr := by
  unfold Call.prog unmarshalP
  rw [hp]
  rfl

theorem call_inv {c : Call} {h : Store} (hf : c.Fits S h) :
    Inv (fun x => c.own x ∨ Coming h x) (c.reads h) h := by
  refine ⟨fun x hx => ⟨.inr hx, .inr (.inr (.inr hx))⟩, ?_, ?_⟩
  · rintro a (ha | ha)
    · refine ⟨fun u he => .inl (hf.closed.1 a u ha he), fun ys he y hy fs hfs z hz => ?_⟩
      subst hfs
      exact .inl (hf.closed.2 a ys ha he fs hy z hz)
    · rw [hf.unused a ha]
      exact fine_bytes _
  · rintro a (rfl | rfl | ha | ha)
    · rw [hf.message]
      exact bloc_object fun x hx => .inr (.inr (.inl (.here x hx)))
    · obtain ⟨blk, hb, -⟩ := read_ok_iff.1 hf.input
      rw [hb]
      exact bloc_bytes _
    · exact fun x hx => .inr (.inr (.inl (.step a x ha hx)))
    · rw [hf.unused a ha]
      exact bloc_bytes _

theorem call_held {D : Descs} (hD : DescOK D S) {c : Call} {h : Store} (hf : c.Fits S h) :
    Held (fun x => c.own x ∨ Coming h x) (c.reads h) D (.struct c.id) c.val :=
  ⟨ownD_mono (ownD_of hD hf.own) (fun _ hx => .inl hx), fun x hx => .inr (.inr (.inl (.here x hx)))⟩

/-- What a call reads and writes, step by step: it reads the message, the input and what the message
refers to; it writes the message, the memory that belongs to it, and new memory. -/
theorem C88_accesses (hI : Implements env S) (hW : S.WF) (hz : ∀ id, flat (S id).zero = true)
    (c : Call) (h : Store) (hf : c.Fits S h) : KeepsTo (c.writes h) (c.reads h) (c.prog env) h := by
  obtain ⟨D, hp, hD⟩ := parseDescs_ok hI hW
  have hreg := regular_of hD hW hz
  rw [call_prog hp]
  refine ⟨.inl rfl, ?_⟩
  rw [hf.message]
  refine keepsTo_andThen _ _ ?_ ?_
  · refine keepsTo_mono (fun x hx => .inr hx) (fun x hx => hx) _ _
      ((keeps_struct hreg _).keeps _ _ _ _ (.inr (.inl rfl)) (call_held hD hf) h (call_inv hf))
  · cases ((decodeStructP D (c.view.len + 1) defaultRecursionMaxDepth c.view c.val c.id).run h).1 with
    | ok v => exact ⟨.inl rfl, trivial⟩
    | error e => exact ⟨.inl rfl, trivial⟩

/-- What the decoded message refers to. -/
theorem call_closed (hI : Implements env S) (hW : S.WF) (hz : ∀ id, flat (S id).zero = true)
    {c : Call} {h h' : Store} {v' : MVal} (hf : c.Fits S h)
    (hr : unmarshalM env c.view (.ptr c.id (some c.addr)) h = (.ok (), h'))
    (hm' : h'.mem c.addr = .object v') :
    Loc (c.reads h) v' ∧ ∀ a, c.reads h a → BLoc (c.reads h) (h'.mem a) := by
  obtain ⟨D, hp, hD⟩ := parseDescs_ok hI hW
  have hreg := regular_of hD hW hz
  rw [unmarshalM_eq hp] at hr
  obtain ⟨k1, -, -, k4⟩ := tri_struct hreg (c.view.len + 1) defaultRecursionMaxDepth c.view c.val c.id
    (call_held hD hf) h (call_inv hf)
  cases hc : decodeStructM D (c.view.len + 1) defaultRecursionMaxDepth c.view c.val c.id h with
  | mk r h1 =>
    rw [hc] at k1 k4
    rw [decodeInto_eq hf.message c.view c.id hc] at hr
    cases r with
    | error e => injection hr with hr _; cases hr
    | ok w =>
      injection hr with _ hr
      subst hr
      have hw := (k4 w rfl).loc
      rw [set_mem] at hm'
      injection hm' with hm'
      have hv' : w = v' := hm'
      subst hv'
      refine ⟨hw, fun a ha => ?_⟩
      by_cases he : a = c.addr
      · subst he
        rw [set_mem]
        exact bloc_object hw
      · rw [set_mem_ne _ _ _ he]
        exact k1.loc a ha

/-! ## C88 -/

/-- What a call of `Unmarshal` has returned, and what the message is, in a goroutine beside others:
what `unmarshal` computes from the message and the input as they were before. -/
def Undisturbed (env : GoEnv) (c : Call) (h : Store) (m : Machine) (i : Nat) (r : Res Unit) : Prop :=
  (∀ t', unmarshal env c.bytes (.ptr c.id (some c.tree)) = .ok t' →
    r = .ok () ∧ ∃ v' F', m.mem c.addr = .object v' ∧ MemRep (m.store i) v' t' F' ∧
      (∀ x, F' x → c.reads h x) ∧ (m.store i).read c.view = .ok c.bytes) ∧
  (∀ e, unmarshal env c.bytes (.ptr c.id (some c.tree)) = .error e → r = .error e)

/-- Beside goroutines that do anything, but write only blocks that this call does not read or write,
and read and write only blocks that this call does not write. -/
theorem C88_beside (hI : Implements env S) (hW : S.WF) (hz : ∀ id, flat (S id).zero = true)
    (m : Machine) (W R : Nat → Blocks) (hk : ∀ j, KeepsTo (W j) (R j) (m.procs j).prog (m.store j))
    (hd : ∀ i j, i ≠ j → ∀ x, W i x → ¬ W j x ∧ ¬ R j x) (i : Nat) (c : Call)
    (hp : (m.procs i).prog = c.prog env) (hf : c.Fits S (m.store i))
    (hw : W i = c.writes (m.store i)) (hr : R i = c.reads (m.store i))
    (s : List Nat) (r : Res Unit) (hd' : Returned (m.exec s) i r) :
    Undisturbed env c (m.store i) (m.exec s) i r := by
  obtain ⟨k1, k2⟩ := alone_done ((alone_of_keeps hk hd s).1 i) hd'
  rw [hp] at k1 k2
  have hrun : (c.prog env).run = unmarshalM env c.view (.ptr c.id (some c.addr)) := run_unmarshal _ _ _
  rw [hrun] at k1 k2
  rw [hw, hr] at k2
  obtain ⟨F, h1, h2⟩ := hf.content
  obtain ⟨g1, g2⟩ := C70_content_partial hI hW hz (m.store i) c.view c.bytes c.id c.addr c.val c.tree F
    hf.message h1 h2 hf.old.1 ⟨hf.old.2, hf.apart⟩ hf.input hf.spare
  refine ⟨fun t' ht => ?_, fun e he => ?_⟩
  · obtain ⟨h', v', F', q1, q2, q3, -, -, q6, -⟩ := g1 t' ht
    rw [q1] at k1 k2
    obtain ⟨q7, q8⟩ := call_closed hI hW hz hf q1 q2
    refine ⟨k1.symm, v', fun x => F' x ∧ c.reads (m.store i) x, ?_, ?_, fun x hx => hx.2, ?_⟩
    · exact (k2 _ (.inl (.inl rfl))).trans q2
    · exact rep_frame (rep_restrict q8 q3 q7) (fun x hx => k2 x (.inr hx.2))
    · rw [← q6]
      exact read_congr (k2 _ (.inr (.inr (.inl rfl))))
  · exact k1.symm.trans (g2 e he)

/-- The blocks that a goroutine may write. -/
def writesOf (m : Machine) (calls : Nat → Option Call) (i : Nat) : Blocks :=
  fun x => ∃ c, calls i = some c ∧ c.writes (m.store i) x

/-- The blocks that a goroutine may read. -/
def readsOf (m : Machine) (calls : Nat → Option Call) (i : Nat) : Blocks :=
  fun x => ∃ c, calls i = some c ∧ c.reads (m.store i) x

theorem sets_of {m : Machine} {calls : Nat → Option Call} {i : Nat} {c : Call} (hc : calls i = some c) :
    writesOf m calls i = c.writes (m.store i) ∧ readsOf m calls i = c.reads (m.store i) := by
  constructor
  · funext x
    refine propext ⟨?_, fun hx => ⟨c, hc, hx⟩⟩
    rintro ⟨c', hc', hx⟩
    rw [hc] at hc'
    injection hc' with hc'
    exact hc' ▸ hx
  · funext x
    refine propext ⟨?_, fun hx => ⟨c, hc, hx⟩⟩
    rintro ⟨c', hc', hx⟩
    rw [hc] at hc'
    injection hc' with hc'
    exact hc' ▸ hx

theorem calls_keep (hI : Implements env S) (hW : S.WF) (hz : ∀ id, flat (S id).zero = true)
    {m : Machine} {calls : Nat → Option Call} (hm : Independent env S m calls) (i : Nat) :
    KeepsTo (writesOf m calls i) (readsOf m calls i) (m.procs i).prog (m.store i) := by
  cases hc : calls i with
  | none =>
    obtain ⟨r, hr⟩ := hm.idle i hc
    rw [hr]
    trivial
  | some c =>
    obtain ⟨h1, h2⟩ := hm.call i c hc
    rw [(sets_of hc).1, (sets_of hc).2, h1]
    exact C88_accesses hI hW hz c _ h2

theorem calls_apart {m : Machine} {calls : Nat → Option Call} (hm : Independent env S m calls) :
    ∀ i j, i ≠ j → ∀ x, writesOf m calls i x → ¬ writesOf m calls j x ∧ ¬ readsOf m calls j x := by
  rintro i j hij x ⟨c, hc, hx⟩
  exact ⟨fun ⟨c', hc', hx'⟩ => (hm.apart i j c c' hij hc hc' x hx).1 hx',
    fun ⟨c', hc', hx'⟩ => (hm.apart i j c c' hij hc hc' x hx).2 hx'⟩

/-- Independent calls of `Unmarshal`: in every interleaving, each call that has returned has returned
the error, or has left the message, that it would have computed alone. -/
theorem C88_results (hI : Implements env S) (hW : S.WF) (hz : ∀ id, flat (S id).zero = true)
    (m : Machine) (calls : Nat → Option Call) (hm : Independent env S m calls) (s : List Nat)
    (i : Nat) (c : Call) (hc : calls i = some c) (r : Res Unit) (hr : Returned (m.exec s) i r) :
    Undisturbed env c (m.store i) (m.exec s) i r :=
  C88_beside hI hW hz m _ _ (calls_keep hI hW hz hm) (calls_apart hm) i c (hm.call i c hc).1
    (hm.call i c hc).2 (sets_of hc).1 (sets_of hc).2 s r hr

/-- Each call returns after a number of steps of its own, whatever the others do in between. -/
theorem C88_returns (hI : Implements env S) (hW : S.WF) (hz : ∀ id, flat (S id).zero = true)
    (m : Machine) (calls : Nat → Option Call) (hm : Independent env S m calls) (i : Nat) :
    ∃ n, ∀ s : List Nat, n ≤ s.count i → ∃ r, Returned (m.exec s) i r :=
  ⟨_, fun s hs => alone_returns
    ((alone_of_keeps (calls_keep hI hW hz hm) (calls_apart hm) s).1 i) hs⟩

/-- There is no data race: at no time two goroutines are about to access the same block, one of them to
write it. -/
theorem C88_no_race (hI : Implements env S) (hW : S.WF) (hz : ∀ id, flat (S id).zero = true)
    (m : Machine) (calls : Nat → Option Call) (hm : Independent env S m calls) (s : List Nat) :
    ¬ Race (m.exec s) := by
  rintro ⟨i, j, x, hij, hw, hx⟩
  obtain ⟨h1, -⟩ := alone_of_keeps (calls_keep hI hW hz hm) (calls_apart hm) s
  have hi := calls_apart hm i j hij x (alone_writes (h1 i) hw)
  rcases hx with hx | hx
  · exact hi.1 (alone_writes (h1 j) hx)
  · exact hi.2 (alone_reads (h1 j) hx)

/-- Memory that belongs to none of the messages is never changed, for example the inputs, which the
calls may share. -/
theorem C88_untouched (hI : Implements env S) (hW : S.WF) (hz : ∀ id, flat (S id).zero = true)
    (m : Machine) (calls : Nat → Option Call) (hm : Independent env S m calls) (s : List Nat) (x : Nat)
    (hx : ∀ i c, calls i = some c → ¬ c.writes (m.store i) x) : (m.exec s).mem x = m.mem x :=
  (alone_of_keeps (calls_keep hI hW hz hm) (calls_apart hm) s).2 x
    (fun i ⟨c, hc, hw⟩ => hx i c hc hw)

end

/-! ## Examples -/

namespace Items

/-- The memory of `store`, and a new message at 6. -/
def twoMem : Nat → Block := fun x => [.bytes input, .object used,
  .array [.struct [.w32 1], .struct [.w32 0]], .bytes [0x78], .object (ofFlat (.struct zero)),
  .bytes [0x20, 1], .object (ofFlat (.struct zero))].getD x (.bytes [])

/-- The two goroutines decode the same input, one into the message that is in use and one into the new
message; they get new blocks in turn. -/
def two : Machine := ⟨twoMem, fun i =>
  if i = 0 then ⟨unmarshalP env ⟨0, 0, 12⟩ (.ptr 0 (some 1)), 7, fun _ => 0, fun _ => 1⟩
  else if i = 1 then ⟨unmarshalP env ⟨0, 0, 12⟩ (.ptr 0 (some 6)), 8, fun _ => 3, fun _ => 1⟩
  else ⟨.done (.ok ()), 0, fun _ => 0, fun _ => 0⟩⟩

def callUsed : Call := ⟨0, 1, ⟨0, 0, 12⟩, usedOwn, used, usedTree, input⟩

def callNew : Call := ⟨0, 6, ⟨0, 0, 12⟩, fun _ => False, ofFlat (.struct zero), .struct zero, input⟩

def twoCalls : Nat → Option Call
  | 0 => some callUsed
  | 1 => some callNew
  | _ => none

theorem coming_two {h : Store} (hs : h.skip = fun _ => 1) {x : Nat} (hx : Coming h x) :
    h.next ≤ x ∧ x % 2 = h.next % 2 := by
  induction hx with
  | next => exact ⟨Nat.le_refl _, rfl⟩
  | after y _ ih =>
    unfold Store.after
    rw [hs]
    dsimp only
    omega

theorem twoMem_unused {x : Nat} (hx : 7 ≤ x) : twoMem x = .bytes [] := by
  unfold twoMem
  rw [List.getD_eq_getElem?_getD, List.getElem?_eq_none (by simpa using hx)]
  rfl

theorem refers_flat {x : Nat} (hx : MemRefers (ofFlat (.struct zero)) x) : False :=
  loc_ofFlat (W := fun _ => False) (.struct zero) x hx

/-- What the message in use reaches. -/
theorem reaches_used {x : Nat} (hx : MemReaches (two.store 0) used x) : 2 ≤ x ∧ x < 6 := by
  induction hx with
  | here x hx =>
    cases hx with
    | field _ v _ h1 h2 =>
      simp only [List.mem_cons, List.not_mem_nil, or_false] at h1
      rcases h1 with rfl | rfl | rfl | rfl <;> cases h2 <;> exact ⟨by decide, by decide⟩
  | step a x _ hb ih =>
    exfalso
    obtain rfl | rfl | rfl | rfl : a = 2 ∨ a = 3 ∨ a = 4 ∨ a = 5 := by omega
    · have hb : BlockRefers (.array [.struct [.w32 1], .struct [.w32 0]]) x := hb
      cases hb with
      | array _ y _ h1 h2 =>
        simp only [List.mem_cons, List.not_mem_nil, or_false] at h1
        rcases h1 with rfl | rfl <;> cases h2 with
        | field _ v _ h3 h4 =>
          simp only [List.mem_cons, List.not_mem_nil, or_false] at h3
          subst h3; cases h4
    · have hb : BlockRefers (.bytes [0x78]) x := hb
      cases hb
    · have hb : BlockRefers (.object (ofFlat (.struct zero))) x := hb
      cases hb with
      | object _ _ h => exact refers_flat h
    · have hb : BlockRefers (.bytes [0x20, 1]) x := hb
      cases hb

theorem reaches_new {x : Nat} (hx : MemReaches (two.store 1) (ofFlat (.struct zero)) x) : False := by
  induction hx with
  | here x hx => exact refers_flat hx
  | step a x _ _ ih => exact ih

theorem fits_used : callUsed.Fits schema (two.store 0) := by
  refine ⟨rfl, ⟨fun x => 2 ≤ x ∧ x < 6, rep_frame used_rep (fun x hx => ?_), fun x hx => ?_⟩,
    ⟨by decide, by decide⟩, by decide, rfl, used_spare_of rfl, used_own, used_closed_of rfl rfl, fun x hx => ?_⟩
  · obtain rfl | rfl | rfl | rfl : x = 2 ∨ x = 3 ∨ x = 4 ∨ x = 5 := by omega
    all_goals rfl
  · have h1 : (two.store 0).next = 7 := rfl
    have h2 : callUsed.addr = 1 := rfl
    have h3 : callUsed.view.addr = 0 := rfl
    omega
  · exact twoMem_unused (coming_two rfl hx).1

theorem fits_new : callNew.Fits schema (two.store 1) := by
  obtain ⟨D, -, hD⟩ := parseDescs_ok env_implements schema_wf
  refine ⟨rfl, ⟨fun _ => False, rep_flat _ _ _ rfl, fun _ hx => hx.elim⟩, ⟨by decide, by decide⟩, by decide,
    rfl, spare_of_clean hD (clean_flat _ D (.struct zero) rfl _), ?_, ?_, fun x hx => ?_⟩
  · show OwnIn (fun _ => False) schema (.struct 0) (ofFlat (.struct zero))
    refine .struct _ _ (fun fs he f hf _ x hx => ?_) (fun fs he slot u hu hx => ?_) (fun fs he slot a hu hx => ?_)
    · injection he with he
      subst he
      simp only [schema, msg, List.mem_cons, List.not_mem_nil, or_false] at hf
      rcases hf with rfl | rfl | rfl <;> cases hx
      · exact .list _ _ (fun a len h => by cases h)
      · exact .other _ _ (fun _ h => (by cases h)) (fun _ _ h => (by cases h)) (fun _ h => (by cases h))
      · exact .other _ _ (fun _ h => (by cases h)) (fun _ _ h => (by cases h)) (fun _ h => (by cases h))
    · injection he with he
      subst he
      cases hu
      cases hx
    · cases hu
  · exact ⟨fun _ _ h => h.elim, fun _ _ h => h.elim⟩
  · exact twoMem_unused (Nat.le_of_succ_le (coming_two rfl hx).1)

theorem two_independent : Independent env schema two twoCalls := by
  have w0 : ∀ x, callUsed.writes (two.store 0) x → x = 1 ∨ x = 2 ∨ x = 5 ∨ (7 ≤ x ∧ x % 2 = 1) := by
    rintro x (hx | hx | hx)
    · exact .inl hx
    · rcases hx with hx | hx
      · exact .inr (.inl hx)
      · exact .inr (.inr (.inl hx))
    · exact .inr (.inr (.inr (coming_two rfl hx)))
  have w1 : ∀ x, callNew.writes (two.store 1) x → x = 6 ∨ (8 ≤ x ∧ x % 2 = 0) := by
    rintro x (hx | hx | hx)
    · exact .inl hx
    · exact hx.elim
    · exact .inr (coming_two rfl hx)
  have r0 : ∀ x, callUsed.reads (two.store 0) x → x < 6 ∨ (7 ≤ x ∧ x % 2 = 1) := by
    rintro x (hx | hx | hx | hx)
    · have hx : x = 1 := hx
      omega
    · have hx : x = 0 := hx
      omega
    · exact .inl (reaches_used hx).2
    · exact .inr (coming_two rfl hx)
  have r1 : ∀ x, callNew.reads (two.store 1) x → x = 6 ∨ x = 0 ∨ (8 ≤ x ∧ x % 2 = 0) := by
    rintro x (hx | hx | hx | hx)
    · exact .inl hx
    · exact .inr (.inl hx)
    · exact (reaches_new hx).elim
    · exact .inr (.inr (coming_two rfl hx))
  refine ⟨fun i hi => ?_, fun i c hc => ?_, fun i j c c' hij hc hc' x hx => ?_⟩
  · match i, hi with
    | i + 2, _ => exact ⟨_, rfl⟩
  · match i, hc with
    | 0, hc => cases hc; exact ⟨rfl, fits_used⟩
    | 1, hc => cases hc; exact ⟨rfl, fits_new⟩
  · match i, j, hc, hc' with
    | 0, 0, _, _ => exact absurd rfl hij
    | 1, 1, _, _ => exact absurd rfl hij
    | 0, 1, hc, hc' =>
      cases hc; cases hc'
      have := w0 x hx
      exact ⟨fun h => by have := w1 x h; omega, fun h => by have := r1 x h; omega⟩
    | 1, 0, hc, hc' =>
      cases hc; cases hc'
      have := w1 x hx
      exact ⟨fun h => by have := w0 x h; omega, fun h => by have := r0 x h; omega⟩

/-- `C88_results` and `C88_returns` apply: when the first goroutine has made enough steps, in any
interleaving, its message is `decodedTree`. -/
example : ∃ n, ∀ s : List Nat, n ≤ s.count 0 → Returned (two.exec s) 0 (.ok ()) ∧
    ∃ v' F', (two.exec s).mem 1 = .object v' ∧ MemRep ((two.exec s).store 0) v' decodedTree F' := by
  obtain ⟨n, hn⟩ := C88_returns env_implements schema_wf zero_flat two twoCalls two_independent 0
  refine ⟨n, fun s hs => ?_⟩
  obtain ⟨r, hr⟩ := hn s hs
  obtain ⟨h1, -⟩ := C88_results env_implements schema_wf zero_flat two twoCalls two_independent s 0 callUsed
    rfl r hr
  obtain ⟨rfl, v', F', h2, h3, -⟩ := h1 decodedTree decoded
  exact ⟨hr, v', F', h2, h3⟩

/-- The input (0), the string (3) and the submessage (4) are never changed, and there is no race. -/
example (s : List Nat) : (two.exec s).mem 0 = .bytes input ∧ ¬ Race (two.exec s) := by
  refine ⟨(C88_untouched env_implements schema_wf zero_flat two twoCalls two_independent s 0 ?_).trans rfl,
    C88_no_race env_implements schema_wf zero_flat two twoCalls two_independent s⟩
  intro i c hc
  match i, hc with
  | 0, hc =>
    cases hc
    rintro (h | (h | h) | h)
    · cases h
    · cases h
    · cases h
    · have := (coming_two (h := two.store 0) rfl h).1
      exact absurd this (by decide)
  | 1, hc =>
    cases hc
    rintro (h | h | h)
    · cases h
    · exact h
    · have := (coming_two (h := two.store 1) rfl h).1
      exact absurd this (by decide)

/-- Two calls with the same message are not independent: there is a race (the first is about to store
the message, the second to read it). -/
example : Race (Machine.exec ⟨twoMem, fun i => ⟨unmarshalP env ⟨0, 0, 0⟩ (.ptr 0 (some 6)), 7 + i, fun _ => 0,
    fun _ => 1⟩⟩ [0]) :=
  ⟨0, 1, 6, by decide, .inl ⟨_, _, rfl⟩, .inr ⟨_, rfl⟩⟩

end Items

end Verif.Props
