import Verif.Spec.Jobs
import Verif.Props.Concurrent
import Verif.Props.MemSize
/-!
# C91: Marshal, Size and Unmarshal in several goroutines
-/
namespace Verif.Props
open Verif.Model Verif.Model.Mem Verif.Spec Verif.Lemmas Verif.Lemmas.Mem

section
variable {env : GoEnv} {S : Schema}

/-- What a call has returned, in a goroutine beside others: what it would have returned alone. -/
def JobDid (env : GoEnv) (h : Store) (m : Machine) (i : Nat) (r : Res Unit) : Job → Prop
  | .unmarshal c => Undisturbed env c h m i r
  | .marshal c =>
    (∀ o, marshalAppend env c.bytes c.tree = .ok o → r = .ok () ∧ ∃ d, m.mem c.out = .object (.bytes d) ∧
      Holds (m.store i) d o ∧ AppendedTo h c.dst d o.length) ∧
    (∀ e, marshalAppend env c.bytes c.tree = .error e → r = .error e)
  | .size c =>
    (∀ n, size env c.tree = .ok n → r = .ok () ∧ m.mem c.out = .object (.w64 (BitVec.ofNat 64 n))) ∧
    (∀ e, size env c.tree = .error e → r = .error e)

theorem job_keeps (hI : Implements env S) (hW : S.WF) (hz : ∀ id, flat (S id).zero = true)
    (j : Job) (h : Store) (hf : j.Fits S h) : KeepsTo (j.writes h) (j.reads h) (j.prog env) h := by
  cases j with
  | unmarshal c => exact C88_accesses hI hW hz c h hf
  | marshal c =>
    refine keepsTo_andThen _ _ (keepsTo_mono (fun x hx => .inr hx) (fun x hx => hx) _ _
      (C89_accesses hI hW hz hf.1)) ?_
    cases ((marshalAppendP env c.order c.dst c.arg).run h).1 with
    | ok d => exact ⟨.inl rfl, trivial⟩
    | error e => trivial
  | size c =>
    refine keepsTo_andThen _ _ (keepsTo_mono (fun x hx => hx.elim) (fun x hx => hx) _ _
      (C90_accesses hI hW hz hf)) ?_
    cases ((sizeP env c.order c.arg).run h).1 with
    | ok d => exact ⟨rfl, trivial⟩
    | error e => trivial

/-- The result of appending is in the buffer or in new memory. -/
theorem appended_blocks {h : Store} {dst d : Out} {n : Nat} (ha : AppendedTo h dst d n) {v : View} (hv : d = some v) :
    OutBlocks h dst v.addr := by
  unfold AppendedTo at ha
  cases dst with
  | none =>
    dsimp only at ha
    split at ha
    · rw [ha] at hv; cases hv
    · obtain ⟨v', h1, h2⟩ := ha
      rw [h1] at hv; cases hv
      exact .inr h2
  | some w =>
    dsimp only at ha
    split at ha
    · obtain ⟨v', h1, h2, -⟩ := ha
      rw [h1] at hv; cases hv
      exact .inl ⟨w, rfl, h2⟩
    · obtain ⟨v', h1, h2⟩ := ha
      rw [h1] at hv; cases hv
      exact .inr h2

theorem holds_congr {h h' : Store} {d : Out} {o : Bytes} (hh : Holds h d o)
    (hs : ∀ v, d = some v → h'.mem v.addr = h.mem v.addr) : Holds h' d o := by
  cases d with
  | none => exact hh
  | some v => exact (read_congr (hs v rfl)).trans hh

theorem marshal_run {h : Store} (c : MarshalCall) : (Job.prog env (.marshal c)).run h =
    match (marshalAppendP env c.order c.dst c.arg).run h with
    | (.ok d, h') => (.ok (), h'.set c.out (.object (.bytes d)))
    | (.error e, h') => (.error e, h') := by
  refine (run_andThen _ _ h).trans ?_
  cases (marshalAppendP env c.order c.dst c.arg).run h with
  | mk r h' => cases r <;> rfl

theorem size_run {h : Store} (c : SizeCall) : (Job.prog env (.size c)).run h =
    match (sizeP env c.order c.arg).run h with
    | (.ok n, h') => (.ok (), h'.set c.out (.object (.w64 (BitVec.ofNat 64 n))))
    | (.error e, h') => (.error e, h') := by
  refine (run_andThen _ _ h).trans ?_
  cases (sizeP env c.order c.arg).run h with
  | mk r h' => cases r <;> rfl

/-- Beside goroutines that do anything, but write only blocks that this call does not read or write,
and read and write only blocks that this call does not write, a call returns what it would return
alone. -/
theorem C91_beside (hI : Implements env S) (hW : S.WF) (hz : ∀ id, flat (S id).zero = true)
    (m : Machine) (W R : Nat → Blocks) (hk : ∀ j, KeepsTo (W j) (R j) (m.procs j).prog (m.store j))
    (hd : ∀ i j, i ≠ j → ∀ x, W i x → ¬ W j x ∧ ¬ R j x) (i : Nat) (j : Job)
    (hp : (m.procs i).prog = j.prog env) (hf : j.Fits S (m.store i))
    (hw : W i = j.writes (m.store i)) (hr : R i = j.reads (m.store i))
    (s : List Nat) (r : Res Unit) (hd' : Returned (m.exec s) i r) :
    JobDid env (m.store i) (m.exec s) i r j := by
  cases j with
  | unmarshal c => exact C88_beside hI hW hz m W R hk hd i c hp hf hw hr s r hd'
  | marshal c =>
    obtain ⟨k1, k2⟩ := alone_done ((alone_of_keeps hk hd s).1 i) hd'
    rw [hp, marshal_run] at k1 k2
    rw [hw, hr] at k2
    obtain ⟨g1, g2⟩ := C89_append hI hW hz hf.1
    cases hq : (marshalAppendP env c.order c.dst c.arg).run (m.store i) with
    | mk r' h' =>
      rw [hq] at k1 k2 g1 g2
      dsimp only at g1 g2
      refine ⟨fun o ho => ?_, fun e he => ?_⟩
      · obtain ⟨d, q1, q2, q3⟩ := g1 o ho
        subst q1
        dsimp only at k1 k2
        refine ⟨k1.symm, d, ?_, ?_, q3⟩
        · rw [k2 c.out (.inl (.inl rfl))]
          exact set_mem _ _ _
        · refine holds_congr q2 (fun v hv => ?_)
          have ho := appended_blocks q3 hv
          have hne : v.addr ≠ c.out := fun he => hf.2 (he ▸ ho)
          exact (k2 v.addr (.inl (.inr ho))).trans (set_mem_ne _ _ _ hne)
      · have q1 := g2 e he
        subst q1
        exact k1.symm
  | size c =>
    obtain ⟨k1, k2⟩ := alone_done ((alone_of_keeps hk hd s).1 i) hd'
    rw [hp, size_run, C90_size hI hW hz hf] at k1 k2
    rw [hw] at k2
    refine ⟨fun n hn => ?_, fun e he => ?_⟩
    · rw [hn] at k1 k2
      dsimp only at k1 k2
      refine ⟨k1.symm, ?_⟩
      rw [k2 c.out (.inl rfl)]
      exact set_mem _ _ _
    · rw [he] at k1
      exact k1.symm

/-- The blocks that a goroutine may write. -/
def jobWrites (m : Machine) (jobs : Nat → Option Job) (i : Nat) : Blocks :=
  match jobs i with
  | some j => j.writes (m.store i)
  | none => fun _ => False

/-- The blocks that a goroutine may read. -/
def jobReads (m : Machine) (jobs : Nat → Option Job) (i : Nat) : Blocks :=
  match jobs i with
  | some j => j.reads (m.store i)
  | none => fun _ => False

theorem jobs_keep (hI : Implements env S) (hW : S.WF) (hz : ∀ id, flat (S id).zero = true)
    {m : Machine} {jobs : Nat → Option Job} (hm : Compatible env S m jobs) (i : Nat) :
    KeepsTo (jobWrites m jobs i) (jobReads m jobs i) (m.procs i).prog (m.store i) := by
  unfold jobWrites jobReads
  cases hc : jobs i with
  | none =>
    obtain ⟨r, hr⟩ := hm.idle i hc
    rw [hr]
    trivial
  | some c =>
    obtain ⟨h1, h2⟩ := hm.job i c hc
    rw [h1]
    exact job_keeps hI hW hz c _ h2

theorem jobs_apart {m : Machine} {jobs : Nat → Option Job} (hm : Compatible env S m jobs) :
    ∀ i i', i ≠ i' → ∀ x, jobWrites m jobs i x → ¬ jobWrites m jobs i' x ∧ ¬ jobReads m jobs i' x := by
  intro i i' hij x
  unfold jobWrites jobReads
  cases hc : jobs i with
  | none => exact fun h => h.elim
  | some j =>
    cases hc' : jobs i' with
    | none => exact fun _ => ⟨fun h => h, fun h => h⟩
    | some j' => exact hm.apart i i' j j' hij hc hc' x

/-- In every interleaving, each call that has returned has returned the error, or has left the result
(the message, the bytes, the number), that it would have returned alone. -/
theorem C91_results (hI : Implements env S) (hW : S.WF) (hz : ∀ id, flat (S id).zero = true)
    (m : Machine) (jobs : Nat → Option Job) (hm : Compatible env S m jobs) (s : List Nat)
    (i : Nat) (j : Job) (hj : jobs i = some j) (r : Res Unit) (hr : Returned (m.exec s) i r) :
    JobDid env (m.store i) (m.exec s) i r j :=
  C91_beside hI hW hz m _ _ (jobs_keep hI hW hz hm) (jobs_apart hm) i j (hm.job i j hj).1
    (hm.job i j hj).2 (by unfold jobWrites; rw [hj]) (by unfold jobReads; rw [hj]) s r hr

/-- Each call returns after a number of steps of its own, whatever the others do in between. -/
theorem C91_returns (hI : Implements env S) (hW : S.WF) (hz : ∀ id, flat (S id).zero = true)
    (m : Machine) (jobs : Nat → Option Job) (hm : Compatible env S m jobs) (i : Nat) :
    ∃ n, ∀ s : List Nat, n ≤ s.count i → ∃ r, Returned (m.exec s) i r :=
  ⟨_, fun s hs => alone_returns ((alone_of_keeps (jobs_keep hI hW hz hm) (jobs_apart hm) s).1 i) hs⟩

/-- There is no data race. -/
theorem C91_no_race (hI : Implements env S) (hW : S.WF) (hz : ∀ id, flat (S id).zero = true)
    (m : Machine) (jobs : Nat → Option Job) (hm : Compatible env S m jobs) (s : List Nat) :
    ¬ Race (m.exec s) := by
  rintro ⟨i, j, x, hij, hw, hx⟩
  obtain ⟨h1, -⟩ := alone_of_keeps (jobs_keep hI hW hz hm) (jobs_apart hm) s
  have hi := jobs_apart hm i j hij x (alone_writes (h1 i) hw)
  rcases hx with hx | hx
  · exact hi.1 (alone_writes (h1 j) hx)
  · exact hi.2 (alone_reads (h1 j) hx)

/-- Memory that no call may write is never changed. -/
theorem C91_untouched (hI : Implements env S) (hW : S.WF) (hz : ∀ id, flat (S id).zero = true)
    (m : Machine) (jobs : Nat → Option Job) (hm : Compatible env S m jobs) (s : List Nat) (x : Nat)
    (hx : ∀ i j, jobs i = some j → ¬ j.writes (m.store i) x) : (m.exec s).mem x = m.mem x := by
  refine (alone_of_keeps (jobs_keep hI hW hz hm) (jobs_apart hm) s).2 x (fun i => ?_)
  unfold jobWrites
  cases hc : jobs i with
  | none => exact fun h => h
  | some j => exact hx i j hc

/-- At every time, the message that a goroutine encodes is the one that it was given (all of it but the
variable for the result, if that is part of it). -/
theorem C91_message (hI : Implements env S) (hW : S.WF) (hz : ∀ id, flat (S id).zero = true)
    (m : Machine) (jobs : Nat → Option Job) (hm : Compatible env S m jobs) (s : List Nat)
    (i : Nat) (c : MarshalCall) (hj : jobs i = some (.marshal c)) (x : Nat) (hx : c.blocks x) (ho : x ≠ c.out) :
    (m.exec s).mem x = m.mem x := by
  refine C91_untouched hI hW hz m jobs hm s x (fun i' j' hj' hw => ?_)
  by_cases he : i' = i
  · subst he
    rw [hj] at hj'
    injection hj' with hj'
    subst hj'
    rcases hw with hw | hw
    · exact ho hw
    · exact (hm.job i' _ hj).2.1.apart x hx hw
  · exact (hm.apart i' i j' _ he hj' hj x hw).2 (.inl hx)

end

/-! ## Examples -/

namespace Items

/-- The memory of `sharedStore`, variables for results (8, 9, 10), a new message (11) and an input
(12). -/
def fourMem : Nat → Block := fun x => [.bytes [], .object shared, .array [.struct [.w32 1], .struct [.w32 0]],
  .bytes [0x78], .object sharedSub, .bytes [0x20, 1],
  .bytes [9, 9, 1, 1, 1, 1, 1, 1, 1, 1, 1, 1, 1, 1, 1, 1, 1, 1, 1, 1, 1, 1, 1, 1],
  .bytes [9, 9, 1, 1, 1, 1, 1, 1], .object (.bytes none), .object (.bytes none), .object (.w64 0),
  .object (ofFlat (.struct zero)), .bytes input].getD x (.bytes [])

/-- The blocks of the message. -/
abbrev sharedBlocks : Blocks := fun x => 1 ≤ x ∧ x < 6

/-- `MarshalAppend` with the buffer at 6. -/
def jobAppend : MarshalCall := ⟨stored, some ⟨6, 0, 2⟩, .ptr 0 (some 1), 8, sharedBlocks, [9, 9], .ptr 0 (some sharedTree)⟩

/-- `Marshal`. -/
def jobMarshal : MarshalCall := ⟨stored, none, .ptr 0 (some 1), 9, sharedBlocks, [], .ptr 0 (some sharedTree)⟩

/-- `Size`. -/
def jobSize : SizeCall := ⟨stored, .ptr 0 (some 1), 10, sharedBlocks, .ptr 0 (some sharedTree)⟩

/-- `Unmarshal` into the new message. -/
def jobNew : Call := ⟨0, 11, ⟨12, 0, 12⟩, fun _ => False, ofFlat (.struct zero), .struct zero, input⟩

def fourJobs : Nat → Option Job
  | 0 => some (.marshal jobAppend)
  | 1 => some (.marshal jobMarshal)
  | 2 => some (.size jobSize)
  | 3 => some (.unmarshal jobNew)
  | _ => none

/-- Three goroutines encode the same message or compute its size while a fourth one decodes another
message; they get new blocks in turn. -/
def four : Machine := ⟨fourMem, fun i =>
  ⟨match fourJobs i with
    | some j => j.prog env
    | none => .done (.ok ()), 13 + i, fun _ => 0, fun _ => 3⟩⟩

theorem coming_four {h : Store} (hs : h.skip = fun _ => 3) {x : Nat} (hx : Coming h x) :
    h.next ≤ x ∧ x % 4 = h.next % 4 := by
  induction hx with
  | next => exact ⟨Nat.le_refl _, rfl⟩
  | after y _ ih =>
    unfold Store.after
    rw [hs]
    dsimp only
    omega

theorem coming_at {i x : Nat} (hx : Coming (four.store i) x) : 13 ≤ x ∧ x % 4 = (13 + i) % 4 := by
  obtain ⟨h1, h2⟩ := coming_four rfl hx
  have h3 : (four.store i).next = 13 + i := rfl
  omega

theorem fourMem_unused {x : Nat} (hx : 13 ≤ x) : fourMem x = .bytes [] := by
  unfold fourMem
  rw [List.getD_eq_getElem?_getD, List.getElem?_eq_none (by simpa using hx)]
  rfl

theorem four_shows (i : Nat) : ArgShows (four.store i) stored sharedBlocks (.ptr 0 (some 1)) (.ptr 0 (some sharedTree)) := by
  refine .ptr 0 1 _ _ rfl (by decide) (.struct _ _ (.cons _ _ _ _ ?_ (.cons _ _ _ _ (.str _ _ rfl (by decide)) (.cons _ _ _ _ ?_
    (.cons _ _ _ _ (.bytes _ _ rfl (by decide)) .nil)))))
  · exact .slice 2 1 _ _ rfl (by decide) (by decide) (.cons _ _ _ _ (.struct _ _ (.cons _ _ _ _ (.w32 _) .nil)) .nil)
  · refine .ptr 4 _ _ rfl (by decide) (.struct _ _ (.cons _ _ _ _ ?_ (.cons _ _ _ _ (.str _ _ rfl (by decide))
      (.cons _ _ _ _ .ptrNil (.cons _ _ _ _ .bytesNil .nil)))))
    exact .slice 2 2 _ _ rfl (by decide) (by decide) (.cons _ _ _ _ (.struct _ _ (.cons _ _ _ _ (.w32 _) .nil))
      (.cons _ _ _ _ (.struct _ _ (.cons _ _ _ _ (.w32 _) .nil)) .nil))

theorem out_append {x : Nat} (hx : OutBlocks (four.store 0) (some ⟨6, 0, 2⟩) x) : x = 6 ∨ (13 ≤ x ∧ x % 4 = 1) := by
  rcases hx with ⟨v, hv, rfl⟩ | hx
  · cases hv; exact .inl rfl
  · exact .inr (coming_at hx)

theorem out_marshal {x : Nat} (hx : OutBlocks (four.store 1) none x) : 13 ≤ x ∧ x % 4 = 2 := by
  rcases hx with ⟨v, hv, -⟩ | hx
  · cases hv
  · exact coming_at hx

theorem fits_append : (Job.marshal jobAppend).Fits schema (four.store 0) := by
  refine ⟨⟨four_shows 0, rfl, fun v hv hc => ?_, fun x hx ho => ?_⟩, fun ho => ?_⟩
  · cases hv
    exact absurd (coming_at hc).1 (by decide)
  · have hx : 1 ≤ x ∧ x < 6 := hx
    have := out_append ho
    omega
  · have := out_append (x := 8) ho
    omega

theorem fits_marshal : (Job.marshal jobMarshal).Fits schema (four.store 1) := by
  refine ⟨⟨four_shows 1, rfl, nofun, fun x hx ho => ?_⟩, fun ho => ?_⟩
  · have hx : 1 ≤ x ∧ x < 6 := hx
    have := out_marshal ho
    omega
  · have := out_marshal (x := 9) ho
    omega

theorem fits_jobNew : (Job.unmarshal jobNew).Fits schema (four.store 3) := by
  obtain ⟨D, -, hD⟩ := parseDescs_ok env_implements schema_wf
  refine ⟨rfl, ⟨fun _ => False, rep_flat _ _ _ rfl, fun _ hx => hx.elim⟩, ⟨by decide, by decide⟩, by decide,
    rfl, spare_of_clean hD (clean_flat _ D (.struct zero) rfl _), ?_, ?_, fun x hx => ?_⟩
  · exact fits_new.own
  · exact ⟨fun _ _ h => h.elim, fun _ _ h => h.elim⟩
  · exact fourMem_unused (coming_at hx).1

theorem reaches_zero {h : Store} {x : Nat} (hx : MemReaches h (ofFlat (.struct zero)) x) : False := by
  induction hx with
  | here x hx => exact refers_flat hx
  | step a x _ _ ih => exact ih

/-- The blocks that the goroutines write. -/
theorem four_writes {i x : Nat} {j : Job} (hj : fourJobs i = some j) (hx : j.writes (four.store i) x) :
    (i = 0 ∧ (x = 8 ∨ x = 6 ∨ (13 ≤ x ∧ x % 4 = 1))) ∨ (i = 1 ∧ (x = 9 ∨ (13 ≤ x ∧ x % 4 = 2))) ∨
    (i = 2 ∧ x = 10) ∨ (i = 3 ∧ (x = 11 ∨ (13 ≤ x ∧ x % 4 = 0))) := by
  match i, hj with
  | 0, hj =>
    cases hj
    rcases hx with hx | hx
    · exact .inl ⟨rfl, .inl hx⟩
    · exact .inl ⟨rfl, .inr (out_append hx)⟩
  | 1, hj =>
    cases hj
    rcases hx with hx | hx
    · exact .inr (.inl ⟨rfl, .inl hx⟩)
    · exact .inr (.inl ⟨rfl, .inr (out_marshal hx)⟩)
  | 2, hj =>
    cases hj
    exact .inr (.inr (.inl ⟨rfl, hx⟩))
  | 3, hj =>
    cases hj
    rcases hx with hx | hx | hx
    · exact .inr (.inr (.inr ⟨rfl, .inl hx⟩))
    · exact hx.elim
    · exact .inr (.inr (.inr ⟨rfl, .inr (coming_at hx)⟩))

/-- The blocks that the goroutines read. -/
theorem four_reads {i x : Nat} {j : Job} (hj : fourJobs i = some j) (hx : j.reads (four.store i) x) :
    (i = 0 ∧ (x < 6 ∨ x = 6 ∨ (13 ≤ x ∧ x % 4 = 1))) ∨ (i = 1 ∧ (x < 6 ∨ (13 ≤ x ∧ x % 4 = 2))) ∨
    (i = 2 ∧ x < 6) ∨ (i = 3 ∧ (x = 11 ∨ x = 12 ∨ (13 ≤ x ∧ x % 4 = 0))) := by
  match i, hj with
  | 0, hj =>
    cases hj
    rcases hx with hx | hx
    · exact .inl ⟨rfl, .inl hx.2⟩
    · exact .inl ⟨rfl, .inr (out_append hx)⟩
  | 1, hj =>
    cases hj
    rcases hx with hx | hx
    · exact .inr (.inl ⟨rfl, .inl hx.2⟩)
    · exact .inr (.inl ⟨rfl, .inr (out_marshal hx)⟩)
  | 2, hj =>
    cases hj
    exact .inr (.inr (.inl ⟨rfl, hx.1.2⟩))
  | 3, hj =>
    cases hj
    rcases hx with hx | hx | hx | hx
    · exact .inr (.inr (.inr ⟨rfl, .inl hx⟩))
    · exact .inr (.inr (.inr ⟨rfl, .inr (.inl hx)⟩))
    · exact (reaches_zero hx).elim
    · exact .inr (.inr (.inr ⟨rfl, .inr (.inr (coming_at hx))⟩))

theorem four_compatible : Compatible env schema four fourJobs := by
  refine ⟨fun i hi => ?_, fun i j hj => ?_, fun i i' j j' hij hj hj' x hx => ?_⟩
  · match i, hi with
    | i + 4, _ => exact ⟨_, rfl⟩
  · match i, hj with
    | 0, hj => cases hj; exact ⟨rfl, fits_append⟩
    | 1, hj => cases hj; exact ⟨rfl, fits_marshal⟩
    | 2, hj => cases hj; exact ⟨rfl, four_shows 2⟩
    | 3, hj => cases hj; exact ⟨rfl, fits_jobNew⟩
  · have h1 := four_writes hj hx
    refine ⟨fun hx' => ?_, fun hx' => ?_⟩
    · have h2 := four_writes hj' hx'
      omega
    · have h2 := four_reads hj' hx'
      omega

/-- `C91_results` and `C91_returns` apply: when they have made enough steps, in any interleaving, the
first goroutine has the bytes of the message and the third one its size. -/
example : ∃ n, ∀ s : List Nat, n ≤ s.count 0 → n ≤ s.count 2 →
    (∃ d, (four.exec s).mem 8 = .object (.bytes d) ∧ Holds ((four.exec s).store 0) d (9 :: 9 :: sharedBytes)) ∧
    (four.exec s).mem 10 = .object (.w64 20) := by
  obtain ⟨n, hn⟩ := C91_returns env_implements schema_wf zero_flat four fourJobs four_compatible 0
  obtain ⟨n', hn'⟩ := C91_returns env_implements schema_wf zero_flat four fourJobs four_compatible 2
  refine ⟨n + n', fun s h1 h2 => ⟨?_, ?_⟩⟩
  · obtain ⟨r, hr⟩ := hn s (by omega)
    obtain ⟨g1, -⟩ := C91_results env_implements schema_wf zero_flat four fourJobs four_compatible s 0
      (.marshal jobAppend) rfl r hr
    have hm : marshalAppend env [9, 9] (.ptr 0 (some sharedTree)) = .ok (9 :: 9 :: sharedBytes) := by decide +kernel
    obtain ⟨-, d, g2, g3, -⟩ := g1 _ hm
    exact ⟨d, g2, g3⟩
  · obtain ⟨r, hr⟩ := hn' s (by omega)
    obtain ⟨g1, -⟩ := C91_results env_implements schema_wf zero_flat four fourJobs four_compatible s 2
      (.size jobSize) rfl r hr
    have hm : size env (.ptr 0 (some sharedTree)) = .ok 20 := by decide +kernel
    exact (g1 20 hm).2

/-- There is no race, and the message stays as it is (`C91_no_race`, `C91_message`). -/
example (s : List Nat) : ¬ Race (four.exec s) ∧ (four.exec s).mem 1 = .object shared :=
  ⟨C91_no_race env_implements schema_wf zero_flat four fourJobs four_compatible s,
    (C91_message env_implements schema_wf zero_flat four fourJobs four_compatible s 0 jobAppend rfl 1
      (show sharedBlocks 1 by decide) (by decide)).trans rfl⟩

/-- Otherwise there can be a race, for example `Size` of a message beside `Unmarshal` into it. -/
example : Race (Machine.exec ⟨fourMem, fun i => ⟨if i = 0 then unmarshalP env ⟨12, 0, 0⟩ (.ptr 0 (some 11))
    else Job.prog env (.size ⟨stored, .ptr 0 (some 11), 10, sharedBlocks, .nil⟩), 13 + i, fun _ => 0, fun _ => 3⟩⟩ [0]) :=
  ⟨0, 1, 11, by decide, .inl ⟨_, _, rfl⟩, .inr ⟨_, rfl⟩⟩

end Items

end Verif.Props
