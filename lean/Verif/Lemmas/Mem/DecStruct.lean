import Verif.Lemmas.Mem.DecField
/-!
# The decoder on memory does what the decoder on trees does: messages
-/
namespace Verif.Lemmas.Mem
open Verif.Model Verif.Model.Mem Verif.Spec

/-- A slot is replaced, the memory of the other slots stays. -/
theorem clean_set {h h' : Store} {D : Descs} {id : Nat} {fs : List MVal} {i : Nat} {v' : MVal}
    {G : Blocks} (hc : Clean h D (.struct id) (.struct fs))
    (hG : ∀ x, G x → h'.mem x = h.mem x)
    (ho : ∀ (j : Nat) (w : MVal), j ≠ i → fs[j]? = some w → ∃ u E, MemRep h w u E ∧ ∀ x, E x → G x)
    (hv : ∀ f ∈ (D id).fields, f.oneof = none → f.slot = i → Clean h' D f.t v') :
    Clean h' D (.struct id) (.struct (fs.set i v')) := by
  refine .struct _ _ (fun fs' he f hf hno x hx => ?_)
  injection he with he
  subst he
  rw [List.getElem?_set] at hx
  by_cases hi : i = f.slot
  · rw [if_pos hi] at hx
    split at hx
    · injection hx with hx
      subst hx
      exact hv f hf hno hi.symm
    · cases hx
  · rw [if_neg hi] at hx
    obtain ⟨u, E, h1, h2⟩ := ho f.slot x (fun h => hi h.symm) hx
    cases hc with
    | struct _ _ hs => exact clean_frame (hs fs rfl f hf hno x hx) h1 (fun y hy => hG y (h2 y hy))
    | other _ _ _ g2 => exact absurd rfl (g2 id)

theorem sim_appendBytes {h : Store} {F G : Blocks} {x : Option View} {y : Option Bytes}
    {raw : View} {rs : Bytes} (hr : MemRep h (.bytes x) (.bytes y) F) (hi : Input h raw rs G) :
    Sim h F (appendBytes x raw) (.ok (y.getD [] ++ rs))
      (fun h' w s => h'.read w = .ok s ∧ grow F h h' w.addr) := by
  cases hr with
  | bytesNil =>
    have he : appendBytes none raw h = (.ok ⟨h.next, 0, rs.length⟩,
        pushed h (.bytes (rs ++ List.replicate (h.slack rs.length) 0#8))) := by
      unfold appendBytes; rw [hi.read]; rfl
    refine sim_ok he rfl (step_pushed _ _ _) ⟨?_, .inr ⟨Nat.le_refl _, pushed_next _ _⟩⟩
    refine read_ok_iff.2 ⟨_, pushed_mem _ _, by simp, ?_⟩
    simp
  | bytes v s _ h1 h2 =>
    obtain ⟨blk, g1, g2, g3⟩ := read_ok_iff.1 h1
    by_cases hle : v.off + v.len + rs.length ≤ blk.length
    · have he : appendBytes (some v) raw h = (.ok ⟨v.addr, v.off, v.len + rs.length⟩,
          h.set v.addr (.bytes (blk.take (v.off + v.len) ++ rs ++
            blk.drop (v.off + v.len + rs.length)))) := by
        unfold appendBytes; simp only [hi.read, g1]; rw [if_pos hle]
      refine sim_ok he rfl (step_set _ _ _ h2) ⟨?_, .inl h2⟩
      refine read_ok_iff.2 ⟨_, set_mem _ _ _, ?_, ?_⟩
      · simp; omega
      · dsimp only
        rw [List.append_assoc, List.drop_append_of_le_length (by simp; omega)]
        have hd : (blk.take (v.off + v.len)).drop v.off = s := by
          rw [List.drop_take, Nat.add_sub_cancel_left]; exact g3
        have hl : s.length = v.len := by rw [← g3]; simp; omega
        rw [hd, ← List.append_assoc, ← hl, ← List.length_append, List.take_left' rfl]; rfl
    · have he : appendBytes (some v) raw h = (.ok ⟨h.next, 0, v.len + rs.length⟩,
          pushed h (.bytes ((blk.drop v.off).take v.len ++ rs ++
            List.replicate (h.slack (v.len + rs.length)) 0#8))) := by
        unfold appendBytes; simp only [hi.read, g1]; rw [if_neg hle]; rfl
      have hl : s.length = v.len := by rw [← g3]; simp; omega
      refine sim_ok he rfl (step_pushed _ _ _) ⟨?_, .inr ⟨Nat.le_refl _, pushed_next _ _⟩⟩
      refine read_ok_iff.2 ⟨_, pushed_mem _ _, ?_, ?_⟩
      · rw [g3]; simp; omega
      · dsimp only
        rw [g3, ← hl, ← List.length_append, List.drop_zero, List.take_left' rfl]; rfl

/-- The fields of a message. -/
structure FieldsRep (h : Store) (D : Descs) (id : Nat) (fs : List MVal) (ts : List Val) (F : Blocks) :
    Prop where
  rep : MemRepList h fs ts F
  clean : Clean h D (.struct id) (.struct fs)

/-- Replacing the value of one slot. -/
theorem fieldsRep_set {h h' : Store} {D : Descs} {id : Nat} {fs : List MVal} {ts : List Val}
    {F : Blocks} {i : Nat} {v : MVal} (hf : FieldsRep h D id fs ts F) (hb : Below F h)
    (hv : fs[i]? = some v) :
    ∃ (t : Val) (Fi : Blocks), ts[i]? = some t ∧ MemRep h v t Fi ∧ (∀ x, Fi x → F x) ∧
      ∀ (h' : Store) (v' : MVal) (t' : Val), Step h h' Fi → MemRep h' v' t' (grow Fi h h') →
        (∀ f ∈ (D id).fields, f.oneof = none → f.slot = i → Clean h' D f.t v') →
        FieldsRep h' D id (fs.set i v') (ts.set i t') (grow F h h') := by
  obtain ⟨t, Fi, G, g1, g2, g3, g4, g5, g6, g7⟩ := repList_slot hf.rep hv
  refine ⟨t, Fi, g1, g2, g4, ?_⟩
  intro h' v' t' hs hv' hc
  have hG : ∀ x, G x → h'.mem x = h.mem x := fun x hx =>
    hs.frame x (hb x (g5 x hx)) (fun h => g3 x h hx)
  refine ⟨repList_mono (g6 h' v' t' _ hG hv' ?_) ?_, clean_set hf.clean hG g7 hc⟩
  · rintro x (hx | hx) hx'
    · exact g3 x hx hx'
    · have := hb x (g5 x hx'); omega
  · rintro x ((hx | hx) | hx)
    · exact .inl (g4 x hx)
    · exact .inr hx
    · exact .inl (g5 x hx)

theorem set_self {α : Type} {l : List α} {i : Nat} {a : α} (h : l[i]? = some a) : l.set i a = l := by
  apply List.ext_getElem?
  intro j
  rw [List.getElem?_set]
  split
  · rename_i hij
    subst hij
    split
    · exact h.symm
    · rename_i hlt
      rw [List.getElem?_eq_none (by omega)]
  · rfl

theorem rep_bytes_reset {h : Store} {x : Option View} {y : Option Bytes} {F : Blocks}
    (hr : MemRep h (.bytes x) (.bytes y) F) :
    MemRep h (.bytes (x.map (·.take 0))) (.bytes (y.map (fun _ => []))) F := by
  cases hr with
  | bytesNil => exact .bytesNil _
  | bytes v s _ h1 h2 =>
    refine .bytes _ _ _ ?_ h2
    obtain ⟨blk, g1, g2, g3⟩ := read_ok_iff.1 h1
    refine read_ok_iff.2 ⟨blk, g1, ?_, ?_⟩
    · simp only [View.take]; omega
    · simp [View.take]

theorem loadBytes_eq {h : Store} {a : Nat} {x : Option View} (hm : h.mem a = .object (.bytes x)) :
    loadBytes a h = (.ok x, h) := by unfold loadBytes; rw [hm]

theorem loadBytes_ub {h : Store} {a : Nat} {v : MVal} (hm : h.mem a = .object v)
    (hv : ∀ x, v ≠ .bytes x) : loadBytes a h = (.error .ub, h) := by
  unfold loadBytes
  rw [hm]
  cases v <;> first | rfl | exact absurd rfl (hv _)

theorem sim_resetUnknown {D : Descs} (hD : Regular D) {h : Store} {F : Blocks} {id : Nat}
    {fs : List MVal} {ts : List Val} (hf : FieldsRep h D id fs ts F) (hb : Below F h) :
    Sim h F (resetUnknownM (D id) fs) (resetUnknown (D id) ts)
      (fun h' a c => FieldsRep h' D id a c (grow F h h')) := by
  unfold resetUnknownM resetUnknown
  cases hu : (D id).unknown with
  | none =>
    exact sim_pure ⟨repList_mono hf.rep (fun _ hx => .inl hx), hf.clean⟩
  | some sp =>
    obtain ⟨slot, isPtr⟩ := sp
    dsimp only
    have hno : ∀ {h' : Store} {v' : MVal}, ∀ f ∈ (D id).fields, f.oneof = none → f.slot = slot →
        Clean h' D f.t v' := fun f hf' _ hs => absurd hs (hD.unknown id slot isPtr hu f hf')
    cases hv : fs[slot]? with
    | none =>
      rw [repList_none hf.rep hv]
      cases isPtr <;> exact sim_fail
    | some v =>
      obtain ⟨t, Fi, g1, g2, g3, g4⟩ := fieldsRep_set (h' := h) hf hb hv
      rw [g1]
      cases isPtr with
      | false =>
        cases g2 with
        | bytesNil =>
          exact sim_pure (g4 h _ _ (step_refl _ _) (.bytesNil _) hno)
        | bytes w s _ h1 h2 =>
          exact sim_pure (g4 h _ _ (step_refl _ _)
            (rep_grow (rep_bytes_reset (.bytes w s _ h1 h2)) _ _) hno)
        | _ => exact sim_fail
      | true =>
        cases g2 with
        | ptrNil =>
          exact sim_pure ⟨repList_mono hf.rep (fun _ hx => .inl hx), hf.clean⟩
        | ptr a w t' G _ h1 h2 h3 h4 h5 =>
          dsimp only
          have ub : (∀ x, w ≠ .bytes x) → (∀ y, t' ≠ .bytes y) →
              Sim h F (loadBytes a >>= fun x => put a (.object (.bytes (x.map (·.take 0)))) >>=
                fun _ => pure fs)
                (match (Option.some (Val.ptr (some t'))) with
                  | some (.ptr (some (.bytes x))) =>
                    (.ok (ts.set slot (.ptr (some (.bytes (x.map (fun _ => [])))))) : Res (List Val))
                  | _ => .error .ub)
                (fun h' a c => FieldsRep h' D id a c (grow F h h')) := by
            intro hw ht
            refine sim_err (bind_err (loadBytes_ub h1 hw)) ?_ (step_refl _ _)
            cases t' <;> first | rfl | exact absurd rfl (ht _)
          have good : ∀ x y, w = .bytes x → t' = .bytes y →
              Sim h F (loadBytes a >>= fun x => put a (.object (.bytes (x.map (·.take 0)))) >>=
                fun _ => pure fs)
                (.ok (ts.set slot (.ptr (some (.bytes (y.map (fun _ => [])))))) : Res (List Val))
                (fun h' a c => FieldsRep h' D id a c (grow F h h')) := by
            intro x y hw ht
            subst hw ht
            have hput : put a (.object (.bytes (x.map (·.take 0)))) h =
              (.ok (), h.set a (.object (.bytes (x.map (·.take 0))))) := rfl
            refine sim_left F (loadBytes_eq h1) (step_refl _ _) (fun _ hx => .inl hx) ?_
            refine sim_left (grow F h (h.set a _)) hput (step_set _ _ _ (g3 a h4))
              (fun _ hx => hx) (sim_pure ?_)
            have := g4 (h.set a (.object (.bytes (x.map (·.take 0))))) (.ptr (some a))
              (.ptr (some (.bytes (y.map (fun _ => []))))) (step_set _ _ _ h4)
              (.ptr a _ _ G _ (set_mem _ _ _) (rep_frame (rep_bytes_reset h2)
                (fun x hx => set_mem_ne _ _ _ (fun he => h3 (he ▸ hx)))) h3 (.inl h4)
                (fun x hx => .inl (h5 x hx))) hno
            rwa [set_self hv] at this
          cases h2 with
          | bytesNil => exact good none none rfl rfl
          | bytes w s _ k1 k2 => exact good (some w) (some s) rfl rfl
          | _ => exact ub (fun _ hh => MVal.noConfusion hh) (fun _ hh => Val.noConfusion hh)
        | _ => exact sim_fail

theorem sim_appendUnknown {D : Descs} (hD : Regular D) {h : Store} {F : Blocks} {id : Nat}
    {fs : List MVal} {ts : List Val} {raw : View} {rs : Bytes} (hf : FieldsRep h D id fs ts F)
    (hb : Below F h) (hi : Input h raw rs F) :
    Sim h F (appendUnknownM (D id) fs raw) (appendUnknown (D id) ts rs)
      (fun h' a c => FieldsRep h' D id a c (grow F h h')) := by
  unfold appendUnknownM appendUnknown
  cases hu : (D id).unknown with
  | none =>
    exact sim_pure ⟨repList_mono hf.rep (fun _ hx => .inl hx), hf.clean⟩
  | some sp =>
    obtain ⟨slot, isPtr⟩ := sp
    dsimp only
    have hno : ∀ {h' : Store} {v' : MVal}, ∀ f ∈ (D id).fields, f.oneof = none → f.slot = slot →
        Clean h' D f.t v' := fun f hf' _ hs => absurd hs (hD.unknown id slot isPtr hu f hf')
    cases hv : fs[slot]? with
    | none =>
      rw [repList_none hf.rep hv]
      cases isPtr <;> exact sim_fail
    | some v =>
      obtain ⟨t, Fi, g1, g2, g3, g4⟩ := fieldsRep_set (h' := h) hf hb hv
      rw [g1]
      have up : ∀ {h' : Store}, ∀ x, grow Fi h h' x → grow F h h' x := by
        rintro h' x (hx | hx)
        · exact .inl (g3 x hx)
        · exact .inr hx
      cases isPtr with
      | false =>
        have good : ∀ x y, v = .bytes x → t = .bytes y →
            Sim h F (appendBytes x raw >>= fun w => pure (fs.set slot (.bytes (some w))))
              (.ok (ts.set slot (.bytes (some (y.getD [] ++ rs)))) : Res (List Val))
              (fun h' a c => FieldsRep h' D id a c (grow F h h')) := by
          intro x y hx hy
          subst hx hy
          have he : (.ok (ts.set slot (.bytes (some (y.getD [] ++ rs)))) : Res (List Val)) =
              ((.ok (y.getD [] ++ rs) : Res Bytes) >>= fun s =>
                .ok (ts.set slot (.bytes (some s)))) := rfl
          rw [he]
          refine sim_bind (sim_mono (sim_appendBytes g2 hi) g3
            (fun h' a b hs hp => And.intro hs hp)) ?_
          rintro h' w s _ ⟨s1, hp1, hp2⟩
          exact ⟨grow F h h', fun _ hx => hx, sim_pure
            (g4 h' _ _ s1 (.bytes w s _ hp1 hp2) hno)⟩
        cases g2 with
        | bytesNil => exact good none none rfl rfl
        | bytes w s _ h1 h2 => exact good (some w) (some s) rfl rfl
        | _ => exact sim_fail
      | true =>
        cases g2 with
        | ptrNil =>
          refine sim_left (grow F h (pushed h (.object (.bytes none)))) (new_eq _ _)
            (step_pushed _ _ _) (fun _ hx => hx) ?_
          generalize hh : pushed h (.object (.bytes none)) = h1
          have hn : h.next + 1 ≤ h1.next := by rw [← hh]; exact pushed_next _ _
          have s1 : Step h h1 none' := by rw [← hh]; exact step_pushed _ _ _
          have i1 : Input h1 raw rs none' := by rw [← hh]; exact input_pushed hi _
          have he : (.ok (ts.set slot (.ptr (some (.bytes (some rs))))) : Res (List Val)) =
              ((.ok ((none : Option Bytes).getD [] ++ rs) : Res Bytes) >>= fun s =>
                .ok (ts.set slot (.ptr (some (.bytes (some s)))))) := rfl
          dsimp only
          rw [he]
          refine sim_bind (sim_mono (sim_appendBytes (F := none') (.bytesNil _) i1)
            (fun _ hx => hx.elim) (fun h' a b hs hp => And.intro hs hp)) ?_
          rintro h2 w s _ ⟨s2, hp1, hp2⟩
          have n2 := s2.next
          have hw := grow_none hp2
          have ho : grow F h h2 h.next := .inr ⟨Nat.le_refl _, by omega⟩
          refine ⟨grow F h h2, ?_, ?_⟩
          · intro x hx
            rcases hx with hx | hx
            · exact .inl (.inl hx)
            · by_cases hx' : x < h1.next
              · exact .inl (.inr ⟨hx.1, hx'⟩)
              · exact .inr ⟨by omega, hx.2⟩
          refine sim_left (h' := h2.set h.next (.object (.bytes (some w)))) (grow F h h2) rfl
            (step_set _ _ _ ho) (fun _ hx => .inl hx) (sim_pure ?_)
          refine g4 (h2.set h.next (.object (.bytes (some w)))) _ _ ?_ ?_ hno
          · refine ⟨by show h.next ≤ h2.next; omega, fun x hx _ => ?_⟩
            rw [set_mem_ne _ _ _ (by omega), s2.frame x (by omega) (fun hh => hh), s1.frame x hx (fun hh => hh)]
          · refine .ptr h.next (.bytes (some w)) _ (fun x => x = w.addr) _ (set_mem _ _ _)
              (.bytes w s _ ?_ rfl) (by intro hx; omega) (.inr ⟨Nat.le_refl _, ?_⟩) ?_
            · rw [← hp1]; exact read_congr (set_mem_ne _ _ _ (by omega))
            · show h.next < h2.next; omega
            · rintro x rfl; exact .inr ⟨by omega, hw.2⟩
        | ptr a w t' G _ h1 h2 h3 h4 h5 =>
          dsimp only
          have ub : (∀ x, w ≠ .bytes x) → (∀ y, t' ≠ .bytes y) →
              Sim h F (loadBytes a >>= fun x => appendBytes x raw >>= fun w =>
                put a (.object (.bytes (some w))) >>= fun _ => pure fs)
                (match (Option.some (Val.ptr (some t'))) with
                  | some (.ptr (some (.bytes x))) =>
                    (.ok (ts.set slot (.ptr (some (.bytes (some (x.getD [] ++ rs)))))) :
                      Res (List Val))
                  | _ => .error .ub)
                (fun h' a c => FieldsRep h' D id a c (grow F h h')) := by
            intro hw ht
            refine sim_err (bind_err (loadBytes_ub h1 hw)) ?_ (step_refl _ _)
            cases t' <;> first | rfl | exact absurd rfl (ht _)
          have good : ∀ x y, w = .bytes x → t' = .bytes y →
              Sim h F (loadBytes a >>= fun x => appendBytes x raw >>= fun w =>
                put a (.object (.bytes (some w))) >>= fun _ => pure fs)
                (.ok (ts.set slot (.ptr (some (.bytes (some (y.getD [] ++ rs)))))) : Res (List Val))
                (fun h' a c => FieldsRep h' D id a c (grow F h h')) := by
            intro x y hw ht
            subst hw ht
            refine sim_left F (loadBytes_eq h1) (step_refl _ _) (fun _ hx => .inl hx) ?_
            have he : (.ok (ts.set slot (.ptr (some (.bytes (some (y.getD [] ++ rs)))))) :
                Res (List Val)) = ((.ok (y.getD [] ++ rs) : Res Bytes) >>= fun s =>
                .ok (ts.set slot (.ptr (some (.bytes (some s)))))) := rfl
            rw [he]
            refine sim_bind (sim_mono (sim_appendBytes h2 hi) (fun x hx => g3 x (h5 x hx))
              (fun h' a b hs hp => And.intro hs hp)) ?_
            rintro h' w s _ ⟨s1, hp1, hp2⟩
            have n1 := s1.next
            have ha : a < h.next := hb a (g3 a h4)
            have hwa : w.addr ≠ a := by
              intro he
              rcases hp2 with hp2 | hp2
              · exact h3 (he ▸ hp2)
              · omega
            refine ⟨grow F h h', fun _ hx => hx, ?_⟩
            refine sim_left (h' := h'.set a (.object (.bytes (some w)))) (grow F h h') rfl
              (step_set _ _ _ (.inl (g3 a h4))) (fun _ hx => .inl hx) (sim_pure ?_)
            have := g4 (h'.set a (.object (.bytes (some w)))) (.ptr (some a))
              (.ptr (some (.bytes (some s)))) ?_ ?_ hno
            · rwa [set_self hv] at this
            · refine ⟨n1, fun x hx hx' => ?_⟩
              rw [set_mem_ne _ _ _ (by intro he; subst he; exact hx' h4), s1.frame x hx
                (fun hh => hx' (h5 x hh))]
            · refine .ptr a (.bytes (some w)) _ (fun x => x = w.addr) _ (set_mem _ _ _)
                (.bytes w s _ ?_ rfl) (fun hh => hwa hh.symm) (.inl h4) ?_
              · rw [← hp1]; exact read_congr (set_mem_ne _ _ _ hwa)
              · rintro x rfl
                rcases hp2 with hp2 | hp2
                · exact .inl (h5 _ hp2)
                · exact .inr hp2
          cases h2 with
          | bytesNil => exact good none none rfl rfl
          | bytes w s _ k1 k2 => exact good (some w) (some s) rfl rfl
          | _ => exact ub (fun _ hh => MVal.noConfusion hh) (fun _ hh => Val.noConfusion hh)
        | _ => exact sim_fail

/-! ## Records -/

theorem lookupField_mem {D : Descs} (hD : Regular D) {id : Nat} {last : Option FieldDesc} {num : Int}
    {f : FieldDesc} (hl : ∀ g, last = some g → g ∈ (D id).fields)
    (h : lookupField (D id) last num = some f) : f ∈ (D id).fields := by
  unfold lookupField at h
  cases last with
  | none => exact hD.found id _ f h
  | some g =>
    simp only at h
    split at h
    · injection h with h; subst h; exact hl g rfl
    · exact hD.found id _ f h

theorem sim_record {D : Descs} (hD : Regular D) {recM : DecRecM} {rec : DecRec}
    (hrec : RecSim D recM rec) {h : Store} {F : Blocks} {id : Nat} {b : View} {bs : Bytes}
    {fs : List MVal} {ts : List Val} (last : Option FieldDesc) (depth : Int)
    (hl : ∀ g, last = some g → g ∈ (D id).fields)
    (hf : FieldsRep h D id fs ts F) (hb : Below F h) (hi : Input h b bs F) :
    Sim h F (decodeRecordM D recM (D id) depth b fs last)
      (decodeRecord D rec (D id) depth bs ts last)
      (fun h' a c => FieldsRep h' D id a.1 c.1 (grow F h h') ∧ a.2 = c.2 ∧
        ∀ g, c.2.2 = some g → g ∈ (D id).fields) := by
  unfold decodeRecordM decodeRecord
  refine sim_read (sim_parse hi) ?_
  rintro ⟨num, typ, n⟩ _ rfl
  dsimp only
  cases hk : lookupField (D id) last num with
  | none =>
    refine sim_read (sim_parse (input_drop hi n)) ?_
    rintro m _ rfl
    refine sim_bind (sim_appendUnknown hD hf hb (input_take hi (n + m))) ?_
    intro h' a c hs hp
    exact ⟨grow F h h', fun _ hx => hx, sim_pure ⟨hp, rfl, fun g hg => by cases hg⟩⟩
  | some f =>
    have hfm := lookupField_mem hD hl hk
    dsimp only
    cases hv : fs[f.slot]? with
    | none => rw [repList_none hf.rep hv]; exact sim_fail
    | some v =>
      obtain ⟨t, Fi, g1, g2, g3, g4⟩ := fieldsRep_set (h' := h) hf hb hv
      rw [g1]
      have hc : f.oneof = none → Clean h D f.t v := by
        intro ho
        cases hf.clean with
        | struct _ _ hs => exact hs fs rfl f hfm ho v hv
        | other _ _ _ k2 => exact absurd rfl (k2 id)
      refine sim_bind (sim_mono (sim_field hD hrec f typ depth
        (input_mono (input_drop hi n) g3) (below_mono hb g3) g2 hc) g3
        (fun h' a b hs hp => And.intro hs hp)) ?_
      rintro h' ⟨w, m⟩ ⟨u, m'⟩ _ ⟨s1, hmm, hw, hcw⟩
      simp only at hmm; subst hmm
      refine ⟨grow F h h', fun _ hx => hx, sim_pure ⟨?_, rfl, ?_⟩⟩
      · refine g4 h' w u s1 hw ?_
        intro g hg hgo hgs
        obtain ⟨k1, k2⟩ := hD.slots id f hfm g hg hgs.symm hgo
        rw [← k2]
        exact hcw k1
      · rintro g hg
        injection hg with hg
        exact hg ▸ hfm

theorem sim_loop {D : Descs} (hD : Regular D) {recM : DecRecM} {rec : DecRec}
    (hrec : RecSim D recM rec) {id : Nat} (depth : Int) : ∀ (fuel : Nat) {h : Store} {F : Blocks}
    {b : View} {bs : Bytes} {fs : List MVal} {ts : List Val} (last : Option FieldDesc),
    (∀ g, last = some g → g ∈ (D id).fields) → FieldsRep h D id fs ts F → Below F h →
    Input h b bs F →
    Sim h F (decodeLoopM D recM (D id) depth fuel b fs last)
      (decodeLoop D rec (D id) depth fuel bs ts last)
      (fun h' a c => FieldsRep h' D id a c (grow F h h')) := by
  intro fuel
  induction fuel with
  | zero =>
    intro h F b bs fs ts last hl hf hb hi
    have hlen := input_len hi
    unfold decodeLoopM
    cases bs with
    | nil =>
      rw [if_pos (by simpa using hlen.symm)]
      unfold decodeLoop
      exact sim_pure ⟨repList_mono hf.rep (fun _ hx => .inl hx), hf.clean⟩
    | cons c bs =>
      rw [if_neg (by intro h0; rw [h0] at hlen; cases hlen)]
      unfold decodeLoop
      exact sim_fail
  | succ fuel ih =>
    intro h F b bs fs ts last hl hf hb hi
    have hlen := input_len hi
    unfold decodeLoopM
    cases bs with
    | nil =>
      rw [if_pos (by simpa using hlen.symm)]
      unfold decodeLoop
      exact sim_pure ⟨repList_mono hf.rep (fun _ hx => .inl hx), hf.clean⟩
    | cons c bs =>
      rw [if_neg (by intro h0; rw [h0] at hlen; cases hlen)]
      unfold decodeLoop
      refine sim_bind (sim_record hD hrec last depth hl hf hb hi) ?_
      rintro h' ⟨fs', n, last'⟩ ⟨ts', m, last''⟩ hs ⟨hp1, hp2, hp3⟩
      injection hp2 with e1 e2
      subst e1 e2
      refine ⟨grow F h h', fun _ hx => hx, ?_⟩
      have := ih last' hp3 hp1 (below_grow hb hs.next) (input_drop (input_step hi hs) n)
      refine sim_mono this (fun _ hx => hx) ?_
      intro h2 a c s2 hp
      exact ⟨repList_mono hp.rep (grow_mono hs.next s2.next (fun _ hx => hx)), hp.clean⟩

theorem sim_struct {D : Descs} (hD : Regular D) : ∀ (fuel : Nat),
    RecSim D (decodeStructM D fuel) (decodeStruct D fuel) := by
  intro fuel
  induction fuel with
  | zero =>
    intro h F depth b bs v t id hi hb hr hc
    exact sim_fail
  | succ fuel ih =>
    intro h F depth b bs v t id hi hb hr hc
    unfold decodeStructM decodeStruct
    by_cases hd : depth = 0
    · rw [if_pos hd, if_pos hd]; exact sim_fail
    · rw [if_neg hd, if_neg hd]
      cases hr with
      | struct fs ts _ hl =>
        refine sim_bind (sim_resetUnknown hD ⟨hl, hc⟩ hb) ?_
        intro h1 fs1 ts1 s1 hf1
        refine ⟨grow F h h1, fun _ hx => hx, ?_⟩
        have hlen := input_len hi
        rw [hlen]
        refine sim_bind (sim_loop hD ih depth b.len none (fun g hg => by cases hg) hf1
          (below_grow hb s1.next) (input_step hi s1)) ?_
        intro h2 fs2 ts2 s2 hf2
        refine ⟨grow (grow F h h1) h1 h2, fun _ hx => hx, sim_pure ⟨?_, hf2.clean⟩⟩
        exact .struct _ _ _ (repList_mono hf2.rep (grow_mono s1.next s2.next (fun _ hx => hx)))
      | _ => exact sim_fail

end Verif.Lemmas.Mem
