import Verif.Props.Unmarshal
import Verif.Spec.Nesting
/-!
# C21, C22: the depth limit of Unmarshal
-/
namespace Verif.Props
open Verif.Spec Verif.Model Verif.Lemmas

variable {env : GoEnv} {S : Schema}

theorem steps_mem {d : Int} {id : Nat} {r : Rec} : ∀ {rs : List Rec} {xs ys : List Val}, Steps S d id rs xs ys → r ∈ rs →
    ∃ xs' ys', StepRec S d id r xs' ys'
  | [], _, _, _, h => nomatch h
  | r' :: rs, xs, ys, h, hr => by
    obtain ⟨zs, h1, h2⟩ := h
    rcases List.mem_cons.1 hr with rfl | hr
    · exact ⟨_, _, h1⟩
    · exact steps_mem h2 hr

theorem isLen_unique {v p p' : Bytes} (h : IsLen v p) (h' : IsLen v p') : p = p' := by
  have h1 := consumeBytes_isLen h []
  rw [consumeBytes_isLen h' []] at h1
  injection h1 with h1
  injection h1 with h1 _
  exact h1.symm

/-- The depth budget never equals the number of levels, counting map levels twice. -/
theorem nestsIn_budget (hW : S.WF) {n c id : Nat} {b : Bytes} (h : NestsIn S n c id b) :
    ∀ {d : Int} {v w : Val}, Decodes S d id b v w → d ≠ c := by
  induction h with
  | zero id b => intro d v w hd; cases hd with | mk _ _ _ _ _ h _ => exact h
  | msg n c id b rs r f id' q p hs hr hf hn hsh hl _ ih =>
    intro d v w hd
    cases hd with
    | mk _ _ _ xs ys h hd =>
      obtain ⟨xs', ys', hst⟩ := steps_mem ((decRecs_iff hs).1 hd) hr
      have : ∃ x y, Decodes S (d - 1) id' p x y := by
        rcases hst with ⟨h1, _⟩ | ⟨g, hg, h1, x, y, _, h2, _⟩
        · exact absurd hn (h1 f hf)
        · have e : g = f := field_inj (hW id) hg hf (h1.trans hn.symm)
          subst e
          have h3 : ∃ x y, DecShape S d g.shape r.typ r.val x y := by
            cases h2 with
            | plain _ _ _ _ _ _ _ h => exact ⟨_, _, h⟩
            | member _ _ _ _ _ _ _ _ h => exact ⟨_, _, h⟩
          obtain ⟨x, y, h3⟩ := h3
          generalize r.typ = t at h3
          rcases hsh with e | e <;> rw [e] at h3
          · cases h3 with
            | msgPtr _ _ _ p' _ m h4 h5 => rw [isLen_unique hl h4]; exact ⟨_, _, h5⟩
            | msgInline _ _ _ p' _ m h4 h5 => rw [isLen_unique hl h4]; exact ⟨_, _, h5⟩
          · cases h3 with
            | msgElemPtr _ _ _ p' _ m h4 h5 => rw [isLen_unique hl h4]; exact ⟨_, _, h5⟩
            | msgElemInline _ _ _ p' _ m h4 h5 => rw [isLen_unique hl h4]; exact ⟨_, _, h5⟩
      obtain ⟨x, y, hd⟩ := this
      have := ih hd
      omega
  | map n c id b rs r f ks id' q kb vb rest p hs hr hf hn hsh hl hkb hvb _ ih =>
    intro d v w hd
    cases hd with
    | mk _ _ _ xs ys h hd =>
      obtain ⟨xs', ys', hst⟩ := steps_mem ((decRecs_iff hs).1 hd) hr
      have key : ∀ {kb' vb' rest' p' : Bytes} {k : Val},
          IsLen r.val (tag 1 ks.wire ++ kb' ++ (tag 2 .len ++ vb') ++ rest') → ScalarDec false ks kb' k → IsLen vb' p' → p = p' := by
        intro kb' vb' rest' p' k h1 h2 h3
        have e := isLen_unique hl h1
        simp only [List.append_assoc] at e
        have e := (List.append_inj e rfl).2
        obtain ⟨_, e⟩ := isValue_unique hkb (scalarDec_isValue h2 1) e
        have e := (List.append_inj e rfl).2
        have h4 := consumeBytes_isLen hvb rest
        rw [e, consumeBytes_isLen h3 rest'] at h4
        injection h4 with h4
        injection h4 with h4 _
        exact h4.symm
      have : ∃ x y, Decodes S (d - 2) id' p x y := by
        rcases hst with ⟨h1, _⟩ | ⟨g, hg, h1, x, y, _, h2, _⟩
        · exact absurd hn (h1 f hf)
        · have e : g = f := field_inj (hW id) hg hf (h1.trans hn.symm)
          subst e
          have h3 : ∃ x y, DecShape S d g.shape r.typ r.val x y := by
            cases h2 with
            | plain _ _ _ _ _ _ _ h => exact ⟨_, _, h⟩
            | member _ _ _ _ _ _ _ _ h => exact ⟨_, _, h⟩
          obtain ⟨x, y, h3⟩ := h3
          generalize r.typ = t at h3
          rw [hsh] at h3
          cases h3 with
          | entryPtr _ _ _ _ kb' vb' rest' p' _ k y h4 h5 h6 h7 => rw [key h4 h5 h6]; exact ⟨_, _, h7⟩
          | entryInline _ _ _ _ kb' vb' rest' p' _ k y h4 h5 h6 h7 => rw [key h4 h5 h6]; exact ⟨_, _, h7⟩
      obtain ⟨x, y, hd⟩ := this
      have := ih hd
      omega

/-- What does hold of C21: if the input holds a message 1000 levels deep, counting levels entered
through a map twice, then Unmarshal fails.  In particular this is so for 1000 levels of messages that
are not in maps.  (It does not follow for deeper ones: the budget may pass from 1 to -1.) -/
theorem C21_depth_partial (hI : Implements env S) (hW : S.WF) (id : Nat) (v : Val) (hv : Typed S id v) (b : Bytes)
    (n : Nat) (hn : NestsIn S n 1000 id b) :
    ∃ e, unmarshal env b (.ptr id (some v)) = .error e ∧ e ≠ .panic ∧ e ≠ .ub := by
  have hu := unmarshal_iff hI hW hv b
  cases h : unmarshal env b (.ptr id (some v)) with
  | error e =>
    have hsafe := hu.2
    rw [h] at hsafe
    exact ⟨e, rfl, fun he => hsafe.1 (by rw [he]), fun he => hsafe.2 (by rw [he])⟩
  | ok w => exact absurd rfl (nestsIn_budget hW hn ((hu.1 w).1 h))

/-- Levels can be left off at the inner end. -/
theorem nestsIn_cut {n c id : Nat} {b : Bytes} (h : NestsIn S n c id b) : n ≤ c ∧
    (n = c → ∀ m, m ≤ n → NestsIn S m m id b) := by
  induction h with
  | zero id b =>
    refine ⟨Nat.le_refl _, fun _ m hm => ?_⟩
    have : m = 0 := by omega
    subst this
    exact .zero _ _
  | msg n c id b rs r f id' q p hs hr hf hn hsh hl _ ih =>
    refine ⟨by omega, fun e m hm => ?_⟩
    match m with
    | 0 => exact .zero _ _
    | m + 1 => exact .msg m m id b rs r f id' q p hs hr hf hn hsh hl (ih.2 (by omega) m (by omega))
  | map n c id b rs r f ks id' q kb vb rest p hs hr hf hn hsh hl hkb hvb _ ih =>
    exact ⟨by omega, fun e => by omega⟩

/-- An input holding a message nested 1000 or more levels deep, none of them in a map, is rejected. -/
theorem C21_plain_partial (hI : Implements env S) (hW : S.WF) (id : Nat) (v : Val) (hv : Typed S id v) (b : Bytes)
    (n : Nat) (h1 : 1000 ≤ n) (hn : NestsIn S n n id b) :
    ∃ e, unmarshal env b (.ptr id (some v)) = .error e ∧ e ≠ .panic ∧ e ≠ .ub :=
  C21_depth_partial hI hW id v hv b 1000 ((nestsIn_cut hn).2 rfl 1000 h1)

theorem lenDelim_length (p : Bytes) (h : p.length < 2 ^ 63) : (lenDelim p).length ≤ p.length + 10 := by
  unfold lenDelim
  have := varint_length_le (n := p.length) (k := 9) (by
    have : (2 : Nat) ^ 63 ≤ 128 ^ 10 := by decide
    omega)
  simp only [List.length_append]
  omega

/-- `n` messages, each in the field `D` of the one around it. -/
def plainDeepIn : Nat → Bytes
  | 0 => []
  | n + 1 => tag 4 .len ++ lenDelim (plainDeepIn n)

theorem plainDeepIn_nests : ∀ n, n ≤ 2 ^ 40 → (plainDeepIn n).length ≤ 40 * n ∧ NestsIn Sample.schema n n 0 (plainDeepIn n)
  | 0, _ => ⟨by simp [plainDeepIn], .zero _ _⟩
  | n + 1, hn => by
    obtain ⟨h1, h2⟩ := plainDeepIn_nests n (by omega)
    have h3 := lenDelim_length (plainDeepIn n) (by omega)
    have h4 : (tag 4 .len).length = 1 := by decide +kernel
    refine ⟨by simp only [plainDeepIn, List.length_append]; omega, ?_⟩
    refine .msg n n 0 _ [Sample.recL 4 (plainDeepIn n)] (Sample.recL 4 (plainDeepIn n)) ⟨4, 3, none, .msg 0 true⟩ 0 true
      (plainDeepIn n) ⟨?_, ?_⟩ (by simp) (List.mem_of_getElem? (i := 3) rfl) rfl (.inl rfl) (isLen_lenDelim (by omega)) h2
    · simp [plainDeepIn, rawOf, Rec.raw, Sample.recL]
    · intro r hr
      rw [List.mem_singleton.1 hr]
      exact Sample.recL_ok (by decide) (by decide) (by omega)

example : ∃ e, unmarshal Sample.env (plainDeepIn 1234) (.ptr 0 (some (.struct Sample.msgZero))) = .error e ∧ e ≠ .panic ∧ e ≠ .ub :=
  C21_plain_partial Sample.env_implements Sample.schema_wf 0 _ Sample.zero_typed _ 1234 (by decide) (plainDeepIn_nests 1234 (by decide)).2

/-! ## messages nested in maps -/

/-- `n` messages, each in the map field `E` of the one around it. -/
def mapDeep : Nat → Val
  | 0 => .struct Sample.msgZero
  | n + 1 => .struct (Sample.msgZero.set 4 (.map (some [(.str [], .ptr (some (mapDeep n)))])))

/-- The payload of the map entry holding a message. -/
def entryOf (m : Bytes) : Bytes := tag 1 .len ++ lenDelim [] ++ (tag 2 .len ++ lenDelim m)

/-- Their encoding. -/
def mapDeepIn : Nat → Bytes
  | 0 => []
  | n + 1 => tag 5 .len ++ lenDelim (entryOf (mapDeepIn n))

theorem mapDeepIn_length : ∀ n, n ≤ 2 ^ 40 → (mapDeepIn n).length ≤ 40 * n
  | 0, _ => by simp [mapDeepIn]
  | n + 1, hn => by
    have ih := mapDeepIn_length n (by omega)
    have h1 : (tag 5 .len).length = 1 := by decide +kernel
    have h2 : (tag 1 .len).length = 1 := by decide +kernel
    have h3 : (tag 2 .len).length = 1 := by decide +kernel
    have h4 : (lenDelim []).length = 1 := by decide +kernel
    have h5 := lenDelim_length (mapDeepIn n) (by omega)
    have h6 : (entryOf (mapDeepIn n)).length ≤ 40 * n + 13 := by
      simp only [entryOf, List.length_append]; omega
    have h7 := lenDelim_length (entryOf (mapDeepIn n)) (by omega)
    simp only [mapDeepIn, List.length_append]
    omega

theorem entryOf_length (n : Nat) (hn : n ≤ 2 ^ 40) : (entryOf (mapDeepIn n)).length < 2 ^ 63 := by
  have ih := mapDeepIn_length n hn
  have h2 : (tag 1 .len).length = 1 := by decide +kernel
  have h3 : (tag 2 .len).length = 1 := by decide +kernel
  have h4 : (lenDelim []).length = 1 := by decide +kernel
  have h5 := lenDelim_length (mapDeepIn n) (by omega)
  simp only [entryOf, List.length_append]; omega

theorem mapDeep_decodes : ∀ (n : Nat), n ≤ 2 ^ 40 → ∀ (d : Int), d % 2 = 1 →
    Decodes Sample.schema d 0 (mapDeepIn n) (.struct Sample.msgZero) (mapDeep n)
  | 0, _, d, hd => .mk _ _ _ _ _ (by rintro rfl; cases hd) (.nil _ _ _)
  | n + 1, hn, d, hd => by
    have ih := mapDeep_decodes n (by omega) (d - 2) (by omega)
    have hl := mapDeepIn_length n (by omega)
    refine .mk _ _ _ _ _ (by rintro rfl; cases hd) ?_
    have := DecRecs.field (S := Sample.schema) d 0 ⟨5, 4, none, .mapMsg .string 0 true⟩ .len (tag 5 .len)
      (lenDelim (entryOf (mapDeepIn n))) [] Sample.msgZero (.map none)
      (.map (some (putEntry [] (.str []) (.ptr (some (mapDeep n)))))) _ (List.mem_of_getElem? (i := 4) rfl)
      (isKey_tag _ (by decide) (by decide)) rfl
      (.plain _ _ _ _ _ _ rfl (.entryPtr d .string 0 _ (lenDelim []) (lenDelim (mapDeepIn n)) [] (mapDeepIn n) none (.str []) (mapDeep n)
        (by rw [List.append_nil]; exact isLen_lenDelim (by have := entryOf_length n (by omega); omega))
        ⟨[], isLen_lenDelim (by decide), rfl⟩ (isLen_lenDelim (by omega)) ih)) (.nil _ _ _)
    rw [List.append_nil] at this
    exact this

theorem mapDeep_nests : ∀ (n : Nat), n ≤ 2 ^ 40 → NestsIn Sample.schema n (2 * n) 0 (mapDeepIn n)
  | 0, _ => .zero _ _
  | n + 1, hn => by
    have ih := mapDeep_nests n (by omega)
    have hl := mapDeepIn_length n (by omega)
    have he := entryOf_length n (by omega)
    refine .map n (2 * n) 0 _ [Sample.recL 5 (entryOf (mapDeepIn n))] (Sample.recL 5 (entryOf (mapDeepIn n)))
      ⟨5, 4, none, .mapMsg .string 0 true⟩ .string 0 true (lenDelim []) (lenDelim (mapDeepIn n)) [] (mapDeepIn n)
      ?_ (by simp) (List.mem_of_getElem? (i := 4) rfl) rfl rfl ?_ (.len _ _ _ [] (isLen_lenDelim (by decide)))
      (isLen_lenDelim (by omega)) ih
    · refine ⟨?_, ?_⟩
      · simp [mapDeepIn, rawOf, Rec.raw, Sample.recL]
      · intro r hr
        rw [List.mem_singleton.1 hr]
        exact Sample.recL_ok (by decide) (by decide) (by omega)
    · rw [List.append_nil]
      exact isLen_lenDelim (by omega)

/-- C21 is false: however deep, messages nested in maps are accepted if the budget is odd when the
first map is entered.  (The bound on `n` only keeps the input shorter than 2^63 bytes.) -/
theorem C21_bypass_violated (n : Nat) (hn : n ≤ 2 ^ 40) :
    NestsIn Sample.schema (n + 1) (2 * n + 1) 0 (tag 4 .len ++ lenDelim (mapDeepIn n)) ∧
    unmarshal Sample.env (tag 4 .len ++ lenDelim (mapDeepIn n)) (.ptr 0 (some (.struct Sample.msgZero))) =
      .ok (.struct (Sample.msgZero.set 3 (.ptr (some (mapDeep n))))) := by
  have hl := mapDeepIn_length n hn
  constructor
  · refine .msg n (2 * n) 0 _ [Sample.recL 4 (mapDeepIn n)] (Sample.recL 4 (mapDeepIn n)) ⟨4, 3, none, .msg 0 true⟩ 0 true
      (mapDeepIn n) ?_ (by simp) (List.mem_of_getElem? (i := 3) rfl) rfl (.inl rfl) (isLen_lenDelim (by omega))
      (mapDeep_nests n hn)
    refine ⟨?_, ?_⟩
    · simp [rawOf, Rec.raw, Sample.recL]
    · intro r hr
      rw [List.mem_singleton.1 hr]
      exact Sample.recL_ok (by decide) (by decide) (by omega)
  · rw [C50_exact Sample.env_implements Sample.schema_wf 0 _ Sample.zero_typed]
    refine .mk _ _ _ _ _ (by decide) ?_
    have := DecRecs.field (S := Sample.schema) 1000 0 ⟨4, 3, none, .msg 0 true⟩ .len (tag 4 .len)
      (lenDelim (mapDeepIn n)) [] Sample.msgZero (.ptr none) (.ptr (some (mapDeep n))) _ (List.mem_of_getElem? (i := 3) rfl)
      (isKey_tag _ (by decide) (by decide)) rfl
      (.plain _ _ _ _ _ _ rfl (.msgPtr 1000 0 _ (mapDeepIn n) _ _ (isLen_lenDelim (by omega))
        (mapDeep_decodes n hn 999 (by decide)))) (.nil _ _ _)
    rw [List.append_nil] at this
    exact this

/-- 2000 levels, for example. -/
example : ∃ w, unmarshal Sample.env (tag 4 .len ++ lenDelim (mapDeepIn 2000)) (.ptr 0 (some (.struct Sample.msgZero))) = .ok w :=
  ⟨_, (C21_bypass_violated 2000 (by decide)).2⟩

/-- And the hypothesis of `C21_depth_partial` is met by 500 levels of messages in maps. -/
example : ∃ e, unmarshal Sample.env (mapDeepIn 500) (.ptr 0 (some (.struct Sample.msgZero))) = .error e ∧ e ≠ .panic ∧ e ≠ .ub :=
  C21_depth_partial Sample.env_implements Sample.schema_wf 0 _ Sample.zero_typed _ 500 (mapDeep_nests 500 (by decide))

/-! ## C22 -/

theorem mapDeep_typed : ∀ n, Typed Sample.schema 0 (mapDeep n)
  | 0 => Sample.zero_typed
  | n + 1 => by
    have := typed_set_field (Sample.schema_wf 0) Sample.zero_typed (f := ⟨5, 4, none, .mapMsg .string 0 true⟩)
      (List.mem_of_getElem? (i := 4) rfl) (y := .map (some [(.str [], .ptr (some (mapDeep n)))]))
      (.plain _ _ rfl (.mapMsg _ _ _ _ (by simp) (by intro e he; rw [List.mem_singleton.1 he]; rfl)
        (by intro e he; rw [List.mem_singleton.1 he]; exact .ptr _ _ (mapDeep_typed n)))) (.inl rfl)
    exact this

theorem mapDeep_encode : ∀ (n d : Nat), n < d → encode Sample.schema false d 0 (mapDeep n) = some (mapDeepIn n)
  | 0, d + 1, _ => rfl
  | n + 1, d + 1, h => by
    have ih := mapDeep_encode n d (by omega)
    have e : mapDeep (n + 1) = .struct (Sample.msgZero.set 4 (.map (some [(.str [], .ptr (some (mapDeep n)))]))) := rfl
    rw [e]
    have h1 : ∀ i, i ≠ 4 → ∀ f, (Sample.schema 0).fields[i]? = some f →
        encodeField Sample.schema false (encode Sample.schema false d)
          (Sample.msgZero.set 4 (.map (some [(.str [], .ptr (some (mapDeep n)))]))) f = some [] := by
      intro i hi f hf
      match i, hi with
      | 0, _ | 1, _ | 2, _ | 3, _ | 5, _ | 6, _ | 7, _ | 8, _ | 9, _ | 10, _ | 11, _ => injection hf with hf; subst hf; rfl
      | i + 12, _ => cases hf
    have h2 : encodeField Sample.schema false (encode Sample.schema false d)
          (Sample.msgZero.set 4 (.map (some [(.str [], .ptr (some (mapDeep n)))]))) ⟨5, 4, none, .mapMsg .string 0 true⟩ =
        some (mapDeepIn (n + 1)) := by
      have : ∀ o : Option Bytes, o = some (mapDeepIn n) → (do
          let a ← (do
            let b ← o
            return tag 5 .len ++ lenDelim (tag 1 .len ++ lenDelim [] ++ (tag 2 .len ++ lenDelim b)))
          let b ← some []
          return a ++ b) = some (mapDeepIn (n + 1)) := by
        rintro _ rfl
        simp [mapDeepIn, entryOf]
      exact this _ ih
    have h3 : (Sample.schema 0).fields = Sample.msg.fields := rfl
    simp only [encode]
    rw [h3]
    simp only [Sample.msg, concatM]
    rw [h1 0 (by decide) _ rfl, h1 1 (by decide) _ rfl, h1 2 (by decide) _ rfl, h1 3 (by decide) _ rfl, h2,
      h1 5 (by decide) _ rfl, h1 6 (by decide) _ rfl, h1 7 (by decide) _ rfl, h1 8 (by decide) _ rfl,
      h1 9 (by decide) _ rfl, h1 10 (by decide) _ rfl, h1 11 (by decide) _ rfl]
    have h4 : unknownOf (Sample.schema 0)
          (Sample.msgZero.set 4 (.map (some [(.str [], .ptr (some (mapDeep n)))]))) = [] := rfl
    rw [h4]
    simp

/-- C22 is false: Marshal accepts 500 messages nested in maps, and Unmarshal rejects the result. -/
theorem C22_symmetry_violated :
    marshal Sample.env (.ptr 0 (some (mapDeep 500))) = .ok (mapDeepIn 500) ∧
    ∃ e, unmarshal Sample.env (mapDeepIn 500) (.ptr 0 (some (.struct Sample.msgZero))) = .error e := by
  refine ⟨?_, ?_⟩
  · have hl := mapDeepIn_length 500 (by decide)
    exact (marshal_of_encode Sample.env_implements Sample.schema_wf (mapDeep_typed 500) (mapDeep_encode 500 1000 (by decide))
      (by omega) []).1
  · obtain ⟨e, h, _⟩ := C21_depth_partial Sample.env_implements Sample.schema_wf 0 _ Sample.zero_typed _ 500
      (mapDeep_nests 500 (by decide))
    exact ⟨e, h⟩

end Verif.Props
