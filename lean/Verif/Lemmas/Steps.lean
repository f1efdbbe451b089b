import Verif.Lemmas.DecRefine
import Verif.Lemmas.Parse
import Verif.Spec.Records
import Verif.Model.Api
/-! # Decoding as a fold over the records -/
namespace Verif.Lemmas
open Verif.Spec Verif.Model

mutual
theorem isValue_le {d num : Nat} {t : WireType} {v : Bytes} : IsValue d num t v → ∀ d', d ≤ d' → IsValue d' num t v
  | .varint _ _ _ n h => fun d' _ => .varint _ _ _ n h
  | .i64 _ _ _ h => fun d' _ => .i64 _ _ _ h
  | .i32 _ _ _ h => fun d' _ => .i32 _ _ _ h
  | .len _ _ _ p h => fun d' _ => .len _ _ _ p h
  | .group d num body e h1 h2 => fun d' hd => by
    obtain ⟨d'', rfl⟩ : ∃ d'', d' = d'' + 1 := ⟨d' - 1, by omega⟩
    exact .group _ _ _ _ (isRecords_le h1 d'' (by omega)) h2
theorem isRecords_le {d : Nat} {v : Bytes} : IsRecords d v → ∀ d', d ≤ d' → IsRecords d' v
  | .nil _ => fun d' _ => .nil _
  | .cons _ _ _ _ _ _ h1 h2 h3 => fun d' hd =>
    .cons _ _ _ _ _ _ h1 (isValue_le h2 d' hd) (isRecords_le h3 d' hd)
end

theorem isValue_unique {d d' num : Nat} {t : WireType} {v v' r r' : Bytes} (h : IsValue d num t v)
    (h' : IsValue d' num t v') (e : v ++ r = v' ++ r') : v = v' ∧ r = r' := by
  have h1 := consumeFieldValueD_complete h r (d + d' : Nat) (by omega)
  have h2 := consumeFieldValueD_complete h' r' (d + d' : Nat) (by omega)
  rw [e, h2] at h1
  injection h1 with h1
  exact List.append_inj e h1.symm

theorem isKey_unique {k k' r r' : Bytes} {n n' : Nat} {t t' : WireType} (h : IsKey k n t) (h' : IsKey k' n' t')
    (e : k ++ r = k' ++ r') : k = k' ∧ r = r' ∧ n = n' ∧ t = t' := by
  obtain ⟨h1, h2, h3, h4⟩ := key_unique (consumeTag_isKey h r) e h'
  exact ⟨h1, h2, h3, code_inj h4⟩

theorem rec_unique {r r' : Rec} {s s' : Bytes} (h : r.OK) (h' : r'.OK) (e : r.raw ++ s = r'.raw ++ s') :
    r = r' ∧ s = s' := by
  obtain ⟨n, t, k, v⟩ := r
  obtain ⟨n', t', k', v'⟩ := r'
  simp only [Rec.raw, List.append_assoc] at e
  obtain ⟨rfl, e, rfl, rfl⟩ := isKey_unique h.1 h'.1 e
  obtain ⟨d, h⟩ := h.2
  obtain ⟨d', h'⟩ := h'.2
  obtain ⟨h1, h2⟩ := isValue_unique h h' e
  subst h1 h2
  exact ⟨rfl, rfl⟩

theorem rec_pos {r : Rec} (h : r.OK) : 0 < r.raw.length := by
  have := IsKey.length_pos h.1
  simp [Rec.raw]; omega

@[simp] theorem rawOf_nil : rawOf [] = [] := rfl
@[simp] theorem rawOf_cons (r : Rec) (rs : List Rec) : rawOf (r :: rs) = r.raw ++ rawOf rs := rfl
@[simp] theorem rawOf_append (rs rs' : List Rec) : rawOf (rs ++ rs') = rawOf rs ++ rawOf rs' := by
  simp [rawOf]

theorem splits_nil : Splits [] [] := ⟨rfl, nofun⟩

theorem splits_append {b b' : Bytes} {rs rs' : List Rec} (h : Splits b rs) (h' : Splits b' rs') :
    Splits (b ++ b') (rs ++ rs') := by
  refine ⟨by rw [rawOf_append, ← h.1, ← h'.1], fun r hr => ?_⟩
  rcases List.mem_append.1 hr with hr | hr
  · exact h.2 r hr
  · exact h'.2 r hr

theorem splits_cons {b : Bytes} {rs : List Rec} {r : Rec} (hr : r.OK) (h : Splits b rs) :
    Splits (r.raw ++ b) (r :: rs) := by
  refine ⟨by rw [rawOf_cons, ← h.1], ?_⟩
  intro r' h'
  rcases List.mem_cons.1 h' with rfl | h'
  · exact hr
  · exact h.2 r' h'

theorem splits_prefix {b2 : Bytes} : ∀ {rs1 : List Rec} {b1 : Bytes} {rs : List Rec}, Splits b1 rs1 → Splits (b1 ++ b2) rs →
    ∃ rs2, rs = rs1 ++ rs2 ∧ Splits b2 rs2
  | [], b1, rs, h1, h => by
    have : b1 = [] := h1.1
    subst this
    exact ⟨rs, rfl, h⟩
  | r :: rs1, b1, rs, h1, h => by
    have hr := h1.2 r (by simp)
    have e : b1 = r.raw ++ rawOf rs1 := h1.1
    subst e
    cases rs with
    | nil =>
      have e := congrArg List.length h.1
      have := rec_pos hr
      simp only [List.length_append, rawOf_nil, List.length_nil] at e
      omega
    | cons r' rs =>
      have hr' := h.2 r' (by simp)
      have e := h.1
      rw [List.append_assoc, rawOf_cons] at e
      obtain ⟨rfl, e'⟩ := rec_unique hr hr' e
      obtain ⟨rs2, rfl, h2⟩ := splits_prefix (rs1 := rs1) (b1 := rawOf rs1) (rs := rs)
        ⟨rfl, fun x hx => h1.2 x (by simp [hx])⟩ ⟨e', fun x hx => h.2 x (by simp [hx])⟩
      exact ⟨rs2, rfl, h2⟩

theorem splits_unique {b : Bytes} {rs rs' : List Rec} (h : Splits b rs) (h' : Splits b rs') : rs = rs' := by
  obtain ⟨rs2, rfl, h2⟩ := splits_prefix (b2 := []) h (rs := rs') (by simpa using h')
  cases rs2 with
  | nil => simp
  | cons r rs2 =>
    have := rec_pos (h2.2 r (by simp))
    have e := congrArg List.length h2.1
    simp only [rawOf_cons, List.length_append, List.length_nil] at e
    omega

theorem splits_of_isRecords {d : Nat} {b : Bytes} (h : IsRecords d b) : ∃ rs, Splits b rs := by
  generalize hn : b.length = n
  induction n using Nat.strongRecOn generalizing b with
  | ind n ih =>
    cases h with
    | nil => exact ⟨[], splits_nil⟩
    | cons _ num t k v rest h1 h2 h3 =>
      have := IsKey.length_pos h1
      obtain ⟨rs, hrs⟩ := ih rest.length (by simp at hn; omega) h3 rfl
      exact ⟨⟨num, t, k, v⟩ :: rs, splits_cons (r := ⟨num, t, k, v⟩) ⟨h1, d, h2⟩ hrs⟩

theorem isRecords_of_splits : ∀ {rs : List Rec} {b : Bytes}, Splits b rs → ∃ d, IsRecords d b
  | [], b, h => ⟨0, by rw [h.1]; exact .nil _⟩
  | r :: rs, b, h => by
    obtain ⟨d, hd⟩ := isRecords_of_splits (rs := rs) (b := rawOf rs) ⟨rfl, fun x hx => h.2 x (by simp [hx])⟩
    obtain ⟨h1, d', h2⟩ := h.2 r (by simp)
    refine ⟨max d d', ?_⟩
    rw [h.1, rawOf_cons, Rec.raw]
    exact .cons _ _ _ _ _ _ h1 (isValue_le h2 _ (Nat.le_max_right _ _)) (isRecords_le hd _ (Nat.le_max_left _ _))

/-! ## the value bytes of a declared field -/

theorem scalarDec_isValue {s : Scalar} {v : Bytes} {y : Val} (h : ScalarDec false s v y) (num : Nat) :
    IsValue 0 num s.wire v := by
  cases s
  case bool =>
    simp only [ScalarDec] at h
    obtain ⟨n, h, _⟩ := h
    exact .varint _ _ _ n h
  all_goals
    first
      | (obtain ⟨n, h, _⟩ := h; exact .varint _ _ _ n h)
      | (obtain ⟨h, _⟩ := h; exact .i32 _ _ _ h)
      | (obtain ⟨h, _⟩ := h; exact .i64 _ _ _ h)
      | (obtain ⟨p, h, _⟩ := h; exact .len _ _ _ p h)

theorem decShape_isValue {S : Schema} {d : Int} {sh : Shape} {t : WireType} {v : Bytes} {x y : Val}
    (h : DecShape S d sh t v x y) (num : Nat) : IsValue 0 num t v := by
  cases h with
  | single _ _ _ _ _ h => exact scalarDec_isValue h num
  | optional _ _ _ _ _ h => exact scalarDec_isValue h num
  | elem _ _ _ _ _ _ h => exact scalarDec_isValue h num
  | packed _ _ _ p _ _ h _ => exact .len _ _ _ p h
  | msgPtr _ _ _ p _ _ h _ => exact .len _ _ _ p h
  | msgInline _ _ _ p _ _ h _ => exact .len _ _ _ p h
  | msgElemPtr _ _ _ p _ _ h _ => exact .len _ _ _ p h
  | msgElemInline _ _ _ p _ _ h _ => exact .len _ _ _ p h
  | entry _ _ _ _ _ _ _ _ _ _ h _ _ => exact .len _ _ _ _ h
  | entryPtr _ _ _ _ _ _ _ _ _ _ _ h _ _ _ => exact .len _ _ _ _ h
  | entryInline _ _ _ _ _ _ _ _ _ _ _ h _ _ _ => exact .len _ _ _ _ h

theorem decField_isValue {S : Schema} {d : Int} {f : Field} {t : WireType} {v : Bytes} {x y : Val}
    (h : DecField S d f t v x y) : IsValue 0 f.num t v := by
  cases h with
  | plain _ _ _ _ _ _ _ h => exact decShape_isValue h _
  | member _ _ _ _ _ _ _ _ h => exact decShape_isValue h _

/-! ## steps -/

/-- The effect of one record on the Go struct fields. -/
def StepRec (S : Schema) (d : Int) (id : Nat) (r : Rec) (xs ys : List Val) : Prop :=
  ((∀ f ∈ (S id).fields, f.num ≠ r.num) ∧ IsValue 10001 r.num r.typ r.val ∧ ys = addUnknown (S id) xs r.raw) ∨
  ∃ f ∈ (S id).fields, f.num = r.num ∧ ∃ x y, xs[f.slot]? = some x ∧ DecField S d f r.typ r.val x y ∧
    ys = xs.set f.slot y

/-- The effect of a sequence of records. -/
def Steps (S : Schema) (d : Int) (id : Nat) : List Rec → List Val → List Val → Prop
  | [], xs, ys => xs = ys
  | r :: rs, xs, ys => ∃ zs, StepRec S d id r xs zs ∧ Steps S d id rs zs ys

theorem steps_append {S : Schema} {d : Int} {id : Nat} : ∀ {rs rs' : List Rec} {xs ys : List Val},
    Steps S d id (rs ++ rs') xs ys ↔ ∃ zs, Steps S d id rs xs zs ∧ Steps S d id rs' zs ys
  | [], rs', xs, ys => ⟨fun h => ⟨xs, rfl, h⟩, fun ⟨zs, h, h'⟩ => by cases h; exact h'⟩
  | r :: rs, rs', xs, ys => by
    simp only [List.cons_append, Steps]
    constructor
    · rintro ⟨zs, h1, h2⟩
      obtain ⟨us, h3, h4⟩ := steps_append.1 h2
      exact ⟨us, ⟨zs, h1, h3⟩, h4⟩
    · rintro ⟨us, ⟨zs, h1, h3⟩, h4⟩
      exact ⟨zs, h1, steps_append.2 ⟨us, h3, h4⟩⟩

theorem stepRec_recStep {S : Schema} {d : Int} {id : Nat} {r : Rec} (hr : r.OK) {xs ys : List Val}
    (h : StepRec S d id r xs ys) : RecStep S d id r.raw xs ys := by
  obtain ⟨n, t, k, v⟩ := r
  rcases h with ⟨h1, h2, rfl⟩ | ⟨f, hf, rfl, x, y, h1, h2, rfl⟩
  · exact .unknown n t k v xs hr.1 h1 h2
  · exact .field f t k v xs x y hf hr.1 h1 h2

theorem recStep_stepRec {S : Schema} {d : Int} {id : Nat} {b : Bytes} {xs ys : List Val}
    (h : RecStep S d id b xs ys) : ∃ r : Rec, r.OK ∧ b = r.raw ∧ StepRec S d id r xs ys := by
  cases h with
  | unknown num t k v _ h1 h2 h3 => exact ⟨⟨num, t, k, v⟩, ⟨h1, _, h3⟩, rfl, .inl ⟨h2, h3, rfl⟩⟩
  | field f t k v _ x y h1 h2 h3 h4 =>
    exact ⟨⟨f.num, t, k, v⟩, ⟨h2, _, decField_isValue h4⟩, rfl, .inr ⟨f, h1, rfl, x, y, h3, h4, rfl⟩⟩

theorem steps_decRecs {S : Schema} {d : Int} {id : Nat} : ∀ {rs : List Rec} {b : Bytes} {xs ys : List Val},
    Splits b rs → Steps S d id rs xs ys → DecRecs S d id b xs ys
  | [], b, xs, ys, hs, h => by cases h; rw [hs.1]; exact .nil _ _ _
  | r :: rs, b, xs, ys, hs, h => by
    obtain ⟨zs, h1, h2⟩ := h
    rw [hs.1, rawOf_cons]
    exact (stepRec_recStep (hs.2 r (by simp)) h1).cons
      (steps_decRecs ⟨rfl, fun x hx => hs.2 x (by simp [hx])⟩ h2)

theorem decRecs_steps {S : Schema} {d : Int} {id : Nat} {b : Bytes} {xs ys : List Val}
    (h : DecRecs S d id b xs ys) : ∃ rs, Splits b rs ∧ Steps S d id rs xs ys := by
  generalize hn : b.length = n
  induction n using Nat.strongRecOn generalizing b xs with
  | ind n ih =>
    rcases decRecs_cases h with ⟨rfl, rfl⟩ | ⟨r, rest, zs, rfl, h1, h2⟩
    · exact ⟨[], splits_nil, rfl⟩
    · have := h1.length_pos
      obtain ⟨r', hr, rfl, h3⟩ := recStep_stepRec h1
      obtain ⟨rs, h4, h5⟩ := ih rest.length (by simp at hn; omega) h2 rfl
      exact ⟨r' :: rs, splits_cons hr h4, zs, h3, h5⟩

theorem decRecs_iff {S : Schema} {d : Int} {id : Nat} {b : Bytes} {rs : List Rec} (hs : Splits b rs) {xs ys : List Val} :
    DecRecs S d id b xs ys ↔ Steps S d id rs xs ys := by
  refine ⟨fun h => ?_, steps_decRecs hs⟩
  obtain ⟨rs', h1, h2⟩ := decRecs_steps h
  rw [splits_unique hs h1]; exact h2

/-! ## Unmarshal -/

variable {env : GoEnv} {S : Schema}

theorem unmarshal_iff (hI : Implements env S) (hW : S.WF) {id : Nat} {v : Val} (hv : Typed S id v) (b : Bytes) :
    (∀ w, unmarshal env b (.ptr id (some v)) = .ok w ↔ Decodes S 1000 id b v w) ∧
    Safe (unmarshal env b (.ptr id (some v))) := by
  obtain ⟨D, h1, h2⟩ := parseDescs_ok hI hW
  have h3 := decodeStruct_ok h2 hW (b.length + 1) 1000 b v id (by omega) hv
  have he : unmarshal env b (.ptr id (some v)) = decodeStruct D (b.length + 1) 1000 b v id := by
    simp only [unmarshal, h1, bind, Except.bind]; rfl
  rw [he]; exact h3

theorem unmarshal_steps (hI : Implements env S) (hW : S.WF) {id : Nat} {xs : List Val} (hv : Typed S id (.struct xs))
    {b : Bytes} {rs : List Rec} (hs : Splits b rs) (w : Val) :
    unmarshal env b (.ptr id (some (.struct xs))) = .ok w ↔
      ∃ ys, w = .struct ys ∧ Steps S 1000 id rs (clearUnknown (S id) xs) ys := by
  rw [(unmarshal_iff hI hW hv b).1 w]
  constructor
  · intro h
    cases h with
    | mk _ _ _ _ ys _ h => exact ⟨ys, rfl, (decRecs_iff hs).1 h⟩
  · rintro ⟨ys, rfl, h⟩
    exact .mk _ _ _ _ _ (by decide) ((decRecs_iff hs).2 h)

theorem unmarshal_splits (hI : Implements env S) (hW : S.WF) {id : Nat} {v : Val} (hv : Typed S id v)
    {b : Bytes} {w : Val} (h : unmarshal env b (.ptr id (some v)) = .ok w) : ∃ rs, Splits b rs := by
  rw [(unmarshal_iff hI hW hv b).1 w] at h
  cases h with
  | mk _ _ _ _ ys _ h =>
    obtain ⟨rs, h1, _⟩ := decRecs_steps h
    exact ⟨rs, h1⟩

theorem unmarshal_typed (hI : Implements env S) (hW : S.WF) {id : Nat} {v : Val} (hv : Typed S id v)
    {b : Bytes} {w : Val} (h : unmarshal env b (.ptr id (some v)) = .ok w) : Typed S id w :=
  decodes_typed hW (((unmarshal_iff hI hW hv b).1 w).1 h) hv

end Verif.Lemmas
