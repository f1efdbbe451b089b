import Verif.Spec.Output
import Verif.Lemmas.Parse
import Verif.Lemmas.SizeRefine
import Verif.Model.Api
/-! Helper lemmas: nesting and layout of encoded messages. -/
namespace Verif.Lemmas
open Verif.Model Verif.Spec

theorem concatM_none {α : Type} (g : α → Option Bytes) (xs : List α) :
    concatM g xs = none ↔ ∃ x ∈ xs, g x = none := by
  induction xs with
  | nil => simp [concatM]
  | cons x xs ih =>
    simp only [concatM, List.mem_cons, exists_eq_or_imp]
    cases hx : g x with
    | none => simp
    | some a =>
      simp only [reduceCtorEq, false_or, ← ih]
      cases concatM g xs <;> simp

theorem concatM_some {α : Type} (g : α → Option Bytes) (xs : List α) (bs : Bytes)
    (h : concatM g xs = some bs) :
    bs = (xs.map (fun x => (g x).getD [])).flatten ∧ ∀ x ∈ xs, g x = some ((g x).getD []) := by
  induction xs generalizing bs with
  | nil => simp [concatM] at h; subst h; simp
  | cons x xs ih =>
    simp only [concatM] at h
    cases hx : g x with
    | none => rw [hx] at h; cases h
    | some a =>
      cases hy : concatM g xs with
      | none => rw [hx, hy] at h; cases h
      | some b =>
        rw [hx, hy] at h
        injection h with h
        obtain ⟨h1, h2⟩ := ih b hy
        refine ⟨by rw [← h, List.map_cons, List.flatten_cons, hx, ← h1]; rfl, fun y hy' => ?_⟩
        rcases List.mem_cons.1 hy' with rfl | hy'
        · rw [hx]; rfl
        · exact h2 y hy'

variable {S : Schema}

theorem scalar_encode_ne_none {s : Scalar} {v : Val} (h : s.goType.holds v = true) : s.encode v ≠ none := by
  rw [encode_some h]; simp

theorem bind_pure_none {α β : Type} (e : Option α) (f : α → β) :
    (e >>= fun a => (pure (f a) : Option β)) = none ↔ e = none := by
  cases e <;> simp [pure]

theorem shapeSub_none (enc : Nat → Val → Option Bytes) (num : Nat) (keep : Bool) {s : Shape} {d : Val}
    (hd : ShapeTyped S s d) (hkeep : keep = true → ∀ id, s ≠ .msg id false) :
    encodeShape S enc num keep s d = none ↔ ∃ id v, ShapeSub S s d id v ∧ enc id v = none := by
  cases hd with
  | single s v h =>
    refine ⟨fun he => ?_, fun ⟨id, v, hs, _⟩ => by cases hs⟩
    simp only [encodeShape] at he
    exact absurd ((bind_pure_none _ _).1 he) (scalar_encode_ne_none h)
  | optionalNil s => exact ⟨fun he => by simp [encodeShape] at he, fun ⟨id, v, hs, _⟩ => by cases hs⟩
  | optional s v h =>
    refine ⟨fun he => ?_, fun ⟨id, v, hs, _⟩ => by cases hs⟩
    simp only [encodeShape] at he
    exact absurd ((bind_pure_none _ _).1 he) (scalar_encode_ne_none h)
  | list s p xs h =>
    refine ⟨fun he => ?_, fun ⟨id, v, hs, _⟩ => by cases hs⟩
    simp only [encodeShape] at he
    cases p with
    | false =>
      obtain ⟨x, hx, he⟩ := (concatM_none _ _).1 (by simpa using he)
      exact absurd ((bind_pure_none _ _).1 he) (scalar_encode_ne_none (h x hx))
    | true =>
      simp only [if_true] at he
      split at he
      · cases he
      · obtain ⟨x, hx, he⟩ := (concatM_none _ _).1 ((bind_pure_none _ _).1 he)
        exact absurd he (scalar_encode_ne_none (h x hx))
  | msg id p v h =>
    cases h with
    | nil =>
      refine ⟨fun he => ?_, fun ⟨id, v, hs, _⟩ => by cases hs⟩
      simp only [encodeShape] at he
      split at he <;> cases he
    | ptr _ v hv =>
      simp only [encodeShape]
      rw [bind_pure_none]
      exact ⟨fun he => ⟨id, v, .ptr _ _, he⟩, fun ⟨_, _, hs, he⟩ => by cases hs; exact he⟩
    | inline _ v hv =>
      have hkp : keep = false := by
        cases keep with
        | false => rfl
        | true => exact absurd rfl (hkeep rfl id)
      subst hkp
      simp only [encodeShape, Bool.not_false, Bool.and_true]
      by_cases hz : ((S id).small && d.memZero) = true
      · rw [if_pos hz]
        refine ⟨fun he => (by cases he), fun ⟨_, _, hs, _⟩ => ?_⟩
        cases hs with
        | inline _ _ h => rw [hz] at h; cases h
      · rw [if_neg hz, bind_pure_none]
        refine ⟨fun he => ⟨id, d, .inline _ _ (by simpa using hz), he⟩, fun ⟨_, _, hs, he⟩ => by cases hs; exact he⟩
  | msgList id p xs h =>
    simp only [encodeShape]
    rw [concatM_none]
    constructor
    · rintro ⟨x, hx, he⟩
      exact ⟨id, _, .list _ _ _ x hx, (bind_pure_none _ _).1 he⟩
    · rintro ⟨_, _, hs, he⟩
      cases hs with
      | list _ _ _ x hx => exact ⟨x, hx, (bind_pure_none _ _).2 he⟩
  | mapNil k v =>
    refine ⟨fun he => ?_, fun ⟨id, v, hs, _⟩ => by cases hs⟩
    simp [encodeShape, concatM] at he
  | map k v m hn h =>
    refine ⟨fun he => ?_, fun ⟨id, v, hs, _⟩ => by cases hs⟩
    simp only [encodeShape] at he
    obtain ⟨e, hx, he⟩ := (concatM_none _ _).1 he
    obtain ⟨h1, h2⟩ := h e hx
    rw [encode_some h1, encode_some h2] at he
    cases he
  | mapMsgNil k id p =>
    refine ⟨fun he => ?_, fun ⟨id, v, hs, _⟩ => by cases hs⟩
    simp [encodeShape, concatM] at he
  | mapMsg k id p m hn hk hr =>
    simp only [encodeShape]
    rw [concatM_none]
    constructor
    · rintro ⟨e, hx, he⟩
      rw [encode_some (hk e hx)] at he
      exact ⟨id, _, .map _ _ _ _ e hx, (bind_pure_none _ _).1 he⟩
    · rintro ⟨_, _, hs, he⟩
      cases hs with
      | map _ _ _ _ e hx =>
        refine ⟨e, hx, ?_⟩
        rw [encode_some (hk e hx)]
        exact (bind_pure_none _ _).2 he

theorem deref_typed (hW : S.WF) {id : Nat} {p : Bool} {x : Val} (h : RefTyped S id p x) :
    Typed S id (deref S id p x) := by
  cases h with
  | nil => exact typed_zero hW id
  | ptr _ _ h => exact h
  | inline _ _ h => exact h

theorem shapeSub_typed (hW : S.WF) {s : Shape} {d : Val} (hd : ShapeTyped S s d) {id : Nat} {v : Val}
    (h : ShapeSub S s d id v) : Typed S id v := by
  cases h with
  | ptr id m =>
    cases hd with
    | msg _ _ _ h => cases h with | ptr _ _ h => exact h
  | inline id m _ =>
    cases hd with
    | msg _ _ _ h => cases h with | inline _ _ h => exact h
  | list id p xs x hx =>
    cases hd with
    | msgList _ _ _ h => exact deref_typed hW (h x hx)
  | map k id p m e he =>
    cases hd with
    | mapMsg _ _ _ _ _ _ h => exact deref_typed hW (h e he)

theorem subMsg_typed (hW : S.WF) {id : Nat} {v : Val} (hv : Typed S id v) {id' : Nat} {v' : Val}
    (h : SubMsg S id v id' v') : Typed S id' v' := by
  cases h with
  | mk slots f _ _ hf hs =>
    obtain ⟨x, d, hx, hc, hsub⟩ := hs
    cases hv with
    | mk _ _ _ hft _ => exact shapeSub_typed hW (content_typed (hft f hf x hx) hc) hsub

theorem typed_slot {id : Nat} {slots : List Val} (hW : S.WF) (hv : Typed S id (.struct slots)) {f : Field}
    (hf : f ∈ (S id).fields) : ∃ x, slots[f.slot]? = some x ∧ FieldTyped S f x := by
  cases hv with
  | mk _ _ hlen hft _ =>
    have := (hW id).slots f hf
    have hx : slots[f.slot]? = some slots[f.slot] := List.getElem?_eq_getElem (by omega)
    exact ⟨_, hx, hft f hf _ hx⟩

/-- The encoding is undefined exactly if messages are nested too deep. -/
theorem encode_none_iff (hW : S.WF) : ∀ (d id : Nat) (v : Val), Typed S id v →
    (encode S false d id v = none ↔ Nested S d id v)
  | 0, id, v, _ => by simp only [encode, true_iff]; exact .zero _ _
  | d + 1, id, v, hv => by
    obtain ⟨slots, rfl⟩ : ∃ slots, v = .struct slots := by cases hv; exact ⟨_, rfl⟩
    simp only [encode]
    rw [bind_pure_none, concatM_none]
    constructor
    · rintro ⟨f, hf, he⟩
      obtain ⟨x, hx, hft⟩ := typed_slot hW hv hf
      simp only [encodeField, hx, bind, Option.bind] at he
      cases hc : f.content x with
      | none => rw [hc] at he; cases he
      | some dd =>
        rw [hc] at he
        obtain ⟨id', v', hs, hn⟩ := (shapeSub_none _ _ _ (content_typed hft hc)
          (by simp)).1 he
        have hsub : SubMsg S id (.struct slots) id' v' := .mk _ _ f _ _ hf ⟨x, dd, hx, hc, hs⟩
        exact .step _ _ _ _ _ hsub ((encode_none_iff hW d id' v' (subMsg_typed hW hv hsub)).1 hn)
    · intro hn
      cases hn with
      | step _ _ _ id' v' hsub hn =>
        have ht := subMsg_typed hW hv hsub
        have he := (encode_none_iff hW d id' v' ht).2 hn
        cases hsub with
        | mk _ f _ _ hf hs =>
          obtain ⟨x, dd, hx, hc, hs⟩ := hs
          obtain ⟨x', hx', hft⟩ := typed_slot hW hv hf
          rw [hx] at hx'
          injection hx' with hx'
          subst hx'
          refine ⟨f, hf, ?_⟩
          simp only [encodeField, hx, bind, Option.bind, hc]
          exact (shapeSub_none _ _ _ (content_typed hft hc) (by simp)).2 ⟨id', v', hs, he⟩

/-- What `MarshalAppend` and `Size` do with a message. -/
theorem marshal_size_spec {env : GoEnv} (hI : Implements env S) (hW : S.WF) {id : Nat} {v : Val}
    (hv : Typed S id v) (b : Bytes) :
    match encode S false 1000 id v with
    | none => marshalAppend env b (.ptr id (some v)) = .error .maxDepth ∧
        size env (.ptr id (some v)) = .error .maxDepth
    | some bs => ∃ r n, marshalAppend env b (.ptr id (some v)) = .ok r ∧
        size env (.ptr id (some v)) = .ok n ∧
        (bs.length < 2 ^ 64 → r = b ++ bs ∧ n = bs.length) := by
  obtain ⟨D, hD, hok⟩ := parseDescs_ok hI hW
  have hw := (appendStruct_writes hok hW 1000 id (some v) hv).1
  have hs := sizeStruct_sz hok hW 1000 id (some v) hv
  simp only [Option.getD_some] at hw hs
  simp only [marshalAppend, size, hD, bind, Except.bind]
  revert hw hs
  cases encode S false 1000 id v with
  | none =>
    intro hw hs
    exact ⟨hw b, hs⟩
  | some bs =>
    intro hw hs
    obtain ⟨r, hr, hr'⟩ := hw b
    obtain ⟨n, hn, hn'⟩ := hs
    exact ⟨r, n, hr, hn, fun h => ⟨hr' h, hn' h⟩⟩

end Verif.Lemmas

namespace Verif.Lemmas
open Verif.Model Verif.Spec
variable {S : Schema}

theorem lenDelim_lt {p : Bytes} (h : (lenDelim p).length < 2 ^ 64) : p.length < 2 ^ 64 := by
  unfold lenDelim at h; rw [List.length_append] at h; omega

theorem zigzag_lt64 (x : BitVec 64) : zigzag x.toInt < 2 ^ 64 := by
  have := x.toInt_lt; have := x.le_toInt
  unfold zigzag; split <;> omega

theorem zigzag_lt32 (x : BitVec 32) : zigzag x.toInt < 2 ^ 64 := by
  have := x.toInt_lt; have := x.le_toInt
  unfold zigzag; split <;> omega

/-- An encoded scalar is a well-formed value. -/
theorem scalar_isValue {s : Scalar} {v : Val} (num : Nat) (h : s.goType.holds v = true)
    (hl : (encBytes s v).length < 2 ^ 64) : IsValue 0 num s.wire (encBytes s v) := by
  unfold encBytes at *
  cases s <;> cases v <;> first | cases h | skip
  all_goals simp only [Scalar.encode, Option.getD_some, Scalar.wire] at *
  case int32 => exact .varint _ _ _ _ (isVarint64_varint (by omega))
  case int64 => exact .varint _ _ _ _ (isVarint64_varint (by omega))
  case uint32 v => exact .varint _ _ _ _ (isVarint64_varint (by have := v.isLt; omega))
  case uint64 v => exact .varint _ _ _ _ (isVarint64_varint v.isLt)
  case sint32 v => exact .varint _ _ _ _ (isVarint64_varint (zigzag_lt32 v))
  case sint64 v => exact .varint _ _ _ _ (isVarint64_varint (zigzag_lt64 v))
  case bool b => exact .varint _ _ _ _ (isVarint64_varint (by split <;> omega))
  case fixed32 => exact .i32 _ _ _ (le_length _ _)
  case sfixed32 => exact .i32 _ _ _ (le_length _ _)
  case float => exact .i32 _ _ _ (le_length _ _)
  case fixed64 => exact .i64 _ _ _ (le_length _ _)
  case sfixed64 => exact .i64 _ _ _ (le_length _ _)
  case double => exact .i64 _ _ _ (le_length _ _)
  case string => exact .len _ _ _ _ (isLen_lenDelim (lenDelim_lt hl))
  case bytes => exact .len _ _ _ _ (isLen_lenDelim (lenDelim_lt hl))

theorem scalar_isRecord {s : Scalar} {v : Val} {num : Nat} (h : s.goType.holds v = true)
    (h1 : 1 ≤ num) (h2 : num < 2 ^ 31)
    (hl : (tag num s.wire ++ encBytes s v).length < 2 ^ 64) :
    IsRecord num (tag num s.wire ++ encBytes s v) :=
  ⟨_, _, _, isKey_tag _ h1 h2, scalar_isValue num h (by rw [List.length_append] at hl; omega), rfl⟩

theorem len_isRecord {num : Nat} {p : Bytes} (h1 : 1 ≤ num) (h2 : num < 2 ^ 31)
    (hl : (tag num .len ++ lenDelim p).length < 2 ^ 64) : IsRecord num (tag num .len ++ lenDelim p) :=
  ⟨_, _, _, isKey_tag _ h1 h2, .len _ _ _ _ (isLen_lenDelim (lenDelim_lt (by
    rw [List.length_append] at hl; omega))), rfl⟩

/-- A record of a field with this shape and content. -/
def ShapeRec (S : Schema) (enc : Nat → Val → Option Bytes) (num : Nat) (s : Shape) (d : Val)
    (r : Bytes) : Prop :=
  match s with
  | .msg id _ | .msgList id _ =>
    ∃ v p, ShapeSub S s d id v ∧ enc id v = some p ∧ r = tag num .len ++ lenDelim p
  | .mapMsg _ id _ => ∃ v p r1, ShapeSub S s d id v ∧ enc id v = some p ∧ IsRecord 1 r1 ∧
      r = tag num .len ++ lenDelim (r1 ++ (tag 2 .len ++ lenDelim p))
  | _ => IsRecord num r

theorem flatten_length_mem {r : Bytes} {rs : List Bytes} (h : r ∈ rs) : r.length ≤ rs.flatten.length := by
  induction rs with
  | nil => cases h
  | cons x xs ih =>
    rw [List.flatten_cons, List.length_append]
    rcases List.mem_cons.1 h with rfl | h
    · omega
    · have := ih h; omega

theorem bind_some_eq {α β : Type} {e : Option α} {f : α → Option β} {b : β} (h : (e >>= f) = some b) :
    ∃ a, e = some a ∧ f a = some b := by
  cases e with
  | none => cases h
  | some a => exact ⟨a, rfl, h⟩

theorem concatM_recs {α : Type} {g : α → Option Bytes} {xs : List α} {bs : Bytes} (P : Bytes → Prop)
    (h : concatM g xs = some bs) (hl : bs.length < 2 ^ 64)
    (hP : ∀ x ∈ xs, ∀ r, g x = some r → r.length < 2 ^ 64 → P r) :
    ∃ recs : List Bytes, bs = recs.flatten ∧ recs.length = xs.length ∧ ∀ r ∈ recs, P r := by
  obtain ⟨h1, h2⟩ := concatM_some g xs bs h
  refine ⟨_, h1, by simp, fun r hr => ?_⟩
  have hlen := flatten_length_mem hr
  rw [← h1] at hlen
  obtain ⟨x, hx, rfl⟩ := List.mem_map.1 hr
  exact hP x hx _ (h2 x hx) (by omega)

theorem encodeShape_recs (enc : Nat → Val → Option Bytes) {num : Nat} (h1 : 1 ≤ num) (h2 : num < 2 ^ 31)
    {s : Shape} {d : Val} (hd : ShapeTyped S s d) {bs : Bytes}
    (he : encodeShape S enc num false s d = some bs) (hl : bs.length < 2 ^ 64) :
    ∃ recs : List Bytes, bs = recs.flatten ∧ recs.length = recordCount S s d ∧
      ∀ r ∈ recs, ShapeRec S enc num s d r := by
  cases hd with
  | single s v h =>
    simp only [encodeShape, encode_some h, Bool.not_false, Bool.and_true] at he
    injection he with he
    subst he
    simp only [recordCount]
    split
    · exact ⟨[], rfl, rfl, by simp⟩
    · rename_i hz
      rw [if_neg hz] at hl
      exact ⟨[_], (by simp; rfl), rfl, by simpa [ShapeRec] using scalar_isRecord h h1 h2 hl⟩
  | optionalNil s =>
    simp only [encodeShape] at he
    injection he with he
    subst he
    exact ⟨[], rfl, rfl, by simp⟩
  | optional s v h =>
    simp only [encodeShape, encode_some h] at he
    injection he with he
    subst he
    exact ⟨[_], (by simp; rfl), rfl, by simpa [ShapeRec] using scalar_isRecord h h1 h2 hl⟩
  | list s p xs h =>
    simp only [encodeShape] at he
    cases p with
    | false =>
      simp only [Bool.false_eq_true, if_false] at he
      refine concatM_recs _ he hl (fun x hx r hr hrl => ?_)
      rw [encode_some (h x hx)] at hr
      injection hr with hr
      subst hr
      exact scalar_isRecord (h x hx) h1 h2 hrl
    | true =>
      simp only [if_true] at he
      simp only [recordCount]
      by_cases hx : xs.isEmpty = true
      · rw [if_pos hx] at he ⊢
        injection he with he
        subst he
        exact ⟨[], rfl, rfl, by simp⟩
      · rw [if_neg hx] at he ⊢
        obtain ⟨p, hp, he⟩ := bind_some_eq he
        injection he with he
        subst he
        exact ⟨[_], (by simp; rfl), rfl, by simpa [ShapeRec] using len_isRecord h1 h2 hl⟩
  | msg id p v h =>
    cases h with
    | nil =>
      simp only [encodeShape] at he
      injection he with he
      subst he
      exact ⟨[], rfl, rfl, by simp⟩
    | ptr _ v hv =>
      simp only [encodeShape] at he
      obtain ⟨p, hp, he⟩ := bind_some_eq he
      injection he with he
      subst he
      refine ⟨[_], (by simp; rfl), rfl, fun r hr => ?_⟩
      rw [List.mem_singleton] at hr
      subst hr
      exact ⟨v, p, .ptr _ _, hp, rfl⟩
    | inline _ _ hv =>
      simp only [encodeShape, Bool.not_false, Bool.and_true] at he
      simp only [recordCount]
      by_cases hz : ((S id).small && d.memZero) = true
      · rw [if_pos hz] at he ⊢
        injection he with he
        subst he
        exact ⟨[], rfl, rfl, by simp⟩
      · rw [if_neg hz] at he ⊢
        obtain ⟨p, hp, he⟩ := bind_some_eq he
        injection he with he
        subst he
        refine ⟨[_], (by simp; rfl), rfl, fun r hr => ?_⟩
        rw [List.mem_singleton] at hr
        subst hr
        exact ⟨d, p, .inline _ _ (by simpa using hz), hp, rfl⟩
  | msgList id p xs h =>
    simp only [encodeShape] at he
    refine concatM_recs _ he hl (fun x hx r hr hrl => ?_)
    obtain ⟨q, hq, hr⟩ := bind_some_eq hr
    injection hr with hr
    subst hr
    exact ⟨_, q, .list _ _ _ x hx, hq, rfl⟩
  | mapNil k v =>
    simp only [encodeShape, Option.getD_none, concatM] at he
    injection he with he
    subst he
    exact ⟨[], rfl, rfl, by simp⟩
  | map k v m hn h =>
    simp only [encodeShape, Option.getD_some] at he
    refine concatM_recs _ he hl (fun e hx r hr hrl => ?_)
    rw [encode_some (h e hx).1, encode_some (h e hx).2] at hr
    injection hr with hr
    subst hr
    exact len_isRecord h1 h2 hrl
  | mapMsgNil k id p =>
    simp only [encodeShape, Option.getD_none, concatM] at he
    injection he with he
    subst he
    exact ⟨[], rfl, rfl, by simp⟩
  | mapMsg k id p m hn hk hr =>
    simp only [encodeShape, Option.getD_some] at he
    refine concatM_recs _ he hl (fun e hx r hr hrl => ?_)
    rw [encode_some (hk e hx)] at hr
    obtain ⟨a, ha, hr⟩ := bind_some_eq hr
    injection ha with ha
    subst ha
    obtain ⟨q, hq, hr⟩ := bind_some_eq hr
    injection hr with hr
    subst hr
    refine ⟨_, q, _, .map _ _ _ _ e hx, hq, scalar_isRecord (hk e hx) (by omega) (by omega) ?_, rfl⟩
    rw [List.length_append] at hrl
    have := lenDelim_lt (p := tag 1 k.wire ++ encBytes k e.1.toVal ++ (tag 2 .len ++ lenDelim q)) (by omega)
    rw [List.length_append] at this
    omega

/-- The records of each field. -/
theorem encode_recs (hW : S.WF) {d id : Nat} {slots : List Val} (hv : Typed S id (.struct slots)) {bs : Bytes}
    (he : encode S false (d + 1) id (.struct slots) = some bs) (hl : bs.length < 2 ^ 64) :
    ∃ recs : Field → List Bytes,
      bs = ((S id).fields.flatMap recs).flatten ++ unknownOf (S id) slots ∧
      ∀ f ∈ (S id).fields, (recs f).length = fieldCount S slots f ∧
        ∀ r ∈ recs f, ∃ x dd, slots[f.slot]? = some x ∧ f.content x = some dd ∧
          ShapeRec S (encode S false d) f.num f.shape dd r := by
  simp only [encode] at he
  obtain ⟨a, ha, he⟩ := bind_some_eq he
  injection he with he
  subst he
  rw [List.length_append] at hl
  obtain ⟨h1, h2⟩ := concatM_some _ _ _ ha
  have key : ∀ f : Field, ∃ rs : List Bytes, f ∈ (S id).fields →
      (encodeField S false (encode S false d) slots f).getD [] = rs.flatten ∧
      rs.length = fieldCount S slots f ∧
      ∀ r ∈ rs, ∃ x dd, slots[f.slot]? = some x ∧ f.content x = some dd ∧
          ShapeRec S (encode S false d) f.num f.shape dd r := by
    intro f
    by_cases hf : f ∈ (S id).fields
    · obtain ⟨x, hx, hft⟩ := typed_slot hW hv hf
      have hfe := h2 f hf
      have hlen : ((encodeField S false (encode S false d) slots f).getD []).length < 2 ^ 64 := by
        have := flatten_length_mem (List.mem_map_of_mem
          (f := fun f => (encodeField S false (encode S false d) slots f).getD []) hf)
        rw [← h1] at this
        omega
      generalize (encodeField S false (encode S false d) slots f).getD [] = y at *
      simp only [encodeField, hx, bind, Option.bind] at hfe
      cases hc : f.content x with
      | none =>
        rw [hc] at hfe
        injection hfe with hfe
        refine ⟨[], fun _ => ⟨hfe.symm, by simp [fieldCount, hx, hc], by simp⟩⟩
      | some dd =>
        rw [hc] at hfe
        simp only [Bool.and_false] at hfe
        obtain ⟨rs, h3, h4, h5⟩ := encodeShape_recs _ ((hW id).nums f hf).1 ((hW id).nums f hf).2
          (content_typed hft hc) hfe hlen
        exact ⟨rs, fun _ => ⟨h3, by simp [fieldCount, hx, hc, h4], fun r hr => ⟨x, dd, hx, hc, h5 r hr⟩⟩⟩
    · exact ⟨[], fun h => absurd h hf⟩
  obtain ⟨rc, hrc⟩ : ∃ rc : Field → List Bytes, ∀ f, f ∈ (S id).fields →
      (encodeField S false (encode S false d) slots f).getD [] = (rc f).flatten ∧
      (rc f).length = fieldCount S slots f ∧
      ∀ r ∈ rc f, ∃ x dd, slots[f.slot]? = some x ∧ f.content x = some dd ∧
          ShapeRec S (encode S false d) f.num f.shape dd r := Classical.axiomOfChoice key
  refine ⟨rc, ?_, fun f hf => (hrc f hf).2⟩
  congr 1
  rw [h1]
  clear h1 ha h2
  have : ∀ fs : List Field, (∀ f ∈ fs, f ∈ (S id).fields) →
      (fs.map (fun f => (encodeField S false (encode S false d) slots f).getD [])).flatten =
      (fs.flatMap rc).flatten := by
    intro fs
    induction fs with
    | nil => intro _; rfl
    | cons f fs ih =>
      intro hfs
      rw [List.map_cons, List.flatten_cons, List.flatMap_cons, List.flatten_append,
        ih (fun g hg => hfs g (by simp [hg])), (hrc f (hfs f (by simp))).1]
  exact this _ (fun _ h => h)

theorem encode_ordered (hW : S.WF) : ∀ (d id : Nat) (v : Val), Typed S id v → ∀ (bs : Bytes),
    encode S false d id v = some bs → bs.length < 2 ^ 64 → Ordered S id v bs
  | 0, _, _, _, _, he, _ => by cases he
  | d + 1, id, v, hv, bs, he, hl => by
    obtain ⟨slots, rfl⟩ : ∃ slots, v = .struct slots := by cases hv; exact ⟨_, rfl⟩
    obtain ⟨recs, hbs, hrec⟩ := encode_recs hW hv he hl
    have hpw : ∀ fs : List Field, fs.Pairwise (fun f g => f.num < g.num) →
        (fs.flatMap (fun f => (recs f).map (fun r => (f, r)))).Pairwise (fun a b => a.1.num ≤ b.1.num) := by
      intro fs hfs
      rw [List.pairwise_flatMap]
      refine ⟨fun f _ => ?_, hfs.imp (fun {f g} h a ha b hb => ?_)⟩
      · rw [List.pairwise_map]
        exact List.pairwise_of_forall (fun _ _ => Nat.le_refl _)
      · obtain ⟨_, _, rfl⟩ := List.mem_map.1 ha
        obtain ⟨_, _, rfl⟩ := List.mem_map.1 hb
        exact Nat.le_of_lt h
    have hmap : ((S id).fields.flatMap (fun f => (recs f).map (fun r => (f, r)))).map (·.2) =
        (S id).fields.flatMap recs := by
      rw [List.map_flatMap]
      congr 1; funext f
      simp [Function.comp_def]
    have hmem : ∀ r ∈ (S id).fields.flatMap (fun f => (recs f).map (fun r => (f, r))),
        r.1 ∈ (S id).fields ∧ r.2 ∈ recs r.1 := by
      intro r hr
      obtain ⟨f, hf, hr⟩ := List.mem_flatMap.1 hr
      obtain ⟨x, hx, rfl⟩ := List.mem_map.1 hr
      exact ⟨hf, hx⟩
    rw [hbs, ← hmap]
    refine .mk id slots _ (hpw _ (hW id).sorted) (fun r hr => (hmem r hr).1) (fun r hr => ?_)
    obtain ⟨hf, hr2⟩ := hmem r hr
    obtain ⟨x, dd, hx, hc, hs⟩ := (hrec r.1 hf).2 _ hr2
    have hrl : r.2.length < 2 ^ 64 := by
      have := flatten_length_mem (List.mem_flatMap.2 ⟨r.1, hf, hr2⟩)
      rw [hbs, List.length_append] at hl
      omega
    obtain ⟨f, r⟩ := r
    dsimp only at *
    have hnum := (hW id).nums f hf
    have hft := content_typed (by cases hv with | mk _ _ _ h _ => exact h f hf x hx) hc
    have isMsg : ∀ id' p v', ShapeSub S f.shape dd id' v' → encode S false d id' v' = some p →
        p.length < 2 ^ 64 → Ordered S id' v' p := fun id' p v' hs he hpl =>
      encode_ordered hW d id' v' (shapeSub_typed hW hft hs) p he hpl
    cases hsh : f.shape with
    | msg id' q =>
      rw [hsh] at hs
      obtain ⟨v', p, hsub, hp, rfl⟩ := hs
      have hpl : p.length < 2 ^ 64 := lenDelim_lt (by rw [List.length_append] at hrl; omega)
      rw [← hsh] at hsub
      exact .msg _ _ _ _ _ id' v' q (.inl hsh) ⟨x, dd, hx, hc, hsub⟩ (isKey_tag _ hnum.1 hnum.2)
        (isLen_lenDelim hpl) (isMsg id' p v' hsub hp hpl)
    | msgList id' q =>
      rw [hsh] at hs
      obtain ⟨v', p, hsub, hp, rfl⟩ := hs
      have hpl : p.length < 2 ^ 64 := lenDelim_lt (by rw [List.length_append] at hrl; omega)
      rw [← hsh] at hsub
      exact .msg _ _ _ _ _ id' v' q (.inr hsh) ⟨x, dd, hx, hc, hsub⟩ (isKey_tag _ hnum.1 hnum.2)
        (isLen_lenDelim hpl) (isMsg id' p v' hsub hp hpl)
    | mapMsg k id' q =>
      rw [hsh] at hs
      obtain ⟨v', p, r1, hsub, hp, hr1, rfl⟩ := hs
      have hpl : (r1 ++ (tag 2 .len ++ lenDelim p)).length < 2 ^ 64 :=
        lenDelim_lt (by rw [List.length_append] at hrl; omega)
      have hpl2 : p.length < 2 ^ 64 := lenDelim_lt (by rw [List.length_append, List.length_append] at hpl; omega)
      rw [← hsh] at hsub
      exact .mapMsg _ _ _ _ r1 _ _ p id' v' q k hsh ⟨x, dd, hx, hc, hsub⟩ (isKey_tag _ hnum.1 hnum.2)
        (isLen_lenDelim hpl) hr1 (isKey_tag _ (by omega) (by omega)) (isLen_lenDelim hpl2)
        (isMsg id' p v' hsub hp hpl2)
    | _ =>
      rw [hsh] at hs
      exact .scalar _ _ _ (by rw [hsh]; rfl) hs


theorem concatM_congr' {α : Type} {g g' : α → Option Bytes} {xs : List α} (h : ∀ x ∈ xs, g x = g' x) :
    concatM g xs = concatM g' xs := by
  induction xs with
  | nil => rfl
  | cons x xs ih =>
    simp only [concatM]
    rw [h x (by simp), ih (fun y hy => h y (by simp [hy]))]

theorem encodeShape_congr {enc enc' : Nat → Val → Option Bytes} (num : Nat) (keep : Bool) {s : Shape} {d : Val}
    (h : ∀ id v, ShapeSub S s d id v → enc id v = enc' id v) (hk : keep = true → ∀ id, s ≠ .msg id false) :
    encodeShape S enc num keep s d = encodeShape S enc' num keep s d := by
  cases s with
  | single => rfl
  | optional => rfl
  | list => rfl
  | map => rfl
  | msg id p =>
    cases p with
    | true =>
      match d with
      | .ptr none => rfl
      | .ptr (some m) => simp only [encodeShape]; rw [h _ _ (.ptr id m)]
      | .w32 _ | .w64 _ | .bool _ | .str _ | .bytes _ | .slice _ | .map _ | .struct _ | .iface _
      | .opaque _ | .undef => rfl
    | false =>
      have : keep = false := by
        cases keep with
        | false => rfl
        | true => exact absurd rfl (hk rfl id)
      subst this
      simp only [encodeShape, Bool.not_false, Bool.and_true]
      split
      · rfl
      · rename_i hz
        rw [h _ _ (.inline id d (by simpa using hz))]
  | msgList id p =>
    match d with
    | .slice xs =>
      simp only [encodeShape]
      exact concatM_congr' (fun x hx => by rw [h _ _ (.list id p xs x hx)])
    | .w32 _ | .w64 _ | .bool _ | .str _ | .bytes _ | .ptr _ | .map _ | .struct _ | .iface _
    | .opaque _ | .undef => rfl
  | mapMsg k id p =>
    match d with
    | .map none => rfl
    | .map (some m) =>
      simp only [encodeShape, Option.getD_some]
      exact concatM_congr' (fun x hx => by rw [h _ _ (.map k id p m x hx)])
    | .w32 _ | .w64 _ | .bool _ | .str _ | .bytes _ | .ptr _ | .slice _ | .struct _ | .iface _
    | .opaque _ | .undef => rfl

/-- `keep` makes no difference to a value that is shown. -/
theorem encodeShape_keep {enc : Nat → Val → Option Bytes} (num : Nat) {s : Shape} {d : Val}
    (hs : (∃ sc, s = .single sc) ∨ (∃ id p, s = .msg id p)) (h : recordCount S s d ≠ 0) :
    encodeShape S enc num true s d = encodeShape S enc num false s d := by
  rcases hs with ⟨sc, rfl⟩ | ⟨id, p, rfl⟩
  · have hd : isDefault d = false := by
      cases hd : isDefault d with
      | false => rfl
      | true => exact absurd (by simp [recordCount, hd]) h
    simp only [encodeShape, hd, Bool.false_and]
  · cases p with
    | true =>
      match d with
      | .ptr none => exact absurd (by simp [recordCount]) h
      | .ptr (some m) => rfl
      | .w32 _ | .w64 _ | .bool _ | .str _ | .bytes _ | .slice _ | .map _ | .struct _ | .iface _
      | .opaque _ | .undef => rfl
    | false =>
      have hz : ((S id).small && d.memZero) = false := by
        cases hz : ((S id).small && d.memZero) with
        | false => rfl
        | true => exact absurd (by simp only [recordCount, hz, if_true]) h
      simp only [encodeShape, hz, Bool.false_and]

theorem encode_keep (hW : S.WF) : ∀ (d id : Nat) (v : Val), Typed S id v →
    (∀ id' v', Reach S id v id' v' → MembersShown S id' v') →
    encode S false d id v = encode S true d id v
  | 0, _, _, _, _ => rfl
  | d + 1, id, v, hv, hm => by
    obtain ⟨slots, rfl⟩ : ∃ slots, v = .struct slots := by cases hv; exact ⟨_, rfl⟩
    simp only [encode]
    congr 1
    refine concatM_congr' (fun f hf => ?_)
    simp only [encodeField]
    obtain ⟨x, hx, hft⟩ := typed_slot hW hv hf
    simp only [hx, bind, Option.bind]
    cases hc : f.content x with
    | none => rfl
    | some dd =>
      simp only [Bool.and_false, Bool.and_true]
      have hfd := content_typed hft hc
      have hsub : ∀ id' v', ShapeSub S f.shape dd id' v' → encode S false d id' v' = encode S true d id' v' := by
        intro id' v' hs
        have hsm : SubMsg S id (.struct slots) id' v' := .mk _ _ f _ _ hf ⟨x, dd, hx, hc, hs⟩
        exact encode_keep hW d id' v' (subMsg_typed hW hv hsm)
          (fun id'' v'' hr => hm _ _ (.step _ _ _ _ _ _ hsm hr))
      rw [encodeShape_congr f.num false hsub (by simp)]
      cases hmem : f.member with
      | none => rfl
      | some w =>
        have hne : f.member ≠ none := by rw [hmem]; simp
        exact (encodeShape_keep f.num ((hW id).members f hf hne)
          (hm id _ (.refl _ _) slots rfl f hf hne x dd hx hc)).symm

/-- The zero value of a type that holds no messages by value (except small ones) has the empty encoding. -/
theorem encode_zero (hW : S.WF) (id : Nat)
    (hm : ∀ f ∈ (S id).fields, ∀ i, f.shape = .msg i false →
      (S i).small = true ∧ (S i).zero.memZero = true) (d : Nat) :
    encode S false (d + 1) id (S id).zero = some [] := by
  obtain ⟨zs, hz, hlen, hf, hu1, hu2⟩ := (hW id).zero
  rw [hz]
  simp only [encode]
  have h1 : concatM (encodeField S false (encode S false d) zs) (S id).fields = some [] := by
    have : ∀ fs : List Field, (∀ f ∈ fs, f ∈ (S id).fields) →
        concatM (encodeField S false (encode S false d) zs) fs = some [] := by
      intro fs
      induction fs with
      | nil => intro _; rfl
      | cons f fs ih =>
        intro h
        have hfm := h f (by simp)
        simp only [concatM]
        rw [ih (fun g hg => h g (by simp [hg]))]
        have : encodeField S false (encode S false d) zs f = some [] := by
          simp only [encodeField, hf f hfm, bind, Option.bind]
          have hin := hm f hfm
          obtain ⟨n, sl, m, shape⟩ := f
          cases m with
          | some w => rfl
          | none =>
            dsimp only at hin
            simp only [Field.zero, Field.content, Bool.and_false]
            cases shape with
            | single s => cases s <;> rfl
            | optional s => rfl
            | list s p => cases p <;> rfl
            | msg i p =>
              cases p with
              | true => rfl
              | false =>
                obtain ⟨h1, h2⟩ := hin i rfl
                simp [encodeShape, h1, h2]
            | msgList i p => rfl
            | map k v => rfl
            | mapMsg k i p => rfl
        rw [this]; rfl
    exact this _ (fun _ h => h)
  have h2 : unknownOf (S id) zs = [] := by
    unfold unknownOf
    match hun : (S id).unknown with
    | none => rfl
    | some (s, false) => simp [hu1 s hun]
    | some (s, true) => simp [hu2 s hun]
  rw [h1, h2]; rfl

end Verif.Lemmas
