import Verif.Lemmas.Steps
import Verif.Lemmas.Output
import Verif.Spec.Round
/-! Helper lemmas: decoding an encoded message. -/
namespace Verif.Lemmas
open Verif.Model Verif.Spec

theorem sameScalar_refl (v : Val) : SameScalar v v := by cases v <;> rfl

theorem ofNat32_emod (x : BitVec 32) : BitVec.ofNat 32 (x.toInt % 2 ^ 64).toNat = x := by
  rw [← signExtend_toNat]
  apply BitVec.eq_of_toInt_eq
  have h : BitVec.ofNat 32 (x.signExtend 64).toNat = (x.signExtend 64).setWidth 32 := by
    apply BitVec.eq_of_toNat_eq; simp
  rw [h]
  congr 1
  apply BitVec.eq_of_getElem_eq
  intro i hi
  simp [BitVec.getLsbD_signExtend, hi]
  omega

/-- Decoding an encoded scalar. -/
theorem scalarDec_encode (o : Bool) {s : Scalar} {v : Val} {a : Bytes} (h : s.goType.holds v = true)
    (he : s.encode v = some a) (hl : a.length < 2 ^ 64) :
    ∃ y, ScalarDec o s a y ∧ SameScalar v y ∧ (s ≠ .bytes → y = v) ∧ s.goType.holds y = true := by
  have hv := scalarVal_of_holds h
  cases hv with
  | w32 s x hs =>
    refine ⟨.w32 x, ?_, rfl, fun _ => rfl, h⟩
    cases s
    case int32 =>
      cases he
      exact ⟨_, isVarint64_varint (by omega), by rw [ofNat32_emod]⟩
    case uint32 => cases he; exact ⟨_, isVarint64_varint (by have := x.isLt; omega), by simp⟩
    case sint32 =>
      cases he
      exact ⟨_, isVarint64_varint (zigzag_lt32 x), by rw [unzigzag_zigzag, BitVec.ofInt_toInt]⟩
    case fixed32 => cases he; exact ⟨le_length _ _, by rw [leVal_le, Nat.mod_eq_of_lt x.isLt]; simp⟩
    case sfixed32 => cases he; exact ⟨le_length _ _, by rw [leVal_le, Nat.mod_eq_of_lt x.isLt]; simp⟩
    case float => cases he; exact ⟨le_length _ _, by rw [leVal_le, Nat.mod_eq_of_lt x.isLt]; simp⟩
    all_goals cases hs
  | w64 s x hs =>
    refine ⟨.w64 x, ?_, rfl, fun _ => rfl, h⟩
    cases s
    case int64 =>
      cases he
      exact ⟨_, isVarint64_varint (by omega), by rw [toInt_emod]; simp⟩
    case uint64 => cases he; exact ⟨_, isVarint64_varint x.isLt, by simp⟩
    case sint64 =>
      cases he
      exact ⟨_, isVarint64_varint (zigzag_lt64 x), by rw [unzigzag_zigzag, BitVec.ofInt_toInt]⟩
    case fixed64 => cases he; exact ⟨le_length _ _, by rw [leVal_le, Nat.mod_eq_of_lt x.isLt]; simp⟩
    case sfixed64 => cases he; exact ⟨le_length _ _, by rw [leVal_le, Nat.mod_eq_of_lt x.isLt]; simp⟩
    case double => cases he; exact ⟨le_length _ _, by rw [leVal_le, Nat.mod_eq_of_lt x.isLt]; simp⟩
    all_goals cases hs
  | bool x =>
    refine ⟨.bool x, ?_, rfl, fun _ => rfl, h⟩
    cases he
    cases o with
    | true =>
      refine ⟨if x then 1#8 else 0#8, ?_, ?_⟩
      · cases x <;> decide +kernel
      · cases x <;> rfl
    | false =>
      refine ⟨if x then 1 else 0, isVarint64_varint (by split <;> omega), ?_⟩
      cases x <;> rfl
  | str x =>
    cases he
    simp only [lenDelim, List.length_append] at hl
    exact ⟨.str x, ⟨x, isLen_lenDelim (by omega), rfl⟩, rfl, fun _ => rfl, h⟩
  | bytes x =>
    cases he
    simp only [lenDelim, List.length_append] at hl
    exact ⟨.bytes (some (x.getD [])), ⟨_, isLen_lenDelim (by omega), rfl⟩, rfl, fun h => absurd rfl h, rfl⟩

/-! ## runs of records of one field -/

/-- Records of one field, one after the other, taking its content from one value to another. -/
inductive Runs (S : Schema) (d : Int) (sh : Shape) (num : Nat) : Bytes → Val → Val → Prop
  | nil (x : Val) : Runs S d sh num [] x x
  | cons (t : WireType) (k v rest : Bytes) (x y z : Val) : IsKey k num t → DecShape S d sh t v x y →
      Runs S d sh num rest y z → Runs S d sh num (k ++ v ++ rest) x z

theorem Runs.one {S : Schema} {d : Int} {sh : Shape} {num : Nat} {t : WireType} {v : Bytes} {x y : Val}
    (h1 : 1 ≤ num) (h2 : num < 2 ^ 31) (h : DecShape S d sh t v x y) : Runs S d sh num (tag num t ++ v) x y := by
  have := Runs.cons (num := num) t (tag num t) v [] x y y (isKey_tag t h1 h2) h (.nil _)
  simpa using this

theorem Runs.append {S : Schema} {d : Int} {sh : Shape} {num : Nat} {a b : Bytes} {x y z : Val}
    (h : Runs S d sh num a x y) (h' : Runs S d sh num b y z) : Runs S d sh num (a ++ b) x z := by
  induction h with
  | nil => exact h'
  | cons t k v rest x y _ h1 h2 _ ih =>
    rw [List.append_assoc]
    exact .cons _ _ _ _ _ _ _ h1 h2 (ih h')

/-- Two lists agree element by element. -/
def Zip {α β : Type} (R : α → β → Prop) (xs : List α) (ys : List β) : Prop :=
  xs.length = ys.length ∧ ∀ (i : Nat) x y, xs[i]? = some x → ys[i]? = some y → R x y

theorem Zip.nil {α β : Type} {R : α → β → Prop} : Zip R [] [] := ⟨rfl, fun i x y h _ => by simp at h⟩

theorem Zip.snoc {α β : Type} {R : α → β → Prop} {xs : List α} {ys : List β} {x : α} {y : β} (h : Zip R xs ys) (hxy : R x y) :
    Zip R (xs ++ [x]) (ys ++ [y]) := by
  refine ⟨by simp [h.1], fun i a b ha hb => ?_⟩
  by_cases hi : i < xs.length
  · rw [List.getElem?_append_left hi] at ha
    rw [List.getElem?_append_left (by rw [← h.1]; exact hi)] at hb
    exact h.2 i a b ha hb
  · rw [List.getElem?_append_right (by omega)] at ha
    rw [List.getElem?_append_right (by rw [← h.1]; omega)] at hb
    have : i - xs.length = 0 := by
      by_cases h0 : i - xs.length = 0
      · exact h0
      · rw [List.getElem?_eq_none (by simp; omega)] at ha; cases ha
    rw [this] at ha
    rw [show i - ys.length = 0 by rw [← h.1]; exact this] at hb
    cases ha; cases hb; exact hxy

/-- Element after element. -/
theorem runs_concat {S : Schema} {d : Int} {sh : Shape} {num : Nat} {α β : Type} {g : α → Option Bytes} {R : α → β → Prop}
    (con : List β → Val) {xs : List α}
    (h : ∀ pre x post acc a, xs = pre ++ x :: post → Zip R pre acc → g x = some a → a.length < 2 ^ 64 →
      ∃ y, R x y ∧ Runs S d sh num a (con acc) (con (acc ++ [y]))) :
    ∀ (post pre : List α) (acc : List β) (bs : Bytes), xs = pre ++ post → Zip R pre acc → concatM g post = some bs →
      bs.length < 2 ^ 64 → ∃ ys, Zip R xs ys ∧ Runs S d sh num bs (con acc) (con ys)
  | [], pre, acc, bs, hx, hz, hc, hl => by
    cases hc
    rw [List.append_nil] at hx
    subst hx
    exact ⟨acc, hz, .nil _⟩
  | x :: post, pre, acc, bs, hx, hz, hc, hl => by
    simp only [concatM] at hc
    cases hg : g x with
    | none => rw [hg] at hc; cases hc
    | some a =>
      rw [hg] at hc
      cases hr : concatM g post with
      | none => rw [hr] at hc; cases hc
      | some b =>
        rw [hr] at hc
        cases hc
        simp only [List.length_append] at hl
        obtain ⟨y, h1, h2⟩ := h pre x post acc a hx hz hg (by omega)
        obtain ⟨ys, h3, h4⟩ := runs_concat con h post (pre ++ [x]) (acc ++ [y]) b (by simp [hx]) (hz.snoc h1) hr (by omega)
        exact ⟨ys, h3, h2.append h4⟩

/-- Packed elements. -/
theorem packedDec_concat {s : Scalar} : ∀ (xs : List Val) (bs : Bytes), (∀ v ∈ xs, s.goType.holds v = true) →
    concatM s.encode xs = some bs → bs.length < 2 ^ 64 → ∃ ys, PackedDec s bs ys ∧ xs.length = ys.length ∧
      ∀ (i : Nat) x y, xs[i]? = some x → ys[i]? = some y → SameScalar x y
  | [], bs, _, hc, _ => by
    cases hc
    exact ⟨[], .nil, rfl, fun i x y h _ => by simp at h⟩
  | x :: xs, bs, hx, hc, hl => by
    simp only [concatM] at hc
    cases hg : s.encode x with
    | none => rw [hg] at hc; cases hc
    | some a =>
      rw [hg] at hc
      cases hr : concatM s.encode xs with
      | none => rw [hr] at hc; cases hc
      | some b =>
        rw [hr] at hc
        cases hc
        simp only [List.length_append] at hl
        obtain ⟨y, h1, h2, -⟩ := scalarDec_encode true (hx x (by simp)) hg (by omega)
        obtain ⟨ys, h3, h4, h5⟩ := packedDec_concat xs b (fun v hv => hx v (by simp [hv])) hr (by omega)
        refine ⟨y :: ys, .cons _ _ _ _ h1 h3, by simp [h4], fun i x' y' hx' hy' => ?_⟩
        cases i with
        | zero => cases hx'; cases hy'; exact h2
        | succ i => exact h5 i x' y' hx' hy'

theorem isDefault_zero {s : Scalar} {v : Val} (h : s.goType.holds v = true) (hd : isDefault v = true) :
    SameScalar v s.zero := by
  have hv := scalarVal_of_holds h
  cases hv with
  | w32 s x hs =>
    have : x = 0#32 := by simpa [isDefault] using hd
    subst this
    cases s <;> first | rfl | cases hs
  | w64 s x hs =>
    have : x = 0#64 := by simpa [isDefault] using hd
    subst this
    cases s <;> first | rfl | cases hs
  | bool x => cases x <;> first | rfl | cases hd
  | str x =>
    cases x with
    | nil => rfl
    | cons a x => cases hd
  | bytes x =>
    match x with
    | none => rfl
    | some [] => rfl
    | some (a :: x) => cases hd

theorem putEntry_fresh {m : List (Key × Val)} {k : Key} {v : Val} (h : k ∉ m.map (·.1)) : putEntry m k v = m ++ [(k, v)] := by
  induction m with
  | nil => rfl
  | cons e m ih =>
    simp only [List.map_cons, List.mem_cons, not_or] at h
    simp only [putEntry, if_neg (fun h' : e.1 = k => h.1 h'.symm), ih h.2, List.cons_append]

/-- The memory of a map with these entries (built by decoding). -/
def conMap (acc : List (Key × Val)) : Val := .map (if acc.isEmpty then none else some acc)

theorem conMap_snoc (acc : List (Key × Val)) (e : Key × Val) : conMap (acc ++ [e]) = .map (some (acc ++ [e])) := by
  cases acc <;> rfl

theorem conMap_getD (acc : List (Key × Val)) : (if acc.isEmpty then none else some acc).getD [] = acc := by
  cases acc <;> rfl

theorem zip_keys {R : Key × Val → Key × Val → Prop} (hR : ∀ a b, R a b → a.1 = b.1) {xs ys : List (Key × Val)}
    (h : Zip R xs ys) : xs.map (·.1) = ys.map (·.1) := by
  apply List.ext_getElem?
  intro i
  rw [List.getElem?_map, List.getElem?_map]
  cases hx : xs[i]? with
  | none =>
    have : xs.length ≤ i := List.getElem?_eq_none_iff.1 hx
    rw [List.getElem?_eq_none (by rw [← h.1]; exact this)]
  | some a =>
    have : i < xs.length := by
      rcases Nat.lt_or_ge i xs.length with h' | h'
      · exact h'
      · rw [List.getElem?_eq_none h'] at hx; cases hx
    obtain ⟨b, hb⟩ : ∃ b, ys[i]? = some b := ⟨ys[i]'(by rw [← h.1]; exact this), List.getElem?_eq_getElem _⟩
    rw [hb]
    simp [hR a b (h.2 i a b hx hb)]

theorem fresh_key {R : Key × Val → Key × Val → Prop} (hR : ∀ a b, R a b → a.1 = b.1) {m pre post : List (Key × Val)}
    {e : Key × Val} {acc : List (Key × Val)} (hn : (m.map (·.1)).Nodup) (hm : m = pre ++ e :: post) (hz : Zip R pre acc) :
    e.1 ∉ acc.map (·.1) := by
  rw [← zip_keys hR hz]
  rw [hm, List.map_append, List.nodup_append] at hn
  intro h
  exact hn.2.2 _ h _ (by simp) rfl

/-! ## memory that is all zero -/

theorem memZeros_mem : ∀ {xs : List Val} {x : Val}, memZeros xs = true → x ∈ xs → x.memZero = true
  | y :: ys, x, h, hx => by
    simp only [memZeros, Bool.and_eq_true] at h
    rcases List.mem_cons.1 hx with rfl | hx
    · exact h.1
    · exact memZeros_mem h.2 hx

theorem memZero_scalar {s : Scalar} {v : Val} (h : s.goType.holds v = true) (hz : v.memZero = true) : SameScalar v s.zero := by
  have hv := scalarVal_of_holds h
  refine isDefault_zero h ?_
  cases hv with
  | w32 s x hs => simpa [Val.memZero, isDefault] using hz
  | w64 s x hs => simpa [Val.memZero, isDefault] using hz
  | bool x => simpa [Val.memZero, isDefault] using hz
  | str x => simp [Val.memZero] at hz
  | bytes x => simp [Val.memZero] at hz

variable {S : Schema} {l : Bool} (hW : S.WF)

include hW in
/-- A message whose memory is all zero is the same as the zero value. -/
theorem memZero_same (v : Val) (id : Nat) (hv : Typed S id v) (hz : v.memZero = true) : Same S l id v (S id).zero := by
  obtain ⟨zs, z1, z2, z3, z4, z5⟩ := (hW id).zero
  rw [z1]
  match v, hv with
  | .struct xs, .mk _ _ h1 h2 h3 =>
    have hmem : ∀ {i : Nat} {x : Val}, xs[i]? = some x → x.memZero = true :=
      fun hx => memZeros_mem (by simpa [Val.memZero] using hz) (List.mem_of_getElem? hx)
    refine .mk _ _ _ h1 z2 (fun f hf x y hx hy => ?_) ?_
    · rw [z3 f hf] at hy
      cases hy
      have hxz := hmem hx
      have hxt := h2 f hf x hx
      have hsz : sizeOf x < sizeOf xs := List.sizeOf_lt_of_mem (List.mem_of_getElem? hx)
      cases hxt with
      | plain _ _ hm hs =>
        refine .set _ _ _ x (f.zero S) (by simp [Field.content, hm]) (by simp [Field.content, hm]) ?_
        have hfz : f.zero S = Shape.zero S f.shape := by simp only [Field.zero, hm, Shape.zero]
        rw [hfz]
        generalize f.shape = sh at hs
        cases hs with
        | single s _ h => exact .single _ _ _ (memZero_scalar h hxz)
        | optionalNil s => exact .absent _
        | optional s v h => simp [Val.memZero] at hxz
        | list s p ys h => simp [Val.memZero] at hxz
        | msg id' p _ h =>
          cases h with
          | nil => exact .noMsg _
          | ptr _ m h => simp [Val.memZero] at hxz
          | inline _ _ h => exact .msgInline _ _ _ (memZero_same x id' h hxz)
        | msgList => simp [Val.memZero] at hxz
        | mapNil k v => exact .map _ _ _ none _ (.refl _) rfl (fun i e e' h _ => by simp at h)
        | map => simp [Val.memZero] at hxz
        | mapMsgNil k id p => exact .mapMsg _ _ _ _ none _ (.refl _) rfl (fun i e e' h _ => by simp at h)
        | mapMsg => simp [Val.memZero] at hxz
      | unset => simp [Val.memZero] at hxz
      | nilMember => simp [Val.memZero] at hxz
      | member => simp [Val.memZero] at hxz
      | otherMember => simp [Val.memZero] at hxz
    · unfold unknownOf
      cases hu : (S id).unknown with
      | none => rfl
      | some sp =>
        obtain ⟨s, p⟩ := sp
        have hs := ((hW id).unknown s p hu).1
        simp only
        obtain ⟨x, hx⟩ : ∃ x, xs[s]? = some x := ⟨_, List.getElem?_eq_getElem (by rw [h1]; exact hs)⟩
        have hxz := hmem hx
        have hxt := h3 s p x hu hx
        cases p with
        | false =>
          obtain ⟨u, rfl⟩ := hxt
          simp [Val.memZero] at hxz
        | true =>
          rcases hxt with rfl | ⟨u, rfl⟩
          · rw [hx, z5 s hu]
          · simp [Val.memZero] at hxz
termination_by sizeOf v
decreasing_by
  simp_wf
  omega

end Verif.Lemmas
