import Verif.Spec.Round
import Verif.Spec.Nesting
import Verif.Lemmas.Steps
import Verif.Lemmas.Output
/-! Helper lemmas: how deep the messages in an encoded message are nested. -/
namespace Verif.Lemmas
open Verif.Model Verif.Spec

variable {S : Schema}

/-- `r` is one of the records of `b`. -/
def HasRec (b : Bytes) (r : Rec) : Prop := ∃ rs, Splits b rs ∧ r ∈ rs

theorem hasRec_left {a b : Bytes} {r : Rec} {rs : List Rec} (h : HasRec a r) (hb : Splits b rs) : HasRec (a ++ b) r := by
  obtain ⟨rs', h1, h2⟩ := h
  exact ⟨_, splits_append h1 hb, by simp [h2]⟩

theorem hasRec_right {a b : Bytes} {r : Rec} {rs : List Rec} (ha : Splits a rs) (h : HasRec b r) : HasRec (a ++ b) r := by
  obtain ⟨rs', h1, h2⟩ := h
  exact ⟨_, splits_append ha h1, by simp [h2]⟩

theorem concatM_splits {α : Type} {g : α → Option Bytes} : ∀ {xs : List α} {bs : Bytes}, concatM g xs = some bs →
    (∀ x ∈ xs, ∀ b, g x = some b → b.length ≤ bs.length → ∃ rs, Splits b rs) → ∃ rs, Splits bs rs
  | [], bs, h, _ => by cases h; exact ⟨[], splits_nil⟩
  | x :: xs, bs, h, hg => by
    simp only [concatM] at h
    obtain ⟨a, ha, h⟩ := bind_some_eq h
    obtain ⟨b, hb, h⟩ := bind_some_eq h
    cases h
    simp only [List.length_append] at hg
    obtain ⟨r1, h1⟩ := hg x (by simp) a ha (by omega)
    obtain ⟨r2, h2⟩ := concatM_splits hb (fun y hy b' hb' hl => hg y (by simp [hy]) b' hb' (by omega))
    exact ⟨_, splits_append h1 h2⟩

theorem concatM_hasRec {α : Type} {g : α → Option Bytes} {r : Rec} {x : α} {y : Bytes} (hy : g x = some y) (hr : HasRec y r) :
    ∀ {xs : List α} {bs : Bytes}, x ∈ xs → concatM g xs = some bs →
    (∀ x ∈ xs, ∀ b, g x = some b → b.length ≤ bs.length → ∃ rs, Splits b rs) → HasRec bs r
  | [], _, hx, _, _ => nomatch hx
  | x' :: xs, bs, hx, h, hg => by
    simp only [concatM] at h
    obtain ⟨a, ha, h⟩ := bind_some_eq h
    obtain ⟨b, hb, h⟩ := bind_some_eq h
    cases h
    simp only [List.length_append] at hg
    have hg' : ∀ x ∈ xs, ∀ b', g x = some b' → b'.length ≤ b.length → ∃ rs, Splits b' rs :=
      fun y hy b' hb' hl => hg y (by simp [hy]) b' hb' (by omega)
    rcases List.mem_cons.1 hx with rfl | hx
    · rw [hy] at ha
      cases ha
      obtain ⟨_, h2⟩ := concatM_splits hb hg'
      exact hasRec_left hr h2
    · obtain ⟨_, h1⟩ := hg x' (by simp) a ha (by omega)
      exact hasRec_right h1 (concatM_hasRec hy hr hx hb hg')

/-- The record with a length-delimited payload. -/
def lenRec (num : Nat) (p : Bytes) : Rec := ⟨num, .len, tag num .len, lenDelim p⟩

theorem lenRec_ok {num : Nat} (h1 : 1 ≤ num) (h2 : num < 2 ^ 31) {p : Bytes} (hp : p.length < 2 ^ 64) : (lenRec num p).OK :=
  ⟨isKey_tag _ h1 h2, 0, .len _ _ _ p (isLen_lenDelim hp)⟩

theorem lenRec_has {num : Nat} (h1 : 1 ≤ num) (h2 : num < 2 ^ 31) {p : Bytes} (hp : p.length < 2 ^ 64) :
    HasRec (tag num .len ++ lenDelim p) (lenRec num p) := by
  have := splits_cons (lenRec_ok h1 h2 hp) splits_nil
  rw [List.append_nil] at this
  exact ⟨_, this, by simp⟩

theorem payload_lt {num : Nat} {p : Bytes} (h : (tag num .len ++ lenDelim p).length < 2 ^ 64) : p.length < 2 ^ 64 := by
  rw [List.length_append] at h
  exact lenDelim_lt (by omega)

theorem len_splits {num : Nat} (h1 : 1 ≤ num) (h2 : num < 2 ^ 31) {p : Bytes} (h : (tag num .len ++ lenDelim p).length < 2 ^ 64) :
    ∃ rs, Splits (tag num .len ++ lenDelim p) rs := by
  obtain ⟨rs, h, _⟩ := lenRec_has h1 h2 (payload_lt h)
  exact ⟨rs, h⟩

/-- Every sub-message held by a field gives a record. -/
theorem sub_record {enc : Nat → Val → Option Bytes} {num : Nat} (h1 : 1 ≤ num) (h2 : num < 2 ^ 31) {sh : Shape} {d : Val}
    (hd : ShapeTyped S sh d) {bs : Bytes} (he : encodeShape S enc num false sh d = some bs) (hl : bs.length < 2 ^ 64)
    {id : Nat} {v : Val} (hs : ShapeSub S sh d id v) :
    ∃ p q r, enc id v = some p ∧ p.length < 2 ^ 64 ∧ HasRec bs (lenRec num r) ∧ r.length < 2 ^ 64 ∧
      (((sh = .msg id q ∨ sh = .msgList id q) ∧ r = p) ∨
       ∃ k kb, sh = .mapMsg k id q ∧ IsValue 0 1 k.wire kb ∧ r = tag 1 k.wire ++ kb ++ (tag 2 .len ++ lenDelim p)) := by
  cases hs with
  | ptr _ _ =>
    simp only [encodeShape] at he
    obtain ⟨p, hp, he⟩ := bind_some_eq he
    cases he
    have := payload_lt hl
    exact ⟨p, true, p, hp, this, lenRec_has h1 h2 this, this, .inl ⟨.inl rfl, rfl⟩⟩
  | inline _ _ hz =>
    simp only [encodeShape, hz, Bool.false_and, Bool.false_eq_true, if_false] at he
    obtain ⟨p, hp, he⟩ := bind_some_eq he
    cases he
    have := payload_lt hl
    exact ⟨p, false, p, hp, this, lenRec_has h1 h2 this, this, .inl ⟨.inl rfl, rfl⟩⟩
  | list _ q xs x hx =>
    simp only [encodeShape] at he
    have hg := (concatM_some _ _ _ he).2 x hx
    obtain ⟨p, hp, hg'⟩ := bind_some_eq hg
    rw [hp] at hg
    have hlen : (tag num .len ++ lenDelim p).length ≤ bs.length := by
      have := flatten_length_mem (List.mem_map_of_mem (f := fun x =>
        ((do return tag num .len ++ lenDelim (← enc id (deref S id q x)) : Option Bytes)).getD []) hx)
      rw [← (concatM_some _ _ _ he).1] at this
      simpa [hp] using this
    have hpl := payload_lt (by omega : (tag num .len ++ lenDelim p).length < 2 ^ 64)
    refine ⟨p, q, p, hp, hpl, concatM_hasRec (x := x) (y := tag num .len ++ lenDelim p) (by rw [hp]; rfl) (lenRec_has h1 h2 hpl) hx he ?_, hpl,
      .inl ⟨.inr rfl, rfl⟩⟩
    intro x' hx' b hb hbl
    obtain ⟨p', hp', hb⟩ := bind_some_eq hb
    cases hb
    exact len_splits h1 h2 (by omega)
  | map k _ q m e hx =>
    cases hd with
    | mapMsg _ _ _ _ hn hk hr =>
      simp only [encodeShape, Option.getD_some] at he
      have hg := (concatM_some _ _ _ he).2 e hx
      rw [encode_some (hk e hx)] at hg
      simp only [bind, Option.bind_some] at hg
      obtain ⟨p, hp, hg'⟩ := bind_some_eq hg
      clear hg hg'
      have hlen : (tag num .len ++ lenDelim (tag 1 k.wire ++ encBytes k e.1.toVal ++ (tag 2 .len ++ lenDelim p))).length ≤ bs.length := by
        have := flatten_length_mem (List.mem_map_of_mem (f := fun e : Key × Val =>
          ((do
            let a ← k.encode e.1.toVal
            let b ← enc id (deref S id q e.2)
            return tag num .len ++ lenDelim (tag 1 k.wire ++ a ++ (tag 2 .len ++ lenDelim b)) : Option Bytes)).getD []) hx)
        rw [← (concatM_some _ _ _ he).1] at this
        simpa [hp, encode_some (hk e hx)] using this
      have hel := payload_lt (Nat.lt_of_le_of_lt hlen hl)
      have hpl : p.length < 2 ^ 64 := lenDelim_lt (by simp only [List.length_append] at hel; omega)
      refine ⟨p, q, _, hp, hpl, concatM_hasRec (x := e) (by rw [encode_some (hk e hx), hp]; rfl) (lenRec_has h1 h2 hel) hx he ?_, hel,
        .inr ⟨k, encBytes k e.1.toVal, rfl, ?_, rfl⟩⟩
      · intro x' hx' b hb hbl
        obtain ⟨a', ha', hb⟩ := bind_some_eq hb
        obtain ⟨p', hp', hb⟩ := bind_some_eq hb
        cases hb
        exact len_splits h1 h2 (by omega)
      · exact scalar_isValue 1 (hk e hx) (by simp only [List.length_append] at hel; omega)

theorem flatten_splits {num : Nat} : ∀ {rs : List Bytes}, (∀ r ∈ rs, IsRecord num r) → ∃ xs, Splits rs.flatten xs
  | [], _ => ⟨[], splits_nil⟩
  | r :: rs, h => by
    obtain ⟨xs, hx⟩ := flatten_splits (rs := rs) (fun y hy => h y (by simp [hy]))
    obtain ⟨t, k, v, hk, hv, rfl⟩ := h r (by simp)
    exact ⟨_, splits_cons (r := ⟨num, t, k, v⟩) ⟨hk, 0, hv⟩ hx⟩

theorem shapeRec_isRecord {enc : Nat → Val → Option Bytes} {num : Nat} (h1 : 1 ≤ num) (h2 : num < 2 ^ 31) {sh : Shape} {d : Val} {r : Bytes}
    (h : ShapeRec S enc num sh d r) (hl : r.length < 2 ^ 64) : IsRecord num r := by
  cases sh with
  | msg id q => obtain ⟨_, _, _, _, rfl⟩ := h; exact len_isRecord h1 h2 hl
  | msgList id q => obtain ⟨_, _, _, _, rfl⟩ := h; exact len_isRecord h1 h2 hl
  | mapMsg k id q => obtain ⟨_, _, _, _, _, _, rfl⟩ := h; exact len_isRecord h1 h2 hl
  | _ => exact h

theorem encodeField_splits (hW : S.WF) {id : Nat} {slots : List Val} (hv : Typed S id (.struct slots)) {f : Field} (hf : f ∈ (S id).fields)
    {enc : Nat → Val → Option Bytes} {b : Bytes} (he : encodeField S false enc slots f = some b) (hl : b.length < 2 ^ 64) :
    ∃ rs, Splits b rs := by
  obtain ⟨x, hx, hft⟩ := typed_slot hW hv hf
  simp only [encodeField, hx, bind, Option.bind_some] at he
  have hn := (hW id).nums f hf
  cases hc : f.content x with
  | none => rw [hc] at he; cases he; exact ⟨[], splits_nil⟩
  | some d =>
    rw [hc] at he
    simp only [Bool.and_false] at he
    obtain ⟨recs, e, -, h3⟩ := encodeShape_recs enc hn.1 hn.2 (content_typed hft hc) he hl
    rw [e]
    refine flatten_splits (num := f.num) (fun r hr => shapeRec_isRecord hn.1 hn.2 (h3 r hr) ?_)
    have := flatten_length_mem hr
    rw [← e] at this
    omega

/-- The encoding of a nested message is nested as deep. -/
theorem encode_nests (hW : S.WF) : ∀ (n id : Nat) (v : Val) (bs : Bytes) (c : Nat), Typed S id v →
    (∀ id' v', Reach S id v id' v' → UnknownOK S id' v') → encode S false n id v = some bs → bs.length < 2 ^ 64 →
    NestedBy S c id v → ∃ k, NestsIn S k c id bs
  | 0, _, _, _, _, _, _, h, _, _ => by cases h
  | n + 1, id, v, bs, c, hv, hu, he, hl, hn => by
    cases hn with
    | zero => exact ⟨0, .zero _ _⟩
    | step c id slots f id' v' hf hs hn =>
      have hsm : SubMsg S id (.struct slots) id' v' := .mk _ _ f _ _ hf hs
      obtain ⟨x, d, hx, hc, hs⟩ := hs
      obtain ⟨a, ha, he⟩ := bind_some_eq he
      cases he
      rw [List.length_append] at hl
      obtain ⟨rs, u1, -⟩ := hu _ _ (.refl _ _) slots rfl
      have hfe := (concatM_some _ _ _ ha).2 f hf
      have hfl : ((encodeField S false (encode S false n) slots f).getD []).length ≤ a.length := by
        have := flatten_length_mem (List.mem_map_of_mem (f := fun f => (encodeField S false (encode S false n) slots f).getD []) hf)
        rwa [← (concatM_some _ _ _ ha).1] at this
      generalize (encodeField S false (encode S false n) slots f).getD [] = y at hfe hfl
      have hfe0 := hfe
      simp only [encodeField, hx, bind, Option.bind_some, hc, Bool.and_false] at hfe
      have hnum := (hW id).nums f hf
      have hft : FieldTyped S f x := by cases hv with | mk _ _ _ h _ => exact h f hf x hx
      obtain ⟨p, q, r, p1, p2, p3, p4, p5⟩ := sub_record hnum.1 hnum.2 (content_typed hft hc) hfe (by omega) hs
      have hrec : HasRec (a ++ unknownOf (S id) slots) (lenRec f.num r) := by
        refine hasRec_left (concatM_hasRec hfe0 p3 hf ha (fun g hg b hb hbl => ?_)) u1
        exact encodeField_splits hW hv hg hb (by omega)
      obtain ⟨rs, r1, r2⟩ := hrec
      obtain ⟨k, hk⟩ := encode_nests hW n id' v' p c (subMsg_typed hW hv hsm)
        (fun id'' v'' h => hu _ _ (.step _ _ _ _ _ _ hsm h)) p1 p2 hn
      rcases p5 with ⟨hsh, rfl⟩ | ⟨ks, kb, hsh, hkb, rfl⟩
      · have hh : f.shape.hop = 1 := by rcases hsh with h | h <;> rw [h] <;> rfl
        rw [hh]
        exact ⟨k + 1, .msg k c id _ rs _ f id' q r r1 r2 hf rfl hsh (isLen_lenDelim p4) hk⟩
      · have hh : f.shape.hop = 2 := by rw [hsh]; rfl
        rw [hh]
        exact ⟨k + 1, .map k c id _ rs _ f ks id' q kb (lenDelim p) [] p r1 r2 hf rfl hsh
          (by rw [List.append_nil]; exact isLen_lenDelim p4) hkb (isLen_lenDelim p2) hk⟩

/-- The two ways of counting levels. -/
theorem nestedBy_nested {c id : Nat} {v : Val} (h : NestedBy S c id v) : ∃ n, Nested S n id v ∧ n ≤ c ∧ c ≤ 2 * n := by
  induction h with
  | zero id v => exact ⟨0, .zero _ _, by omega, by omega⟩
  | step c id slots f id' v' hf hs _ ih =>
    obtain ⟨n, h1, h2, h3⟩ := ih
    have : f.shape.hop = 1 ∨ f.shape.hop = 2 := by cases f.shape <;> simp [Shape.hop]
    exact ⟨n + 1, .step _ _ _ _ _ (.mk _ _ f _ _ hf hs) h1, by omega, by omega⟩

theorem nested_le {n id : Nat} {v : Val} (h : Nested S n id v) : ∀ m, m ≤ n → Nested S m id v := by
  induction h with
  | zero id v => intro m hm; rw [show m = 0 by omega]; exact .zero _ _
  | step n id v id' v' hs _ ih =>
    intro m hm
    match m with
    | 0 => exact .zero _ _
    | m + 1 => exact .step _ _ _ _ _ hs (ih m (by omega))

end Verif.Lemmas
