import Verif.Spec.Lazy
import Verif.Lemmas.EncodeMore
/-! # Messages that are held as bytes: the encoding is the same -/
namespace Verif.Lemmas.Lazy
open Verif.Spec Verif.Model Verif.Lemmas.More

variable {S T : Schema}

theorem concatM_below {α β : Type} {g : α → Option Bytes} {g' : β → Option Bytes} {L : Nat} : ∀ {xs : List α} {ys : List β} {b : Bytes},
    xs.length = ys.length → (∀ p ∈ xs.zip ys, ∀ c, g p.1 = some c → c.length < L → g' p.2 = some c) →
    concatM g xs = some b → b.length < L → concatM g' ys = some b
  | [], [], _, _, _, hb, _ => hb
  | x :: xs, y :: ys, b, hl, h, hb, hL => by
    simp only [concatM, Option.bind_eq_bind, Option.bind_eq_some_iff] at hb
    obtain ⟨p, h1, q, h2, h3⟩ := hb
    cases h3
    rw [List.length_append] at hL
    have e1 := h (x, y) (by simp) p h1 (by omega)
    have e2 := concatM_below (xs := xs) (ys := ys) (by simpa using hl) (fun p hp => h p (by simp [hp])) h2 (by omega)
    simp only at e1
    simp only [concatM, e1, e2, Option.bind_eq_bind, Option.bind_some]
    rfl

theorem concatM_below_map {α β γ : Type} {g : α → Option Bytes} {g' : β → Option Bytes} {a : γ → α} {b : γ → β} {L : Nat} {zs : List γ} {r : Bytes}
    (h : ∀ z ∈ zs, ∀ c, g (a z) = some c → c.length < L → g' (b z) = some c) (hr : concatM g (zs.map a) = some r) (hL : r.length < L) :
    concatM g' (zs.map b) = some r := by
  refine concatM_below (by simp) (fun p hp => ?_) hr hL
  rw [List.zip_map', List.mem_map] at hp
  obtain ⟨z, hz, rfl⟩ := hp
  exact h z hz

/-- `p` are the bytes of the message, if they fit into memory. -/
def Enc (T : Schema) (n : Nat) (i : Nat) (m : Val) (p : Bytes) : Prop := ∃ bs, encode T false n i m = some bs ∧ (bs.length < 2 ^ 64 → p = bs)

theorem lenDelim_length (p : Bytes) : p.length ≤ (lenDelim p).length := by
  rw [lenDelim, List.length_append]; omega

theorem enc_eq {n i : Nat} {m : Val} {p q : Bytes} (h : Enc T (n + 1) i m p) (hq : encode T false n i m = some q) (hl : q.length < 2 ^ 64) : p = q := by
  obtain ⟨bs, h1, h2⟩ := h
  rw [encode_more false n i m q hq] at h1
  cases h1
  exact h2 hl

theorem raw_shape {n : Nat} {enc' : Nat → Val → Option Bytes} {num : Nat} {a b : Shape} {d e : Val} (h : RawShape (Enc T (n + 1)) T a b d e) {r : Bytes}
    (hr : encodeShape T (encode T false n) num false a d = some r) (hl : r.length < 2 ^ 64) : encodeShape S enc' num false b e = some r := by
  have step : ∀ (i : Nat) (m : Val) (p c : Bytes), Enc T (n + 1) i m p →
      (do return tag num .len ++ lenDelim (← encode T false n i m)) = some c → c.length < 2 ^ 64 → c = tag num .len ++ lenDelim p := by
    intro i m p c hE hc hL
    simp only [Option.bind_eq_bind, Option.bind_eq_some_iff] at hc
    obtain ⟨q, h1, h2⟩ := hc
    cases h2
    have := lenDelim_length q
    rw [List.length_append] at hL
    rw [enc_eq hE h1 (by omega)]
  cases h with
  | scalar _ _ hs => cases a <;> first | exact hr | cases hs
  | noMsg => exact hr
  | msg id m p hE hp =>
    have := step id m p r hE hr hl
    subst this
    cases p with
    | nil => exact absurd rfl hp
    | cons => rfl
  | list id q zs hz =>
    refine concatM_below_map (fun z hzz c hc hL => ?_) hr hl
    rw [step id _ _ c (hz z hzz) hc hL]
    rfl
  | noMap => exact hr
  | map k id q zs hz =>
    refine concatM_below_map (fun z hzz c hc hL => ?_) hr hl
    simp only [Option.bind_eq_bind, Option.bind_eq_some_iff] at hc
    obtain ⟨u, h1, w, h2, h3⟩ := hc
    cases h3
    have hw : z.2.2 = w := by
      refine enc_eq (hz z hzz) h2 ?_
      have h4 := lenDelim_length w
      have h5 := lenDelim_length (tag 1 k.wire ++ u ++ (tag 2 .len ++ lenDelim w))
      simp only [List.length_append] at hL h5
      omega
    simp only [h1, Option.bind_eq_bind, Option.bind_some, ← hw]
    rfl

theorem raw_encode {n N id : Nat} {xs ys : List Val} (h : RawMsg (Enc T (n + 1)) T S id xs ys) (hx : ∀ f ∈ (T id).fields, f.slot < xs.length)
    (hy : ∀ g ∈ (S id).fields, g.slot < ys.length) {r : Bytes} (hr : encode T false (n + 1) id (.struct xs) = some r) (hl : r.length < 2 ^ 64) :
    encode S false (N + 1) id (.struct ys) = some r := by
  rw [encode] at hr ⊢
  simp only [Option.bind_eq_bind, Option.bind_eq_some_iff] at hr
  obtain ⟨p, h1, h2⟩ := hr
  cases h2
  rw [List.length_append] at hl
  have : concatM (encodeField S false (encode S false N) ys) (S id).fields = some p := by
    refine concatM_below (L := 2 ^ 64) h.length (fun q hq c hc hL => ?_) h1 (by omega)
    obtain ⟨f, g⟩ := q
    have hm := List.of_mem_zip hq
    obtain ⟨hn, hf⟩ := h.fields f g hq
    have e1 := List.getElem?_eq_getElem (hx f hm.1)
    have e2 := List.getElem?_eq_getElem (hy g hm.2)
    simp only [encodeField, e1, e2, Option.bind_eq_bind, Option.bind_some, Bool.and_false] at hc ⊢
    rcases hf _ _ e1 e2 with ⟨q1, q2⟩ | ⟨d, e, q1, q2, q3⟩
    · simp only [q1, q2] at hc ⊢
      exact hc
    · simp only [q1, q2] at hc ⊢
      rw [hn]
      exact raw_shape q3 hc hL
  simp only [this, Option.bind_eq_bind, Option.bind_some, h.unknown]
  rfl

theorem rawShape_imp {R R' : Nat → Val → Bytes → Prop} (hR : ∀ i m p, R i m p → R' i m p) {a b : Shape} {x y : Val} (h : RawShape R T a b x y) :
    RawShape R' T a b x y := by
  cases h with
  | scalar _ _ hs => exact .scalar _ _ hs
  | noMsg => exact .noMsg _
  | msg _ _ _ h hp => exact .msg _ _ _ (hR _ _ _ h) hp
  | list _ _ _ h => exact .list _ _ _ (fun z hz => hR _ _ _ (h z hz))
  | noMap => exact .noMap _ _ _
  | map _ _ _ _ h => exact .map _ _ _ _ (fun z hz => hR _ _ _ (h z hz))

theorem rawMsg_imp {R R' : Nat → Val → Bytes → Prop} (hR : ∀ i m p, R i m p → R' i m p) {id : Nat} {xs ys : List Val} (h : RawMsg R T S id xs ys) :
    RawMsg R' T S id xs ys :=
  ⟨h.length, fun f g hfg => ⟨(h.fields f g hfg).1, fun x y hx hy => ((h.fields f g hfg).2 x y hx hy).imp_right
    fun ⟨d, e, h1, h2, h3⟩ => ⟨d, e, h1, h2, rawShape_imp hR h3⟩⟩, h.unknown⟩

end Verif.Lemmas.Lazy
