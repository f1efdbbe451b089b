import Verif.Lemmas.Round
/-! Helper lemmas: decoding the records of one field. -/
namespace Verif.Lemmas
open Verif.Model Verif.Spec

variable {S : Schema} {l : Bool} (hW : S.WF)

/-- What the induction over messages provides for the sub-messages of a field. -/
def SubRound (S : Schema) (l : Bool) (d : Int) (enc : Nat → Val → Option Bytes) (sh : Shape) (x : Val) : Prop :=
  ∀ id' v' b, ShapeSub S sh x id' v' → enc id' v' = some b → b.length < 2 ^ 64 →
    ∃ w, Decodes S (d - sh.hop) id' b (S id').zero w ∧ Same S l id' v' w

/-- A field of this shape, decoded from a single record, starting from the zero value. -/
def OneRun (S : Schema) (d : Int) (sh : Shape) (num : Nat) (a : Bytes) (y : Val) : Prop :=
  ∃ t k v, a = k ++ v ∧ IsKey k num t ∧ DecShape S d sh t v (Shape.zero S sh) y

theorem OneRun.tag {d : Int} {sh : Shape} {num : Nat} {t : WireType} {v : Bytes} {y : Val} (h1 : 1 ≤ num) (h2 : num < 2 ^ 31)
    (h : DecShape S d sh t v (Shape.zero S sh) y) : OneRun S d sh num (tag num t ++ v) y :=
  ⟨t, _, v, rfl, isKey_tag t h1 h2, h⟩

/-- The value of a oneof member that is shown is decoded from a single record. -/
theorem member_round {sh : Shape} {x : Val} {num : Nat} {a : Bytes} {d : Int} {enc : Nat → Val → Option Bytes}
    (h1 : 1 ≤ num) (h2 : num < 2 ^ 31) (hs : (∃ s, sh = .single s) ∨ (∃ id p, sh = .msg id p)) (ht : ShapeTyped S sh x)
    (ih : SubRound S l d enc sh x) (hc : recordCount S sh x ≠ 0)
    (he : encodeShape S enc num false sh x = some a) (hlen : a.length < 2 ^ 64) :
    ∃ y, OneRun S d sh num a y ∧ SameShape S l sh x y := by
  rcases hs with ⟨s, rfl⟩ | ⟨id, p, rfl⟩
  · cases ht with
    | single _ _ hv =>
      obtain ⟨b, hb, he⟩ := bind_some_eq he
      cases he
      simp only [Bool.not_false, Bool.and_true] at hlen ⊢
      cases hd : isDefault x with
      | true => simp [recordCount, hd] at hc
      | false =>
        simp only [hd, Bool.false_eq_true, if_false, List.length_append] at hlen ⊢
        obtain ⟨y, g1, g2, -⟩ := scalarDec_encode false hv hb (by omega)
        exact ⟨y, .tag h1 h2 (.single _ _ _ _ _ g1), .single _ _ _ g2⟩
  · cases ht with
    | msg _ _ _ hv =>
      cases hv with
      | nil => simp [recordCount] at hc
      | ptr _ m hm =>
        obtain ⟨b, hb, he⟩ := bind_some_eq he
        cases he
        simp only [List.length_append] at hlen
        have hb' := lenDelim_lt (p := b) (by omega)
        obtain ⟨w, g1, g2⟩ := ih id m b (.ptr _ _) hb hb'
        exact ⟨_, .tag h1 h2 (.msgPtr _ _ _ _ _ _ (isLen_lenDelim hb') g1), .msgPtr _ _ _ g2⟩
      | inline _ _ hm =>
        simp only [encodeShape, Bool.not_false, Bool.and_true] at he
        simp only [recordCount] at hc
        split at he
        · rename_i hz
          rw [if_pos hz] at hc
          exact absurd rfl hc
        · rename_i hz
          obtain ⟨b, hb, he⟩ := bind_some_eq he
          cases he
          simp only [List.length_append] at hlen
          have hb' := lenDelim_lt (p := b) (by omega)
          obtain ⟨w, g1, g2⟩ := ih id x b (.inline _ _ (Bool.not_eq_true _ |>.mp hz)) hb hb'
          exact ⟨_, .tag h1 h2 (.msgInline _ _ _ _ _ _ (isLen_lenDelim hb') g1), .msgInline _ _ _ g2⟩

include hW in
theorem shape_round {sh : Shape} {x : Val} {num : Nat} {a : Bytes} {d : Int} {enc : Nat → Val → Option Bytes}
    (h1 : 1 ≤ num) (h2 : num < 2 ^ 31) (hl : sh.legal = true) (ht : ShapeTyped S sh x) (ih : SubRound S l d enc sh x)
    (he : encodeShape S enc num false sh x = some a) (hlen : a.length < 2 ^ 64) :
    ∃ y, Runs S d sh num a (Shape.zero S sh) y ∧ SameShape S l sh x y := by
  cases ht with
  | single s v hv =>
    obtain ⟨b, hb, he⟩ := bind_some_eq he
    cases he
    simp only [Bool.not_false, Bool.and_true] at hlen ⊢
    cases hd : isDefault x with
    | true => exact ⟨s.zero, .nil _, .single _ _ _ (isDefault_zero hv hd)⟩
    | false =>
      simp only [hd, Bool.false_eq_true, if_false, List.length_append] at hlen ⊢
      obtain ⟨y, g1, g2, -⟩ := scalarDec_encode false hv hb (by omega)
      exact ⟨y, .one h1 h2 (.single _ _ _ _ _ g1), .single _ _ _ g2⟩
  | optionalNil s =>
    cases he
    exact ⟨_, .nil _, .absent _⟩
  | optional s v hv =>
    obtain ⟨b, hb, he⟩ := bind_some_eq he
    cases he
    simp only [List.length_append] at hlen
    obtain ⟨y, g1, g2, -⟩ := scalarDec_encode false hv hb (by omega)
    exact ⟨_, .one h1 h2 (.optional _ _ _ _ _ g1), .optional _ _ _ g2⟩
  | list s p xs hx =>
    cases p with
    | true =>
      cases xs with
      | nil => cases he; exact ⟨_, .nil _, .list _ _ _ _ rfl (fun i x y h _ => by simp at h)⟩
      | cons x0 xs =>
        obtain ⟨b, hb, he⟩ := bind_some_eq he
        cases he
        simp only [List.length_append] at hlen
        have hb' := lenDelim_lt (p := b) (by omega)
        obtain ⟨ys, g1, g2, g3⟩ := packedDec_concat (x0 :: xs) b hx hb hb'
        exact ⟨_, .one h1 h2 (.packed _ _ _ _ _ _ (isLen_lenDelim hb') g1), .list _ _ _ _ g2 g3⟩
    | false =>
      have := runs_concat (S := S) (d := d) (sh := .list s false) (num := num) (R := SameScalar) (g := fun v => do return tag num s.wire ++ (← s.encode v))
        (xs := xs) .slice (fun pre x post acc a hxs hz hg ha => by
          obtain ⟨b, hb, hg⟩ := bind_some_eq hg
          cases hg
          simp only [List.length_append] at ha
          obtain ⟨y, g1, g2, -⟩ := scalarDec_encode false (hx x (by rw [hxs]; simp)) hb (by omega)
          exact ⟨y, g2, .one h1 h2 (.elem _ _ _ _ _ _ g1)⟩) xs [] [] a rfl Zip.nil he hlen
      obtain ⟨ys, g1, g2⟩ := this
      exact ⟨_, g2, .list _ _ _ _ g1.1 g1.2⟩
  | msg id p v hv =>
    cases hv with
    | nil => cases he; exact ⟨_, .nil _, .noMsg _⟩
    | ptr _ m hm =>
      obtain ⟨b, hb, he⟩ := bind_some_eq he
      cases he
      simp only [List.length_append] at hlen
      have hb' := lenDelim_lt (p := b) (by omega)
      obtain ⟨w, g1, g2⟩ := ih id m b (.ptr _ _) hb hb'
      exact ⟨_, .one h1 h2 (.msgPtr _ _ _ _ _ _ (isLen_lenDelim hb') g1), .msgPtr _ _ _ g2⟩
    | inline _ _ hm =>
      simp only [encodeShape, Bool.not_false, Bool.and_true] at he
      split at he
      · rename_i hz
        cases he
        simp only [Bool.and_eq_true] at hz
        exact ⟨_, .nil _, .msgInline _ _ _ (memZero_same hW x id hm hz.2)⟩
      · rename_i hz
        obtain ⟨b, hb, he⟩ := bind_some_eq he
        cases he
        simp only [List.length_append] at hlen
        have hb' := lenDelim_lt (p := b) (by omega)
        obtain ⟨w, g1, g2⟩ := ih id x b (.inline _ _ (Bool.not_eq_true _ |>.mp hz)) hb hb'
        exact ⟨_, .one h1 h2 (.msgInline _ _ _ _ _ _ (isLen_lenDelim hb') g1), .msgInline _ _ _ g2⟩
  | msgList id p xs hx =>
    have := runs_concat (S := S) (d := d) (sh := .msgList id p) (num := num) (R := fun x y => Same S l id (deref S id p x) (deref S id p y))
      (g := fun v => do return tag num .len ++ lenDelim (← enc id (deref S id p v))) (xs := xs) .slice (fun pre x post acc a hxs hz hg ha => by
          obtain ⟨b, hb, hg⟩ := bind_some_eq hg
          cases hg
          simp only [List.length_append] at ha
          have hb' := lenDelim_lt (p := b) (by omega)
          obtain ⟨w, g1, g2⟩ := ih id _ b (.list id p xs x (by rw [hxs]; simp)) hb hb'
          cases p with
          | true => exact ⟨.ptr (some w), g2, .one h1 h2 (.msgElemPtr _ _ _ _ _ _ (isLen_lenDelim hb') g1)⟩
          | false => exact ⟨w, g2, .one h1 h2 (.msgElemInline _ _ _ _ _ _ (isLen_lenDelim hb') g1)⟩) xs [] [] a rfl Zip.nil he hlen
    obtain ⟨ys, g1, g2⟩ := this
    exact ⟨_, g2, .msgList _ _ _ _ g1.1 g1.2⟩
  | mapNil k v =>
    cases he
    exact ⟨_, .nil _, .map _ _ _ none _ (.refl _) rfl (fun i e e' h _ => by simp at h)⟩
  | map k v m hn hm =>
    have hkb : k ≠ .bytes := by rintro rfl; cases hl
    have hR : ∀ (a b : Key × Val), (a.1 = b.1 ∧ SameScalar a.2 b.2) → a.1 = b.1 := fun _ _ h => h.1
    have := runs_concat (S := S) (d := d) (sh := .map k v) (num := num) (R := fun (a b : Key × Val) => a.1 = b.1 ∧ SameScalar a.2 b.2)
      (g := fun (e : Key × Val) => do
        let a ← k.encode e.1.toVal
        let b ← v.encode e.2
        return tag num .len ++ lenDelim (tag 1 k.wire ++ a ++ (tag 2 v.wire ++ b))) (xs := m) conMap (fun pre e post acc a hxs hz hg ha => by
          obtain ⟨kb, hkb', hg⟩ := bind_some_eq hg
          obtain ⟨vb, hvb', hg⟩ := bind_some_eq hg
          cases hg
          simp only [List.length_append] at ha
          have hp := lenDelim_lt (p := tag 1 k.wire ++ kb ++ (tag 2 v.wire ++ vb)) (by omega)
          have hp' := hp
          simp only [List.length_append] at hp'
          have hem : e ∈ m := by rw [hxs]; simp
          obtain ⟨y, g1, -, g3, -⟩ := scalarDec_encode (fastPair k v) (hm e hem).1 hkb' (by omega)
          rw [g3 hkb] at g1
          obtain ⟨z, q1, q2, -⟩ := scalarDec_encode (fastPair k v) (hm e hem).2 hvb' (by omega)
          refine ⟨(e.1, z), ⟨rfl, q2⟩, .one h1 h2 ?_⟩
          have := DecShape.entry (S := S) d k v _ kb vb [] (if acc.isEmpty then none else some acc) e.1 z
            (by rw [List.append_nil]; exact isLen_lenDelim hp) g1 q1
          rw [conMap_getD, putEntry_fresh (fresh_key hR hn hxs hz)] at this
          rw [conMap_snoc]
          exact this) m [] [] a rfl Zip.nil he hlen
    obtain ⟨ys, g1, g2⟩ := this
    refine ⟨_, g2, .map _ _ _ (some m) _ (.refl _) ?_ ?_⟩
    · rw [conMap_getD]; exact zip_keys hR g1
    · rw [conMap_getD]; exact fun i e e' he he' => (g1.2 i e e' he he').2
  | mapMsgNil k id p =>
    cases he
    exact ⟨_, .nil _, .mapMsg _ _ _ _ none _ (.refl _) rfl (fun i e e' h _ => by simp at h)⟩
  | mapMsg k id p m hn hk hm =>
    have hkb : k ≠ .bytes := by rintro rfl; cases hl
    have hR : ∀ (a b : Key × Val), (a.1 = b.1 ∧ Same S l id (deref S id p a.2) (deref S id p b.2)) → a.1 = b.1 := fun _ _ h => h.1
    have := runs_concat (S := S) (d := d) (sh := .mapMsg k id p) (num := num)
      (R := fun (a b : Key × Val) => a.1 = b.1 ∧ Same S l id (deref S id p a.2) (deref S id p b.2))
      (g := fun (e : Key × Val) => do
        let a ← k.encode e.1.toVal
        let b ← enc id (deref S id p e.2)
        return tag num .len ++ lenDelim (tag 1 k.wire ++ a ++ (tag 2 .len ++ lenDelim b))) (xs := m) conMap (fun pre e post acc a hxs hz hg ha => by
          obtain ⟨kb, hkb', hg⟩ := bind_some_eq hg
          obtain ⟨b, hb, hg⟩ := bind_some_eq hg
          cases hg
          simp only [List.length_append] at ha
          have hp := lenDelim_lt (p := tag 1 k.wire ++ kb ++ (tag 2 .len ++ lenDelim b)) (by omega)
          have hp' := hp
          simp only [List.length_append] at hp'
          have hb' := lenDelim_lt (p := b) (by omega)
          have hem : e ∈ m := by rw [hxs]; simp
          obtain ⟨y, g1, -, g3, -⟩ := scalarDec_encode false (hk e hem) hkb' (by omega)
          rw [g3 hkb] at g1
          obtain ⟨w, q1, q2⟩ := ih id _ b (.map k id p m e hem) hb hb'
          cases p with
          | true =>
            refine ⟨(e.1, .ptr (some w)), ⟨rfl, q2⟩, .one h1 h2 ?_⟩
            have := DecShape.entryPtr (S := S) d k id _ kb _ [] b (if acc.isEmpty then none else some acc) e.1 w
              (by rw [List.append_nil]; exact isLen_lenDelim hp) g1 (isLen_lenDelim hb') q1
            rw [conMap_getD, putEntry_fresh (fresh_key hR hn hxs hz)] at this
            rw [conMap_snoc]
            exact this
          | false =>
            refine ⟨(e.1, w), ⟨rfl, q2⟩, .one h1 h2 ?_⟩
            have := DecShape.entryInline (S := S) d k id _ kb _ [] b (if acc.isEmpty then none else some acc) e.1 w
              (by rw [List.append_nil]; exact isLen_lenDelim hp) g1 (isLen_lenDelim hb') q1
            rw [conMap_getD, putEntry_fresh (fresh_key hR hn hxs hz)] at this
            rw [conMap_snoc]
            exact this) m [] [] a rfl Zip.nil he hlen
    obtain ⟨ys, g1, g2⟩ := this
    refine ⟨_, g2, .mapMsg _ _ _ _ (some m) _ (.refl _) ?_ ?_⟩
    · rw [conMap_getD]; exact zip_keys hR g1
    · rw [conMap_getD]; exact fun i e e' he he' => (g1.2 i e e' he he').2

end Verif.Lemmas
