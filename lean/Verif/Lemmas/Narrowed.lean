import Verif.Spec.Narrowed
import Verif.Lemmas.Retyped
/-! # Decoding with narrower types of fields -/
namespace Verif.Lemmas.Narrow
open Verif.Spec Verif.Model Verif.Lemmas.Retype

variable {T S : Schema}

theorem ofInt_cut (i : Int) : BitVec.ofInt 32 i = (BitVec.ofInt 64 i).setWidth 32 := by
  apply BitVec.eq_of_toNat_eq
  simp only [BitVec.toNat_ofInt, BitVec.toNat_setWidth]
  omega

theorem ofNat_cut (n : Nat) : BitVec.ofNat 32 n = (BitVec.ofNat 64 n).setWidth 32 := by
  apply BitVec.eq_of_toNat_eq
  simp only [BitVec.toNat_ofNat, BitVec.toNat_setWidth]
  omega

theorem narrow_wire {t s : Scalar} (h : Compat t s = true) : s.wire = t.wire := by
  cases t <;> cases s <;> first | rfl | cases h

theorem sameScalar_refl (x : Val) : SameScalar x x := by cases x <;> rfl

theorem scalarDec_cut {o : Bool} {t s : Scalar} (h : Compat t s = true) {v : Bytes} {x : Val} (hx : ScalarDec o t v x) :
    ∃ y, ScalarDec o s v y ∧ Cut t s x y := by
  cases t <;> cases s <;> (first | (cases h; done) | skip) <;>
    first
    | exact ⟨x, hx, sameScalar_refl x⟩
    | (obtain ⟨n, h1, rfl⟩ := hx
       first
       | exact ⟨_, ⟨n, h1, rfl⟩, by first | (simp only [ofNat_cut, ofInt_cut]; rfl) | rfl⟩)

theorem scalarDec_any {o o' : Bool} {s : Scalar} (hs : s ≠ .bool) {v : Bytes} {x : Val} (h : ScalarDec o s v x) : ScalarDec o' s v x := by
  cases s <;> first | exact h | exact absurd rfl hs

theorem cut_refl (t : Scalar) (x : Val) : Cut t t x x := by
  cases t <;> exact sameScalar_refl x

theorem entry_cut {ks t s : Scalar} (hw : Compat t s = true) (hb : ks = .bool → s = t) {kb vb : Bytes} {x y : Val}
    (hk : ScalarDec (fastPair ks t) ks kb x) (hv : ScalarDec (fastPair ks t) t vb y) :
    ∃ y', ScalarDec (fastPair ks s) ks kb x ∧ ScalarDec (fastPair ks s) s vb y' ∧ Cut t s y y' := by
  by_cases e : s = t
  · subst e
    exact ⟨y, hk, hv, cut_refl _ _⟩
  · obtain ⟨y', a1, a2⟩ := scalarDec_cut hw hv
    refine ⟨y', scalarDec_any (fun h => e (hb h)) hk, scalarDec_any (fun h => ?_) a1, a2⟩
    subst h
    cases t <;> first | exact e rfl | cases hw

theorem packed_cut {t s : Scalar} (h : Compat t s = true) : ∀ {p : Bytes} {xs : List Val}, PackedDec t p xs →
    ∃ zs : List (Val × Val), xs = zs.map (·.1) ∧ PackedDec s p (zs.map (·.2)) ∧ ∀ z ∈ zs, Cut t s z.1 z.2
  | _, _, .nil => ⟨[], rfl, .nil, by simp⟩
  | _, _, .cons v rest y ys h1 h2 => by
    obtain ⟨y', a1, a2⟩ := scalarDec_cut h h1
    obtain ⟨zs, b1, b2, b3⟩ := packed_cut h h2
    refine ⟨(y, y') :: zs, by simp [b1], .cons _ _ _ _ a1 b2, fun z hz => ?_⟩
    rcases List.mem_cons.1 hz with rfl | hz
    · exact a2
    · exact b3 z hz

theorem cut_agree (hT : T.WF) (hS : S.WF) {id : Nat} {xs xs' ys ys' : List Val} (h : CutMsg T S id (.struct xs) (.struct ys))
    (hx : AgreeKnown (T id) xs xs') (hy : AgreeKnown (S id) ys ys')
    (hu : (T id).unknown.isSome = true → (S id).unknown.isSome = true → unknownOf (T id) xs' = unknownOf (S id) ys') :
    CutMsg T S id (.struct xs') (.struct ys') := by
  cases h with
  | mk _ _ _ h1 h2 h3 =>
    refine .mk _ _ _ (hx.1 ▸ h1) (hy.1 ▸ h2) (fun f g hp x y ex ey => ?_) hu
    obtain ⟨hf, hg⟩ := List.of_mem_zip hp
    refine h3 f g hp x y ?_ ?_
    · rw [hx.2 _ (slot_known hT hf)]; exact ex
    · exact (hy.2 _ (slot_known hS hg)).trans ey

theorem zero_unknown {m : Message} {zs : List Val} (h1 : ∀ s, m.unknown = some (s, false) → zs[s]? = some (.bytes none))
    (h2 : ∀ s, m.unknown = some (s, true) → zs[s]? = some (.ptr none)) : unknownOf m zs = [] := by
  unfold unknownOf
  cases h : m.unknown with
  | none => rfl
  | some sp =>
    obtain ⟨s, p⟩ := sp
    cases p
    · simp [h1 s h]
    · simp [h2 s h]

theorem cut_zero_le (hT : T.WF) (hS : S.WF) (hN : Narrowed T S) : ∀ (n : Nat) (id : Nat), sizeOf (T id).zero ≤ n →
    CutMsg T S id (T id).zero (S id).zero
  | 0, id, h => by
    obtain ⟨zs, e, _⟩ := (hT id).zero
    rw [e] at h
    simp at h
  | n + 1, id, h => by
    obtain ⟨zs, e, e1, e2, u1, u2⟩ := (hT id).zero
    obtain ⟨zs', e', e1', e2', u1', u2'⟩ := (hS id).zero
    rw [e, e']
    refine .mk _ _ _ e1 e1' (fun f g hp x y ex ey => ?_) (fun _ _ => by rw [zero_unknown u1 u2, zero_unknown u1' u2'])
    obtain ⟨hf, hg⟩ := List.of_mem_zip hp
    obtain ⟨q1, q3, q4⟩ := hN.fields id _ hp
    simp only at q3 q4
    have hx := e2 f hf
    have hy := e2' g hg
    rw [ex] at hx
    rw [ey] at hy
    injection hx with hx
    injection hy with hy
    have hlt : sizeOf x ≤ n := by
      have : x ∈ zs := List.mem_of_getElem? ex
      have := List.sizeOf_lt_of_mem this
      rw [e] at h
      simp at h
      omega
    rcases hm : f.member with _ | w
    · by_cases q3 : g.member = none
      case neg =>
        obtain ⟨w, hw⟩ := Option.ne_none_iff_exists'.1 q3
        simp only [Field.zero, hm] at hx
        simp only [Field.zero, hw] at hy
        subst hx hy
        exact .moveUnset f g hm q3
      refine .plain _ _ _ _ hm q3 ?_
      simp only [Field.zero, hm] at hx
      simp only [Field.zero, q3] at hy
      generalize f.shape = a at q4 hx ⊢
      generalize g.shape = b at q4 hy ⊢
      cases q4 with
      | single t s hw => subst hx hy; exact .single _ _ _ _ (by cases t <;> cases s <;> first | rfl | cases hw)
      | optional => subst hx hy; exact .absent _ _
      | list => subst hx hy; exact .list _ _ _ _ [] (by simp)
      | lastSingle => subst hx hy; exact .noSingle _ _
      | lastOptional => subst hx hy; exact .noOptional _ _
      | lastMsg => subst hx hy; exact .noMsg _
      | raw => subst hx hy; exact .rawNone _
      | rawList => subst hx hy; exact .rawList _ [] (by simp)
      | noPresence => subst hx hy; exact .dropNone _ _
      | presence => subst hx hy; exact .addNone _ _
      | singleList => subst hx hy; exact .singleNone _ _ _
      | optionalList => subst hx hy; exact .optionalNone _ _ _
      | oneToList => subst hx hy; exact .msgNone _
      | map => subst hx hy; exact .noEntries _ _ _
      | mapMsg => subst hx hy; exact .nilMap _ _ _
      | msgList => subst hx hy; exact .msgList _ _ [] (by simp)
      | msg id' p =>
        refine .msg _ _ _ _ ?_
        cases p
        · simp only at hx hy
          subst hx hy
          exact .inline _ _ _ (cut_zero_le hT hS hN n id' hlt)
        · simp only at hx hy
          subst hx hy
          exact .nil _
    · have q3 : g.member = some w := by
        rcases q3 with q3 | ⟨q3, _⟩
        · rw [q3, hm]
        · rw [hm] at q3; cases q3
      simp only [Field.zero, hm] at hx
      simp only [Field.zero, q3] at hy
      subst hx hy
      exact .unset _ _ (by simp [hm])

theorem cut_zero (hT : T.WF) (hS : S.WF) (hN : Narrowed T S) (id : Nat) : CutMsg T S id (T id).zero (S id).zero :=
  cut_zero_le hT hS hN _ id (Nat.le_refl _)

theorem cutShape_zero (hT : T.WF) (hS : S.WF) (hN : Narrowed T S) {a b : Shape} (h : ShapeNarrows T a b) : CutShape T S a b (a.zero T) (b.zero S) := by
  cases h with
  | single t s hw => exact .single _ _ _ _ (by cases t <;> cases s <;> first | rfl | cases hw)
  | optional => exact .absent _ _
  | list => exact .list _ _ _ _ [] (by simp)
  | lastSingle => exact .noSingle _ _
  | lastOptional => exact .noOptional _ _
  | lastMsg => exact .noMsg _
  | raw => exact .rawNone _
  | rawList => exact .rawList _ [] (by simp)
  | noPresence => exact .dropNone _ _
  | presence => exact .addNone _ _
  | singleList => exact .singleNone _ _ _
  | optionalList => exact .optionalNone _ _ _
  | oneToList => exact .msgNone _
  | map => exact .noEntries _ _ _
  | mapMsg => exact .nilMap _ _ _
  | msgList => exact .msgList _ _ [] (by simp)
  | msg id' p =>
    cases p
    · exact .msg _ _ _ _ (.inline _ _ _ (cut_zero hT hS hN id'))
    · exact .msg _ _ _ _ (.nil _)

theorem cut_snoc {id : Nat} {p : Bool} {xs : List Val} {x' x y : Val} (h : CutShape T S (.msgList id p) (.msgList id p) (.slice xs) x')
    (hx : CutRef T S id p x y) :
    ∃ ys, x' = .slice ys ∧ CutShape T S (.msgList id p) (.msgList id p) (.slice (xs ++ [x])) (.slice (ys ++ [y])) := by
  cases h with
  | msgList _ _ zs h =>
    refine ⟨_, rfl, ?_⟩
    have := CutShape.msgList id p (zs ++ [(x, y)]) (T := T) (S := S) (fun z hz => by
      rcases List.mem_append.1 hz with hz | hz
      · exact h z hz
      · simp only [List.mem_singleton] at hz; subst hz; exact hx)
    simpa using this

theorem cut_entry {ks : Scalar} {id : Nat} {p : Bool} {m : Option (List (Key × Val))} {x' y y' : Val} {k : Key}
    (h : CutShape T S (.mapMsg ks id p) (.mapMsg ks id p) (.map m) x') (hy : CutRef T S id p y y') :
    ∃ m', x' = .map m' ∧ CutShape T S (.mapMsg ks id p) (.mapMsg ks id p) (.map (some (putEntry (m.getD []) k y)))
      (.map (some (putEntry (m'.getD []) k y'))) := by
  cases h with
  | nilMap =>
    exact ⟨none, rfl, .mapMsg _ _ _ [(k, y, y')] (by intro z hz; simp only [List.mem_singleton] at hz; subst hz; exact hy)⟩
  | mapMsg _ _ _ zs h =>
    obtain ⟨zs', h1, h2, h3⟩ := car_put k y y' zs
    refine ⟨some _, rfl, ?_⟩
    simp only [Option.getD_some, h1, h2]
    refine .mapMsg _ _ _ zs' (fun z hz => ?_)
    rcases h3 z hz with hz | rfl
    · exact h z hz
    · exact hy

theorem cut_scalars {ks t s : Scalar} {m : Option (List (Key × Val))} {x' y y' : Val} {k : Key}
    (h : CutShape T S (.map ks t) (.map ks s) (.map m) x') (hy : Cut t s y y') :
    ∃ m', x' = .map m' ∧ CutShape T S (.map ks t) (.map ks s) (.map (some (putEntry (m.getD []) k y)))
      (.map (some (putEntry (m'.getD []) k y'))) := by
  cases h with
  | noEntries =>
    exact ⟨none, rfl, .map _ _ _ [(k, y, y')] (by intro z hz; simp only [List.mem_singleton] at hz; subst hz; exact hy)⟩
  | map _ _ _ zs h =>
    obtain ⟨zs', h1, h2, h3⟩ := car_put k y y' zs
    refine ⟨some _, rfl, ?_⟩
    simp only [Option.getD_some, h1, h2]
    refine .map _ _ _ zs' (fun z hz => ?_)
    rcases h3 z hz with hz | rfl
    · exact h z hz
    · exact hy

theorem cutField_iface {f g : Field} {x y : Val} {w : Nat} (hm : f.member = some w) (h : CutField T S f g x y) : ∃ y', y = .iface y' := by
  cases h with
  | plain _ _ _ _ h => simp [h] at hm
  | moveUnset => exact ⟨_, rfl⟩
  | moveSet => exact ⟨_, rfl⟩
  | unset => exact ⟨_, rfl⟩
  | nilCase => exact ⟨_, rfl⟩
  | set => exact ⟨_, rfl⟩
  | other => exact ⟨_, rfl⟩

theorem cutField_plain {f g : Field} {x y : Val} (hm : f.member = none) (hg : g.member = none) (h : CutField T S f g x y) : CutShape T S f.shape g.shape x y := by
  cases h
  case plain => assumption
  all_goals simp_all

theorem cutField_moved (hT : T.WF) (hS : S.WF) (hN : Narrowed T S) {f g : Field} {x y : Val} (hm : f.member = none) (hg : g.member ≠ none)
    (hn : ShapeNarrows T f.shape g.shape) (h : CutField T S f g x y) : ∃ z c, y = .iface z ∧ CutShape T S f.shape g.shape x c := by
  cases h with
  | plain _ _ _ _ _ h => exact absurd h hg
  | moveUnset => exact ⟨_, _, rfl, cutShape_zero hT hS hN hn⟩
  | moveSet _ _ _ _ c _ _ h => exact ⟨_, c, rfl, h⟩
  | unset _ _ h => exact absurd hm h
  | nilCase _ _ _ h => exact absurd hm h
  | set _ _ _ _ _ h => rw [hm] at h; cases h
  | other _ _ _ _ _ _ h => rw [hm] at h; cases h

theorem dec_start {d : Int} {a : Shape} {t : WireType} {v : Bytes} {c y : Val} (ha : (∃ s, a = .single s) ∨ ∃ i, a = .msg i true)
    (h : DecShape S d a t v c y) (c' : Val) : DecShape S d a t v c' y := by
  rcases ha with ⟨s, rfl⟩ | ⟨i, rfl⟩
  · cases h with | single _ _ _ _ _ h => exact .single _ _ _ _ _ h
  · cases h with | msgPtr _ _ _ p _ m h h' => exact .msgPtr _ _ _ p _ m h h'

theorem zip_left {as : List Field} : ∀ {bs : List Field}, as.length = bs.length → ∀ f ∈ as, ∃ g, (f, g) ∈ as.zip bs := by
  induction as with
  | nil => intro bs _ g hg; cases hg
  | cons a as ih =>
    intro bs hl g hg
    cases bs with
    | nil => cases hl
    | cons b bs =>
      rcases List.mem_cons.1 hg with rfl | hg
      · exact ⟨b, by simp⟩
      · obtain ⟨f, hf⟩ := ih (bs := bs) (by simpa using hl) g hg
        exact ⟨f, by simp [hf]⟩

theorem dec_ne {d : Int} {id : Nat} {b : Bytes} {v w : Val} (h : Decodes T d id b v w) : d ≠ 0 := by
  cases h; assumption

section
variable (hM : NoMapMsg T)
include hM
mutual
theorem decodes_mono {d : Int} {id : Nat} {b : Bytes} {v w : Val} : Decodes T d id b v w → 0 < d → ∀ d', d ≤ d' → Decodes T d' id b v w
  | .mk _ _ _ xs ys h0 h => fun hp d' hd => .mk _ _ _ _ _ (by omega) (decRecs_mono h hp d' hd)
theorem decRecs_mono {d : Int} {id : Nat} {b : Bytes} {xs zs : List Val} : DecRecs T d id b xs zs → 0 < d → ∀ d', d ≤ d' → DecRecs T d' id b xs zs
  | .nil _ _ _ => fun _ _ _ => .nil _ _ _
  | .unknown _ _ num t k v rest _ _ h1 h2 h3 h4 => fun hp d' hd => .unknown _ _ num t k v rest _ _ h1 h2 h3 (decRecs_mono h4 hp d' hd)
  | .field _ _ f t k v rest _ x y _ hf h1 h2 h3 h4 => fun hp d' hd =>
    .field _ _ f t k v rest _ x y _ hf h1 h2 (decField_mono h3 hp (hM _ f hf) d' hd) (decRecs_mono h4 hp d' hd)
theorem decField_mono {d : Int} {f : Field} {t : WireType} {v : Bytes} {x y : Val} : DecField T d f t v x y → 0 < d →
    (∀ k i p, f.shape ≠ .mapMsg k i p) → ∀ d', d ≤ d' → DecField T d' f t v x y
  | .plain _ _ _ _ _ _ hm h => fun hp hs d' hd => .plain _ _ _ _ _ _ hm (decShape_mono h hp hs d' hd)
  | .member _ _ _ _ w x0 y hm h => fun hp hs d' hd => .member _ _ _ _ w x0 y hm (decShape_mono h hp hs d' hd)
theorem decShape_mono {d : Int} {a : Shape} {t : WireType} {v : Bytes} {x y : Val} : DecShape T d a t v x y → 0 < d →
    (∀ k i p, a ≠ .mapMsg k i p) → ∀ d', d ≤ d' → DecShape T d' a t v x y
  | .single _ s _ _ _ h => fun _ _ _ _ => .single _ s _ _ _ h
  | .optional _ s _ _ _ h => fun _ _ _ _ => .optional _ s _ _ _ h
  | .elem _ s p _ xs y h => fun _ _ _ _ => .elem _ s p _ xs y h
  | .packed _ s _ p _ ys h h' => fun _ _ _ _ => .packed _ s _ p _ ys h h'
  | .msgPtr _ id _ p _ m h h' => fun hp _ d' hd => .msgPtr _ id _ p _ m h (decodes_mono h' (by have := dec_ne h'; omega) _ (by omega))
  | .msgInline _ id _ p _ m h h' => fun hp _ d' hd => .msgInline _ id _ p _ m h (decodes_mono h' (by have := dec_ne h'; omega) _ (by omega))
  | .msgElemPtr _ id _ p _ m h h' => fun hp _ d' hd => .msgElemPtr _ id _ p _ m h (decodes_mono h' (by have := dec_ne h'; omega) _ (by omega))
  | .msgElemInline _ id _ p _ m h h' => fun hp _ d' hd => .msgElemInline _ id _ p _ m h (decodes_mono h' (by have := dec_ne h'; omega) _ (by omega))
  | .entry _ ks vs _ kb vb rest m k y h1 h2 h3 => fun _ _ _ _ => .entry _ ks vs _ kb vb rest m k y h1 h2 h3
  | .entryPtr _ ks id _ kb vb rest p m k y h1 h2 h3 h' => fun _ hs _ _ => absurd rfl (hs _ _ _)
  | .entryInline _ ks id _ kb vb rest p m k y h1 h2 h3 h' => fun _ hs _ _ => absurd rfl (hs _ _ _)
end
end

section
variable (hT : T.WF) (hS : S.WF) (hN : Narrowed T S)
include hT hS hN

theorem cut_set {id : Nat} {f g : Field} (hp : (f, g) ∈ (T id).fields.zip (S id).fields) {xs ys : List Val} {x y : Val}
    (hs : ∀ w, f.member = some w → ∃ a b, x = .iface (some (w, some a)) ∧ y = .iface (some (w, some b)))
    (h : CutMsg T S id (.struct xs) (.struct ys)) (hx : CutField T S f g x y) :
    CutMsg T S id (.struct (xs.set f.slot x)) (.struct (ys.set g.slot y)) := by
  cases h with
  | mk _ _ _ h1 h2 h3 hu =>
    obtain ⟨hf, hg⟩ := List.of_mem_zip hp
    obtain ⟨q1, q3, q4⟩ := hN.fields id _ hp
    simp only at q1
    refine .mk _ _ _ (by simpa using h1) (by simpa using h2) (fun f' g' hp' a b ha hb => ?_)
      (fun i1 i2 => by rw [unknownOf_set (unknown_ne_slot hT hf), unknownOf_set (unknown_ne_slot hS hg)]; exact hu i1 i2)
    obtain ⟨hf', hg'⟩ := List.of_mem_zip hp'
    obtain ⟨p1, p3, p4⟩ := hN.fields id _ hp'
    have hs' := hN.oneofs id _ hp _ hp'
    simp only at p1 hs'
    by_cases e : f.slot = f'.slot
    · have hl : f.slot < xs.length := h1 ▸ (hT id).slots f hf
      have hl' : g.slot < ys.length := h2 ▸ (hS id).slots g hg
      rw [← e, List.getElem?_set_self hl] at ha
      rw [← hs'.1 e, List.getElem?_set_self hl'] at hb
      cases ha; cases hb
      by_cases en : f.num = f'.num
      · rw [← fields_num_inj (hT id) hf hf' en, ← fields_num_inj (hS id) hg hg' (by rw [q1, p1, en])]; exact hx
      · obtain ⟨w, w', e1, e2, e3⟩ := (hT id).disjoint f hf f' hf' en e
        obtain ⟨c, c', rfl, rfl⟩ := hs w e1
        exact .other _ _ w' w _ _ e2 e3
    · rw [List.getElem?_set_ne e] at ha
      rw [List.getElem?_set_ne (fun h => e (hs'.2 h))] at hb
      exact h3 f' g' hp' a b ha hb

mutual
theorem decodes_cut {d : Int} {id : Nat} {b : Bytes} {v w : Val} :
    Decodes T d id b v w → (NoMapMsg T → 0 < d) → d ≤ 1000 → ∀ v', CutMsg T S id v v' → ∃ w', Decodes S d id b v' w' ∧ CutMsg T S id w w'
  | .mk _ _ _ xs ys h0 h => fun hp hd v' hk => by
    obtain ⟨ys0, rfl⟩ : ∃ ys0, v' = .struct ys0 := by cases hk; exact ⟨_, rfl⟩
    obtain ⟨zs, h1, h2⟩ := decRecs_cut h hp hd _ (cut_agree hT hS hk (agree_clear _ _) (agree_clear _ _)
      (fun _ _ => by rw [unknownOf_clear, unknownOf_clear]))
    exact ⟨_, .mk _ _ _ _ _ h0 h1, h2⟩
theorem decRecs_cut {d : Int} {id : Nat} {b : Bytes} {xs zs : List Val} :
    DecRecs T d id b xs zs → (NoMapMsg T → 0 < d) → d ≤ 1000 → ∀ ys, CutMsg T S id (.struct xs) (.struct ys) →
    ∃ zs', DecRecs S d id b ys zs' ∧ CutMsg T S id (.struct zs) (.struct zs')
  | .nil _ _ _ => fun _ _ ys hk => ⟨ys, .nil _ _ _, hk⟩
  | .unknown _ _ num t k v rest _ _ h1 h2 h3 h4 => fun hd0 hd ys hk => by
    obtain ⟨zs', a1, a2⟩ := decRecs_cut h4 hd0 hd (addUnknown (S id) ys (k ++ v)) (cut_agree hT hS hk (agree_add _ _ _) (agree_add _ _ _)
      (fun i1 i2 => by
        cases hk with
        | mk _ _ _ l1 l2 _ hu =>
          rw [unknownOf_add (fun s p h => l1 ▸ ((hT id).unknown s p h).1), unknownOf_add (fun s p h => l2 ▸ ((hS id).unknown s p h).1),
            if_pos i1, if_pos i2, hu i1 i2]))
    refine ⟨zs', .unknown _ _ num t k v rest _ _ h1 (fun g hg => ?_) h3 a1, a2⟩
    obtain ⟨f, hp⟩ := zip_right (hN.length id) g hg
    have q1 := (hN.fields id _ hp).1
    simp only at q1
    rw [q1]
    exact h2 f (List.of_mem_zip hp).1
  | .field _ _ f t k v rest _ x y _ hf h1 h2 h3 h4 => fun hd0 hd ys hk => by
    obtain ⟨g, hp⟩ := zip_left (hN.length id) f hf
    obtain ⟨q1, q3, q4⟩ := hN.fields id _ hp
    simp only at q1 q3 q4
    have hg := (List.of_mem_zip hp).2
    have hys : ys.length = (S id).nslots := by cases hk; assumption
    have hl : g.slot < ys.length := hys ▸ (hS id).slots _ hg
    have e : ys[g.slot]? = some ys[g.slot] := List.getElem?_eq_getElem hl
    have hkf : CutField T S f g x ys[g.slot] := by
      cases hk with
      | mk _ _ _ _ _ h _ => exact h f g hp _ _ h2 e
    obtain ⟨y', b1, b2, b3⟩ := decField_cut h3 hd0 hd (fun hM => hM id f hf) g _ q3 q4 hkf
    have hk' := cut_set hT hS hN hp b3 hk b2
    obtain ⟨zs', a1, a2⟩ := decRecs_cut h4 hd0 hd _ hk'
    rw [← q1] at h1
    exact ⟨zs', .field _ _ _ t k v rest _ _ _ _ hg h1 e b1 a1, a2⟩
theorem decField_cut {d : Int} {f : Field} {t : WireType} {v : Bytes} {x y : Val} :
    DecField T d f t v x y → (NoMapMsg T → 0 < d) → d ≤ 1000 → (NoMapMsg T → ∀ k i p, f.shape ≠ .mapMsg k i p) → ∀ (g : Field) (x' : Val), Moves f g → ShapeNarrows T f.shape g.shape → CutField T S f g x x' →
    ∃ y', DecField S d g t v x' y' ∧ CutField T S f g y y' ∧
      (∀ w, f.member = some w → ∃ a b, y = .iface (some (w, some a)) ∧ y' = .iface (some (w, some b)))
  | .plain _ _ _ _ _ _ hm h => fun hd0 hd hs g x' hg hn hk => by
    by_cases hg' : g.member = none
    · obtain ⟨y', h1, h2⟩ := decShape_cut h hd0 hd hs _ x' hn (cutField_plain hm hg' hk)
      exact ⟨y', .plain _ g _ _ _ _ hg' h1, .plain _ _ _ _ hm hg' h2, fun w hw => by rw [hm] at hw; cases hw⟩
    · obtain ⟨w, hw⟩ := Option.ne_none_iff_exists'.1 hg'
      obtain ⟨z, c, rfl, hc⟩ := cutField_moved hT hS hN hm hg' hn hk
      obtain ⟨y', h1, h2⟩ := decShape_cut h hd0 hd hs _ c hn hc
      have ha := hg.resolve_left (fun e => hg' (e.trans hm))
      exact ⟨_, .member _ g _ _ w z y' hw (dec_start ha.2.2 h1 _), .moveSet _ _ w _ _ hm hw h2, fun w hw => by rw [hm] at hw; cases hw⟩
  | .member _ _ _ _ w x0 y hm h => fun hd0 hd hs g x' hg hn hk => by
    obtain ⟨x1, rfl⟩ := cutField_iface hm hk
    have hg : g.member = f.member := by
      rcases hg with hg | ⟨hg, _⟩
      · exact hg
      · rw [hm] at hg; cases hg
    obtain ⟨y', h1, h2⟩ := decShape_cut h hd0 hd hs _ _ hn (cutShape_zero hT hS hN hn)
    exact ⟨_, .member _ g _ _ w x1 y' (by rw [hg]; exact hm) h1, .set _ _ _ _ _ hm h2,
      fun w' hw => by rw [hm] at hw; cases hw; exact ⟨_, _, rfl, rfl⟩⟩
theorem decShape_cut {d : Int} {a : Shape} {t : WireType} {v : Bytes} {x y : Val} :
    DecShape T d a t v x y → (NoMapMsg T → 0 < d) → d ≤ 1000 → (NoMapMsg T → ∀ k i p, a ≠ .mapMsg k i p) → ∀ b x', ShapeNarrows T a b → CutShape T S a b x x' →
    ∃ y', DecShape S d b t v x' y' ∧ CutShape T S a b y y'
  | .single _ s _ _ _ h => fun hd0 hd hs b x' hn hk => by
    cases hn with
    | single _ s' hw =>
      obtain ⟨y', a1, a2⟩ := scalarDec_cut hw h
      rw [← narrow_wire hw]
      exact ⟨_, .single _ _ _ _ _ a1, .single _ _ _ _ a2⟩
    | presence _ s' hw =>
      obtain ⟨y', a1, a2⟩ := scalarDec_cut hw h
      rw [← narrow_wire hw]
      exact ⟨_, .optional _ _ _ _ _ a1, .addSome _ _ _ _ a2⟩
    | singleList _ s' q hw =>
      obtain ⟨y', a1, a2⟩ := scalarDec_cut hw h
      rw [← narrow_wire hw]
      obtain ⟨ys, rfl⟩ : ∃ ys, x' = .slice ys := by cases hk <;> exact ⟨_, rfl⟩
      exact ⟨_, .elem _ _ _ _ _ _ a1, .singleList _ _ _ _ _ _ a2⟩
  | .optional _ s _ _ _ h => fun hd0 hd hs b x' hn hk => by
    cases hn with
    | optional _ s' hw =>
      obtain ⟨y', a1, a2⟩ := scalarDec_cut hw h
      rw [← narrow_wire hw]
      exact ⟨_, .optional _ _ _ _ _ a1, .optional _ _ _ _ a2⟩
    | noPresence _ s' hw =>
      obtain ⟨y', a1, a2⟩ := scalarDec_cut hw h
      rw [← narrow_wire hw]
      exact ⟨_, .single _ _ _ _ _ a1, .dropSome _ _ _ _ a2⟩
    | optionalList _ s' q hw =>
      obtain ⟨y', a1, a2⟩ := scalarDec_cut hw h
      rw [← narrow_wire hw]
      obtain ⟨ys, rfl⟩ : ∃ ys, x' = .slice ys := by cases hk <;> exact ⟨_, rfl⟩
      exact ⟨_, .elem _ _ _ _ _ _ a1, .optionalList _ _ _ _ _ _ a2⟩
  | .elem _ s p _ xs y h => fun hd0 hd hs b x' hn hk => by
    cases hn with
    | lastSingle _ s' hw =>
      obtain ⟨y', a1, a2⟩ := scalarDec_cut hw h
      rw [← narrow_wire hw]
      exact ⟨_, .single _ _ _ _ _ a1, .lastSingle _ _ _ _ _ a2⟩
    | lastOptional _ s' hw =>
      obtain ⟨y', a1, a2⟩ := scalarDec_cut hw h
      rw [← narrow_wire hw]
      exact ⟨_, .optional _ _ _ _ _ a1, .lastOptional _ _ _ _ _ a2⟩
    | list _ s' _ q hw _ =>
      obtain ⟨y', a1, a2⟩ := scalarDec_cut hw h
      rw [← narrow_wire hw]
      cases hk with
      | list _ _ _ _ zs hz =>
        refine ⟨_, .elem _ _ _ _ _ _ a1, ?_⟩
        have := CutShape.list s s' p q (zs ++ [(y, y')]) (T := T) (S := S) (fun z hzz => by
          rcases List.mem_append.1 hzz with hzz | hzz
          · exact hz z hzz
          · simp only [List.mem_singleton] at hzz; subst hzz; exact a2)
        simpa using this
  | .packed _ s _ p _ ys h h' => fun hd0 hd hs b x' hn hk => by
    cases hn with
    | list _ s' _ q hw hq =>
      obtain ⟨zs, rfl, a2, a3⟩ := packed_cut hw h'
      rw [hq rfl]
      exact ⟨_, .packed _ _ _ p _ _ h a2, .list _ _ _ _ zs a3⟩
  | .msgPtr _ id _ p _ m h h' => fun hd0 hd hs b x' hn hk => by
    obtain ⟨w', a1, a2⟩ := decodes_cut h' (fun hM => by have := hd0 hM; have := dec_ne h'; omega) (by omega) _ (cut_zero hT hS hN id)
    cases hn with
    | msg => exact ⟨_, .msgPtr _ id _ p _ _ h a1, .msg _ _ _ _ (.ptr _ _ _ a2)⟩
    | oneToList =>
      obtain ⟨ys, rfl⟩ : ∃ ys, x' = .slice ys := by cases hk <;> exact ⟨_, rfl⟩
      exact ⟨_, .msgElemPtr _ id _ p _ _ h a1, .oneToList _ _ _ _ a2⟩
    | raw _ hM =>
      exact ⟨_, .single _ .bytes _ _ _ ⟨p, h, rfl⟩,
        .raw _ _ _ (decodes_mono hM h' (by have := hd0 hM; have := dec_ne h'; omega) _ (by omega))⟩
  | .msgInline _ id _ p _ m h h' => fun hd0 hd hs b x' hn hk => by
    have hr := decodes_cut h' (fun hM => by have := hd0 hM; have := dec_ne h'; omega) (by omega)
    cases hn
    cases hk with
    | msg _ _ _ _ hk =>
      cases hk with
      | inline _ _ _ hk =>
        obtain ⟨w', a1, a2⟩ := hr _ hk
        exact ⟨_, .msgInline _ id _ p _ _ h a1, .msg _ _ _ _ (.inline _ _ _ a2)⟩
  | .msgElemPtr _ id _ p _ m h h' => fun hd0 hd hs b x' hn hk => by
    obtain ⟨w', a1, a2⟩ := decodes_cut h' (fun hM => by have := hd0 hM; have := dec_ne h'; omega) (by omega) _ (cut_zero hT hS hN id)
    cases hn with
    | msgList =>
      obtain ⟨ys, rfl, a3⟩ := cut_snoc hk (.ptr _ _ _ a2)
      exact ⟨_, .msgElemPtr _ id _ p _ _ h a1, a3⟩
    | lastMsg => exact ⟨_, .msgPtr _ id _ p _ _ h a1, .lastMsg _ _ _ _ a2⟩
    | rawList _ hM =>
      cases hk with
      | rawList _ zs hz =>
        refine ⟨_, .elem _ .bytes false _ _ _ ⟨p, h, rfl⟩, ?_⟩
        have := CutShape.rawList id (zs ++ [(m, p)]) (T := T) (S := S) (fun z hzz => by
          rcases List.mem_append.1 hzz with hzz | hzz
          · exact hz z hzz
          · simp only [List.mem_singleton] at hzz
            subst hzz
            exact decodes_mono hM h' (by have := hd0 hM; have := dec_ne h'; omega) _ (by omega))
        simpa using this
  | .msgElemInline _ id _ p _ m h h' => fun hd0 hd hs b x' hn hk => by
    obtain ⟨w', a1, a2⟩ := decodes_cut h' (fun hM => by have := hd0 hM; have := dec_ne h'; omega) (by omega) _ (cut_zero hT hS hN id)
    cases hn
    obtain ⟨ys, rfl, a3⟩ := cut_snoc hk (.inline _ _ _ a2)
    exact ⟨_, .msgElemInline _ id _ p _ _ h a1, a3⟩
  | .entry _ ks vs _ kb vb rest m k y h1 h2 h3 => fun hd0 hd hs b x' hn hk => by
    cases hn with
    | map _ _ vs' hw hb =>
      obtain ⟨y', a1, a2, a3⟩ := entry_cut hw hb h2 h3
      obtain ⟨m', rfl, a4⟩ := cut_scalars (k := k) hk a3
      rw [← narrow_wire hw] at h1
      exact ⟨_, .entry _ ks vs' _ kb vb rest m' k y' h1 a1 a2, a4⟩
  | .entryPtr _ ks id _ kb vb rest p m k y h1 h2 h3 h' => fun hd0 hd hs b x' hn hk => by
    obtain ⟨w', a1, a2⟩ := decodes_cut h' (fun hM => absurd rfl (hs hM _ _ _)) (by omega) _ (cut_zero hT hS hN id)
    cases hn
    obtain ⟨m', rfl, a3⟩ := cut_entry (k := k) hk (.ptr _ _ _ a2)
    exact ⟨_, .entryPtr _ ks id _ kb vb rest p m' k _ h1 h2 h3 a1, a3⟩
  | .entryInline _ ks id _ kb vb rest p m k y h1 h2 h3 h' => fun hd0 hd hs b x' hn hk => by
    obtain ⟨w', a1, a2⟩ := decodes_cut h' (fun hM => absurd rfl (hs hM _ _ _)) (by omega) _ (cut_zero hT hS hN id)
    cases hn
    obtain ⟨m', rfl, a3⟩ := cut_entry (k := k) hk (.inline _ _ _ a2)
    exact ⟨_, .entryInline _ ks id _ kb vb rest p m' k _ h1 h2 h3 a1, a3⟩
end
end

end Verif.Lemmas.Narrow
