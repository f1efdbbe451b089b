import Verif.Lemmas.DecShape
import Verif.Lemmas.DecTyped
import Verif.Lemmas.Output
/-! Helper lemmas: the decoder refines the decoding relation. -/
namespace Verif.Lemmas
open Verif.Model Verif.Spec

/-- A nested decoder that refines the relation on inputs shorter than `N`. -/
def DecOK (S : Schema) (rec : DecRec) (N : Nat) : Prop :=
  ∀ d b v id, b.length < N → Typed S id v → (∀ w, rec d b v id = .ok w ↔ Decodes S d id b v w) ∧ Safe (rec d b v id)

section
variable {D : Descs} {S : Schema} (hD : DescOK D S) (hW : S.WF) {rec : DecRec} {N : Nat} (hrec : DecOK S rec N)
include hD hW hrec

omit hD hW in
theorem lenRec_reads {typ : WType} {b : Bytes} (hb : b.length < N) {cur : Val} {id : Nat} (hc : Typed S id cur)
    (d : Int) :
    Reads (lenThen typ b (fun fb => rec d fb cur id)) b
      (fun v y => typ = WireType.len.code ∧ ∃ p, IsLen v p ∧ Decodes S d id p cur y) := by
  intro y n
  rw [lenThen_reads typ b _ y n]
  constructor
  · rintro ⟨v, rest, rfl, h2, h3, p, h4, h5⟩
    refine ⟨v, rest, rfl, h2, h3, p, h4, ((hrec _ _ _ _ ?_ hc).1 _).1 h5⟩
    have := isLen_length h4
    simp at hb; omega
  · rintro ⟨v, rest, rfl, h2, h3, p, h4, h5⟩
    refine ⟨v, rest, rfl, h2, h3, p, h4, ((hrec _ _ _ _ ?_ hc).1 _).2 h5⟩
    have := isLen_length h4
    simp at hb; omega

omit hD hW in
theorem lenRec_safe {typ : WType} {b : Bytes} (hb : b.length < N) {cur : Val} {id : Nat} (hc : Typed S id cur)
    (d : Int) : Safe (lenThen typ b (fun fb => rec d fb cur id)) := by
  refine lenThen_safe ?_
  rintro pre p rest rfl h
  have := isLen_length h
  exact (hrec _ _ _ _ (by simp at hb; omega) hc).2

/-- Map values that are messages. -/
theorem mapMsg_reads {f : FieldDesc} (hf : f.valType = .bytes) (id : Nat) (byPtr : Bool) (typ : WType) {b : Bytes}
    (hb : b.length < N) (d : Int) :
    Reads (decodeMapValueRef D rec f (msgType id byPtr) typ b d) b
      (fun v y => typ = WireType.len.code ∧ ∃ p m, IsLen v p ∧ Decodes S (d - 1) id p (S id).zero m ∧
        y = if byPtr then .ptr (some m) else m) := by
  cases byPtr with
  | true =>
    have h : decodeMapValueRef D rec f (msgType id true) typ b d
        = lenThen typ b (fun fb => rec (d - 1) fb (S id).zero id) >>= fun x => pure (.ptr (some x.1), x.2) := by
      rw [← hD.empty id]
      show decodeMapValueAt rec f (.struct id) typ b (D id).empty d >>= _ = _
      rw [mapValueAt_len _ _ hf]
      rfl
    rw [h]
    refine ((lenRec_reads hrec hb (typed_zero hW id) (d - 1)).map (fun x => .ptr (some x))).congr (fun v y => ?_)
    constructor
    · rintro ⟨x, ⟨h1, p, h2, h3⟩, rfl⟩; exact ⟨h1, p, x, h2, h3, rfl⟩
    · rintro ⟨h1, p, x, h2, h3, rfl⟩; exact ⟨x, ⟨h1, p, h2, h3⟩, rfl⟩
  | false =>
    have h : decodeMapValueRef D rec f (msgType id false) typ b d
        = lenThen typ b (fun fb => rec (d - 1) fb (S id).zero id) := by
      rw [← hD.empty id]
      show decodeMapValueAt rec f (.struct id) typ b (D id).empty d = _
      rw [mapValueAt_len _ _ hf]
      rfl
    rw [h]
    refine (lenRec_reads hrec hb (typed_zero hW id) (d - 1)).congr (fun v y => ?_)
    constructor
    · rintro ⟨h1, p, h2, h3⟩; exact ⟨h1, p, y, h2, h3, rfl⟩
    · rintro ⟨h1, p, x, h2, h3, rfl⟩; exact ⟨h1, p, h2, h3⟩

theorem mapMsg_safe {f : FieldDesc} (hf : f.valType = .bytes) (id : Nat) (byPtr : Bool) (typ : WType) {b : Bytes}
    (hb : b.length < N) (d : Int) : Safe (decodeMapValueRef D rec f (msgType id byPtr) typ b d) := by
  cases byPtr with
  | true =>
    have h : decodeMapValueRef D rec f (msgType id true) typ b d
        = lenThen typ b (fun fb => rec (d - 1) fb (S id).zero id) >>= fun x => pure (.ptr (some x.1), x.2) := by
      rw [← hD.empty id]
      show decodeMapValueAt rec f (.struct id) typ b (D id).empty d >>= _ = _
      rw [mapValueAt_len _ _ hf]
      rfl
    rw [h]
    exact Safe.bind (lenRec_safe hrec hb (typed_zero hW id) _) (fun _ _ => Safe.ok _)
  | false =>
    have h : decodeMapValueRef D rec f (msgType id false) typ b d
        = lenThen typ b (fun fb => rec (d - 1) fb (S id).zero id) := by
      rw [← hD.empty id]
      show decodeMapValueAt rec f (.struct id) typ b (D id).empty d = _
      rw [mapValueAt_len _ _ hf]
      rfl
    rw [h]
    exact lenRec_safe hrec hb (typed_zero hW id) _

omit hD hW hrec in
/-- Map values that are scalars. -/
theorem mapScalar_reads {f : FieldDesc} {s : Scalar} (hf : f.valType = tagTypeOf s) (typ : WType) (b : Bytes)
    (d : Int) :
    Reads (decodeMapValueRef D rec f s.goType typ b d) b (fun v y => typ = s.wire.code ∧ ScalarDec false s v y) := by
  have h : decodeMapValueRef D rec f s.goType typ b d
      = decodeValueAt D rec { f with tagType := f.valType } s.goType typ b .undef d := by
    rw [← mapValueAt_eq]; cases s <;> rfl
  rw [h]
  exact valueAt_reads D rec _ (by exact hf) typ b _ d

omit hD hW hrec in
theorem mapScalar_safe {f : FieldDesc} {s : Scalar} (typ : WType) (b : Bytes)
    (d : Int) : Safe (decodeMapValueRef D rec f s.goType typ b d) := by
  have h : decodeMapValueRef D rec f s.goType typ b d
      = decodeValueAt D rec { f with tagType := f.valType } s.goType typ b .undef d := by
    rw [← mapValueAt_eq]; cases s <;> rfl
  rw [h]
  exact valueAt_safe _ _ _ _ _ _ _ _

omit hD hW hrec in
theorem asSlice_reads {cur : Val} {g : List Val → Res (Val × Nat)} {b : Bytes} {P : List Val → Bytes → Val → Prop}
    (h : ∀ xs, cur = .slice xs → Reads (g xs) b (P xs)) :
    Reads (cur.asSlice >>= g) b (fun v y => ∃ xs, cur = .slice xs ∧ P xs v y) := by
  intro y n
  cases cur with
  | slice xs =>
    show g xs = _ ↔ _
    rw [h xs rfl y n]
    constructor
    · rintro ⟨v, rest, h1, h2, h3⟩; exact ⟨v, rest, h1, h2, xs, rfl, h3⟩
    · rintro ⟨v, rest, h1, h2, xs', e, h3⟩; cases e; exact ⟨v, rest, h1, h2, h3⟩
  | _ =>
    constructor
    · nofun
    · rintro ⟨v, rest, h1, h2, xs', e, h3⟩; cases e

/-- A record of a field of a given shape. -/
theorem decodePtr_reads (n sl : Nat) (m : Option Nat) {sh : Shape} (hl : sh.legal = true) (typ : WType) {b : Bytes}
    (hb : b.length < N) {cur : Val} (hc : Shape.fresh sh ∨ ShapeTyped S sh cur) (d : Int) :
    Reads (decodePtr D rec (descOf ⟨n, sl, m, sh⟩) typ b cur d) b
      (fun v y => ∃ t : WireType, typ = t.code ∧ DecShape S d sh t v cur y) := by
  cases sh with
  | single s =>
    rw [ptr_single]
    refine (valueAt_reads D rec _ (descOf_tagType n sl m _) typ b cur d).congr (fun v y => ?_)
    constructor
    · rintro ⟨h1, h2⟩; exact ⟨_, h1, .single _ _ _ _ _ h2⟩
    · rintro ⟨t, h1, h2⟩; cases h2 with | single _ _ _ _ _ h2 => exact ⟨h1, h2⟩
  | optional s =>
    rw [ptr_optional]
    refine ((valueAt_reads D rec _ (s := s) (descOf_tagType n sl m (.optional s)) typ b _ d).map (fun x => .ptr (some x))).congr (fun v y => ?_)
    constructor
    · rintro ⟨x, ⟨h1, h2⟩, rfl⟩; exact ⟨_, h1, .optional _ _ _ _ _ h2⟩
    · rintro ⟨t, h1, h2⟩
      cases h2 with | optional _ _ _ _ y h2 => exact ⟨y, ⟨h1, h2⟩, rfl⟩
  | list s p =>
    cases p with
    | false =>
      rw [ptr_list]
      refine (asSlice_reads (fun xs _ => (valueAt_reads D rec _ (s := s) (descOf_tagType n sl m (.list s false)) typ b _ d).map
        (fun x => .slice (xs ++ [x])))).congr
        (fun v y => ?_)
      constructor
      · rintro ⟨xs, rfl, x, ⟨h1, h2⟩, rfl⟩; exact ⟨_, h1, .elem _ _ _ _ _ _ h2⟩
      · rintro ⟨t, h1, h2⟩
        cases h2 with | elem _ _ _ _ xs y h2 => exact ⟨xs, rfl, y, ⟨h1, h2⟩, rfl⟩
    | true =>
      have hp : s.packable = true := hl
      rw [ptr_packed _ _ _ _ _ _ _ _ _ _ hp]
      split
      · rename_i ht
        refine (lenThen_reads typ b _).congr (fun v y => ?_)
        constructor
        · rintro ⟨_, p, h1, h2⟩
          obtain ⟨ys, rfl, h3⟩ := (packedCoder_ok hp p y).1 h2
          exact ⟨.len, ht, .packed _ _ _ _ _ _ h1 h3⟩
        · rintro ⟨t, h1, h2⟩
          cases h2 with
          | packed _ _ _ p _ ys h3 h4 => exact ⟨ht, p, h3, (packedCoder_ok hp p _).2 ⟨ys, rfl, h4⟩⟩
          | elem _ _ _ _ xs y h3 =>
            exfalso
            rw [ht] at h1
            cases s <;> first | (cases h1; done) | (cases hp; done)
      · rename_i ht
        refine (asSlice_reads (fun xs _ => (valueAt_reads D rec _ (s := s) (descOf_tagType n sl m (.list s true)) typ b _ d).map
          (fun x => .slice (xs ++ [x])))).congr
          (fun v y => ?_)
        constructor
        · rintro ⟨xs, rfl, x, ⟨h1, h2⟩, rfl⟩; exact ⟨_, h1, .elem _ _ _ _ _ _ h2⟩
        · rintro ⟨t, h1, h2⟩
          cases h2 with
          | elem _ _ _ _ xs y h2 => exact ⟨xs, rfl, y, ⟨h1, h2⟩, rfl⟩
          | packed _ _ _ p _ ys h3 h4 => exact absurd h1 ht
  | msg id p =>
    cases p with
    | true =>
      rw [ptr_msgPtr, hD.empty]
      refine ((lenRec_reads hrec hb (typed_zero hW id) (d - 1)).map (fun x => .ptr (some x))).congr (fun v y => ?_)
      constructor
      · rintro ⟨x, ⟨h1, p, h2, h3⟩, rfl⟩; exact ⟨_, h1, .msgPtr _ _ _ _ _ _ h2 h3⟩
      · rintro ⟨t, h1, h2⟩
        cases h2 with | msgPtr _ _ _ p _ x h2 h3 => exact ⟨x, ⟨h1, p, h2, h3⟩, rfl⟩
    | false =>
      have hc' : Typed S id cur := by
        rcases hc with hc | hc
        · exact hc.elim
        · cases hc with | msg _ _ _ h1 => cases h1 with | inline _ _ h1 => exact h1
      rw [ptr_msgInline]
      refine (lenRec_reads hrec hb hc' (d - 1)).congr (fun v y => ?_)
      constructor
      · rintro ⟨h1, p, h2, h3⟩; exact ⟨_, h1, .msgInline _ _ _ _ _ _ h2 h3⟩
      · rintro ⟨t, h1, h2⟩
        cases h2 with | msgInline _ _ _ p _ x h2 h3 => exact ⟨h1, p, h2, h3⟩
  | msgList id p =>
    cases p with
    | true =>
      rw [ptr_msgListPtr, hD.empty]
      refine (asSlice_reads (fun xs _ => (lenRec_reads hrec hb (typed_zero hW id) (d - 1)).map (fun x => .slice (xs ++ [.ptr (some x)])))).congr
        (fun v y => ?_)
      constructor
      · rintro ⟨xs, rfl, x, ⟨h1, p, h2, h3⟩, rfl⟩; exact ⟨_, h1, .msgElemPtr _ _ _ _ _ _ h2 h3⟩
      · rintro ⟨t, h1, h2⟩
        cases h2 with | msgElemPtr _ _ _ p xs x h2 h3 => exact ⟨xs, rfl, x, ⟨h1, p, h2, h3⟩, rfl⟩
    | false =>
      rw [ptr_msgListInline, hD.empty]
      refine (asSlice_reads (fun xs _ => (lenRec_reads hrec hb (typed_zero hW id) (d - 1)).map (fun x => .slice (xs ++ [x])))).congr
        (fun v y => ?_)
      constructor
      · rintro ⟨xs, rfl, x, ⟨h1, p, h2, h3⟩, rfl⟩; exact ⟨_, h1, .msgElemInline _ _ _ _ _ _ h2 h3⟩
      · rintro ⟨t, h1, h2⟩
        cases h2 with | msgElemInline _ _ _ p xs x h2 h3 => exact ⟨xs, rfl, x, ⟨h1, p, h2, h3⟩, rfl⟩
  | map k v =>
    have hk : k.isKey = true := hl
    rw [ptr_map]
    refine (lenThen_reads typ b _).congr (fun v' y => ?_)
    by_cases hfast : fastPair k v = true
    · simp only [hfast, if_true]
      constructor
      · rintro ⟨h1, p, h2, h3⟩
        obtain ⟨kb, vb, rest, mm, kk, z, rfl, rfl, g1, g2, rfl⟩ := mapFast_sound h3
        exact ⟨_, h1, .entry _ _ _ _ kb vb rest mm kk z h2 (by rw [hfast]; exact g1) (by rw [hfast]; exact g2)⟩
      · rintro ⟨t, h1, h2⟩
        cases h2 with
        | entry _ _ _ _ kb vb rest mm kk z h2 g1 g2 =>
          rw [hfast] at g1 g2
          exact ⟨h1, _, h2, mapFast_complete hfast g1 g2 mm⟩
    · have hfast : fastPair k v = false := Bool.not_eq_true _ |>.mp hfast
      simp only [hfast, Bool.false_eq_true, if_false]
      have hR := fun typ b => mapScalar_reads (D := D) (rec := rec) (f := descOf ⟨n, sl, m, .map k v⟩) (s := v)
        (by rw [descOf_map]) typ b (d - 1)
      have hP := fun p y => mapPair_ok (f := descOf ⟨n, sl, m, .map k v⟩) (by rw [descOf_map]) hk p (fun typ b' _ => hR typ b') cur y
      constructor
      · rintro ⟨h1, p, h2, h3⟩
        obtain ⟨kb, vb, rest, mm, kk, z, rfl, rfl, g1, g2, rfl⟩ := (hP p y).1 h3
        exact ⟨_, h1, .entry _ _ _ _ kb vb rest mm kk z h2 (by rw [hfast]; exact g1) (by rw [hfast]; exact g2)⟩
      · rintro ⟨t, h1, h2⟩
        cases h2 with
        | entry _ _ _ _ kb vb rest mm kk z h2 g1 g2 =>
          rw [hfast] at g1 g2
          exact ⟨h1, _, h2, (hP _ _).2 ⟨kb, vb, rest, mm, kk, z, rfl, rfl, g1, g2, rfl⟩⟩
  | mapMsg k id byPtr =>
    have hk : k.isKey = true := hl
    rw [ptr_mapMsg]
    intro y q
    rw [lenThen_reads typ b _ y q]
    have hP := fun p (hp : p.length < N) y => mapPair_ok (f := descOf ⟨n, sl, m, .mapMsg k id byPtr⟩)
      (by rw [descOf_mapMsg]) hk p
      (fun typ b' hb' => mapMsg_reads hD hW hrec (f := descOf ⟨n, sl, m, .mapMsg k id byPtr⟩) (by rw [descOf_mapMsg])
        id byPtr typ (b := b') (by omega) (d - 1)) cur y
    have hd2 : d - 1 - 1 = d - 2 := by omega
    constructor
    · rintro ⟨v, rest, rfl, h0, h1, p, h2, h3⟩
      have hp : p.length < N := by have := isLen_length h2; simp at hb; omega
      obtain ⟨kb, vb, r, mm, kk, z, rfl, rfl, g1, ⟨pp, w, g2, g3, rfl⟩, rfl⟩ := (hP p hp y).1 h3
      refine ⟨v, rest, rfl, h0, _, h1, ?_⟩
      rw [hd2] at g3
      cases byPtr with
      | true => exact .entryPtr _ _ _ _ kb vb r pp mm kk w h2 g1 g2 g3
      | false => exact .entryInline _ _ _ _ kb vb r pp mm kk w h2 g1 g2 g3
    · rintro ⟨v, rest, rfl, h0, t, h1, h2⟩
      cases h2 with
      | entryPtr _ _ _ _ kb vb r pp mm kk w h2 g1 g2 g3 =>
        have hp := isLen_length h2
        rw [← hd2] at g3
        exact ⟨v, rest, rfl, h0, h1, _, h2, (hP _ (by simp at hb hp; simp; omega) _).2
          ⟨kb, vb, r, mm, kk, _, rfl, rfl, g1, ⟨pp, w, g2, g3, rfl⟩, rfl⟩⟩
      | entryInline _ _ _ _ kb vb r pp mm kk w h2 g1 g2 g3 =>
        have hp := isLen_length h2
        rw [← hd2] at g3
        exact ⟨v, rest, rfl, h0, h1, _, h2, (hP _ (by simp at hb hp; simp; omega) _).2
          ⟨kb, vb, r, mm, kk, _, rfl, rfl, g1, ⟨pp, w, g2, g3, rfl⟩, rfl⟩⟩

theorem decodePtr_safe (n sl : Nat) (m : Option Nat) {sh : Shape} (hl : sh.legal = true) (typ : WType) {b : Bytes}
    (hb : b.length < N) {cur : Val} (hc : Shape.fresh sh ∨ ShapeTyped S sh cur) (d : Int) :
    Safe (decodePtr D rec (descOf ⟨n, sl, m, sh⟩) typ b cur d) := by
  cases sh with
  | single s => rw [ptr_single]; exact valueAt_safe _ _ _ _ _ _ _ _
  | optional s => rw [ptr_optional]; exact Safe.bind (valueAt_safe _ _ _ _ _ _ _ _) (fun _ _ => Safe.ok _)
  | list s p =>
    have hc : ∃ xs, cur = .slice xs := by
      rcases hc with hc | hc
      · exact hc.elim
      · cases hc with | list _ _ xs _ => exact ⟨xs, rfl⟩
    obtain ⟨xs, rfl⟩ := hc
    cases p with
    | false =>
      rw [ptr_list]
      exact Safe.bind (Safe.ok _) (fun _ _ => Safe.bind (valueAt_safe _ _ _ _ _ _ _ _) (fun _ _ => Safe.ok _))
    | true =>
      have hp : s.packable = true := hl
      rw [ptr_packed _ _ _ _ _ _ _ _ _ _ hp]
      split
      · exact lenThen_safe (fun _ _ _ _ _ => packedCoder_safe hp _)
      · exact Safe.bind (Safe.ok _) (fun _ _ => Safe.bind (valueAt_safe _ _ _ _ _ _ _ _) (fun _ _ => Safe.ok _))
  | msg id p =>
    cases p with
    | true =>
      rw [ptr_msgPtr, hD.empty]
      exact Safe.bind (lenRec_safe hrec hb (typed_zero hW id) _) (fun _ _ => Safe.ok _)
    | false =>
      have hc' : Typed S id cur := by
        rcases hc with hc | hc
        · exact hc.elim
        · cases hc with | msg _ _ _ h1 => cases h1 with | inline _ _ h1 => exact h1
      rw [ptr_msgInline]
      exact lenRec_safe hrec hb hc' _
  | msgList id p =>
    have hc : ∃ xs, cur = .slice xs := by
      rcases hc with hc | hc
      · exact hc.elim
      · cases hc with | msgList _ _ xs _ => exact ⟨xs, rfl⟩
    obtain ⟨xs, rfl⟩ := hc
    cases p with
    | true =>
      rw [ptr_msgListPtr, hD.empty]
      exact Safe.bind (Safe.ok _) (fun _ _ =>
        Safe.bind (lenRec_safe hrec hb (typed_zero hW id) _) (fun _ _ => Safe.ok _))
    | false =>
      rw [ptr_msgListInline, hD.empty]
      exact Safe.bind (Safe.ok _) (fun _ _ =>
        Safe.bind (lenRec_safe hrec hb (typed_zero hW id) _) (fun _ _ => Safe.ok _))
  | map k v =>
    have hk : k.isKey = true := hl
    have hc : ∃ mm, cur = .map mm := by
      rcases hc with hc | hc
      · exact hc.elim
      · cases hc with
        | mapNil => exact ⟨_, rfl⟩
        | map => exact ⟨_, rfl⟩
    obtain ⟨mm, rfl⟩ := hc
    rw [ptr_map]
    refine lenThen_safe (fun _ _ _ _ _ => ?_)
    split
    · rename_i h; exact mapFast_safe h hk _ _
    · exact mapPair_safe (by rw [descOf_map]) hk _ (fun _ _ _ => mapScalar_safe _ _ _) _
  | mapMsg k id p =>
    have hk : k.isKey = true := hl
    have hc : ∃ mm, cur = .map mm := by
      rcases hc with hc | hc
      · exact hc.elim
      · cases hc with
        | mapMsgNil => exact ⟨_, rfl⟩
        | mapMsg => exact ⟨_, rfl⟩
    obtain ⟨mm, rfl⟩ := hc
    rw [ptr_mapMsg]
    refine lenThen_safe (fun pre q rest hq hi => ?_)
    have := isLen_length hi
    refine mapPair_safe (by rw [descOf_mapMsg]) hk _ (fun typ b' hb' => ?_) _
    exact mapMsg_safe hD hW hrec (by rw [descOf_mapMsg]) id p typ (b := b') (by rw [hq] at hb; simp at hb; omega) _

omit hD hW hrec in
theorem decShape_fresh {d : Int} {sh : Shape} {t : WireType} {v : Bytes} {x x' y : Val} (hs : Shape.fresh sh)
    (h : DecShape S d sh t v x y) : DecShape S d sh t v x' y := by
  cases h with
  | single _ _ _ _ _ h => exact .single _ _ _ _ _ h
  | msgPtr _ _ _ _ _ _ h1 h2 => exact .msgPtr _ _ _ _ _ _ h1 h2
  | _ => exact hs.elim

include hD in
omit hW hrec in
/-- What a oneof member is decoded into: it does not matter, or it is the zero value. -/
theorem member_start {f : Field} (hm : (∃ s, f.shape = .single s) ∨ (∃ id p, f.shape = .msg id p)) :
    Shape.fresh f.shape ∨ alloc D (descOf f).t = Shape.zero S f.shape := by
  rcases hm with ⟨s, e⟩ | ⟨id, p, e⟩
  · rw [e]; exact .inl trivial
  · cases p with
    | true => rw [e]; exact .inl trivial
    | false =>
      refine .inr ?_
      obtain ⟨n, sl, m, sh⟩ := f
      dsimp only at e
      subst e
      exact hD.empty id

omit hD hW hrec in
theorem typed_member {f : Field} {w : Nat} (hm : f.member = some w) {x : Val} (h : FieldTyped S f x) :
    ∃ o, x = .iface o := by
  cases h with
  | plain _ _ h _ => rw [h] at hm; cases hm
  | unset => exact ⟨_, rfl⟩
  | nilMember => exact ⟨_, rfl⟩
  | member => exact ⟨_, rfl⟩
  | otherMember => exact ⟨_, rfl⟩

omit hD hW hrec in
theorem typed_plain {f : Field} (hm : f.member = none) {x : Val} (h : FieldTyped S f x) :
    ShapeTyped S f.shape x := by
  cases h with
  | plain _ _ _ h => exact h
  | unset _ _ h => rw [hm] at h; cases h
  | nilMember _ _ _ h => rw [hm] at h; cases h
  | member _ _ _ h => rw [hm] at h; cases h
  | otherMember _ _ _ _ h => rw [hm] at h; cases h

/-- A record of a declared field. -/
theorem decodeField_reads {f : Field} (hl : f.shape.legal = true)
    (hm : f.member ≠ none → (∃ s, f.shape = .single s) ∨ (∃ id p, f.shape = .msg id p)) (typ : WType) {b : Bytes}
    (hb : b.length < N) {cur : Val} (hc : FieldTyped S f cur) (d : Int) :
    Reads (decodeField D rec (descOf f) typ b cur d) b
      (fun v y => ∃ t : WireType, typ = t.code ∧ DecField S d f t v cur y) ∧
    Safe (decodeField D rec (descOf f) typ b cur d) := by
  cases hf : f.member with
  | none =>
    have e : decodeField D rec (descOf f) typ b cur d = decodePtr D rec (descOf f) typ b cur d := by
      unfold decodeField; rw [descOf_oneof, hf]
    rw [e]
    have hc' := typed_plain hf hc
    refine ⟨?_, decodePtr_safe hD hW hrec f.num f.slot f.member hl typ hb (.inr hc') d⟩
    refine (decodePtr_reads hD hW hrec f.num f.slot f.member hl typ hb (.inr hc') d).congr (fun v y => ?_)
    constructor
    · rintro ⟨t, h1, h2⟩; exact ⟨t, h1, .plain _ _ _ _ _ _ hf h2⟩
    · rintro ⟨t, h1, h2⟩
      cases h2 with
      | plain _ _ _ _ _ _ _ h2 => exact ⟨t, h1, h2⟩
      | member _ _ _ _ w _ _ h3 _ => rw [hf] at h3; cases h3
  | some w =>
    obtain ⟨o, rfl⟩ := typed_member hf hc
    have e : decodeField D rec (descOf f) typ b (.iface o) d
        = decodePtr D rec (descOf f) typ b (alloc D (descOf f).t) d
          >>= fun x => pure (.iface (some (w, some x.1)), x.2) := by
      unfold decodeField; rw [descOf_oneof, hf]
    rw [e]
    have hst := member_start hD (hm (by rw [hf]; nofun))
    have hfr : Shape.fresh f.shape ∨ ShapeTyped S f.shape (alloc D (descOf f).t) :=
      hst.imp id (fun e => by rw [e]; exact shapeTyped_zero hW _)
    have hiff : ∀ t v z, DecShape S d f.shape t v (alloc D (descOf f).t) z ↔ DecShape S d f.shape t v (Shape.zero S f.shape) z := by
      intro t v z
      rcases hst with h | h
      · exact ⟨decShape_fresh h, decShape_fresh h⟩
      · rw [h]
    refine ⟨?_, Safe.bind (decodePtr_safe hD hW hrec f.num f.slot f.member hl typ hb hfr d)
      (fun _ _ => Safe.ok _)⟩
    refine ((decodePtr_reads hD hW hrec f.num f.slot f.member hl typ hb hfr d).map
      (fun x => .iface (some (w, some x)))).congr (fun v y => ?_)
    constructor
    · rintro ⟨x, ⟨t, h1, h2⟩, rfl⟩; exact ⟨t, h1, .member _ _ _ _ _ _ _ hf ((hiff _ _ _).1 h2)⟩
    · rintro ⟨t, h1, h2⟩
      cases h2 with
      | plain _ _ _ _ _ _ h3 _ => rw [hf] at h3; cases h3
      | member _ _ _ _ w' _ z h3 h4 =>
        rw [hf] at h3
        cases h3
        exact ⟨z, ⟨t, h1, (hiff _ _ _).2 h4⟩, rfl⟩

/-! ## looking up a field -/

/-- The cached field is one of the message's. -/
def LastOK (S : Schema) (id : Nat) (last : Option FieldDesc) : Prop :=
  ∀ g, last = some g → ∃ f ∈ (S id).fields, g = descOf f

omit hrec in
theorem lookup_eq {id : Nat} {last : Option FieldDesc} (hlast : LastOK S id last) {num : Nat} (hn : num < 2 ^ 31) :
    lookupField (D id) last num = ((S id).fields.find? (fun f => f.num == num)).map descOf := by
  have hg : (D id).getField (num : Int).toNat = ((S id).fields.find? (fun f => f.num == num)).map descOf := by
    rw [Int.toNat_natCast]; exact hD.getField id num hn
  cases last with
  | none => exact hg
  | some g =>
    obtain ⟨f, hf, rfl⟩ := hlast g rfl
    unfold lookupField
    simp only [descOf_id]
    have hr := ((hW id).nums f hf).2
    have hi : (BitVec.ofNat 32 f.num).toInt = f.num := by
      rw [BitVec.toInt_eq_toNat_of_lt (by rw [ofNat32_toNat hr]; omega), ofNat32_toNat hr]
    rw [hi]
    split
    · rename_i e
      have e : f.num = num := by omega
      rw [← hg]
      subst e
      rw [hg]
      cases hfind : (S id).fields.find? (fun g => g.num == f.num) with
      | none =>
        have := List.find?_eq_none.1 hfind f hf
        simp at this
      | some g =>
        have h1 := List.mem_of_find?_eq_some hfind
        have h2 := List.find?_some hfind
        rw [field_inj (hW id) hf h1 (by simpa using (beq_iff_eq.1 h2).symm)]
        rfl
    · exact hg

/-! ## unknown fields -/

omit hrec hW in
theorem set_self {α : Type} {xs : List α} {i : Nat} {x : α} (h : xs[i]? = some x) : xs.set i x = xs := by
  apply List.ext_getElem?
  intro j
  rw [List.getElem?_set]
  split
  · rename_i e
    subst e
    split
    · exact h.symm
    · rename_i hl; rw [List.getElem?_eq_none (by omega)] at h; cases h
  · rfl

omit hrec in
theorem unknown_slot {id : Nat} {xs : List Val} (h : Typed S id (.struct xs)) {s : Nat} {p : Bool}
    (hu : (S id).unknown = some (s, p)) : ∃ x, xs[s]? = some x ∧ UnknownTyped p x := by
  cases h with
  | mk _ _ h1 _ h3 =>
    have := ((hW id).unknown s p hu).1
    refine ⟨xs[s]'(by omega), List.getElem?_eq_getElem (by omega), ?_⟩
    exact h3 s p _ hu (List.getElem?_eq_getElem (by omega))

omit hrec in
theorem reset_eq {id : Nat} {xs : List Val} (h : Typed S id (.struct xs)) :
    resetUnknown (D id) xs = .ok (clearUnknown (S id) xs) := by
  unfold resetUnknown clearUnknown
  rw [hD.unknown]
  split
  · rename_i e; rw [e]
  · rename_i s p e
    obtain ⟨x, hx, ht⟩ := unknown_slot hD hW h e
    rw [e]
    simp only [hx]
    cases p with
    | false =>
      obtain ⟨u, rfl⟩ := ht
      cases u with
      | none => simp only [Option.map_none, set_self hD hx]
      | some u => rfl
    | true =>
      rcases ht with rfl | ⟨u, rfl⟩
      · rfl
      · cases u with
        | none => simp only [Option.map_none, set_self hD hx]
        | some u => rfl

omit hrec in
theorem appendUnknown_eq {id : Nat} {xs : List Val} (h : Typed S id (.struct xs)) (raw : Bytes) :
    appendUnknown (D id) xs raw = .ok (addUnknown (S id) xs raw) := by
  unfold appendUnknown addUnknown unknownOf
  rw [hD.unknown]
  split
  · rename_i e; simp only [e]
  · rename_i s p e
    obtain ⟨x, hx, ht⟩ := unknown_slot hD hW h e
    rw [e]
    simp only [hx]
    cases p with
    | false =>
      obtain ⟨u, rfl⟩ := ht
      cases u <;> rfl
    | true =>
      rcases ht with rfl | ⟨u, rfl⟩
      · rfl
      · cases u <;> rfl

/-! ## records -/

/-- One record of a message: what is consumed, and the Go struct fields before and after. -/
inductive RecStep (S : Schema) (d : Int) (id : Nat) : Bytes → List Val → List Val → Prop
  | unknown (num : Nat) (t : WireType) (k v : Bytes) (xs : List Val) :
      IsKey k num t → (∀ f ∈ (S id).fields, f.num ≠ num) → IsValue 10001 num t v →
      RecStep S d id (k ++ v) xs (addUnknown (S id) xs (k ++ v))
  | field (f : Field) (t : WireType) (k v : Bytes) (xs : List Val) (x y : Val) :
      f ∈ (S id).fields → IsKey k f.num t → xs[f.slot]? = some x → DecField S d f t v x y →
      RecStep S d id (k ++ v) xs (xs.set f.slot y)

omit hD hW hrec in
theorem RecStep.cons {d : Int} {id : Nat} {r rest : Bytes} {xs ys zs : List Val} (h : RecStep S d id r xs ys)
    (h' : DecRecs S d id rest ys zs) : DecRecs S d id (r ++ rest) xs zs := by
  cases h with
  | unknown num t k v _ h1 h2 h3 => exact .unknown _ _ _ _ _ _ _ _ _ h1 h2 h3 h'
  | field f t k v _ x y h1 h2 h3 h4 => exact .field _ _ _ _ _ _ _ _ _ _ _ h1 h2 h3 h4 h'

omit hD hW hrec in
theorem decRecs_cases {d : Int} {id : Nat} {b : Bytes} {xs zs : List Val} (h : DecRecs S d id b xs zs) :
    (b = [] ∧ zs = xs) ∨ ∃ r rest ys, b = r ++ rest ∧ RecStep S d id r xs ys ∧ DecRecs S d id rest ys zs := by
  cases h with
  | nil => exact .inl ⟨rfl, rfl⟩
  | unknown _ _ _ _ k v rest _ _ h1 h2 h3 h4 => exact .inr ⟨k ++ v, rest, _, rfl, .unknown _ _ _ _ _ h1 h2 h3, h4⟩
  | field _ _ f t k v rest _ x y _ h1 h2 h3 h4 h5 =>
    exact .inr ⟨k ++ v, rest, _, rfl, .field _ _ _ _ _ _ _ h1 h2 h3 h4, h5⟩

omit hD hW hrec in
theorem RecStep.length_pos {d : Int} {id : Nat} {r : Bytes} {xs ys : List Val} (h : RecStep S d id r xs ys) :
    0 < r.length := by
  cases h with
  | unknown num t k v _ h1 _ _ => have := IsKey.length_pos h1; simp; omega
  | field f t k v _ _ _ _ h1 _ _ => have := IsKey.length_pos h1; simp; omega

omit hD hrec in
theorem find_declared {id : Nat} {f : Field} (hf : f ∈ (S id).fields) :
    (S id).fields.find? (fun g => g.num == f.num) = some f := by
  cases hfind : (S id).fields.find? (fun g => g.num == f.num) with
  | none =>
    have := List.find?_eq_none.1 hfind f hf
    simp at this
  | some g =>
    have h1 := List.mem_of_find?_eq_some hfind
    have h2 := List.find?_some hfind
    rw [field_inj (hW id) hf h1 (by simpa using (beq_iff_eq.1 h2).symm)]

omit hrec in
theorem record_unknown {id : Nat} {last : Option FieldDesc} (hlast : LastOK S id last) {k post : Bytes} {m typ : Nat}
    (hm : m < 2 ^ 31) (hT : consumeTag (k ++ post) = .ok ((m : Int), typ, k.length)) {xs : List Val}
    (ht : Typed S id (.struct xs)) (d : Int) (hf : (S id).fields.find? (fun f => f.num == m) = none) :
    decodeRecord D rec (D id) d (k ++ post) xs last = liftP (consumeFieldValue m typ post) >>= fun q =>
      pure (addUnknown (S id) xs ((k ++ post).take (k.length + q)), k.length + q, none) := by
  have hl := lookup_eq hD hW hlast hm
  rw [hf, Option.map_none] at hl
  unfold decodeRecord
  rw [hT]
  simp only [liftP, bind, Except.bind, hl, List.drop_left]
  cases consumeFieldValue (m : Int) typ post with
  | error e => rfl
  | ok q => simp only [appendUnknown_eq hD hW ht]

omit hrec in
theorem record_field {id : Nat} {last : Option FieldDesc} (hlast : LastOK S id last) {k post : Bytes} {m typ : Nat}
    (hm : m < 2 ^ 31) (hT : consumeTag (k ++ post) = .ok ((m : Int), typ, k.length)) {xs : List Val}
    (d : Int) {f : Field} (hf : (S id).fields.find? (fun f => f.num == m) = some f) {x : Val}
    (hx : xs[f.slot]? = some x) :
    decodeRecord D rec (D id) d (k ++ post) xs last = decodeField D rec (descOf f) typ post x d >>= fun r =>
      pure (xs.set f.slot r.1, k.length + r.2, some (descOf f)) := by
  have hl := lookup_eq hD hW hlast hm
  rw [hf, Option.map_some] at hl
  unfold decodeRecord
  rw [hT]
  simp only [liftP, bind, Except.bind, hl, List.drop_left, descOf_slot, hx]

omit hD hW hrec in
theorem key_unique {k post k' post' : Bytes} {m m' typ : Nat} {t : WireType} (hT : consumeTag (k ++ post) = .ok ((m : Int), typ, k.length))
    (h : k ++ post = k' ++ post') (hk : IsKey k' m' t) : k = k' ∧ post = post' ∧ m = m' ∧ typ = t.code := by
  rw [h, consumeTag_isKey hk] at hT
  injection hT with hT
  injection hT with h1 hT
  injection hT with h2 h3
  obtain ⟨h4, h5⟩ := List.append_inj h h3.symm
  exact ⟨h4, h5, by omega, h2.symm⟩

theorem decodeRecord_ok {id : Nat} {last : Option FieldDesc} (hlast : LastOK S id last) {b : Bytes}
    (hb : b.length ≤ N) {xs : List Val} (ht : Typed S id (.struct xs)) (d : Int) :
    (∀ ys n, (∃ l, decodeRecord D rec (D id) d b xs last = .ok (ys, n, l)) ↔
      ∃ r rest, b = r ++ rest ∧ n = r.length ∧ RecStep S d id r xs ys) ∧
    (∀ ys n l, decodeRecord D rec (D id) d b xs last = .ok (ys, n, l) → LastOK S id l) ∧
    Safe (decodeRecord D rec (D id) d b xs last) := by
  cases hT : consumeTag b with
  | error e =>
    have he : decodeRecord D rec (D id) d b xs last = .error (.parse e) := by
      unfold decodeRecord; rw [hT]; rfl
    rw [he]
    refine ⟨fun ys n => ⟨?_, ?_⟩, (fun ys n l h => by cases h), Safe.err nofun nofun⟩
    · rintro ⟨l, h⟩; cases h
    rintro ⟨r, rest, rfl, rfl, h⟩
    exfalso
    cases h with
    | unknown num t k v _ h1 _ _ => rw [List.append_assoc, consumeTag_isKey h1] at hT; cases hT
    | field f t k v _ _ _ _ h1 _ _ => rw [List.append_assoc, consumeTag_isKey h1] at hT; cases hT
  | ok a =>
    obtain ⟨num, typ, n0⟩ := a
    obtain ⟨k, post, m, rfl, rfl, rfl, hm1, hm2, hk⟩ := consumeTag_sound_key hT
    have hkpos : 0 < k.length := by
      obtain ⟨pre, post', m', g1, g2, g3, g4, _⟩ := consumeTag_sound hT
      have := IsVarint.length_pos g2
      omega
    have hpost : post.length < N := by simp at hb; omega
    cases hfind : (S id).fields.find? (fun f => f.num == m) with
    | none =>
      have hund : ∀ f ∈ (S id).fields, f.num ≠ m := by
        intro f hf
        have := List.find?_eq_none.1 hfind f hf
        simpa using this
      rw [record_unknown hD hW hlast hm2 hT ht d hfind]
      refine ⟨fun ys n => ⟨?_, ?_⟩, ?_, Safe.bind (Safe.liftP _) (fun _ _ => Safe.ok _)⟩
      · rintro ⟨l, h⟩
        obtain ⟨q, h1, h2⟩ := bind_ok.1 h
        obtain ⟨w, rfl, _, v, rest, rfl, h3, rfl⟩ := consumeFieldValueD_sound (liftP_ok.1 h1)
        have h4 := pure_ok.1 h2
        injection h4 with h4 h5
        injection h5 with h5 h6
        subst h4 h5
        refine ⟨k ++ v, rest, by rw [List.append_assoc], by simp, ?_⟩
        rw [← List.append_assoc, ← List.length_append, List.take_left]
        exact .unknown m w k v xs (hk w rfl) hund h3
      · rintro ⟨r, rest, h, rfl, hs⟩
        cases hs with
        | unknown num t k' v _ h1 h2 h3 =>
          rw [List.append_assoc] at h
          obtain ⟨rfl, rfl, rfl, rfl⟩ := key_unique hT h h1
          refine ⟨none, ?_⟩
          have : consumeFieldValue (m : Int) t.code (v ++ rest) = .ok v.length :=
            consumeFieldValueD_complete h3 rest _ (by decide)
          rw [this]
          simp only [liftP, bind, Except.bind, ← List.append_assoc, ← List.length_append, List.take_left]
          rfl
        | field f t k' v _ x y h1 h2 h3 h4 =>
          rw [List.append_assoc] at h
          obtain ⟨rfl, rfl, rfl, rfl⟩ := key_unique hT h h2
          exact absurd rfl (hund f h1)
      · intro ys n l h g hg
        obtain ⟨q, h1, h2⟩ := bind_ok.1 h
        have h4 := pure_ok.1 h2
        injection h4 with h4 h5
        injection h5 with h5 h6
        rw [← h6] at hg; cases hg
    | some f =>
      have hf := List.mem_of_find?_eq_some hfind
      have hfn : f.num = m := by simpa using List.find?_some hfind
      subst hfn
      obtain ⟨x, hx, hft⟩ := typed_slot hW ht hf
      rw [record_field hD hW hlast hm2 hT d hfind hx]
      obtain ⟨hR, hS⟩ := decodeField_reads hD hW hrec ((hW id).legal f hf) ((hW id).members f hf) typ hpost hft d
      refine ⟨fun ys n => ⟨?_, ?_⟩, ?_, Safe.bind hS (fun _ _ => Safe.ok _)⟩
      · rintro ⟨l, h⟩
        obtain ⟨⟨y, q⟩, h1, h2⟩ := bind_ok.1 h
        obtain ⟨v, rest, rfl, rfl, t, rfl, h3⟩ := (hR y q).1 h1
        have h4 := pure_ok.1 h2
        injection h4 with h4 h5
        injection h5 with h5 h6
        subst h4 h5
        exact ⟨k ++ v, rest, by rw [List.append_assoc], by simp, .field f t k v xs x y hf (hk t rfl) hx h3⟩
      · rintro ⟨r, rest, h, rfl, hs⟩
        cases hs with
        | unknown num t k' v _ h1 h2 h3 =>
          rw [List.append_assoc] at h
          obtain ⟨rfl, rfl, rfl, rfl⟩ := key_unique hT h h1
          exact absurd rfl (h2 f hf)
        | field g t k' v _ x' y h1 h2 h3 h4 =>
          rw [List.append_assoc] at h
          obtain ⟨rfl, rfl, e, rfl⟩ := key_unique hT h h2
          have e := field_inj (hW id) hf h1 e
          subst e
          rw [hx] at h3
          cases h3
          refine ⟨some (descOf f), ?_⟩
          rw [(hR y v.length).2 ⟨v, rest, rfl, rfl, t, rfl, h4⟩, List.length_append]
          rfl
      · intro ys n l h g hg
        obtain ⟨⟨y, q⟩, h1, h2⟩ := bind_ok.1 h
        have h4 := pure_ok.1 h2
        injection h4 with h4 h5
        injection h5 with h5 h6
        rw [← h6] at hg
        cases hg
        exact ⟨f, hf, rfl⟩

omit hD hrec in
theorem recStep_typed {d : Int} {id : Nat} {r : Bytes} {xs ys : List Val} (h : RecStep S d id r xs ys)
    (ht : Typed S id (.struct xs)) : Typed S id (.struct ys) := by
  have := h.cons (rest := []) (.nil d id ys)
  exact decRecs_typed hW this ht

/-- The loop over the records. -/
theorem decodeLoop_ok (id : Nat) (d : Int) : ∀ (fuel : Nat) (b : Bytes) (xs : List Val) (last : Option FieldDesc),
    LastOK S id last → b.length ≤ fuel → b.length ≤ N → Typed S id (.struct xs) →
    (∀ ys, decodeLoop D rec (D id) d fuel b xs last = .ok ys ↔ DecRecs S d id b xs ys) ∧
    Safe (decodeLoop D rec (D id) d fuel b xs last) := by
  intro fuel
  induction fuel with
  | zero =>
    intro b xs last _ hb _ _
    have : b = [] := List.length_eq_zero_iff.1 (by omega)
    subst this
    refine ⟨fun ys => ⟨?_, ?_⟩, Safe.ok _⟩
    · intro h
      cases h
      exact .nil _ _ _
    · intro h
      rcases decRecs_cases h with ⟨_, rfl⟩ | ⟨r, rest, _, h1, h2, _⟩
      · rfl
      · have := h2.length_pos
        have := congrArg List.length h1
        simp at this; omega
  | succ fuel ih =>
    intro b xs last hlast hb hN ht
    cases b with
    | nil =>
      refine ⟨fun ys => ⟨?_, ?_⟩, Safe.ok _⟩
      · intro h
        cases h
        exact .nil _ _ _
      · intro h
        rcases decRecs_cases h with ⟨_, rfl⟩ | ⟨r, rest, _, h1, h2, _⟩
        · rfl
        · have := h2.length_pos
          have := congrArg List.length h1
          simp at this; omega
    | cons c b' =>
      generalize hcb : c :: b' = b at *
      obtain ⟨hR1, hR2, hR3⟩ := decodeRecord_ok hD hW hrec hlast hN ht d
      have he : decodeLoop D rec (D id) d (fuel + 1) b xs last = decodeRecord D rec (D id) d b xs last >>=
          fun r => decodeLoop D rec (D id) d fuel (b.drop r.2.1) r.1 r.2.2 := by
        rw [← hcb]; rfl
      rw [he]
      refine ⟨fun ys => ⟨?_, ?_⟩, ?_⟩
      · intro h
        obtain ⟨⟨zs, n, l⟩, h1, h2⟩ := bind_ok.1 h
        obtain ⟨r, rest, rfl, rfl, h3⟩ := (hR1 zs n).1 ⟨l, h1⟩
        simp only [List.drop_left] at h2
        have hp := h3.length_pos
        have hrest : rest.length ≤ fuel := by simp at hb; omega
        have hrestN : rest.length ≤ N := by simp at hN; omega
        exact h3.cons (((ih rest zs l (hR2 _ _ _ h1) hrest hrestN (recStep_typed hW h3 ht)).1 ys).1 h2)
      · intro h
        rcases decRecs_cases h with ⟨h0, _⟩ | ⟨r, rest, zs, rfl, h3, h4⟩
        · rw [h0] at hcb; cases hcb
        · obtain ⟨l, h1⟩ := (hR1 zs r.length).2 ⟨r, rest, rfl, rfl, h3⟩
          rw [h1]
          have hp := h3.length_pos
          have hrest : rest.length ≤ fuel := by simp at hb; omega
          have hrestN : rest.length ≤ N := by simp at hN; omega
          show decodeLoop D rec (D id) d fuel ((r ++ rest).drop r.length) zs l = _
          rw [List.drop_left]
          exact ((ih rest zs l (hR2 _ _ _ h1) hrest hrestN (recStep_typed hW h3 ht)).1 ys).2 h4
      · refine Safe.bind hR3 (fun ⟨zs, n, l⟩ h1 => ?_)
        obtain ⟨r, rest, rfl, rfl, h3⟩ := (hR1 zs n).1 ⟨l, h1⟩
        have hp := h3.length_pos
        have hrest : rest.length ≤ fuel := by simp at hb; omega
        have hrestN : rest.length ≤ N := by simp at hN; omega
        show Safe (decodeLoop D rec (D id) d fuel ((r ++ rest).drop r.length) zs l)
        rw [List.drop_left]
        exact (ih rest zs l (hR2 _ _ _ h1) hrest hrestN (recStep_typed hW h3 ht)).2

end

theorem lastOK_none {S : Schema} {id : Nat} : LastOK S id none := by
  intro g hg; cases hg

theorem decodeStruct_succ {D : Descs} {fuel : Nat} {d : Int} {b : Bytes} {xs xs' : List Val} {id : Nat} (hd : d ≠ 0)
    (h : resetUnknown (D id) xs = .ok xs') :
    decodeStruct D (fuel + 1) d b (.struct xs) id =
      decodeLoop D (decodeStruct D fuel) (D id) d b.length b xs' none >>= fun fs => pure (.struct fs) := by
  rw [decodeStruct, if_neg hd]
  simp only [h, bind, Except.bind]

/-- The decoder computes the decoding relation, and neither panics nor confuses types. -/
theorem decodeStruct_ok {D : Descs} {S : Schema} (hD : DescOK D S) (hW : S.WF) :
    ∀ fuel, DecOK S (decodeStruct D fuel) fuel := by
  intro fuel
  induction fuel with
  | zero => intro d b v id hb; omega
  | succ fuel ih =>
    intro d b v id hb ht
    cases ht with
    | mk _ xs h1 h2 h3 =>
      have ht : Typed S id (.struct xs) := .mk _ _ h1 h2 h3
      by_cases hd : d = 0
      · have he : decodeStruct D (fuel + 1) d b (.struct xs) id = .error .maxDepth := by
          rw [decodeStruct, if_pos hd]
        rw [he]
        refine ⟨fun w => ⟨fun h => (by cases h), ?_⟩, Safe.err nofun nofun⟩
        intro h
        cases h with | mk _ _ _ _ _ h0 _ => exact absurd hd h0
      · rw [decodeStruct_succ hd (reset_eq hD hW ht)]
        obtain ⟨hL1, hL2⟩ := decodeLoop_ok hD hW ih id d b.length b (clearUnknown (S id) xs) none lastOK_none
          (Nat.le_refl _) (by omega) (typed_clear (hW id) ht)
        refine ⟨fun w => ⟨?_, ?_⟩, Safe.bind hL2 (fun _ _ => Safe.ok _)⟩
        · intro h
          obtain ⟨ys, h1, h2⟩ := bind_ok.1 h
          have := pure_ok.1 h2
          subst this
          exact .mk _ _ _ _ _ hd ((hL1 ys).1 h1)
        · intro h
          cases h with
          | mk _ _ _ _ ys _ h => rw [(hL1 ys).2 h]; rfl

end Verif.Lemmas
