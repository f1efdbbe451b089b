import Verif.Model.DecodeLeft
import Verif.Spec.Left
import Verif.Lemmas.Steps
/-! Helper lemmas: what a failing decoder leaves behind. -/
namespace Verif.Lemmas
open Verif.Model Verif.Spec

/-- The nested calls: when they fail they leave what the specification says, and a value of the type. -/
def LeftOK (S : Schema) (dec : DecRec) (lrec : LeftFn) (N : Nat) : Prop :=
  ∀ d b v id e, b.length < N → Typed S id v → dec d b v id = .error e →
    LeftMsg S d id b v (lrec d b v id) ∧ Typed S id (lrec d b v id)

theorem allocJ_scalar (D : Descs) {S : Schema} {J : Junk} (hJ : JunkTyped J) (b : Bytes) (s : Scalar) :
    JustAllocated S s (allocJ D J b s.goType) := by
  have h := hJ b s
  cases s <;> first
    | exact ⟨h, fun h => by cases h⟩
    | exact ⟨rfl, fun _ => rfl⟩

section
variable {D : Descs} {S : Schema} (hD : DescOK D S) (hW : S.WF) {J : Junk} (hJ : JunkTyped J)
  {dec : DecRec} {lrec : LeftFn} {N : Nat} (hrec : LeftOK S dec lrec N)

theorem leftValue_scalar (lrec : LeftFn) (f : FieldDesc) (s : Scalar) (typ : WType) (b : Bytes) (cur : Val) (d : Int) :
    leftValueAt lrec f s.goType typ b cur d = cur := by
  unfold leftValueAt
  split
  · split
    · cases s <;> rfl
    · rfl
  · rfl

/-- A nested message. -/
theorem leftValue_msg (hrec : LeftOK S dec lrec N) (f : FieldDesc) (id : Nat) {typ : WType} {b : Bytes} (hb : b.length < N) {cur : Val}
    (hc : Typed S id cur) (d : Int) {e : Fault} (he : lenThen typ b (fun fb => dec (d - 1) fb cur id) = .error e) :
    LeftSub S d id typ b cur (leftValueAt lrec f (.struct id) typ b cur d) ∧
      Typed S id (leftValueAt lrec f (.struct id) typ b cur d) := by
  by_cases ht : typ = 2
  · subst ht
    have hl : leftValueAt lrec f (.struct id) 2 b cur d = match consumeBytes b with
      | .ok (fb, _) => lrec (d - 1) fb cur id
      | .error _ => cur := rfl
    rw [hl]
    cases hc' : consumeBytes b with
    | error e' =>
      refine ⟨.cut _ _ _ _ _ (.inr ?_), hc⟩
      rintro blk rest p rfl hp
      rw [consumeBytes_isLen hp rest] at hc'
      cases hc'
    | ok a =>
      obtain ⟨p, n⟩ := a
      obtain ⟨blk, rest, rfl, hp, rfl⟩ := consumeBytes_sound_isLen hc'
      have hlen := isLen_length hp
      have hN : p.length < N := by simp at hb; omega
      have he' : ∃ e', dec (d - 1) p cur id = .error e' := by
        unfold lenThen at he
        rw [if_pos (show (2 : WType) = tBytes from rfl), hc'] at he
        simp only [liftP, bind, Except.bind] at he
        cases hx : dec (d - 1) p cur id with
        | error e' => exact ⟨_, rfl⟩
        | ok w => rw [hx] at he; cases he
      obtain ⟨e', he'⟩ := he'
      obtain ⟨h1, h2⟩ := hrec (d - 1) p cur id e' hN hc he'
      exact ⟨.inside _ _ _ _ _ _ _ hp h1, h2⟩
  · have hl : leftValueAt lrec f (.struct id) typ b cur d = cur := by
      unfold leftValueAt
      split
      · exact absurd rfl ht
      · rfl
    rw [hl]
    exact ⟨.cut _ _ _ _ _ (.inl ht), hc⟩

theorem leftMap_kept {x : Val} : MapKept x (leftMap x) := by
  cases x with
  | map m => cases m with
    | none => exact .inr ⟨rfl, rfl⟩
    | some m => exact .inl rfl
  | _ => exact .inl rfl

theorem leftValue_map (lrec : LeftFn) (f : FieldDesc) (kt vt : GoType) (typ : WType) (b : Bytes) (cur : Val) (d : Int) :
    MapKept cur (leftValueAt lrec f (.map kt vt) typ b cur d) ∧
      (f.decodeMap.isSome → leftValueAt lrec f (.map kt vt) typ b cur d = cur) := by
  unfold leftValueAt
  split
  · split
    · unfold leftLenAt
      simp only
      split
      · exact ⟨.inl rfl, fun _ => rfl⟩
      · rename_i hn
        split
        · exact ⟨leftMap_kept, fun h => by rw [hn] at h; cases h⟩
        · exact ⟨.inl rfl, fun _ => rfl⟩
    · exact ⟨.inl rfl, fun _ => rfl⟩
  · exact ⟨.inl rfl, fun _ => rfl⟩

theorem mapKept_typed {k v : Scalar} {x y : Val} (h : MapKept x y) (hx : ShapeTyped S (.map k v) x) : ShapeTyped S (.map k v) y := by
  rcases h with rfl | ⟨rfl, rfl⟩
  · exact hx
  · exact .map _ _ _ .nil (fun _ h => by cases h)

theorem mapKept_typedMsg {k : Scalar} {id : Nat} {p : Bool} {x y : Val} (h : MapKept x y) (hx : ShapeTyped S (.mapMsg k id p) x) :
    ShapeTyped S (.mapMsg k id p) y := by
  rcases h with rfl | ⟨rfl, rfl⟩
  · exact hx
  · exact .mapMsg _ _ _ _ .nil (fun _ h => by cases h) (fun _ h => by cases h)

theorem bind_pure_error {r : Res (Val × Nat)} {g : Val × Nat → Val × Nat} {e : Fault}
    (h : (r >>= fun x => pure (g x)) = .error e) : r = .error e := by
  cases r with
  | error e' => exact h
  | ok a => cases h

include hD hW hJ hrec in
/-- A record of a field of a given shape. -/
theorem leftPtr_ok (n sl : Nat) (m : Option Nat) {sh : Shape} (hl : sh.legal = true) (typ : WType) {b : Bytes} (hb : b.length < N)
    {cur cur' : Val} (hc : ShapeTyped S sh cur) (hcc : (∃ s, sh = .single s) ∨ cur' = cur) (d : Int) {e : Fault}
    (he : decodePtr D dec (descOf ⟨n, sl, m, sh⟩) typ b cur' d = .error e) :
    LeftShape S d sh typ b cur (leftPtr D J lrec (descOf ⟨n, sl, m, sh⟩) typ b cur d) ∧
      ShapeTyped S sh (leftPtr D J lrec (descOf ⟨n, sl, m, sh⟩) typ b cur d) := by
  cases sh with
  | single s =>
    have h1 : leftPtr D J lrec (descOf ⟨n, sl, m, .single s⟩) typ b cur d = cur := by
      have : leftPtr D J lrec (descOf ⟨n, sl, m, .single s⟩) typ b cur d
          = leftValueAt lrec (descOf ⟨n, sl, m, .single s⟩) s.goType typ b cur d := by
        rw [descOf_single]; cases s <;> rfl
      rw [this, leftValue_scalar]
    rw [h1]
    exact ⟨.single _ _ _ _ _, hc⟩
  | optional s =>
    have h1 : leftPtr D J lrec (descOf ⟨n, sl, m, .optional s⟩) typ b cur d = .ptr (some (allocJ D J b s.goType)) := by
      have : leftPtr D J lrec (descOf ⟨n, sl, m, .optional s⟩) typ b cur d
          = .ptr (some (leftValueAt lrec (descOf ⟨n, sl, m, .optional s⟩) s.goType typ b (allocJ D J b s.goType) d)) := by
        rw [descOf_optional]; cases s <;> rfl
      rw [this, leftValue_scalar]
    rw [h1]
    have h2 := allocJ_scalar D (S := S) hJ b s
    exact ⟨.optional _ _ _ _ _ _ h2, .optional _ _ h2.1⟩
  | list s p =>
    obtain ⟨xs, rfl⟩ : ∃ xs, cur = .slice xs := by cases hc; exact ⟨_, rfl⟩
    have helem : ∀ f : FieldDesc, leftElem D J lrec f s.goType typ b d = J b s.goType := by
      intro f
      have : leftElem D J lrec f s.goType typ b d = leftValueAt lrec f s.goType typ b (J b s.goType) d := by
        cases s <;> rfl
      rw [this, leftValue_scalar]
    have htyp : ShapeTyped S (.list s p) (.slice (xs ++ [J b s.goType])) := by
      refine .list _ _ _ (fun v hv => ?_)
      rcases List.mem_append.1 hv with hv | hv
      · cases hc with | list _ _ _ h => exact h v hv
      · rw [List.mem_singleton.1 hv]; exact hJ b s
    cases p with
    | false =>
      have h1 : leftPtr D J lrec (descOf ⟨n, sl, m, .list s false⟩) typ b (.slice xs) d = .slice (xs ++ [J b s.goType]) := by
        rw [descOf_list]
        unfold leftPtr leftRep
        simp only [helem]
        exact if_neg (by simp)
      rw [h1]
      exact ⟨.elem _ _ _ _ _ _ _ (fun _ => rfl) (hJ b s), htyp⟩
    | true =>
      have h1 : leftPtr D J lrec (descOf ⟨n, sl, m, .list s true⟩) typ b (.slice xs) d
          = if typ = 2 then .slice xs else .slice (xs ++ [J b s.goType]) := by
        rw [descOf_packed _ _ _ _ (by simpa [Shape.legal] using hl)]
        unfold leftPtr leftRep
        simp only [helem, and_true]
        rfl
      rw [h1]
      by_cases ht : typ = 2
      · subst ht; rw [if_pos rfl]; exact ⟨.packed _ _ _ _, hc⟩
      · rw [if_neg ht]
        exact ⟨.elem _ _ _ _ _ _ _ (fun h => absurd h ht) (hJ b s), htyp⟩
  | msg id p =>
    cases p with
    | true =>
      rw [ptr_msgPtr] at he
      have he := bind_pure_error he
      rw [hD.empty id] at he
      have h1 : leftPtr D J lrec (descOf ⟨n, sl, m, .msg id true⟩) typ b cur d
          = .ptr (some (leftValueAt lrec (descOf ⟨n, sl, m, .msg id true⟩) (.struct id) typ b (S id).zero d)) := by
        rw [← hD.empty id, descOf_msg]; rfl
      obtain ⟨h2, h3⟩ := leftValue_msg hrec (descOf ⟨n, sl, m, .msg id true⟩) id hb (typed_zero hW id) d he
      rw [h1]
      exact ⟨.msgPtr _ _ _ _ _ _ h2, .msg _ _ _ (.ptr _ _ h3)⟩
    | false =>
      have hcc : cur' = cur := by rcases hcc with ⟨s, h⟩ | h; cases h; exact h
      subst hcc
      rw [ptr_msgInline] at he
      have h1 : leftPtr D J lrec (descOf ⟨n, sl, m, .msg id false⟩) typ b cur' d
          = leftValueAt lrec (descOf ⟨n, sl, m, .msg id false⟩) (.struct id) typ b cur' d := by
        rw [descOf_msg]; rfl
      have hty : Typed S id cur' := by
        cases hc with | msg _ _ _ h => cases h with | inline _ _ h => exact h
      obtain ⟨h2, h3⟩ := leftValue_msg hrec (descOf ⟨n, sl, m, .msg id false⟩) id hb hty d he
      rw [h1]
      exact ⟨.msgInline _ _ _ _ _ _ h2, .msg _ _ _ (.inline _ _ h3)⟩
  | msgList id p =>
    obtain ⟨xs, rfl⟩ : ∃ xs, cur = .slice xs := by cases hc; exact ⟨_, rfl⟩
    have hcc : cur' = .slice xs := by rcases hcc with ⟨s, h⟩ | h; cases h; exact h
    subst hcc
    have hx : ∀ v ∈ xs, RefTyped S id p v := by cases hc with | msgList _ _ _ h => exact h
    cases p with
    | true =>
      rw [ptr_msgListPtr] at he
      have he := bind_pure_error (r := lenThen typ b (fun fb => dec (d - 1) fb (D id).empty id)) he
      rw [hD.empty id] at he
      have h1 : leftPtr D J lrec (descOf ⟨n, sl, m, .msgList id true⟩) typ b (.slice xs) d
          = .slice (xs ++ [wrapMsg true (leftValueAt lrec (descOf ⟨n, sl, m, .msgList id true⟩) (.struct id) typ b (S id).zero d)]) := by
        rw [← hD.empty id, descOf_msgList]
        unfold leftPtr leftRep
        exact if_neg (by simp)
      obtain ⟨h2, h3⟩ := leftValue_msg hrec (descOf ⟨n, sl, m, .msgList id true⟩) id hb (typed_zero hW id) d he
      rw [h1]
      refine ⟨.msgElem _ _ _ _ _ _ _ h2, .msgList _ _ _ (fun v hv => ?_)⟩
      rcases List.mem_append.1 hv with hv | hv
      · exact hx v hv
      · rw [List.mem_singleton.1 hv]; exact .ptr _ _ h3
    | false =>
      rw [ptr_msgListInline] at he
      have he := bind_pure_error (r := lenThen typ b (fun fb => dec (d - 1) fb (D id).empty id)) he
      rw [hD.empty id] at he
      have h1 : leftPtr D J lrec (descOf ⟨n, sl, m, .msgList id false⟩) typ b (.slice xs) d
          = .slice (xs ++ [wrapMsg false (leftValueAt lrec (descOf ⟨n, sl, m, .msgList id false⟩) (.struct id) typ b (S id).zero d)]) := by
        rw [← hD.empty id, descOf_msgList]
        unfold leftPtr leftRep
        exact if_neg (by simp)
      obtain ⟨h2, h3⟩ := leftValue_msg hrec (descOf ⟨n, sl, m, .msgList id false⟩) id hb (typed_zero hW id) d he
      rw [h1]
      refine ⟨.msgElem _ _ _ _ _ _ _ h2, .msgList _ _ _ (fun v hv => ?_)⟩
      rcases List.mem_append.1 hv with hv | hv
      · exact hx v hv
      · rw [List.mem_singleton.1 hv]; exact .inline _ _ h3
  | map k v =>
    have h1 : leftPtr D J lrec (descOf ⟨n, sl, m, .map k v⟩) typ b cur d
        = leftValueAt lrec (descOf ⟨n, sl, m, .map k v⟩) (.map k.goType v.goType) typ b cur d := by
      rw [descOf_map]; rfl
    rw [h1]
    obtain ⟨h2, h3⟩ := leftValue_map lrec (descOf ⟨n, sl, m, .map k v⟩) k.goType v.goType typ b cur d
    refine ⟨?_, mapKept_typed h2 hc⟩
    cases hf : fastPair k v with
    | false => exact .map _ _ _ _ _ _ _ hf h2
    | true =>
      rw [h3 (by rw [descOf_map]; simp only [fastPair_iff, hf]; rfl)]
      exact .mapFast _ _ _ _ _ _ hf
  | mapMsg k id p =>
    have h1 : leftPtr D J lrec (descOf ⟨n, sl, m, .mapMsg k id p⟩) typ b cur d
        = leftValueAt lrec (descOf ⟨n, sl, m, .mapMsg k id p⟩) (.map k.goType (msgType id p)) typ b cur d := by
      rw [descOf_mapMsg]; rfl
    rw [h1]
    obtain ⟨h2, h3⟩ := leftValue_map lrec (descOf ⟨n, sl, m, .mapMsg k id p⟩) k.goType (msgType id p) typ b cur d
    exact ⟨.mapMsg _ _ _ _ _ _ _ _ h2, mapKept_typedMsg h2 hc⟩

theorem memberStart_alloc (hD : DescOK D S) (hW : S.WF) (hJ : JunkTyped J) {f : Field}
    (hm : (∃ s, f.shape = .single s) ∨ (∃ id p, f.shape = .msg id p)) (b : Bytes) :
    MemberStart S f.shape (allocJ D J b (descOf f).t) ∧ ShapeTyped S f.shape (allocJ D J b (descOf f).t) ∧
      ((∃ s, f.shape = .single s) ∨ alloc D (descOf f).t = allocJ D J b (descOf f).t) := by
  obtain ⟨n, sl, m, sh⟩ := f
  dsimp only at hm ⊢
  rcases hm with ⟨s, rfl⟩ | ⟨id, p, rfl⟩
  · have : (descOf ⟨n, sl, m, .single s⟩).t = s.goType := by rw [descOf_single]
    rw [this]
    have h := allocJ_scalar D (S := S) hJ b s
    exact ⟨h, .single _ _ h.1, .inl ⟨s, rfl⟩⟩
  · have h : allocJ D J b (descOf ⟨n, sl, m, .msg id p⟩).t = Shape.zero S (.msg id p) := by
      cases p with
      | true => rfl
      | false => exact hD.empty id
    refine ⟨h, by rw [h]; exact shapeTyped_zero hW _, .inr ?_⟩
    cases p <;> rfl

include hD hW hJ hrec in
/-- A record of a declared field. -/
theorem leftField_ok {f : Field} (hl : f.shape.legal = true)
    (hm : f.member ≠ none → (∃ s, f.shape = .single s) ∨ (∃ id p, f.shape = .msg id p)) (typ : WType) {b : Bytes}
    (hb : b.length < N) {cur : Val} (hc : FieldTyped S f cur) (d : Int) {e : Fault}
    (he : decodeField D dec (descOf f) typ b cur d = .error e) :
    LeftField S d f typ b cur (leftField D J lrec (descOf f) typ b cur d) ∧
      FieldTyped S f (leftField D J lrec (descOf f) typ b cur d) ∧
      (f.member = none ∨ ∃ w y, f.member = some w ∧ leftField D J lrec (descOf f) typ b cur d = .iface (some (w, some y))) := by
  cases hf : f.member with
  | none =>
    have e1 : decodeField D dec (descOf f) typ b cur d = decodePtr D dec (descOf f) typ b cur d := by
      unfold decodeField; rw [descOf_oneof, hf]
    have e2 : leftField D J lrec (descOf f) typ b cur d = leftPtr D J lrec (descOf f) typ b cur d := by
      unfold leftField; rw [descOf_oneof, hf]
    rw [e1] at he
    rw [e2]
    obtain ⟨h1, h2⟩ := leftPtr_ok hD hW hJ hrec f.num f.slot f.member hl typ hb (typed_plain hf hc) (.inr rfl) d he
    exact ⟨.plain _ _ _ _ _ _ hf h1, .plain _ _ hf h2, .inl rfl⟩
  | some w =>
    obtain ⟨o, rfl⟩ := typed_member hf hc
    have e1 : decodeField D dec (descOf f) typ b (.iface o) d
        = decodePtr D dec (descOf f) typ b (alloc D (descOf f).t) d
          >>= fun x => pure (.iface (some (w, some x.1)), x.2) := by
      unfold decodeField; rw [descOf_oneof, hf]
    have e2 : leftField D J lrec (descOf f) typ b (.iface o) d
        = .iface (some (w, some (leftPtr D J lrec (descOf f) typ b (allocJ D J b (descOf f).t) d))) := by
      unfold leftField; rw [descOf_oneof, hf]
    rw [e1] at he
    rw [e2]
    obtain ⟨h1, h2, h3⟩ := memberStart_alloc hD hW hJ (hm (by rw [hf]; nofun)) b
    obtain ⟨h4, h5⟩ := leftPtr_ok hD hW hJ hrec f.num f.slot f.member hl typ hb h2 h3 d
      (bind_pure_error (g := fun x => (.iface (some (w, some x.1)), x.2)) he)
    exact ⟨.member _ _ _ _ _ _ _ _ hf h1 h4, .member _ _ _ hf h5, .inr ⟨w, _, rfl, rfl⟩⟩

/-- A key determines what the tag reader returns. -/
theorem startsField_tag {k post : Bytes} {num typ : Nat} (h : StartsField k num typ) (h1 : 1 ≤ num) (h2 : num < 2 ^ 31) :
    consumeTag (k ++ post) = .ok ((num : Int), typ, k.length) := by
  obtain ⟨m, h3, rfl, rfl⟩ := h
  exact consumeTag_of_isVarint post h3.1 h3.2.1 (by omega) (by omega)

include hD hW hJ hrec in
/-- The record that fails. -/
theorem leftRecord_ok {id : Nat} {last : Option FieldDesc} (hlast : LastOK S id last) {b : Bytes}
    (hb : b.length ≤ N) {xs : List Val} (ht : Typed S id (.struct xs)) (d : Int) {e : Fault}
    (he : decodeRecord D dec (D id) d b xs last = .error e) :
    LeftRec S d id b xs (leftRecord D J lrec (D id) d b xs last) ∧
      Typed S id (.struct (leftRecord D J lrec (D id) d b xs last)) := by
  have hnums := (hW id).nums
  cases hT : consumeTag b with
  | error e' =>
    have h1 : leftRecord D J lrec (D id) d b xs last = xs := by
      unfold leftRecord; rw [hT]
    rw [h1]
    refine ⟨.undeclared _ _ _ _ ?_, ht⟩
    rintro f hf k post typ rfl hk
    rw [startsField_tag hk (hnums f hf).1 (hnums f hf).2] at hT
    cases hT
  | ok a =>
    obtain ⟨num, typ, n0⟩ := a
    obtain ⟨k, post, m, rfl, rfl, rfl, hm1, hm2, hk⟩ := consumeTag_sound_key hT
    have hkk : StartsField k m typ ∧ 0 < k.length := by
      obtain ⟨pre, post', m', g1, g2, g3, g4, g5, g6, g7, g8⟩ := consumeTag_sound hT
      obtain ⟨rfl, rfl⟩ := List.append_inj g1 g4
      exact ⟨⟨m', ⟨g2, g3, by omega⟩, by omega, g8.symm⟩, IsVarint.length_pos g2⟩
    have hpost : post.length < N := by simp at hb; omega
    have hl := lookup_eq hD hW hlast hm2
    cases hfind : (S id).fields.find? (fun f => f.num == m) with
    | none =>
      have hund : ∀ f ∈ (S id).fields, f.num ≠ m := by
        intro f hf
        have := List.find?_eq_none.1 hfind f hf
        simpa using this
      rw [hfind, Option.map_none] at hl
      have h1 : leftRecord D J lrec (D id) d (k ++ post) xs last = xs := by
        unfold leftRecord; rw [hT]; simp only [hl]
      rw [h1]
      refine ⟨.undeclared _ _ _ _ ?_, ht⟩
      intro f hf k' post' typ' h2 h3
      rw [h2, startsField_tag h3 (hnums f hf).1 (hnums f hf).2] at hT
      injection hT with hT
      injection hT with h4 _
      exact hund f hf (by omega)
    | some f =>
      have hf := List.mem_of_find?_eq_some hfind
      have hfn : f.num = m := by simpa using List.find?_some hfind
      subst hfn
      obtain ⟨x, hx, hft⟩ := typed_slot hW ht hf
      rw [hfind, Option.map_some] at hl
      rw [record_field hD hW hlast hm2 hT d hfind hx] at he
      have he' : decodeField D dec (descOf f) typ post x d = .error e := by
        cases h : decodeField D dec (descOf f) typ post x d with
        | error e' => rw [h] at he; cases he; rfl
        | ok a => rw [h] at he; cases he
      have h1 : leftRecord D J lrec (D id) d (k ++ post) xs last
          = xs.set f.slot (leftField D J lrec (descOf f) typ post x d) := by
        unfold leftRecord; rw [hT]; simp only [hl, descOf_slot, hx, List.drop_left]
      rw [h1]
      obtain ⟨h2, h3, h4⟩ := leftField_ok hD hW hJ hrec ((hW id).legal f hf) ((hW id).members f hf) typ hpost hft d he'
      exact ⟨.field _ _ _ _ _ _ _ _ _ hf hkk.1 hx h2, typed_set_field (hW id) ht hf h3 h4⟩

include hD hW hJ hrec in
/-- The loop. -/
theorem leftLoop_ok (hdec : DecOK S dec N) (id : Nat) (d : Int) : ∀ (fuel : Nat) (b : Bytes) (xs : List Val) (last : Option FieldDesc) (e : Fault),
    LastOK S id last → b.length ≤ fuel → b.length ≤ N → Typed S id (.struct xs) →
    decodeLoop D dec (D id) d fuel b xs last = .error e →
    ∃ pre rest ys, b = pre ++ rest ∧ rest ≠ [] ∧ DecRecs S d id pre xs ys ∧
      (∀ pre' suf ws, b = pre' ++ suf → DecRecs S d id pre' xs ws → pre'.length ≤ pre.length) ∧
      LeftRec S d id rest ys (leftLoop D J dec lrec (D id) d fuel b xs last) ∧
      Typed S id (.struct (leftLoop D J dec lrec (D id) d fuel b xs last)) := by
  intro fuel
  induction fuel with
  | zero =>
    intro b xs last e _ hb _ _ he
    have : b = [] := List.length_eq_zero_iff.1 (by omega)
    subst this
    cases he
  | succ fuel ih =>
    intro b xs last e hlast hb hN ht he
    cases b with
    | nil => cases he
    | cons c b' =>
      generalize hcb : c :: b' = b at *
      obtain ⟨hR1, hR2, hR3⟩ := decodeRecord_ok hD hW hdec hlast hN ht d
      have e1 : decodeLoop D dec (D id) d (fuel + 1) b xs last = decodeRecord D dec (D id) d b xs last >>=
          fun r => decodeLoop D dec (D id) d fuel (b.drop r.2.1) r.1 r.2.2 := by
        rw [← hcb]; rfl
      have e2 : leftLoop D J dec lrec (D id) d (fuel + 1) b xs last = match decodeRecord D dec (D id) d b xs last with
          | .ok (fs, n, last) => leftLoop D J dec lrec (D id) d fuel (b.drop n) fs last
          | .error _ => leftRecord D J lrec (D id) d b xs last := by
        rw [← hcb]; rfl
      rw [e1] at he
      rw [e2]
      cases hr : decodeRecord D dec (D id) d b xs last with
      | error e' =>
        obtain ⟨h1, h2⟩ := leftRecord_ok hD hW hJ hrec hlast hN ht d hr
        refine ⟨[], b, xs, rfl, by rw [← hcb]; nofun, .nil _ _ _, ?_, h1, h2⟩
        intro pre' suf ws h3 h4
        rcases decRecs_cases h4 with ⟨rfl, _⟩ | ⟨r, rest, zs, rfl, h5, _⟩
        · exact Nat.le_refl _
        · rw [List.append_assoc] at h3
          obtain ⟨l, h6⟩ := (hR1 zs r.length).2 ⟨r, rest ++ suf, h3, rfl, h5⟩
          rw [hr] at h6; cases h6
      | ok a =>
        obtain ⟨zs, n, l⟩ := a
        rw [hr] at he
        obtain ⟨r, rest, rfl, rfl, h3⟩ := (hR1 zs n).1 ⟨l, hr⟩
        have he : decodeLoop D dec (D id) d fuel ((r ++ rest).drop r.length) zs l = .error e := he
        simp only [List.drop_left] at he ⊢
        have hp := h3.length_pos
        obtain ⟨pre, rest', ys, rfl, h4, h5, h6, h7, h8⟩ := ih rest zs l e (hR2 _ _ _ hr) (by simp at hb; omega) (by simp at hN; omega)
          (recStep_typed hW h3 ht) he
        refine ⟨r ++ pre, rest', ys, by rw [List.append_assoc], h4, h3.cons h5, ?_, h7, h8⟩
        intro pre' suf ws h9 h10
        rcases decRecs_cases h10 with ⟨rfl, _⟩ | ⟨r', rest'', zs', rfl, h11, h12⟩
        · simp
        · rw [List.append_assoc] at h9
          obtain ⟨l', h13⟩ := (hR1 zs' r'.length).2 ⟨r', rest'' ++ suf, h9, rfl, h11⟩
          rw [hr] at h13
          injection h13 with h13
          injection h13 with h14 h15
          injection h15 with h15 _
          obtain ⟨rfl, h16⟩ := List.append_inj h9 h15
          subst h14
          have := h6 rest'' suf ws h16 h12
          simp; omega

end

/-- A failing decoder leaves what the specification says. -/
theorem leftStruct_ok {D : Descs} {S : Schema} (hD : DescOK D S) (hW : S.WF) {J : Junk} (hJ : JunkTyped J) :
    ∀ fuel, LeftOK S (decodeStruct D fuel) (leftStruct D J fuel) fuel := by
  intro fuel
  induction fuel with
  | zero => intro d b v id e hb; omega
  | succ fuel ih =>
    intro d b v id e hb ht he
    cases ht with
    | mk _ xs h1 h2 h3 =>
      have ht : Typed S id (.struct xs) := .mk _ _ h1 h2 h3
      by_cases hd : d = 0
      · have e1 : leftStruct D J (fuel + 1) d b (.struct xs) id = .struct xs := by
          rw [leftStruct, if_pos hd]
        rw [e1]
        subst hd
        exact ⟨.tooDeep _ _ _, ht⟩
      · have hr := reset_eq hD hW ht
        rw [decodeStruct_succ hd hr] at he
        have he' : decodeLoop D (decodeStruct D fuel) (D id) d b.length b (clearUnknown (S id) xs) none = .error e := by
          cases h : decodeLoop D (decodeStruct D fuel) (D id) d b.length b (clearUnknown (S id) xs) none with
          | error e' => rw [h] at he; cases he; rfl
          | ok a => rw [h] at he; cases he
        obtain ⟨pre, rest, ys, rfl, h4, h5, h6, h7, h8⟩ := leftLoop_ok hD hW hJ ih (decodeStruct_ok hD hW fuel) id d _ _ _ none e lastOK_none
          (Nat.le_refl _) (by omega) (typed_clear (hW id) ht) he'
        have e1 : leftStruct D J (fuel + 1) d (pre ++ rest) (.struct xs) id
            = .struct (leftLoop D J (decodeStruct D fuel) (leftStruct D J fuel) (D id) d (pre ++ rest).length (pre ++ rest)
                (clearUnknown (S id) xs) none) := by
          rw [leftStruct, if_neg hd]; simp only [hr]
        rw [e1]
        exact ⟨.stops _ _ _ _ _ _ _ hd h4 h5 h6 h7, h8⟩

/-! ## when the uninitialised memory does not show -/

section
variable {D : Descs} {S : Schema} {J J' : Junk}

theorem leftField_settled {f : Field} (hf : Settled f) (lrec : LeftFn) (typ : WType) (b : Bytes) (cur : Val) (d : Int) :
    leftField D J lrec (descOf f) typ b cur d = leftField D J' lrec (descOf f) typ b cur d := by
  obtain ⟨n, sl, m, sh⟩ := f
  cases sh with
  | single s =>
    rw [descOf_single]
    cases m with
    | none => cases s <;> rfl
    | some w =>
      rcases hf with h | h
      · cases h
      · cases s <;> first | cases h; done | rfl
  | optional s =>
    have hf : s.packable = false := hf
    rw [descOf_optional]
    cases m <;> cases s <;> first | cases hf; done | rfl
  | list s p => exact absurd hf (by simp [Settled])
  | msg id p => rw [descOf_msg]; cases m <;> cases p <;> rfl
  | msgList id p =>
    rw [descOf_msgList]
    cases m <;> cases p <;> rfl
  | map k v => rw [descOf_map]; cases m <;> rfl
  | mapMsg k id p => rw [descOf_mapMsg]; cases m <;> rfl

theorem lookup_declared (hD : DescOK D S) (hW : S.WF) {id : Nat} {last : Option FieldDesc} (hlast : LastOK S id last) {b : Bytes}
    {num : Int} {typ n : Nat} (hT : consumeTag b = .ok (num, typ, n)) {g : FieldDesc} (hg : lookupField (D id) last num = some g) :
    ∃ f ∈ (S id).fields, g = descOf f := by
  obtain ⟨k, post, m, _, _, rfl, _, hm2, _⟩ := consumeTag_sound_key hT
  rw [lookup_eq hD hW hlast hm2] at hg
  cases hfind : (S id).fields.find? (fun f => f.num == m) with
  | none => rw [hfind] at hg; cases hg
  | some f => rw [hfind] at hg; cases hg; exact ⟨f, List.mem_of_find?_eq_some hfind, rfl⟩

theorem record_last (hD : DescOK D S) (hW : S.WF) {dec : DecRec} {id : Nat} {last : Option FieldDesc} (hlast : LastOK S id last)
    {d : Int} {b : Bytes} {xs ys : List Val} {n : Nat} {l : Option FieldDesc}
    (h : decodeRecord D dec (D id) d b xs last = .ok (ys, n, l)) : LastOK S id l := by
  unfold decodeRecord at h
  obtain ⟨⟨num, typ, k⟩, h1, h2⟩ := bind_ok.1 h
  have h1 := liftP_ok.1 h1
  cases hg : lookupField (D id) last num with
  | none =>
    simp only [hg] at h2
    obtain ⟨q, _, h3⟩ := bind_ok.1 h2
    obtain ⟨fs, _, h4⟩ := bind_ok.1 h3
    have h5 := pure_ok.1 h4
    injection h5 with _ h5
    injection h5 with _ h5
    subst h5
    exact lastOK_none
  | some g =>
    simp only [hg] at h2
    obtain ⟨f, hf, rfl⟩ := lookup_declared hD hW hlast h1 hg
    cases hx : xs[(descOf f).slot]? with
    | none => simp only [hx] at h2; cases h2
    | some x =>
      simp only [hx] at h2
      obtain ⟨q, _, h4⟩ := bind_ok.1 h2
      have h5 := pure_ok.1 h4
      injection h5 with _ h5
      injection h5 with _ h5
      subst h5
      intro g hg
      cases hg
      exact ⟨f, hf, rfl⟩

theorem leftLoop_settled (hD : DescOK D S) (hW : S.WF) {id : Nat} (hset : ∀ f ∈ (S id).fields, Settled f) (dec : DecRec) (lrec : LeftFn)
    (d : Int) : ∀ (fuel : Nat) (b : Bytes) (xs : List Val) (last : Option FieldDesc), LastOK S id last →
    leftLoop D J dec lrec (D id) d fuel b xs last = leftLoop D J' dec lrec (D id) d fuel b xs last := by
  intro fuel
  induction fuel with
  | zero => intro b xs last _; cases b <;> rfl
  | succ fuel ih =>
    intro b xs last hlast
    cases b with
    | nil => rfl
    | cons c b =>
      show (match decodeRecord D dec (D id) d (c :: b) xs last with
        | .ok (fs, n, last) => leftLoop D J dec lrec (D id) d fuel ((c :: b).drop n) fs last
        | .error _ => leftRecord D J lrec (D id) d (c :: b) xs last) = (match decodeRecord D dec (D id) d (c :: b) xs last with
        | .ok (fs, n, last) => leftLoop D J' dec lrec (D id) d fuel ((c :: b).drop n) fs last
        | .error _ => leftRecord D J' lrec (D id) d (c :: b) xs last)
      cases hr : decodeRecord D dec (D id) d (c :: b) xs last with
      | ok a =>
        obtain ⟨fs, n, l⟩ := a
        exact ih _ _ _ (record_last hD hW hlast hr)
      | error e =>
        unfold leftRecord
        dsimp only
        cases hT : consumeTag (c :: b) with
        | error e => rfl
        | ok a =>
          obtain ⟨num, typ, n⟩ := a
          dsimp only
          cases hg : lookupField (D id) last num with
          | none => rfl
          | some g =>
            obtain ⟨f, hf, rfl⟩ := lookup_declared hD hW hlast hT hg
            dsimp only
            cases xs[(descOf f).slot]? with
            | none => rfl
            | some x => exact congrArg _ (leftField_settled (hset f hf) _ _ _ _ _)

theorem leftStruct_settled (hD : DescOK D S) (hW : S.WF) (hset : ∀ id, ∀ f ∈ (S id).fields, Settled f) : ∀ (fuel : Nat),
    leftStruct D J fuel = leftStruct D J' fuel := by
  intro fuel
  induction fuel with
  | zero => rfl
  | succ fuel ih =>
    funext d b v id
    cases v with
    | struct fs =>
      rw [leftStruct, leftStruct, ih]
      split
      · rfl
      · cases resetUnknown (D id) fs with
        | error e => rfl
        | ok fs' => exact congrArg _ (leftLoop_settled hD hW (hset id) _ _ _ _ _ _ _ lastOK_none)
    | _ => rfl
end

/-- After a call that does not fail the message is the one `DecodeStruct` returns. -/
theorem leftLoop_of_ok {D : Descs} {J : Junk} {dec : DecRec} {lrec : LeftFn} {s : StructDesc} {d : Int} : ∀ (fuel : Nat) (b : Bytes)
    (xs : List Val) (last : Option FieldDesc) (ys : List Val), decodeLoop D dec s d fuel b xs last = .ok ys →
    leftLoop D J dec lrec s d fuel b xs last = ys := by
  intro fuel
  induction fuel with
  | zero =>
    intro b xs last ys h
    cases b with
    | nil => cases h; rfl
    | cons c b => cases h
  | succ fuel ih =>
    intro b xs last ys h
    cases b with
    | nil => cases h; rfl
    | cons c b =>
      have e1 : decodeLoop D dec s d (fuel + 1) (c :: b) xs last = decodeRecord D dec s d (c :: b) xs last >>=
          fun r => decodeLoop D dec s d fuel ((c :: b).drop r.2.1) r.1 r.2.2 := rfl
      rw [e1] at h
      obtain ⟨⟨zs, n, l⟩, h1, h2⟩ := bind_ok.1 h
      show (match decodeRecord D dec s d (c :: b) xs last with
        | .ok (fs, n, last) => leftLoop D J dec lrec s d fuel ((c :: b).drop n) fs last
        | .error _ => leftRecord D J lrec s d (c :: b) xs last) = ys
      rw [h1]
      exact ih _ _ _ _ h2

theorem leftStruct_of_ok {D : Descs} {J : Junk} {fuel : Nat} {d : Int} {b : Bytes} {v w : Val} {id : Nat}
    (h : decodeStruct D fuel d b v id = .ok w) : leftStruct D J fuel d b v id = w := by
  cases fuel with
  | zero => cases h
  | succ fuel =>
    by_cases hd : d = 0
    · cases v <;> rw [decodeStruct, if_pos hd] at h <;> first | cases h | nofun
    · cases v with
      | struct fs =>
        rw [decodeStruct, if_neg hd] at h
        rw [leftStruct, if_neg hd]
        obtain ⟨fs', h1, h2⟩ := bind_ok.1 h
        obtain ⟨ys, h3, h4⟩ := bind_ok.1 h2
        have := pure_ok.1 h4
        subst this
        simp only [h1]
        rw [leftLoop_of_ok _ _ _ _ _ h3]
      | _ =>
        rw [decodeStruct, if_neg hd] at h
        · cases h
        · nofun

end Verif.Lemmas
