import Verif.Lemmas.RoundShape
import Verif.Lemmas.Frame
/-! Helper lemmas: decoding an encoded message (fields and unknown fields). -/
namespace Verif.Lemmas
open Verif.Model Verif.Spec

variable {S : Schema} {l : Bool}

theorem runs_plain {d : Int} {id : Nat} {f : Field} (hf : f ∈ (S id).fields) (hm : f.member = none) {num : Nat} (hn : f.num = num)
    {a : Bytes} {x y : Val} (h : Runs S d f.shape num a x y) : ∀ {ys : List Val}, ys[f.slot]? = some x →
    ∀ {rest : Bytes} {zs : List Val}, DecRecs S d id rest (ys.set f.slot y) zs → DecRecs S d id (a ++ rest) ys zs := by
  subst hn
  induction h with
  | nil x =>
    intro ys hy rest zs hr
    rwa [List.nil_append, show ys = ys.set f.slot x from ?_]
    obtain ⟨h1, h2⟩ := List.getElem?_eq_some_iff.1 hy
    rw [← h2, List.set_getElem_self]
  | cons t k v r x y z h1 h2 _ ih =>
    intro ys hy rest zs hr
    rw [List.append_assoc]
    refine .field _ _ f t k v _ ys x y zs hf h1 hy (.plain _ _ _ _ _ _ hm h2) ?_
    have hl : f.slot < ys.length := (List.getElem?_eq_some_iff.1 hy).1
    exact ih (by simp [hl]) (by rw [List.set_set]; exact hr)

theorem runs_member {d : Int} {id : Nat} {f : Field} (hf : f ∈ (S id).fields) {w : Nat} (hm : f.member = some w)
    {a : Bytes} {y : Val} (h : OneRun S d f.shape f.num a y) {ys : List Val} {z : Option (Nat × Option Val)}
    (hy : ys[f.slot]? = some (.iface z)) {rest : Bytes} {zs : List Val}
    (hr : DecRecs S d id rest (ys.set f.slot (.iface (some (w, some y)))) zs) : DecRecs S d id (a ++ rest) ys zs := by
  obtain ⟨t, k, v, rfl, h1, h2⟩ := h
  exact .field _ _ f t k v _ ys _ _ zs hf h1 hy (.member _ _ _ _ w z y hm h2) hr

theorem tag_append_ne (num : Nat) (t : WireType) (b : Bytes) : tag num t ++ b ≠ [] := by
  intro h
  exact varint_ne_nil (key num t) (List.append_eq_nil_iff.1 h).1

theorem encodeShape_nil {enc : Nat → Val → Option Bytes} {num : Nat} {sh : Shape} {x : Val} {a : Bytes}
    (hs : (∃ s, sh = .single s) ∨ (∃ id p, sh = .msg id p)) (ht : ShapeTyped S sh x) (hc : recordCount S sh x = 0)
    (he : encodeShape S enc num false sh x = some a) : a = [] := by
  rcases hs with ⟨s, rfl⟩ | ⟨id, p, rfl⟩
  · obtain ⟨b, hb, he⟩ := bind_some_eq he
    cases he
    simp only [recordCount] at hc
    cases hd : isDefault x with
    | true => rfl
    | false => simp [hd] at hc
  · cases ht with
    | msg _ _ _ h =>
      cases h with
      | nil => cases he; rfl
      | ptr _ m h => simp [recordCount] at hc
      | inline _ _ h =>
        simp only [recordCount] at hc
        simp only [encodeShape, Bool.not_false, Bool.and_true] at he
        split at he
        · cases he; rfl
        · rename_i hz
          rw [if_neg hz] at hc
          cases hc

variable (hW : S.WF)

include hW in
/-- Two different fields in the same Go struct field exclude each other. -/
theorem content_excl {id : Nat} {f g : Field} (hf : f ∈ (S id).fields) (hg : g ∈ (S id).fields) (hn : f.num ≠ g.num)
    (hs : f.slot = g.slot) {x d : Val} (hc : f.content x = some d) : g.content x = none := by
  obtain ⟨w, w', h1, h2, h3⟩ := (hW id).disjoint f hf g hg hn hs
  unfold Field.content at hc ⊢
  rw [h1] at hc
  rw [h2]
  dsimp only at hc ⊢
  split at hc
  · split at hc
    · rename_i h; subst h
      exact if_neg (fun h => h3 h.symm)
    · cases hc
  · cases hc

/-- The state while decoding the fields of `xs` one after the other; `pre` are done. -/
structure Mid (S : Schema) (l : Bool) (id : Nat) (xs : List Val) (pre post : List Field) (ys : List Val) : Prop where
  len : ys.length = (S id).nslots
  done : ∀ g ∈ pre, ∀ x y, xs[g.slot]? = some x → ys[g.slot]? = some y → SameField S l g x y
  todo : ∀ g ∈ post, ∀ x, xs[g.slot]? = some x → g.content x ≠ none → ys[g.slot]? = some (g.zero S)
  unset : ∀ g ∈ post, ∀ x y, xs[g.slot]? = some x → g.content x = none → ys[g.slot]? = some y → g.content y = none
  unknown : unknownOf (S id) ys = []

include hW in
theorem mid_set {id : Nat} {xs ys : List Val} {pre post : List Field} {f : Field} (hd : (S id).fields = pre ++ f :: post)
    (h : Mid S l id xs pre (f :: post) ys) {x d y e : Val} (hx : xs[f.slot]? = some x) (hc : f.content x = some d)
    (he : f.content y = some e) (hs : SameShape S l f.shape d e) : Mid S l id xs (pre ++ [f]) post (ys.set f.slot y) := by
  have hf : f ∈ (S id).fields := by rw [hd]; simp
  have hlt : f.slot < ys.length := by rw [h.len]; exact (hW id).slots f hf
  have hso := (hW id).sorted
  rw [hd, List.pairwise_append] at hso
  obtain ⟨s1, s2, s3⟩ := hso
  have npre : ∀ g ∈ pre, f.num ≠ g.num := fun g hg => by have := s3 g hg f (by simp); omega
  have npost : ∀ g ∈ post, f.num ≠ g.num := fun g hg => by
    have := (List.pairwise_cons.1 s2).1 g hg; omega
  refine ⟨by rw [List.length_set]; exact h.len, fun g hg x' y' hx' hy' => ?_, fun g hg x' hx' hc' => ?_, fun g hg x' y' hx' hc' hy' => ?_, ?_⟩
  · rcases List.mem_append.1 hg with hg | hg
    · by_cases hsl : f.slot = g.slot
      · have hgf : g ∈ (S id).fields := by rw [hd]; simp [hg]
        rw [← hsl] at hx' hy'
        rw [hx] at hx'; cases hx'
        rw [List.getElem?_set_self hlt] at hy'
        cases hy'
        exact .unset _ _ _ (content_excl hW hf hgf (npre g hg) hsl hc) (content_excl hW hf hgf (npre g hg) hsl he)
      · rw [List.getElem?_set_ne hsl] at hy'
        exact h.done g hg x' y' hx' hy'
    · simp only [List.mem_singleton] at hg
      subst hg
      rw [hx] at hx'; cases hx'
      rw [List.getElem?_set_self hlt] at hy'
      cases hy'
      exact .set _ _ _ _ _ hc he hs
  · have hgf : g ∈ (S id).fields := by rw [hd]; simp [hg]
    by_cases hsl : f.slot = g.slot
    · rw [← hsl, hx] at hx'; cases hx'
      exact absurd (content_excl hW hf hgf (npost g hg) hsl hc) hc'
    · rw [List.getElem?_set_ne hsl]
      exact h.todo g (by simp [hg]) x' hx' hc'
  · have hgf : g ∈ (S id).fields := by rw [hd]; simp [hg]
    by_cases hsl : f.slot = g.slot
    · rw [← hsl, List.getElem?_set_self hlt] at hy'
      cases hy'
      exact content_excl hW hf hgf (npost g hg) hsl he
    · rw [List.getElem?_set_ne hsl] at hy'
      exact h.unset g (by simp [hg]) x' y' hx' hc' hy'
  · rw [unknownOf_set (fun s p hu => unknown_ne_slot hW hf s p hu)]
    exact h.unknown

/-- A oneof member that gives no record. -/
theorem mid_lost {id : Nat} {xs ys : List Val} {pre post : List Field} {f : Field} (hl : l = true)
    (h : Mid S l id xs pre (f :: post) ys) {x d : Val} (hx : xs[f.slot]? = some x) (hm : f.member ≠ none)
    (hc : f.content x = some d) (hr : recordCount S f.shape d = 0) : Mid S l id xs (pre ++ [f]) post ys := by
  refine ⟨h.len, fun g hg x' y' hx' hy' => ?_, fun g hg => h.todo g (by simp [hg]), fun g hg => h.unset g (by simp [hg]), h.unknown⟩
  rcases List.mem_append.1 hg with hg | hg
  · exact h.done g hg x' y' hx' hy'
  · simp only [List.mem_singleton] at hg
    subst hg
    rw [hx] at hx'; cases hx'
    rw [h.todo g (by simp) x hx (by rw [hc]; simp)] at hy'
    cases hy'
    refine .lost _ _ _ _ hl hm hc hr ?_
    cases hm' : g.member with
    | none => exact absurd hm' hm
    | some w => simp only [Field.zero, Field.content, hm']

/-- A field that is not set. -/
theorem mid_skip {id : Nat} {xs ys : List Val} {pre post : List Field} {f : Field}
    (h : Mid S l id xs pre (f :: post) ys) {x : Val} (hx : xs[f.slot]? = some x) (hc : f.content x = none) :
    Mid S l id xs (pre ++ [f]) post ys := by
  refine ⟨h.len, fun g hg x' y' hx' hy' => ?_, fun g hg => h.todo g (by simp [hg]), fun g hg => h.unset g (by simp [hg]), h.unknown⟩
  rcases List.mem_append.1 hg with hg | hg
  · exact h.done g hg x' y' hx' hy'
  · simp only [List.mem_singleton] at hg
    subst hg
    rw [hx] at hx'; cases hx'
    exact .unset _ _ _ hc (h.unset g (by simp) x y' hx hc hy')

include hW in
/-- The fields one after the other. -/
theorem fields_round {id : Nat} {xs : List Val} {d : Int} {enc : Nat → Val → Option Bytes} (hv : Typed S id (.struct xs))
    (hm : l = false → MembersShown S id (.struct xs))
    (ih : ∀ f ∈ (S id).fields, ∀ x e, xs[f.slot]? = some x → f.content x = some e → SubRound S l d enc f.shape e) :
    ∀ (post pre : List Field) (ys : List Val) (a : Bytes), (S id).fields = pre ++ post → Mid S l id xs pre post ys →
      concatM (encodeField S false enc xs) post = some a → a.length < 2 ^ 64 →
      ∃ zs, Mid S l id xs (pre ++ post) [] zs ∧ ∀ rest us, DecRecs S d id rest zs us → DecRecs S d id (a ++ rest) ys us
  | [], pre, ys, a, hd, hmid, hc, hl => by
    cases hc
    rw [List.append_nil]
    exact ⟨ys, hmid, fun _ _ h => h⟩
  | f :: post, pre, ys, a, hd, hmid, hc, hl => by
    simp only [concatM] at hc
    obtain ⟨b, hb, hc⟩ := bind_some_eq hc
    obtain ⟨c, hcc, hc⟩ := bind_some_eq hc
    cases hc
    simp only [List.length_append] at hl
    have hf : f ∈ (S id).fields := by rw [hd]; simp
    obtain ⟨x, hx, hft⟩ := typed_slot hW hv hf
    have next : ∀ ys', Mid S l id xs (pre ++ [f]) post ys' →
        (∀ rest us, DecRecs S d id rest ys' us → DecRecs S d id (b ++ rest) ys us) →
        ∃ zs, Mid S l id xs (pre ++ f :: post) [] zs ∧ ∀ rest us, DecRecs S d id rest zs us → DecRecs S d id (b ++ c ++ rest) ys us := by
      intro ys' hm' hstep
      obtain ⟨zs, z1, z2⟩ := fields_round hv hm ih post (pre ++ [f]) ys' c (by simp [hd]) hm' hcc (by omega)
      refine ⟨zs, by simpa using z1, fun rest us hr => ?_⟩
      rw [List.append_assoc]
      exact hstep _ _ (z2 rest us hr)
    simp only [encodeField, hx] at hb
    cases hcx : f.content x with
    | none =>
      simp only [bind, Option.bind_some, hcx] at hb
      cases hb
      exact next ys (mid_skip hmid hx hcx) (fun _ _ h => h)
    | some e =>
      simp only [bind, Option.bind_some, hcx] at hb
      simp only [Bool.and_false] at hb
      have hst := content_typed hft hcx
      obtain ⟨n1, n2⟩ := (hW id).nums f hf
      obtain ⟨y, r1, r2⟩ := shape_round hW n1 n2 ((hW id).legal f hf) hst (ih f hf x e hx hcx) hb (by omega)
      have hz := hmid.todo f (by simp) x hx (by rw [hcx]; simp)
      cases hmem : f.member with
      | none =>
        have hfz : f.zero S = Shape.zero S f.shape := by simp only [Field.zero, hmem, Shape.zero]
        rw [hfz] at hz
        exact next _ (mid_set hW hd hmid hx hcx (y := y) (e := y) (by simp [Field.content, hmem]) r2)
          (fun rest us hr => runs_plain hf hmem rfl r1 hz hr)
      | some w =>
        have hfz : f.zero S = .iface none := by simp only [Field.zero, hmem]
        rw [hfz] at hz
        by_cases hrc : recordCount S f.shape e = 0
        · have hb0 : b = [] := encodeShape_nil ((hW id).members f hf (by rw [hmem]; simp)) hst hrc hb
          cases hlo : l with
          | false => exact absurd hrc (hm hlo xs rfl f hf (by rw [hmem]; simp) x e hx hcx)
          | true =>
            subst hb0
            rw [← hlo]
            exact next ys (mid_lost hlo hmid hx (by rw [hmem]; simp) hcx hrc) (fun _ _ h => h)
        obtain ⟨y', q1, q2⟩ := member_round n1 n2 ((hW id).members f hf (by rw [hmem]; simp)) hst (ih f hf x e hx hcx) hrc hb (by omega)
        exact next _ (mid_set hW hd hmid hx hcx (y := .iface (some (w, some y'))) (e := y') (by simp [Field.content, hmem]) q2)
          (fun rest us hr => runs_member hf hmem q1 hz hr)

/-- Undeclared records one after the other. -/
theorem unknowns_round {id : Nat} {d : Int} (hu : ∀ s p, (S id).unknown = some (s, p) → s < (S id).nslots) :
    ∀ (rs : List Rec) (ys : List Val), ys.length = (S id).nslots → (∀ r ∈ rs, r.OK ∧ (∀ f ∈ (S id).fields, f.num ≠ r.num) ∧ IsValue 10001 r.num r.typ r.val) →
      ∃ zs, DecRecs S d id (rawOf rs) ys zs ∧ AgreeKnown (S id) ys zs ∧
        ((S id).unknown ≠ none → unknownOf (S id) zs = unknownOf (S id) ys ++ rawOf rs)
  | [], ys, _, _ => ⟨ys, .nil _ _ _, agree_refl _ _, fun _ => by simp⟩
  | r :: rs, ys, hl, h => by
    obtain ⟨r1, r2, r3⟩ := h r (by simp)
    have hl' : (addUnknown (S id) ys r.raw).length = (S id).nslots := by rw [addUnknown_length]; exact hl
    obtain ⟨zs, z1, z2, z3⟩ := unknowns_round hu rs (addUnknown (S id) ys r.raw) hl' (fun r' hr' => h r' (by simp [hr']))
    refine ⟨zs, .unknown _ _ r.num r.typ r.key r.val _ _ _ r1.1 r2 r3 z1, agree_trans (agree_add _ _ _) z2, fun hne => ?_⟩
    rw [z3 hne, unknownOf_add (fun s p hsp => by rw [hl]; exact hu s p hsp) r.raw]
    rw [if_pos (by cases hh : (S id).unknown with | none => exact absurd hh hne | some _ => rfl)]
    simp

include hW in
/-- Decoding an encoded message. -/
theorem msg_round : ∀ (n id : Nat) (v : Val) (bs : Bytes) (d : Int), Typed S id v →
    (∀ id' v', Reach S id v id' v' → (l = false → MembersShown S id' v') ∧ UnknownOK S id' v') →
    (∀ c : Nat, NestedBy S c id v → (c : Int) ≠ d) →
    encode S false n id v = some bs → bs.length < 2 ^ 64 → ∃ w, Decodes S d id bs (S id).zero w ∧ Same S l id v w
  | 0, _, _, _, _, _, _, _, h, _ => by cases h
  | n + 1, id, v, bs, d, hv, hr, hn, he, hl => by
    match v, hv with
    | .struct xs, hv =>
      obtain ⟨a, ha, he⟩ := bind_some_eq he
      cases he
      simp only [List.length_append] at hl
      obtain ⟨zs0, q1, q2, q3, q4, q5⟩ := (hW id).zero
      rw [q1]
      have hclear : clearUnknown (S id) zs0 = zs0 ∧ unknownOf (S id) zs0 = [] := by
        unfold clearUnknown unknownOf
        cases hu : (S id).unknown with
        | none => exact ⟨rfl, rfl⟩
        | some sp =>
          obtain ⟨s, p⟩ := sp
          cases p with
          | false => simp [q4 s hu]
          | true => simp [q5 s hu]
      obtain ⟨hms, huk⟩ := hr id (.struct xs) (.refl _ _)
      have hmid : Mid S l id xs [] (S id).fields zs0 := by
        refine ⟨q2, (fun g hg => by cases hg), fun g hg _ _ _ => q3 g hg, fun g hg x y hx hc hy => ?_, hclear.2⟩
        rw [q3 g hg] at hy
        cases hy
        cases hm : g.member with
        | none => simp [Field.content, hm] at hc
        | some w => simp only [Field.zero, Field.content, hm]
      have ih : ∀ f ∈ (S id).fields, ∀ x e, xs[f.slot]? = some x → f.content x = some e → SubRound S l d (encode S false n) f.shape e := by
        intro f hf x e hx hc id' v' b hsub hb hbl
        have hfs : FieldSub S xs f id' v' := ⟨x, e, hx, hc, hsub⟩
        have hsm : SubMsg S id (.struct xs) id' v' := .mk _ _ f _ _ hf hfs
        refine msg_round n id' v' b _ (subMsg_typed hW hv hsm) (fun id'' v'' h => hr id'' v'' (.step _ _ _ _ _ _ hsm h)) (fun c hc' => ?_) hb hbl
        have := hn _ (.step c id xs f id' v' hf hfs hc')
        omega
      obtain ⟨zs, m1, m2⟩ := fields_round hW hv hms ih (S id).fields [] zs0 a rfl hmid ha (by omega)
      obtain ⟨rs, u1, u2⟩ := huk xs rfl
      obtain ⟨ws, w1, w2, w3⟩ := unknowns_round (S := S) (id := id) (d := d) (fun s p h => ((hW id).unknown s p h).1) rs zs m1.len
        (fun r hr => ⟨u1.2 r hr, u2 r hr⟩)
      have hd0 : d ≠ 0 := fun h => hn 0 (.zero _ _) (by rw [h]; rfl)
      refine ⟨.struct ws, .mk _ _ _ _ _ hd0 ?_, ?_⟩
      · rw [hclear.1, u1.1]
        exact m2 _ _ w1
      · cases hv with
        | mk _ _ t1 t2 t3 =>
          refine .mk _ _ _ t1 (by rw [← w2.1]; exact m1.len) (fun f hf x y hx hy => ?_) ?_
          · rw [← w2.2 f.slot (fun p h => ((hW id).unknown _ p h).2 f hf rfl)] at hy
            exact m1.done f (by simpa using hf) x y hx hy
          · by_cases hu : (S id).unknown = none
            · simp [unknownOf, hu]
            · rw [w3 hu, m1.unknown, u1.1]; rfl

end Verif.Lemmas
