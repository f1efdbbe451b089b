import Verif.Spec.Older
import Verif.Lemmas.Older
import Verif.Lemmas.RoundMsg
/-! # A message in the hands of a program with an older version of the schema: nothing is lost -/
namespace Verif.Lemmas
open Verif.Spec Verif.Model

variable {O S : Schema} {σ : Nat → Nat → Nat}

/-- The unknown fields of `ys` are what turns `xs` without the fields unknown to the older version into `xs`. -/
def Behind (O S : Schema) (σ : Nat → Nat → Nat) (d : Int) (id : Nat) (xs ys : List Val) : Prop :=
  ∃ rs zs, Splits (unknownOf (O id) ys) rs ∧ (∀ r ∈ rs, ∀ g ∈ (O id).fields, g.num ≠ r.num) ∧ Steps S d id rs zs xs ∧
    zs.length = (S id).nslots ∧ (∀ f ∈ (S id).fields, Known O σ id f → zs[f.slot]? = xs[f.slot]?) ∧
    (∀ f ∈ (S id).fields, ¬ Known O σ id f → zs[f.slot]? = some (f.zero S)) ∧ unknownOf (S id) zs = []

mutual
/-- Like `Kept`, and the unknown fields hold all the rest. -/
inductive Car (O S : Schema) (σ : Nat → Nat → Nat) : Int → Nat → Val → Val → Prop
  | mk (d : Int) (id : Nat) (xs ys : List Val) : d ≠ 0 → xs.length = (S id).nslots → ys.length = (O id).nslots →
      (∀ f ∈ (S id).fields, Known O σ id f → ∀ x y, xs[f.slot]? = some x →
        ys[σ id f.slot]? = some y → CarField O S σ d f x y) →
      Behind O S σ d id xs ys → Car O S σ d id (.struct xs) (.struct ys)
inductive CarField (O S : Schema) (σ : Nat → Nat → Nat) : Int → Field → Val → Val → Prop
  | plain (d : Int) (f : Field) (x y : Val) : f.member = none → CarShape O S σ d f.shape x y → CarField O S σ d f x y
  | unset (d : Int) (f : Field) : f.member ≠ none → CarField O S σ d f (.iface none) (.iface none)
  | set (d : Int) (f : Field) (w : Nat) (x y : Val) : f.member = some w → CarShape O S σ d f.shape x y →
      CarField O S σ d f (.iface (some (w, some x))) (.iface (some (w, some y)))
  | other (d : Int) (f : Field) (w w' : Nat) (x y : Val) :
      f.member = some w → w' ≠ w → CarField O S σ d f (.iface (some (w', some x))) (.iface (some (w', some y)))
  | nilCase (d : Int) (f : Field) (w' : Nat) : f.member ≠ none →
      CarField O S σ d f (.iface (some (w', none))) (.iface (some (w', none)))
inductive CarShape (O S : Schema) (σ : Nat → Nat → Nat) : Int → Shape → Val → Val → Prop
  | single (d : Int) (s : Scalar) (x : Val) : CarShape O S σ d (.single s) x x
  | optional (d : Int) (s : Scalar) (x : Val) : CarShape O S σ d (.optional s) x x
  | list (d : Int) (s : Scalar) (p : Bool) (x : Val) : CarShape O S σ d (.list s p) x x
  | map (d : Int) (k v : Scalar) (x : Val) : CarShape O S σ d (.map k v) x x
  | nilPtr (d : Int) (id : Nat) : CarShape O S σ d (.msg id true) (.ptr none) (.ptr none)
  | ptr (d : Int) (id : Nat) (v w : Val) : Car O S σ (d - 1) id v w →
      CarShape O S σ d (.msg id true) (.ptr (some v)) (.ptr (some w))
  | msgList (d : Int) (id : Nat) (p : Bool) (xs ys : List Val) (zs : List (Val × Val)) : xs = zs.map (·.1) → ys = zs.map (·.2) →
      (∀ z ∈ zs, CarRef O S σ (d - 1) id p z.1 z.2) → CarShape O S σ d (.msgList id p) (.slice xs) (.slice ys)
  | nilMap (d : Int) (k : Scalar) (id : Nat) (p : Bool) : CarShape O S σ d (.mapMsg k id p) (.map none) (.map none)
  | mapMsg (d : Int) (k : Scalar) (id : Nat) (p : Bool) (m m' : List (Key × Val)) (zs : List (Key × Val × Val)) :
      m = zs.map (fun z => (z.1, z.2.1)) → m' = zs.map (fun z => (z.1, z.2.2)) →
      (∀ z ∈ zs, CarRef O S σ (d - 2) id p z.2.1 z.2.2) → CarShape O S σ d (.mapMsg k id p) (.map (some m)) (.map (some m'))
inductive CarRef (O S : Schema) (σ : Nat → Nat → Nat) : Int → Nat → Bool → Val → Val → Prop
  | ptr (d : Int) (id : Nat) (v w : Val) : Car O S σ d id v w → CarRef O S σ d id true (.ptr (some v)) (.ptr (some w))
  | inline (d : Int) (id : Nat) (v w : Val) : Car O S σ d id v w → CarRef O S σ d id false v w
  | nil (d : Int) (id : Nat) : d ≠ 0 → CarRef O S σ d id true (.ptr none) (.ptr none)
end

/-! ## decoding -/

theorem carField_iface {d : Int} {f : Field} {x y : Val} {w : Nat} (hm : f.member = some w) (h : CarField O S σ d f x y) :
    ∃ y', y = .iface y' := by
  cases h with
  | plain _ _ _ _ h => simp [h] at hm
  | unset => exact ⟨_, rfl⟩
  | set => exact ⟨_, rfl⟩
  | other => exact ⟨_, rfl⟩
  | nilCase => exact ⟨_, rfl⟩

theorem carField_plain {d : Int} {f : Field} {x y : Val} (hm : f.member = none) (h : CarField O S σ d f x y) :
    CarShape O S σ d f.shape x y := by
  cases h
  case plain => assumption
  all_goals simp_all

theorem zero_slots (hS : S.WF) {id : Nat} {zs : List Val} (hz : (S id).zero = .struct zs) :
    clearUnknown (S id) zs = zs ∧ unknownOf (S id) zs = [] ∧ zs.length = (S id).nslots ∧
      ∀ f ∈ (S id).fields, zs[f.slot]? = some (f.zero S) := by
  obtain ⟨zs0, q1, q2, q3, q4, q5⟩ := (hS id).zero
  rw [hz] at q1
  cases q1
  unfold clearUnknown unknownOf
  cases hu : (S id).unknown with
  | none => exact ⟨rfl, rfl, q2, q3⟩
  | some sp =>
    obtain ⟨s, p⟩ := sp
    cases p with
    | false => simp [q4 s hu, q2]; exact q3
    | true => simp [q5 s hu, q2]; exact q3

theorem carShape_zero (d : Int) {sh : Shape} (h : ∀ id, sh ≠ .msg id false) : CarShape O S σ d sh (sh.zero S) (sh.zero O) := by
  cases sh
  case single => exact .single _ _ _
  case optional => exact .optional _ _ _
  case list => exact .list _ _ _ _
  case map => exact .map _ _ _ _
  case mapMsg => exact .nilMap _ _ _ _
  case msgList => exact .msgList _ _ _ _ _ [] rfl rfl (by simp)
  case msg id' p =>
    cases p
    · exact absurd rfl (h id')
    · exact .nilPtr _ _

theorem field_zero_at (f : Field) (n : Nat) : (f.at n).zero S = f.zero S := by
  simp only [Field.zero, Field.at]

theorem car_zero (hS : S.WF) (hO : O.WF) (hV : Grows O S σ) {d : Int} (hd : d ≠ 0) (id : Nat) :
    Car O S σ d id (S id).zero (O id).zero := by
  obtain ⟨zs, e, _⟩ := (hS id).zero
  obtain ⟨zs', e', _⟩ := (hO id).zero
  obtain ⟨a1, a2, a3, a4⟩ := zero_slots hS e
  obtain ⟨b1, b2, b3, b4⟩ := zero_slots hO e'
  rw [e, e']
  refine .mk _ _ _ _ hd a3 b3 (fun f hf hg x y hx hy => ?_) ?_
  · rw [a4 f hf] at hx
    have hy' := b4 _ hg
    rw [show (f.at (σ id f.slot)).slot = σ id f.slot from rfl, hy, field_zero_at] at hy'
    cases hx; cases hy'
    cases hm : f.member with
    | none =>
      have e1 : ∀ T : Schema, f.zero T = f.shape.zero T := fun T => by simp only [Field.zero, hm, Shape.zero]
      rw [e1, e1]
      exact .plain _ _ _ _ hm (carShape_zero d (hV.pointers id f hf))
    | some w =>
      simp only [Field.zero, hm]
      exact .unset _ _ (by simp [hm])
  · refine ⟨[], zs, ?_, by simp, rfl, a3, fun _ _ _ => rfl, fun f hf _ => a4 f hf, a2⟩
    rw [b2]; exact splits_nil

theorem set_add_comm (hS : S.WF) {id : Nat} {f : Field} (hf : f ∈ (S id).fields) (xs : List Val) (y : Val) (raw : Bytes) :
    addUnknown (S id) (xs.set f.slot y) raw = (addUnknown (S id) xs raw).set f.slot y := by
  unfold addUnknown
  rw [unknownOf_set (unknown_ne_slot hS hf)]
  split
  · rfl
  · rename_i s h
    exact List.set_comm _ _ ((unknown_ne_slot hS hf) _ _ h)
  · rename_i s h
    exact List.set_comm _ _ ((unknown_ne_slot hS hf) _ _ h)

/-- Records do not care about a Go struct field they do not touch. -/
theorem steps_set (hS : S.WF) {d : Int} {id : Nat} {f : Field} (hf : f ∈ (S id).fields) (y : Val) :
    ∀ {rs : List Rec} {zs xs : List Val}, Steps S d id rs zs xs →
    (∀ r ∈ rs, ∀ g ∈ (S id).fields, g.num = r.num → g.slot ≠ f.slot) → Steps S d id rs (zs.set f.slot y) (xs.set f.slot y)
  | [], zs, xs, h, _ => by cases h; rfl
  | r :: rs, zs, xs, ⟨us, h1, h2⟩, hn => by
    refine ⟨us.set f.slot y, ?_, steps_set hS hf y h2 (fun r' h => hn r' (by simp [h]))⟩
    rcases h1 with ⟨a1, a2, rfl⟩ | ⟨g, hg, a0, x, y', a1, a2, rfl⟩
    · exact .inl ⟨a1, a2, (set_add_comm hS hf _ _ _).symm⟩
    · have := hn r (by simp) g hg a0
      exact .inr ⟨g, hg, a0, x, y', by rw [List.getElem?_set_ne this.symm]; exact a1, a2, List.set_comm _ _ this⟩

section
variable (hS : S.WF) (hO : O.WF) (hV : Relays O S σ)
include hS hO hV

/-- A record of a field both know. -/
theorem car_set {d : Int} {id : Nat} {f : Field} (hf : f ∈ (S id).fields) (hg : Known O σ id f) {xs ys : List Val} {x y : Val}
    (hs : ∀ w, f.member = some w → ∃ a b, x = .iface (some (w, some a)) ∧ y = .iface (some (w, some b)))
    (h : Car O S σ d id (.struct xs) (.struct ys)) (hx : CarField O S σ d f x y) :
    Car O S σ d id (.struct (xs.set f.slot x)) (.struct (ys.set (σ id f.slot) y)) := by
  cases h with
  | mk _ _ _ _ h0 h1 h2 h3 h4 =>
    refine .mk _ _ _ _ h0 (by simpa using h1) (by simpa using h2) (fun f' hf' hg' a b ha hb => ?_) ?_
    · by_cases e : f.slot = f'.slot
      · have hl : f.slot < xs.length := h1 ▸ (hS id).slots f hf
        rw [← e, List.getElem?_set_self hl] at ha
        have hl' : σ id f.slot < ys.length := h2 ▸ (hO id).slots _ hg
        rw [← e, List.getElem?_set_self hl'] at hb
        cases ha; cases hb
        by_cases en : f.num = f'.num
        · rw [← fields_num_inj (hS id) hf hf' en]; exact hx
        · obtain ⟨w, w', e1, e2, e3⟩ := (hS id).disjoint f hf f' hf' en e
          obtain ⟨c, c', rfl, rfl⟩ := hs w e1
          exact .other _ _ w' w _ _ e2 e3
      · rw [List.getElem?_set_ne e] at ha
        rw [List.getElem?_set_ne (fun h => e (hV.older.apart id f hf f' hf' h))] at hb
        exact h3 f' hf' hg' a b ha hb
    · obtain ⟨rs, zs, b1, b2, b3, b4, b5, b6, b7⟩ := h4
      have hgs : ∀ s p, (O id).unknown = some (s, p) → σ id f.slot ≠ s := fun s p h =>
        unknown_ne_slot (f := f.at (σ id f.slot)) hO hg s p h
      refine ⟨rs, zs.set f.slot x, ?_, b2, steps_set hS hf x b3 (fun r hr g hg' e => ?_), by simpa using b4,
        fun f' hf' hk => ?_, fun f' hf' hk => ?_, ?_⟩
      · rw [unknownOf_set hgs]; exact b1
      · exact fun e' => hV.oneofs id f hf g hg' hg (fun hk => b2 r hr _ hk e) e'.symm
      · rw [List.getElem?_set, List.getElem?_set, h1, b4, b5 f' hf' hk]
      · rw [List.getElem?_set_ne (hV.oneofs id f hf f' hf' hg hk)]
        exact b6 f' hf' hk
      · rw [unknownOf_set (unknown_ne_slot hS hf)]; exact b7

omit hO in
/-- A record the older version does not know. -/
theorem car_add {d : Int} {id : Nat} {r : Rec} (hr : r.OK) (hn : ∀ g ∈ (O id).fields, g.num ≠ r.num) {xs xs' ys : List Val}
    (hU : ∀ s p, (O id).unknown = some (s, p) → s < (O id).nslots)
    (hO' : ∀ f, Known O σ id f → ∀ p, (O id).unknown ≠ some (σ id f.slot, p))
    (h : Car O S σ d id (.struct xs) (.struct ys)) (hs : StepRec S d id r xs xs') :
    Car O S σ d id (.struct xs') (.struct (addUnknown (O id) ys r.raw)) := by
  cases h with
  | mk _ _ _ _ h0 h1 h2 h3 h4 =>
    have hsame : ∀ f ∈ (S id).fields, Known O σ id f → xs'[f.slot]? = xs[f.slot]? := by
      intro f hf hk
      refine stepRec_slot hS hs hf (fun g hg e e' => ?_)
      by_cases hkg : Known O σ id g
      · exact hn _ hkg e'
      · exact hV.oneofs id f hf g hg hk hkg e.symm
    have hl : xs'.length = (S id).nslots := by
      rcases hs with ⟨_, _, rfl⟩ | ⟨_, _, _, _, _, _, _, rfl⟩
      · rw [addUnknown_length]; exact h1
      · simpa using h1
    refine .mk _ _ _ _ h0 hl (by rw [addUnknown_length]; exact h2) (fun f hf hk x y hx hy => ?_) ?_
    · rw [hsame f hf hk] at hx
      rw [← (agree_add (O id) ys r.raw).2 _ (hO' f hk)] at hy
      exact h3 f hf hk x y hx hy
    · rcases hV.keeps id with hu | ⟨hf0, hu0⟩
      case inr =>
        rcases hs with ⟨_, _, rfl⟩ | ⟨g, hg, _⟩
        · cases hu : (O id).unknown with
          | none =>
            have e1 : addUnknown (S id) xs r.raw = xs := by simp [addUnknown, hu0]
            have e2 : addUnknown (O id) ys r.raw = ys := by simp [addUnknown, hu]
            rw [e1, e2]
            exact h4
          | some sp =>
            obtain ⟨rs, zs, b1, b2, b3, b4, b5, b6, b7⟩ := h4
            have e1 : addUnknown (S id) xs r.raw = xs := by simp [addUnknown, hu0]
            rw [e1]
            refine ⟨rs ++ [r], zs, ?_, ?_, steps_append.2 ⟨xs, b3, xs, .inl ⟨by rw [hf0]; nofun, by assumption, e1.symm⟩, rfl⟩, b4, b5, b6, b7⟩
            · rw [unknownOf_add (fun s p h => h2 ▸ hU s p h), if_pos (by rw [hu]; rfl)]
              have := splits_cons hr splits_nil
              rw [List.append_nil] at this
              exact splits_append b1 this
            · intro r' hr'
              rcases List.mem_append.1 hr' with hr' | hr'
              · exact b2 r' hr'
              · simp only [List.mem_singleton] at hr'; subst hr'; exact hn
        · rw [hf0] at hg; cases hg
      obtain ⟨rs, zs, b1, b2, b3, b4, b5, b6, b7⟩ := h4
      refine ⟨rs ++ [r], zs, ?_, ?_, steps_append.2 ⟨xs, b3, _, hs, rfl⟩, b4, fun f hf hk => ?_, b6, b7⟩
      · rw [unknownOf_add (fun s p h => h2 ▸ hU s p h), if_pos (Option.isSome_iff_ne_none.2 hu)]
        have := splits_cons hr splits_nil
        rw [List.append_nil] at this
        exact splits_append b1 this
      · intro r' hr'
        rcases List.mem_append.1 hr' with hr' | hr'
        · exact b2 r' hr'
        · simp only [List.mem_singleton] at hr'; subst hr'; exact hn
      · rw [hsame f hf hk]; exact b5 f hf hk

end

/-- The entry of a related map is replaced, or added. -/
theorem car_put (k : Key) (y y' : Val) : ∀ (zs : List (Key × Val × Val)), ∃ zs' : List (Key × Val × Val),
    putEntry (zs.map (fun z => (z.1, z.2.1))) k y = zs'.map (fun z => (z.1, z.2.1)) ∧
    putEntry (zs.map (fun z => (z.1, z.2.2))) k y' = zs'.map (fun z => (z.1, z.2.2)) ∧ ∀ z ∈ zs', z ∈ zs ∨ z = (k, y, y')
  | [] => ⟨[(k, y, y')], rfl, rfl, fun z hz => .inr (by simpa using hz)⟩
  | e :: zs => by
    obtain ⟨zs', h1, h2, h3⟩ := car_put k y y' zs
    by_cases he : e.1 = k
    · refine ⟨(k, y, y') :: zs, by simp [putEntry, he], by simp [putEntry, he], fun z hz => ?_⟩
      rcases List.mem_cons.1 hz with rfl | hz
      · exact .inr rfl
      · exact .inl (by simp [hz])
    · refine ⟨e :: zs', by simp [putEntry, he, h1], by simp [putEntry, he, h2], fun z hz => ?_⟩
      rcases List.mem_cons.1 hz with rfl | hz
      · exact .inl (by simp)
      · rcases h3 z hz with h | h
        · exact .inl (by simp [h])
        · exact .inr h

theorem car_entry {d : Int} {ks : Scalar} {id : Nat} {p : Bool} {m : Option (List (Key × Val))} {x' y y' : Val} {k : Key}
    (h : CarShape O S σ d (.mapMsg ks id p) (.map m) x') (hy : CarRef O S σ (d - 2) id p y y') :
    ∃ m', x' = .map m' ∧ CarShape O S σ d (.mapMsg ks id p) (.map (some (putEntry (m.getD []) k y)))
      (.map (some (putEntry (m'.getD []) k y'))) := by
  cases h with
  | nilMap =>
    exact ⟨none, rfl, .mapMsg _ _ _ _ _ _ [(k, y, y')] rfl rfl (by intro z hz; simp only [List.mem_singleton] at hz; subst hz; exact hy)⟩
  | mapMsg _ _ _ _ m m' zs e1 e2 h =>
    subst e1 e2
    obtain ⟨zs', h1, h2, h3⟩ := car_put k y y' zs
    refine ⟨some _, rfl, .mapMsg _ _ _ _ _ _ zs' h1 h2 (fun z hz => ?_)⟩
    rcases h3 z hz with hz | rfl
    · exact h z hz
    · exact hy

theorem car_snoc {d : Int} {id : Nat} {p : Bool} {xs : List Val} {x' x y : Val} (h : CarShape O S σ d (.msgList id p) (.slice xs) x')
    (hx : CarRef O S σ (d - 1) id p x y) :
    ∃ ys, x' = .slice ys ∧ CarShape O S σ d (.msgList id p) (.slice (xs ++ [x])) (.slice (ys ++ [y])) := by
  cases h with
  | msgList _ _ _ _ ys zs e1 e2 h =>
    subst e1 e2
    refine ⟨_, rfl, .msgList _ _ _ _ _ (zs ++ [(x, y)]) (by simp) (by simp) (fun z hz => ?_)⟩
    rcases List.mem_append.1 hz with hz | hz
    · exact h z hz
    · simp only [List.mem_singleton] at hz; subst hz; exact hx

section
variable (hS : S.WF) (hO : O.WF) (hV : Relays O S σ)
include hS hO hV

mutual
theorem decodes_car {d : Int} {id : Nat} {b : Bytes} {v w : Val} :
    Decodes S d id b v w → v = (S id).zero → ∃ w', Decodes O d id b (O id).zero w' ∧ Car O S σ d id w w'
  | .mk _ _ _ xs ys h0 h => fun hz => by
    obtain ⟨zs', e', _⟩ := (hO id).zero
    have hc := car_zero hS hO hV.toGrows h0 id
    rw [← hz, e'] at hc
    have a := (zero_slots hS hz.symm).1
    have b := (zero_slots hO e').1
    obtain ⟨zs, h1, h2⟩ := decRecs_car h zs' (by rw [a]; exact hc)
    rw [e']
    exact ⟨_, .mk _ _ _ _ _ h0 (by rw [b]; exact h1), h2⟩
theorem decRecs_car {d : Int} {id : Nat} {b : Bytes} {xs zs : List Val} :
    DecRecs S d id b xs zs → ∀ ys, Car O S σ d id (.struct xs) (.struct ys) →
    ∃ zs', DecRecs O d id b ys zs' ∧ Car O S σ d id (.struct zs) (.struct zs')
  | .nil _ _ _ => fun ys hk => ⟨ys, .nil _ _ _, hk⟩
  | .unknown _ _ num t k v rest _ _ h1 h2 h3 h4 => fun ys hk => by
    have hn : ∀ g ∈ (O id).fields, g.num ≠ num := fun g hg => by
      obtain ⟨f', hf', rfl⟩ := hV.older.fields id g hg
      exact h2 f' hf'
    have hk' := car_add (r := ⟨num, t, k, v⟩) hS hV ⟨h1, _, h3⟩ hn (fun s p h => ((hO id).unknown s p h).1)
      (fun f hf => slot_known hO hf) hk (.inl ⟨h2, h3, rfl⟩)
    obtain ⟨zs', a1, a2⟩ := decRecs_car h4 _ hk'
    exact ⟨zs', .unknown _ _ num t k v rest _ _ h1 hn h3 a1, a2⟩
  | .field _ _ f t k v rest _ x y _ hf h1 h2 h3 h4 => fun ys hk => by
    by_cases hg : Known O σ id f
    · have hys : ys.length = (O id).nslots := by cases hk; assumption
      have hl : σ id f.slot < ys.length := hys ▸ (hO id).slots _ hg
      have e : ys[σ id f.slot]? = some ys[σ id f.slot] := List.getElem?_eq_getElem hl
      have hkf : CarField O S σ d f x ys[σ id f.slot] := by
        cases hk with
        | mk _ _ _ _ _ _ _ h => exact h f hf hg _ _ h2 e
      obtain ⟨y', b1, b2, b3⟩ := decField_car h3 (σ id f.slot) _ (hV.pointers id f hf) hkf
      have hk' := car_set hS hO hV hf hg b3 hk b2
      obtain ⟨zs', a1, a2⟩ := decRecs_car h4 _ hk'
      exact ⟨zs', .field _ _ _ t k v rest _ _ _ _ hg h1 e b1 a1, a2⟩
    · have hv := decField_isValue h3
      have hn := older_absent hS hV.older hf hg
      have hk' := car_add (r := ⟨f.num, t, k, v⟩) hS hV ⟨h1, _, hv⟩ hn (fun s p h => ((hO id).unknown s p h).1)
        (fun f hf => slot_known hO hf) hk (.inr ⟨f, hf, rfl, x, y, h2, h3, rfl⟩)
      obtain ⟨zs', a1, a2⟩ := decRecs_car h4 _ hk'
      exact ⟨zs', .unknown _ _ f.num t k v rest _ _ h1 hn (isValue_le hv _ (Nat.zero_le _)) a1, a2⟩
theorem decField_car {d : Int} {f : Field} {t : WireType} {v : Bytes} {x y : Val} :
    DecField S d f t v x y → ∀ (slot : Nat) (x' : Val), (∀ id', f.shape ≠ .msg id' false) → CarField O S σ d f x x' →
    ∃ y', DecField O d (f.at slot) t v x' y' ∧ CarField O S σ d f y y' ∧
      (∀ w, f.member = some w → ∃ a b, y = .iface (some (w, some a)) ∧ y' = .iface (some (w, some b)))
  | .plain _ _ _ _ _ _ hm h => fun slot x' hp hk => by
    obtain ⟨y', h1, h2⟩ := decShape_car h x' hp (carField_plain hm hk)
    exact ⟨y', .plain _ (f.at slot) _ _ _ _ hm h1, .plain _ _ _ _ hm h2, fun w hw => by rw [hm] at hw; cases hw⟩
  | .member _ _ _ _ w x0 y hm h => fun slot x' hp hk => by
    obtain ⟨x1, rfl⟩ := carField_iface hm hk
    obtain ⟨y', h1, h2⟩ := decShape_car h _ hp (carShape_zero d hp)
    exact ⟨_, .member _ (f.at slot) _ _ w x1 y' hm h1, .set _ _ _ _ _ hm h2,
      fun w' hw => by rw [hm] at hw; cases hw; exact ⟨_, _, rfl, rfl⟩⟩
theorem decShape_car {d : Int} {sh : Shape} {t : WireType} {v : Bytes} {x y : Val} :
    DecShape S d sh t v x y → ∀ x', (∀ id', sh ≠ .msg id' false) → CarShape O S σ d sh x x' →
    ∃ y', DecShape O d sh t v x' y' ∧ CarShape O S σ d sh y y'
  | .single _ s _ _ _ h => fun x' _ hk => ⟨_, .single _ s _ _ _ h, .single _ _ _⟩
  | .optional _ s _ _ _ h => fun x' _ hk => ⟨_, .optional _ s _ _ _ h, .optional _ _ _⟩
  | .elem _ s p _ _ _ h => fun x' _ hk => by cases hk; exact ⟨_, .elem _ s p _ _ _ h, .list _ _ _ _⟩
  | .packed _ s _ p _ _ h h' => fun x' _ hk => ⟨_, .packed _ s _ p _ _ h h', .list _ _ _ _⟩
  | .msgPtr _ id _ p _ m h h' => fun x' _ hk => by
    obtain ⟨w', a1, a2⟩ := decodes_car h' rfl
    exact ⟨_, .msgPtr _ id _ p _ _ h a1, .ptr _ _ _ _ a2⟩
  | .msgInline _ id _ p _ m h h' => fun x' hp hk => absurd rfl (hp id)
  | .msgElemPtr _ id _ p _ m h h' => fun x' _ hk => by
    obtain ⟨w', a1, a2⟩ := decodes_car h' rfl
    obtain ⟨ys, rfl, a3⟩ := car_snoc hk (.ptr _ _ _ _ a2)
    exact ⟨_, .msgElemPtr _ id _ p _ _ h a1, a3⟩
  | .msgElemInline _ id _ p _ m h h' => fun x' _ hk => by
    obtain ⟨w', a1, a2⟩ := decodes_car h' rfl
    obtain ⟨ys, rfl, a3⟩ := car_snoc hk (.inline _ _ _ _ a2)
    exact ⟨_, .msgElemInline _ id _ p _ _ h a1, a3⟩
  | .entry _ ks vs _ kb vb rest m k y h1 h2 h3 => fun x' _ hk => by
    cases hk; exact ⟨_, .entry _ ks vs _ kb vb rest m k y h1 h2 h3, .map _ _ _ _⟩
  | .entryPtr _ ks id _ kb vb rest p m k y h1 h2 h3 h' => fun x' _ hk => by
    obtain ⟨w', a1, a2⟩ := decodes_car h' rfl
    obtain ⟨m', rfl, a3⟩ := car_entry (k := k) hk (.ptr _ _ _ _ a2)
    exact ⟨_, .entryPtr _ ks id _ kb vb rest p m' k _ h1 h2 h3 a1, a3⟩
  | .entryInline _ ks id _ kb vb rest p m k y h1 h2 h3 h' => fun x' _ hk => by
    obtain ⟨w', a1, a2⟩ := decodes_car h' rfl
    obtain ⟨m', rfl, a3⟩ := car_entry (k := k) hk (.inline _ _ _ _ a2)
    exact ⟨_, .entryInline _ ks id _ kb vb rest p m' k _ h1 h2 h3 a1, a3⟩
end
end

end Verif.Lemmas
