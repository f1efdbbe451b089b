import Verif.Lemmas.Relay
import Verif.Spec.Round
/-! # A message of the older version as a message of the newer one -/
namespace Verif.Lemmas
open Verif.Spec Verif.Model

variable {O S : Schema} {σ : Nat → Nat → Nat}

/-- No unknown fields, and not nested too deeply. -/
def Clean (O : Schema) (d : Int) (id : Nat) (w : Val) : Prop :=
  (∀ i xs, Reach O id w i (.struct xs) → unknownOf (O i) xs = []) ∧ ∀ c : Nat, NestedBy O c id w → (c : Int) ≠ d

def GoodMsg (O S : Schema) (σ : Nat → Nat → Nat) (d : Int) (id : Nat) (v w : Val) : Prop :=
  Typed S id v ∧ Kept O S σ id v w ∧ Car O S σ d id v w ∧ Bare O S σ id v
def GoodRef (O S : Schema) (σ : Nat → Nat → Nat) (d : Int) (id : Nat) (p : Bool) (x y : Val) : Prop :=
  RefTyped S id p x ∧ KeptShape O S σ (.msg id p) x y ∧ CarRef O S σ d id p x y ∧ Bare O S σ id (deref S id p x)
def GoodShape (O S : Schema) (σ : Nat → Nat → Nat) (d : Int) (sh : Shape) (x y : Val) : Prop :=
  ShapeTyped S sh x ∧ KeptShape O S σ sh x y ∧ CarShape O S σ d sh x y ∧ ∀ id' v', ShapeSub S sh x id' v' → Bare O S σ id' v'
def GoodField (O S : Schema) (σ : Nat → Nat → Nat) (d : Int) (f : Field) (x y : Val) : Prop :=
  FieldTyped S f x ∧ KeptField O S σ f x y ∧ CarField O S σ d f x y ∧
    ∀ e, f.content x = some e → ∀ id' v', ShapeSub S f.shape e id' v' → Bare O S σ id' v'

theorem exists_list (Q : Nat → Val → Prop) : ∀ n : Nat, (∀ i < n, ∃ x, Q i x) →
    ∃ xs : List Val, xs.length = n ∧ ∀ (i : Nat) (x : Val), xs[i]? = some x → Q i x
  | 0, _ => ⟨[], rfl, fun i x h => by simp at h⟩
  | n + 1, h => by
    obtain ⟨xs, h1, h2⟩ := exists_list Q n (fun i hi => h i (by omega))
    obtain ⟨x, hx⟩ := h n (by omega)
    refine ⟨xs ++ [x], by simp [h1], fun i y hy => ?_⟩
    by_cases hi : i < xs.length
    · rw [List.getElem?_append_left hi] at hy; exact h2 i y hy
    · rw [List.getElem?_append_right (by omega)] at hy
      have : i - xs.length = 0 := by
        cases hk : i - xs.length with
        | zero => rfl
        | succ k => rw [hk] at hy; simp at hy
      rw [this] at hy
      simp only [List.getElem?_cons_zero, Option.some.injEq] at hy
      have : i = n := by omega
      rw [this, ← hy]; exact hx

theorem exists_pairs {R : Val → Val → Prop} : ∀ ys : List Val, (∀ y ∈ ys, ∃ x, R x y) →
    ∃ zs : List (Val × Val), ys = zs.map (·.2) ∧ ∀ z ∈ zs, R z.1 z.2
  | [], _ => ⟨[], rfl, by simp⟩
  | y :: ys, h => by
    obtain ⟨zs, h1, h2⟩ := exists_pairs ys (fun y hy => h y (by simp [hy]))
    obtain ⟨x, hx⟩ := h y (by simp)
    refine ⟨(x, y) :: zs, by simp [h1], fun z hz => ?_⟩
    rcases List.mem_cons.1 hz with rfl | hz
    · exact hx
    · exact h2 z hz

theorem exists_triples {R : Val → Val → Prop} : ∀ m : List (Key × Val), (∀ e ∈ m, ∃ x, R x e.2) →
    ∃ zs : List (Key × Val × Val), m = zs.map (fun z => (z.1, z.2.2)) ∧ ∀ z ∈ zs, R z.2.1 z.2.2
  | [], _ => ⟨[], rfl, by simp⟩
  | e :: m, h => by
    obtain ⟨zs, h1, h2⟩ := exists_triples m (fun e he => h e (by simp [he]))
    obtain ⟨x, hx⟩ := h e (by simp)
    refine ⟨(e.1, x, e.2) :: zs, by simp [h1], fun z hz => ?_⟩
    rcases List.mem_cons.1 hz with rfl | hz
    · exact hx
    · exact h2 z hz

theorem clean_sub {d : Int} {id : Nat} {ys : List Val} {g : Field} (h : Clean O d id (.struct ys)) (hg : g ∈ (O id).fields) {y e : Val}
    (hy : ys[g.slot]? = some y) (hc : g.content y = some e) (id' : Nat) (w' : Val) (hs : ShapeSub O g.shape e id' w') :
    Clean O (d - g.shape.hop) id' w' := by
  have hf : FieldSub O ys g id' w' := ⟨y, e, hy, hc, hs⟩
  refine ⟨fun i xs hr => h.1 i xs (.step _ _ _ _ _ _ (.mk _ _ g _ _ hg hf) hr), fun c hc => ?_⟩
  have := h.2 _ (.step c id ys g id' w' hg hf hc)
  omega

theorem bare_mk {id : Nat} {xs : List Val} (h1 : ∀ f ∈ (S id).fields, ¬ Known O σ id f → xs[f.slot]? = some (f.zero S))
    (h2 : unknownOf (S id) xs = []) (h3 : ∀ f ∈ (S id).fields, ∀ x e, xs[f.slot]? = some x → f.content x = some e →
      ∀ id' v', ShapeSub S f.shape e id' v' → Bare O S σ id' v') : Bare O S σ id (.struct xs) := by
  intro i us hr
  cases hr with
  | refl => exact ⟨h1, h2⟩
  | step _ _ id' v' _ _ hs hr =>
    cases hs with
    | mk _ f _ _ hf hs =>
      obtain ⟨x, e, a1, a2, a3⟩ := hs
      exact h3 f hf x e a1 a2 id' v' a3 i us hr

theorem zero_no_sub {f : Field} (hp : ∀ id', f.shape ≠ .msg id' false) {e : Val} (hc : f.content (f.zero S) = some e) (id' : Nat) (v' : Val) :
    ¬ ShapeSub S f.shape e id' v' := by
  cases hm : f.member with
  | some w => simp only [Field.zero, Field.content, hm] at hc; cases hc
  | none =>
    have e1 : f.zero S = f.shape.zero S := by simp only [Field.zero, hm, Shape.zero]
    simp only [Field.content, hm, Option.some.injEq] at hc
    rw [← hc, e1]
    generalize f.shape = sh at hp
    intro hs
    cases sh with
    | msg id p =>
      cases p with
      | false => exact hp id rfl
      | true => cases hs
    | msgList id p => cases hs with | list _ _ _ _ h => cases h
    | _ => cases hs

section
variable (hS : S.WF) (hO : O.WF) (hV : Grows O S σ)
include hS hV

theorem bare_zero (id : Nat) : Bare O S σ id (S id).zero := by
  obtain ⟨zs, e, _⟩ := (hS id).zero
  obtain ⟨a1, a2, a3, a4⟩ := zero_slots hS e
  rw [e]
  refine bare_mk (fun f hf _ => a4 f hf) a2 (fun f hf x e hx hc id' v' hs => ?_)
  rw [a4 f hf] at hx
  cases hx
  exact absurd hs (zero_no_sub (hV.pointers id f hf) hc id' v')

include hO

mutual
theorem lift_msg {id : Nat} {w : Val} : Typed O id w → ∀ d, Clean O d id w → ∃ v, GoodMsg O S σ d id v w
  | .mk _ ys h1 h2 h3 => fun d hcl => by
    have hlf := fun g hg y hy => lift_field (h2 g hg y hy)
    obtain ⟨zs0, e0, _⟩ := (hS id).zero
    obtain ⟨a1, a2, a3, a4⟩ := zero_slots hS e0
    have htz : Typed S id (.struct zs0) := e0 ▸ typed_zero hS id
    have slot : ∀ i < (S id).nslots, ∃ x, (∀ f ∈ (S id).fields, Known O σ id f → f.slot = i → ∀ y, ys[σ id i]? = some y → GoodField O S σ d f x y) ∧
        ((∀ f ∈ (S id).fields, Known O σ id f → f.slot ≠ i) → zs0[i]? = some x) := by
      intro i hi
      by_cases hK : ∃ f ∈ (S id).fields, Known O σ id f ∧ f.slot = i
      · obtain ⟨f, hf, hk, hfi⟩ := hK
        have hl : σ id i < ys.length := by rw [h1, ← hfi]; exact (hO id).slots _ hk
        have hy : ys[σ id i]? = some ys[σ id i] := List.getElem?_eq_getElem hl
        generalize ys[σ id i] = y at hy
        by_cases hC : ∃ g ∈ (S id).fields, Known O σ id g ∧ g.slot = i ∧ ∃ e, g.content y = some e
        · obtain ⟨g, hg, hkg, hgi, e, hce⟩ := hC
          have hyg : ys[(g.at (σ id g.slot)).slot]? = some y := by
            show ys[σ id g.slot]? = some y
            rw [hgi]; exact hy
          obtain ⟨e', q1, q2, q3, q4⟩ := hlf (g.at (σ id g.slot)) hkg y hyg d e hce (hV.pointers id g hg) (clean_sub hcl hkg hyg hce)
          have q1 : ShapeTyped S g.shape e' := q1
          have q2 : KeptShape O S σ g.shape e' e := q2
          have q3 : CarShape O S σ d g.shape e' e := q3
          cases hm : g.member with
          | none =>
            have hye : e = y := by simpa [Field.content, hm] using hce.symm
            subst hye
            refine ⟨e', fun f' hf' hk' hs' y' hy' => ?_, fun h => absurd hgi (h g hg hkg)⟩
            rw [hy] at hy'; cases hy'
            by_cases hn : g.num = f'.num
            · rw [← fields_num_inj (hS id) hg hf' hn]
              exact ⟨.plain _ _ hm q1, .plain _ _ _ hm q2, .plain _ _ _ _ hm q3, fun e1 he1 => by
                simp only [Field.content, hm, Option.some.injEq] at he1
                subst he1; exact q4⟩
            · obtain ⟨w, w', e1, e2, e3⟩ := (hS id).disjoint g hg f' hf' hn (hgi.trans hs'.symm)
              rw [hm] at e1; cases e1
          | some w =>
            have hyw : y = .iface (some (w, some e)) := by
              simp only [Field.content, hm] at hce
              split at hce
              · rename_i w' d' 
                split at hce
                · rename_i hw; cases hce; rw [hw]
                · cases hce
              · cases hce
            subst hyw
            refine ⟨.iface (some (w, some e')), fun f' hf' hk' hs' y' hy' => ?_, fun h => absurd hgi (h g hg hkg)⟩
            rw [hy] at hy'; cases hy'
            by_cases hn : g.num = f'.num
            · rw [← fields_num_inj (hS id) hg hf' hn]
              exact ⟨.member _ _ _ hm q1, .set _ _ _ _ hm q2, .set _ _ _ _ _ hm q3, fun e1 he1 => by
                simp only [Field.content, hm, if_true, Option.some.injEq] at he1
                subst he1; exact q4⟩
            · obtain ⟨w1, w', e1, e2, e3⟩ := (hS id).disjoint g hg f' hf' hn (hgi.trans hs'.symm)
              rw [hm] at e1; cases e1
              refine ⟨.otherMember _ _ _ _ e2 (Ne.symm e3), .other _ _ _ _ _ e2 e3, .other _ _ _ _ _ _ e2 e3, fun e1 he1 => ?_⟩
              simp only [Field.content, e2, if_neg (Ne.symm e3)] at he1
              cases he1
        · have hnone : ∀ f' ∈ (S id).fields, Known O σ id f' → f'.slot = i → f'.content y = none := by
            intro f' hf' hk' hs'
            cases hc : f'.content y with
            | none => rfl
            | some e => exact absurd ⟨f', hf', hk', hs', e, hc⟩ hC
          have hmem : ∀ f' ∈ (S id).fields, Known O σ id f' → f'.slot = i → ∃ w, f'.member = some w := by
            intro f' hf' hk' hs'
            cases hm : f'.member with
            | some w => exact ⟨w, rfl⟩
            | none => have := hnone f' hf' hk' hs'; simp [Field.content, hm] at this
          have hyf : ys[(f.at (σ id f.slot)).slot]? = some y := by
            show ys[σ id f.slot]? = some y
            rw [hfi]; exact hy
          have hft := h2 _ hk y hyf
          have hyi : ∃ c, y = .iface c := by
            obtain ⟨w, hw⟩ := hmem f hf hk hfi
            cases hft with
            | plain _ _ hm => rw [show (f.at (σ id f.slot)).member = f.member from rfl, hw] at hm; cases hm
            | unset => exact ⟨_, rfl⟩
            | nilMember => exact ⟨_, rfl⟩
            | member => exact ⟨_, rfl⟩
            | otherMember => exact ⟨_, rfl⟩
          obtain ⟨c, rfl⟩ := hyi
          refine ⟨.iface c, fun f' hf' hk' hs' y' hy' => ?_, fun h => absurd hfi (h f hf hk)⟩
          rw [hy] at hy'; cases hy'
          obtain ⟨w, hw⟩ := hmem f' hf' hk' hs'
          have hcn := hnone f' hf' hk' hs'
          have hv : ∀ e, f'.content (.iface c) = some e → ∀ id' v', ShapeSub S f'.shape e id' v' → Bare O S σ id' v' := fun e he => by
            rw [hcn] at he; cases he
          match c with
          | none => exact ⟨.unset _ _ hw, .unset _ (by rw [hw]; simp), .unset _ _ (by rw [hw]; simp), hv⟩
          | some (w', none) =>
            refine ⟨.nilMember _ _ _ hw, ?_, .nilCase _ _ _ (by rw [hw]; simp), hv⟩
            by_cases hww : w' = w
            · subst hww; exact .setNil _ _ hw
            · exact .other _ _ _ _ _ hw hww
          | some (w', some d') =>
            have hww : w ≠ w' := by
              intro h
              simp [Field.content, hw, h] at hcn
            exact ⟨.otherMember _ _ _ _ hw hww, .other _ _ _ _ _ hw (Ne.symm hww), .other _ _ _ _ _ _ hw (Ne.symm hww), hv⟩
      · exact ⟨zs0[i]'(by omega), fun f hf hk hs => absurd ⟨f, hf, hk, hs⟩ hK, fun _ => List.getElem?_eq_getElem (by omega)⟩
    obtain ⟨xs, hxl, hq⟩ := exists_list _ _ slot
    have old : ∀ i, (∀ f ∈ (S id).fields, Known O σ id f → f.slot ≠ i) → xs[i]? = zs0[i]? := by
      intro i h
      by_cases hi : i < xs.length
      · have := List.getElem?_eq_getElem hi
        rw [this, (hq i _ this).2 h]
      · rw [List.getElem?_eq_none (by omega), List.getElem?_eq_none (by omega)]
    have zeros : ∀ f ∈ (S id).fields, ¬ Known O σ id f → xs[f.slot]? = some (f.zero S) := fun f hf hk => by
      rw [old f.slot (fun g hg hkg => hV.oneofs id g hg f hf hkg hk)]
      exact a4 f hf
    have hunk : ∀ s p, (S id).unknown = some (s, p) → xs[s]? = zs0[s]? := fun s p hu =>
      old s (fun f hf _ => unknown_ne_slot hS hf s p hu)
    have hu : unknownOf (S id) xs = [] := by
      cases hu : (S id).unknown with
      | none => simp [unknownOf, hu]
      | some sp =>
        obtain ⟨s, p⟩ := sp
        have := hunk s p hu
        simp only [unknownOf, hu, this] at a2 ⊢
        exact a2
    have known : ∀ f ∈ (S id).fields, Known O σ id f → ∀ x y, xs[f.slot]? = some x → ys[σ id f.slot]? = some y → GoodField O S σ d f x y :=
      fun f hf hk x y hx hy => (hq _ x hx).1 f hf hk rfl y hy
    have hd : d ≠ 0 := fun h => hcl.2 0 (.zero _ _) (by rw [h]; rfl)
    have hys : ∀ f, Known O σ id f → ∃ y, ys[σ id f.slot]? = some y := fun f hk => by
      have : σ id f.slot < ys.length := by rw [h1]; exact (hO id).slots _ hk
      exact ⟨_, List.getElem?_eq_getElem this⟩
    refine ⟨.struct xs, .mk _ _ hxl (fun f hf x hx => ?_) (fun s p x hu' hx => ?_), .mk _ _ _ hxl h1 (fun f hf hk x y hx hy => (known f hf hk x y hx hy).2.1),
      .mk _ _ _ _ hd hxl h1 (fun f hf hk x y hx hy => (known f hf hk x y hx hy).2.2.1)
        ⟨[], xs, by rw [hcl.1 _ _ (.refl _ _)]; exact splits_nil, by simp, rfl, hxl, fun _ _ _ => rfl, zeros, hu⟩,
      bare_mk zeros hu (fun f hf x e hx hc id' v' hs => ?_)⟩
    · by_cases hk : Known O σ id f
      · obtain ⟨y, hy⟩ := hys f hk
        exact (known f hf hk x y hx hy).1
      · rw [zeros f hf hk, ← a4 f hf] at hx
        cases htz with
        | mk _ _ _ t _ => exact t f hf x hx
    · rw [hunk s p hu'] at hx
      cases htz with
      | mk _ _ _ _ t => exact t s p x hu' hx
    · by_cases hk : Known O σ id f
      · obtain ⟨y, hy⟩ := hys f hk
        exact (known f hf hk x y hx hy).2.2.2 e hc id' v' hs
      · rw [zeros f hf hk] at hx
        cases hx
        exact absurd hs (zero_no_sub (hV.pointers id f hf) hc id' v')
theorem lift_field {g : Field} {y : Val} : FieldTyped O g y → ∀ d e, g.content y = some e → (∀ id', g.shape ≠ .msg id' false) →
    (∀ id' w', ShapeSub O g.shape e id' w' → Clean O (d - g.shape.hop) id' w') → ∃ e', GoodShape O S σ d g.shape e' e
  | .plain _ _ hm h => fun d e hc hp hcl => by
    simp only [Field.content, hm, Option.some.injEq] at hc
    have hr := lift_shape h
    subst hc
    exact hr d hp hcl
  | .unset _ _ hm => fun d e hc => by simp [Field.content, hm] at hc
  | .nilMember _ _ _ hm => fun d e hc => by simp [Field.content, hm] at hc
  | .member _ _ _ hm h => fun d e hc hp hcl => by
    simp only [Field.content, hm, if_true, Option.some.injEq] at hc
    have hr := lift_shape h
    subst hc
    exact hr d hp hcl
  | .otherMember _ _ _ _ hm hn => fun d e hc => by simp [Field.content, hm, hn] at hc
theorem lift_shape {sh : Shape} {y : Val} : ShapeTyped O sh y → ∀ d, (∀ id', sh ≠ .msg id' false) →
    (∀ id' w', ShapeSub O sh y id' w' → Clean O (d - sh.hop) id' w') → ∃ x, GoodShape O S σ d sh x y
  | .single s v h => fun d _ _ => ⟨v, .single _ _ h, .single _ _, .single _ _ _, fun _ _ h => by cases h⟩
  | .optionalNil s => fun d _ _ => ⟨_, .optionalNil _, .optional _ _, .optional _ _ _, fun _ _ h => by cases h⟩
  | .optional s v h => fun d _ _ => ⟨_, .optional _ _ h, .optional _ _, .optional _ _ _, fun _ _ h => by cases h⟩
  | .list s p xs h => fun d _ _ => ⟨_, .list _ _ _ h, .list _ _ _, .list _ _ _ _, fun _ _ h => by cases h⟩
  | .mapNil k v => fun d _ _ => ⟨_, .mapNil _ _, .map _ _ _, .map _ _ _ _, fun _ _ h => by cases h⟩
  | .map k v m h h' => fun d _ _ => ⟨_, .map _ _ _ h h', .map _ _ _, .map _ _ _ _, fun _ _ h => by cases h⟩
  | .mapMsgNil k id p => fun d _ _ => ⟨_, .mapMsgNil _ _ _, .nilMap _ _ _, .nilMap _ _ _ _, fun _ _ h => by cases h⟩
  | .msg id p v h => fun d hp hcl => by
    have hr := lift_ref h
    cases p with
    | false => exact absurd rfl (hp id)
    | true =>
      by_cases hn : v = .ptr none
      · subst hn
        exact ⟨.ptr none, .msg _ _ _ (.nil _), .nilPtr _, .nilPtr _ _, fun _ _ h => by cases h⟩
      · obtain ⟨x, q1, q2, q3, q4⟩ := hr (d - 1) (by
          cases h with
          | nil => exact absurd rfl hn
          | ptr _ w h => exact hcl _ _ (.ptr _ _))
        cases q3 with
        | nil => exact absurd rfl hn
        | ptr _ _ v' w' q3 => exact ⟨_, .msg _ _ _ q1, q2, .ptr _ _ _ _ q3, fun _ _ h => by cases h; exact q4⟩
  | .msgList id p ys h => fun d hp hcl => by
    obtain ⟨zs, rfl, hz⟩ := exists_pairs (R := GoodRef O S σ (d - 1) id p) ys (fun y hy => lift_ref (h y hy) (d - 1) (hcl _ _ (.list _ _ _ _ hy)))
    refine ⟨.slice (zs.map (·.1)), .msgList _ _ _ (fun v hv => ?_), .msgList _ _ _ _ (by simp) (fun i x y hx hy => ?_),
      .msgList _ _ _ _ _ zs rfl rfl (fun z hzz => (hz z hzz).2.2.1), fun id' v' hs => ?_⟩
    · obtain ⟨z, hzz, rfl⟩ := List.mem_map.1 hv
      exact (hz z hzz).1
    · rw [List.getElem?_map] at hx hy
      cases hq : zs[i]? with
      | none => rw [hq] at hx; cases hx
      | some q =>
        rw [hq] at hx hy
        cases hx; cases hy
        exact (hz q (List.mem_of_getElem? hq)).2.1
    · cases hs with
      | list _ _ _ _ hm =>
        obtain ⟨z, hzz, rfl⟩ := List.mem_map.1 hm
        exact (hz z hzz).2.2.2
  | .mapMsg k id p m hn hk h => fun d hp hcl => by
    obtain ⟨zs, rfl, hz⟩ := exists_triples (R := GoodRef O S σ (d - 2) id p) m (fun e he => lift_ref (h e he) (d - 2) (hcl _ _ (.map _ _ _ _ _ he)))
    refine ⟨.map (some (zs.map (fun z => (z.1, z.2.1)))), .mapMsg _ _ _ _ (by simpa [List.map_map, Function.comp_def] using hn) (fun e he => ?_) (fun e he => ?_),
      .mapMsg _ _ _ _ _ (by simp) (fun i x y hx hy => ?_),
      .mapMsg _ _ _ _ _ _ zs rfl rfl (fun z hzz => (hz z hzz).2.2.1), fun id' v' hs => ?_⟩
    · obtain ⟨z, hzz, rfl⟩ := List.mem_map.1 he
      exact hk (z.1, z.2.2) (List.mem_map.2 ⟨z, hzz, rfl⟩)
    · obtain ⟨z, hzz, rfl⟩ := List.mem_map.1 he
      exact (hz z hzz).1
    · rw [List.getElem?_map] at hx hy
      cases hq : zs[i]? with
      | none => rw [hq] at hx; cases hx
      | some q =>
        rw [hq] at hx hy
        cases hx; cases hy
        exact (hz q (List.mem_of_getElem? hq)).2.1
    · cases hs with
      | map _ _ _ _ e hm =>
        obtain ⟨z, hzz, rfl⟩ := List.mem_map.1 hm
        exact (hz z hzz).2.2.2
theorem lift_ref {id : Nat} {p : Bool} {y : Val} : RefTyped O id p y → ∀ d, Clean O d id (deref O id p y) → ∃ x, GoodRef O S σ d id p x y
  | .nil _ => fun d hcl =>
    ⟨.ptr none, .nil _, .nilPtr _, .nil _ _ (fun h => hcl.2 0 (.zero _ _) (by rw [h]; rfl)), bare_zero hS hV id⟩
  | .ptr _ w h => fun d hcl => by
    obtain ⟨v, q1, q2, q3, q4⟩ := lift_msg h d hcl
    exact ⟨.ptr (some v), .ptr _ _ q1, .ptr _ _ _ q2, .ptr _ _ _ _ q3, q4⟩
  | .inline _ w h => fun d hcl => by
    obtain ⟨v, q1, q2, q3, q4⟩ := lift_msg h d hcl
    exact ⟨v, .inline _ _ q1, .inline _ _ _ q2, .inline _ _ _ _ q3, q4⟩
end
end

section
variable (hS : S.WF) (hO : O.WF) (hV : Grows O S σ)
include hS hO hV

theorem carShape_sub {d : Int} {sh : Shape} {a b : Val} (h : CarShape O S σ d sh a b) {id' : Nat} {v' : Val} (hs : ShapeSub S sh a id' v') :
    ∃ w' d', ShapeSub O sh b id' w' ∧ Car O S σ d' id' v' w' := by
  have ref : ∀ {d : Int} {id : Nat} {p : Bool} {x y : Val}, CarRef O S σ d id p x y → Car O S σ d id (deref S id p x) (deref O id p y) := by
    intro d id p x y h
    cases h with
    | ptr _ _ v w h => exact h
    | inline _ _ v w h => exact h
    | nil _ _ hd => exact car_zero hS hO hV hd id
  cases hs with
  | ptr id m =>
    cases h with
    | ptr _ _ _ w h => exact ⟨w, _, .ptr _ _, h⟩
  | inline => cases h
  | list id p xs x hx =>
    cases h with
    | msgList _ _ _ _ ys zs e1 e2 h =>
      subst e1 e2
      obtain ⟨z, hz, rfl⟩ := List.mem_map.1 hx
      exact ⟨_, _, .list _ _ _ _ (List.mem_map.2 ⟨z, hz, rfl⟩), ref (h z hz)⟩
  | map k id p m e he =>
    cases h with
    | mapMsg _ _ _ _ _ m' zs e1 e2 h =>
      subst e1 e2
      obtain ⟨z, hz, rfl⟩ := List.mem_map.1 he
      exact ⟨_, _, .map _ _ _ _ (z.1, z.2.2) (List.mem_map.2 ⟨z, hz, rfl⟩), ref (h z hz)⟩

theorem reach_car {id : Nat} {v : Val} {i : Nat} {u : Val} (hr : Reach S id v i u) : ∀ {d : Int} {w : Val}, Car O S σ d id v w →
    Bare O S σ id v → ∃ d' u', Reach O id w i u' ∧ Car O S σ d' i u u' := by
  induction hr with
  | refl id v => exact fun h _ => ⟨_, _, .refl _ _, h⟩
  | step id v id' v' id'' v'' hs hr ih =>
    intro d w hc hb
    cases hc with
    | mk _ _ xs ys hd h1 h2 h3 h4 =>
    have hb' : Bare O S σ id' v' := fun i us h => hb i us (.step _ _ _ _ _ _ hs h)
    cases hs with
    | mk _ f _ _ hf hs =>
    obtain ⟨x, e, hx, hc, hsub⟩ := hs
    by_cases hk : Known O σ id f
    · have hl : σ id f.slot < ys.length := by rw [h2]; exact (hO id).slots _ hk
      have hy : ys[σ id f.slot]? = some ys[σ id f.slot] := List.getElem?_eq_getElem hl
      rcases carField_content (h3 f hf hk x _ hx hy) with ⟨c1, _⟩ | ⟨a, b, c1, c2, c3⟩
      · rw [c1] at hc; cases hc
      · rw [c1] at hc; cases hc
        obtain ⟨w', d', g1, g2⟩ := carShape_sub hS hO hV c3 hsub
        obtain ⟨d2, u', g3, g4⟩ := ih g2 hb'
        exact ⟨d2, u', .step _ _ _ _ _ _ (.mk _ _ (f.at (σ id f.slot)) _ _ hk ⟨_, b, hy, c2, g1⟩) g3, g4⟩
    · rw [(hb id xs (.refl _ _)).1 f hf hk] at hx
      cases hx
      exact absurd hsub (zero_no_sub (hV.pointers id f hf) hc _ _)

/-- If no oneof of the older message is set to a default value, then none of the newer one. -/
theorem shown_car {d : Int} {id : Nat} {v w : Val} (hc : Car O S σ d id v w) (hb : Bare O S σ id v)
    (h : ∀ i u, Reach O id w i u → MembersShown O i u) : ∀ i u, Reach S id v i u → MembersShown S i u := by
  intro i u hr xs hu f hf hm x e hx hce
  subst hu
  obtain ⟨d', u', g1, g2⟩ := reach_car hS hO hV hr hc hb
  cases g2 with
  | mk _ _ _ ys hd h1 h2 h3 h4 =>
  by_cases hk : Known O σ i f
  · have hl : σ i f.slot < ys.length := by rw [h2]; exact (hO i).slots _ hk
    have hy : ys[σ i f.slot]? = some ys[σ i f.slot] := List.getElem?_eq_getElem hl
    rcases carField_content (h3 f hf hk x _ hx hy) with ⟨c1, _⟩ | ⟨a, b, c1, c2, c3⟩
    · rw [c1] at hce; cases hce
    · rw [c1] at hce; cases hce
      rw [← car_count ((hS i).members f hf hm) c3]
      exact h i _ g1 ys rfl (f.at (σ i f.slot)) hk hm _ b hy c2
  · rw [(hb i xs hr).1 f hf hk] at hx
    cases hx
    cases hm' : f.member with
    | none => exact absurd hm' hm
    | some w => simp only [Field.zero, Field.content, hm'] at hce; cases hce

end

end Verif.Lemmas
