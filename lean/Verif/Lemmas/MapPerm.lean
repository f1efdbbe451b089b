import Verif.Spec.Same
import Verif.Lemmas.Output
/-! Helper lemmas: the order of map entries does not change the length of the encoding. -/
namespace Verif.Lemmas
open Verif.Model Verif.Spec

/-- The length of an optional byte string. -/
def olen (e : Option Bytes) : Option Nat := e.map List.length

/-- Sum of optional lengths. -/
def osum : List (Option Nat) → Option Nat
  | [] => some 0
  | n :: ns => do return (← n) + (← osum ns)

theorem osum_perm {xs ys : List (Option Nat)} (h : xs.Perm ys) : osum xs = osum ys := by
  induction h with
  | nil => rfl
  | cons x _ ih => simp only [osum, ih]
  | swap x y l =>
    simp only [osum]
    cases x <;> cases y <;> cases osum l <;> simp
    omega
  | trans _ _ ih1 ih2 => rw [ih1, ih2]

theorem olen_concatM {α : Type} (g : α → Option Bytes) (xs : List α) :
    olen (concatM g xs) = osum (xs.map (fun x => olen (g x))) := by
  induction xs with
  | nil => rfl
  | cons x xs ih =>
    simp only [concatM, List.map_cons, osum, ← ih]
    cases g x <;> cases concatM g xs <;> simp [olen]

theorem map_ext_idx {α β γ : Type} (g : α → γ) (h : β → γ) : ∀ (xs : List α) (ys : List β), xs.length = ys.length →
    (∀ (i : Nat) (x : α) (y : β), xs[i]? = some x → ys[i]? = some y → g x = h y) → xs.map g = ys.map h
  | [], [], _, _ => rfl
  | x :: xs, y :: ys, hl, hp => by
    rw [List.map_cons, List.map_cons, hp 0 x y rfl rfl,
      map_ext_idx g h xs ys (by simpa using hl) (fun i a b ha hb => hp (i + 1) a b (by simpa using ha) (by simpa using hb))]
  | [], _ :: _, hl, _ => by cases hl
  | _ :: _, [], hl, _ => by cases hl

theorem olen_frame (e e' : Option Bytes) (h : olen e = olen e') (a : Bytes) :
    olen (do return a ++ lenDelim (← e)) = olen (do return a ++ lenDelim (← e')) := by
  cases e <;> cases e' <;> simp_all [olen, lenDelim]

theorem scalar_perm {s : Scalar} {v w : Val} (h : s.goType.holds v = true) (hp : MapPerm v w) : w = v := by
  cases hp with
  | refl => rfl
  | _ => cases s <;> cases h

mutual
theorem memZero_perm : ∀ (v w : Val), MapPerm v w → v.memZero = w.memZero := by
  intro v w h
  cases h with
  | refl => rfl
  | ptr a b h => rfl
  | slice => rfl
  | map => rfl
  | iface => rfl
  | struct xs ys hl h =>
    simp only [Val.memZero]
    exact memZeros_perm xs ys hl h
termination_by v => sizeOf v
theorem memZeros_perm : ∀ (xs ys : List Val), xs.length = ys.length →
    (∀ (i : Nat) (x y : Val), xs[i]? = some x → ys[i]? = some y → MapPerm x y) →
    memZeros xs = memZeros ys := by
  intro xs ys hl h
  match xs, ys, hl with
  | [], [], _ => rfl
  | x :: xs, y :: ys, hl =>
    simp only [memZeros]
    rw [memZero_perm x y (h 0 x y rfl rfl),
      memZeros_perm xs ys (by simpa using hl) (fun i a b ha hb => h (i + 1) a b (by simpa using ha) (by simpa using hb))]
termination_by xs => sizeOf xs
end

variable {S : Schema}

theorem deref_perm {id : Nat} {p : Bool} {x y : Val} (h : MapPerm x y) :
    MapPerm (deref S id p x) (deref S id p y) := by
  cases p with
  | false => exact h
  | true =>
    cases h with
    | refl => exact .refl _
    | ptr a b h => exact h
    | _ => exact .refl _

theorem perm_idx_mem {α : Type} {xs : List α} {x : α} {i : Nat} (h : xs[i]? = some x) : x ∈ xs :=
  List.mem_of_getElem? h

theorem length_of_map_eq {α β γ : Type} {f : α → γ} {g : β → γ} {xs : List α} {ys : List β}
    (h : xs.map f = ys.map g) : xs.length = ys.length := by
  have := congrArg List.length h
  simpa using this

theorem encodeShape_perm {enc : Nat → Val → Option Bytes} (hW : S.WF)
    (hrec : ∀ id a b, MapPerm a b → Typed S id a → Typed S id b → olen (enc id a) = olen (enc id b))
    (num : Nat) (keep : Bool) {s : Shape} {d e : Val} (hd : ShapeTyped S s d) (he : ShapeTyped S s e)
    (hp : MapPerm d e) : olen (encodeShape S enc num keep s d) = olen (encodeShape S enc num keep s e) := by
  cases hd with
  | single s v h => rw [scalar_perm h hp]
  | optionalNil s => cases hp with | refl => rfl
  | optional s v h =>
    cases hp with
    | refl => rfl
    | ptr _ w hp => rw [scalar_perm h hp]
  | list s p xs h =>
    cases hp with
    | refl => rfl
    | slice _ ys hl hp =>
      have : ys = xs := by
        have := map_ext_idx id id ys xs hl.symm (fun i y x hy hx =>
          scalar_perm (h x (perm_idx_mem hx)) (hp i x y hx hy))
        simpa using this
      rw [this]
  | msg id p v h =>
    cases h with
    | nil => cases hp with | refl => rfl
    | ptr _ v hv =>
      cases hp with
      | refl => rfl
      | ptr _ w hp =>
        cases he with
        | msg _ _ _ h => cases h with
          | ptr _ _ hw =>
            simp only [encodeShape]
            exact olen_frame _ _ (hrec id v w hp hv hw) _
    | inline _ _ hv =>
      cases he with
      | msg _ _ _ h => cases h with
        | inline _ _ hw =>
          simp only [encodeShape, memZero_perm d e hp]
          split
          · rfl
          · exact olen_frame _ _ (hrec id d e hp hv hw) _
  | msgList id p xs h =>
    cases hp with
    | refl => rfl
    | slice _ ys hl hp =>
      cases he with
      | msgList _ _ _ h' =>
        simp only [encodeShape]
        rw [olen_concatM, olen_concatM]
        congr 1
        refine map_ext_idx _ _ _ _ hl (fun i x y hx hy => olen_frame _ _ ?_ _)
        exact hrec id _ _ (deref_perm (hp i x y hx hy)) (deref_typed hW (h x (perm_idx_mem hx)))
          (deref_typed hW (h' y (perm_idx_mem hy)))
  | mapNil k v => cases hp with | refl => rfl
  | map k v m hn h =>
    cases hp with
    | refl => rfl
    | map _ m1 m' hperm hkeys hvals =>
      simp only [encodeShape, Option.getD_some]
      rw [olen_concatM, olen_concatM, osum_perm (hperm.map _)]
      congr 1
      refine map_ext_idx _ _ _ _ (length_of_map_eq hkeys) (fun i a b ha hb => ?_)
      have h1 : a.1 = b.1 := by
        have := congrArg (fun l => l[i]?) hkeys
        simpa [ha, hb] using this
      have h2 : b.2 = a.2 := scalar_perm (h a (hperm.mem_iff.2 (perm_idx_mem ha))).2 (hvals i a b ha hb)
      rw [h1, h2]
  | mapMsgNil k id p => cases hp with | refl => rfl
  | mapMsg k id p m hn hk hr =>
    cases hp with
    | refl => rfl
    | map _ m1 m' hperm hkeys hvals =>
      cases he with
      | mapMsg _ _ _ _ hn' hk' hr' =>
        simp only [encodeShape, Option.getD_some]
        rw [olen_concatM, olen_concatM, osum_perm (hperm.map _)]
        congr 1
        refine map_ext_idx _ _ _ _ (length_of_map_eq hkeys) (fun i a b ha hb => ?_)
        have h1 : a.1 = b.1 := by
          have := congrArg (fun l => l[i]?) hkeys
          simpa [ha, hb] using this
        have h2 := hrec id _ _ (deref_perm (S := S) (id := id) (p := p) (hvals i a b ha hb))
          (deref_typed hW (hr a (hperm.mem_iff.2 (perm_idx_mem ha)))) (deref_typed hW (hr' b (perm_idx_mem hb)))
        rw [h1, encode_some (hk' b (perm_idx_mem hb))]
        revert h2
        cases enc id (deref S id p a.2) <;> cases enc id (deref S id p b.2) <;> simp [olen]
        intro h
        simp [lenDelim, h]

theorem content_perm {f : Field} {x y : Val} (h : MapPerm x y) :
    (f.content x = none ∧ f.content y = none) ∨
    ∃ d e, f.content x = some d ∧ f.content y = some e ∧ MapPerm d e := by
  unfold Field.content
  cases f.member with
  | none => exact .inr ⟨x, y, rfl, rfl, h⟩
  | some w =>
    cases h with
    | refl =>
      cases hc : (match x with
        | .iface (some (w', some d)) => if w = w' then some d else none
        | _ => none : Option Val) with
      | none => exact .inl ⟨hc, hc⟩
      | some d => exact .inr ⟨d, d, hc, hc, .refl _⟩
    | iface w' a b h =>
      by_cases hw : w = w'
      · exact .inr ⟨a, b, by simp [hw], by simp [hw], h⟩
      · exact .inl ⟨by simp [hw], by simp [hw]⟩
    | _ => exact .inl ⟨rfl, rfl⟩

theorem unknown_perm {m : Message} {xs ys : List Val}
    (ht : ∀ s p x, m.unknown = some (s, p) → xs[s]? = some x → UnknownTyped p x)
    (hl : xs.length = ys.length)
    (h : ∀ (i : Nat) (x y : Val), xs[i]? = some x → ys[i]? = some y → MapPerm x y) :
    unknownOf m xs = unknownOf m ys := by
  unfold unknownOf
  match hu : m.unknown with
  | none => rfl
  | some (s, p) =>
    dsimp only
    by_cases hs : s < xs.length
    · have hx : xs[s]? = some xs[s] := List.getElem?_eq_getElem hs
      have hy : ys[s]? = some ys[s] := List.getElem?_eq_getElem (by omega)
      have hp := h s _ _ hx hy
      have htx := ht s p _ hu hx
      rw [hx, hy]
      generalize xs[s] = x at *
      generalize ys[s] = y at *
      cases p with
      | false =>
        obtain ⟨u, rfl⟩ := htx
        cases hp with | refl => rfl
      | true =>
        rcases htx with rfl | ⟨u, rfl⟩
        · cases hp with | refl => rfl
        · cases hp with
          | refl => rfl
          | ptr _ _ hp => cases hp with | refl => rfl
    · rw [List.getElem?_eq_none (by omega), List.getElem?_eq_none (by omega)]

theorem encode_perm (hW : S.WF) (keep : Bool) : ∀ (d id : Nat) (v w : Val), MapPerm v w → Typed S id v → Typed S id w →
    olen (encode S keep d id v) = olen (encode S keep d id w)
  | 0, _, _, _, _, _, _ => rfl
  | d + 1, id, v, w, hp, hv, hw => by
    obtain ⟨xs, rfl⟩ : ∃ slots, v = .struct slots := by cases hv; exact ⟨_, rfl⟩
    cases hp with
    | refl => rfl
    | struct _ ys hl h =>
      simp only [encode]
      have h1 : olen (concatM (encodeField S keep (encode S keep d) xs) (S id).fields) =
          olen (concatM (encodeField S keep (encode S keep d) ys) (S id).fields) := by
        rw [olen_concatM, olen_concatM]
        congr 1
        refine List.map_congr_left (fun f hf => ?_)
        obtain ⟨x, hx, hft⟩ := typed_slot hW hv hf
        obtain ⟨y, hy, hft'⟩ := typed_slot hW hw hf
        simp only [encodeField, hx, hy, bind, Option.bind]
        rcases content_perm (f := f) (h _ x y hx hy) with ⟨h1, h2⟩ | ⟨a, b, h1, h2, hab⟩
        · rw [h1, h2]
        · rw [h1, h2]
          exact encodeShape_perm hW (fun id a b hab ha hb => encode_perm hW keep d id a b hab ha hb) _ _
            (content_typed hft h1) (content_typed hft' h2) hab
      have h2 : unknownOf (S id) xs = unknownOf (S id) ys :=
        unknown_perm (by cases hv with | mk _ _ _ _ hu => exact hu) hl h
      rw [h2]
      revert h1
      cases concatM (encodeField S keep (encode S keep d) xs) (S id).fields <;>
        cases concatM (encodeField S keep (encode S keep d) ys) (S id).fields <;> simp [olen]

theorem noBigMapsL_eq : ∀ (xs ys : List Val), xs.length = ys.length →
    (∀ (i : Nat) (x y : Val), xs[i]? = some x → ys[i]? = some y → noBigMaps x = true → y = x) →
    noBigMapsL xs = true → ys = xs
  | [], [], _, _, _ => rfl
  | x :: xs, y :: ys, hl, h, hn => by
    simp only [noBigMapsL, Bool.and_eq_true] at hn
    rw [h 0 x y rfl rfl hn.1, noBigMapsL_eq xs ys (by simpa using hl)
      (fun i a b ha hb => h (i + 1) a b (by simpa using ha) (by simpa using hb)) hn.2]
  | [], _ :: _, hl, _, _ => by cases hl
  | _ :: _, [], hl, _, _ => by cases hl

theorem noBigMaps_eq {v w : Val} (h : MapPerm v w) : noBigMaps v = true → w = v := by
  induction h with
  | refl => exact fun _ => rfl
  | ptr a b h ih => intro hn; rw [ih (by simpa only [noBigMaps] using hn)]
  | slice xs ys hl h ih => intro hn; rw [noBigMapsL_eq xs ys hl ih (by simpa only [noBigMaps] using hn)]
  | struct xs ys hl h ih => intro hn; rw [noBigMapsL_eq xs ys hl ih (by simpa only [noBigMaps] using hn)]
  | iface w a b h ih => intro hn; rw [ih (by simpa only [noBigMaps] using hn)]
  | map m m1 m' hperm hkeys hvals ih =>
    intro hn
    match m, hn with
    | [], hn =>
      rw [List.nil_perm] at hperm
      subst hperm
      have := length_of_map_eq hkeys
      rw [List.length_eq_zero_iff.1 this.symm]
    | [(k, e)], hn =>
      rw [List.singleton_perm] at hperm
      subst hperm
      simp only [noBigMaps] at hn
      match m', hkeys with
      | [e'], hkeys =>
        have h2 := ih 0 (k, e) e' rfl rfl hn
        simp only [List.map_cons, List.map_nil, List.cons.injEq, and_true] at hkeys
        rw [show e' = (k, e) from Prod.ext hkeys.symm h2]
    | _ :: _ :: _, hn => simp [noBigMaps] at hn

end Verif.Lemmas
