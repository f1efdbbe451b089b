import Verif.Spec.Weight
import Verif.Spec.Memory
import Verif.Lemmas.Steps
/-! Helper lemmas: how much a decoded value holds. -/
namespace Verif.Lemmas
open Verif.Model Verif.Spec

mutual
theorem weight_flat : ∀ (v : Val), flat v = true → weight v = 0
  | .w32 _, _ => by simp [weight]
  | .w64 _, _ => by simp [weight]
  | .bool _, _ => by simp [weight]
  | .opaque _, _ => by simp [weight]
  | .undef, _ => by simp [weight]
  | .str s, h => by simp [flat] at h; simp [weight, h]
  | .bytes s, h => by simp [flat] at h; simp [weight, h]
  | .ptr p, h => by simp [flat] at h; simp [weight, h]
  | .slice xs, h => by simp [flat] at h; simp [weight, h, weights]
  | .map m, h => by simp [flat] at h; simp [weight, h]
  | .struct fs, h => by
    simp only [flat] at h
    simp only [weight]
    exact weights_flat fs h
  | .iface x, h => by simp [flat] at h; simp [weight, h]
theorem weights_flat : ∀ (vs : List Val), flats vs = true → weights vs = 0
  | [], _ => by simp [weights]
  | v :: vs, h => by
    simp only [flats, Bool.and_eq_true] at h
    simp only [weights, weight_flat v h.1, weights_flat vs h.2]
end

theorem weights_append (xs ys : List Val) : weights (xs ++ ys) = weights xs + weights ys := by
  induction xs with
  | nil => simp [weights]
  | cons x xs ih => simp only [List.cons_append, weights, ih]; omega

theorem weights_set : ∀ (xs : List Val) (i : Nat) (x y : Val), xs[i]? = some x →
    weights (xs.set i y) + weight x = weights xs + weight y
  | [], i, x, y, h => by simp at h
  | z :: xs, 0, x, y, h => by
    simp at h
    subst h
    simp only [List.set_cons_zero, weights]; omega
  | z :: xs, i + 1, x, y, h => by
    have := weights_set xs i x y (by simpa using h)
    simp only [List.set_cons_succ, weights]; omega

theorem weight_slice (xs : List Val) : weight (.slice xs) = xs.length + weights xs := by simp only [weight]
theorem weight_struct (xs : List Val) : weight (.struct xs) = weights xs := by simp only [weight]
theorem weight_ptr (v : Val) : weight (.ptr (some v)) = 1 + weight v := by simp only [weight]
theorem weight_iface (w : Nat) (v : Val) : weight (.iface (some (w, some v))) = 1 + weight v := by simp only [weight]
theorem weight_bytes (s : Bytes) : weight (.bytes (some s)) = s.length := by simp only [weight]

/-- What the entries of a map that may be nil hold. -/
theorem weight_map (m : Option (List (Key × Val))) :
    weight (.map m) = (m.getD []).length + weightEntries (m.getD []) := by
  cases m with
  | none => simp [weight, weightEntries]
  | some m => simp [weight]

theorem weight_put (m : List (Key × Val)) (k : Key) (v : Val) :
    (putEntry m k v).length + weightEntries (putEntry m k v) ≤
      m.length + weightEntries m + (1 + keyWeight k + weight v) := by
  induction m with
  | nil => simp [putEntry, weightEntries]; omega
  | cons e m ih =>
    obtain ⟨k', v'⟩ := e
    simp only [putEntry]
    split
    · simp only [List.length_cons, weightEntries]; omega
    · simp only [List.length_cons, weightEntries]; omega

theorem len_length {v p : Bytes} (h : IsLen v p) : p.length + 1 ≤ v.length := by
  obtain ⟨pre, h1, rfl⟩ := h
  have := IsVarint.length_pos h1.1
  simp only [List.length_append]; omega

theorem weight_w32 (v : BitVec 32) : weight (.w32 v) = 0 := by simp only [weight]
theorem weight_w64 (v : BitVec 64) : weight (.w64 v) = 0 := by simp only [weight]
theorem weight_bool (v : Bool) : weight (.bool v) = 0 := by simp only [weight]

theorem weight_scalar {o : Bool} {s : Scalar} {v : Bytes} {y : Val} (h : ScalarDec o s v y) :
    weight y + 1 ≤ v.length := by
  have hv : ∀ {n}, IsVarint64 v n → 1 ≤ v.length := fun h => IsVarint.length_pos h.1
  cases s <;> simp only [ScalarDec] at h
  case bool =>
    split at h
    · obtain ⟨c, rfl, rfl⟩ := h
      simp [weight_bool]
    · obtain ⟨n, h1, rfl⟩ := h
      have := hv h1
      rw [weight_bool]; omega
  case string =>
    obtain ⟨p, h1, rfl⟩ := h
    have := len_length h1
    simp only [weight]; omega
  case bytes =>
    obtain ⟨p, h1, rfl⟩ := h
    have := len_length h1
    simp only [weight]; omega
  all_goals
    first
    | (obtain ⟨n, h1, rfl⟩ := h
       have := hv h1
       first
       | (rw [weight_w32]; omega)
       | (rw [weight_w64]; omega))
    | (obtain ⟨h1, rfl⟩ := h
       first
       | (rw [weight_w32]; omega)
       | (rw [weight_w64]; omega))

theorem key_weight (k : Key) : keyWeight k = weight k.toVal := by
  cases k <;> simp [keyWeight, Key.toVal, weight]

theorem packed_weight {s : Scalar} {p : Bytes} {ys : List Val} (h : PackedDec s p ys) :
    ys.length + weights ys ≤ p.length := by
  induction h with
  | nil => simp [weights]
  | cons v rest y ys h1 _ ih =>
    have := weight_scalar h1
    simp only [List.length_cons, List.length_append, weights]; omega

theorem weights_get : ∀ {xs : List Val} {i : Nat} {x : Val}, xs[i]? = some x → weight x ≤ weights xs
  | [], i, x, h => by simp at h
  | z :: xs, 0, x, h => by simp at h; subst h; simp only [weights]; omega
  | z :: xs, i + 1, x, h => by
    have := weights_get (xs := xs) (i := i) (by simpa using h)
    simp only [weights]; omega

theorem weight_clear (m : Message) (xs : List Val) : weights (clearUnknown m xs) ≤ weights xs := by
  unfold clearUnknown
  split
  · exact Nat.le_refl _
  · split
    · rename_i h
      have := weights_set _ _ _ (.bytes (some [])) h
      rw [weight_bytes, weight_bytes, List.length_nil] at this
      omega
    · rename_i h
      have := weights_set _ _ _ (.ptr (some (.bytes (some [])))) h
      rw [weight_ptr, weight_ptr, weight_bytes, weight_bytes, List.length_nil] at this
      omega
    · exact Nat.le_refl _

theorem weights_set_none {xs : List Val} {i : Nat} {y : Val} (h : xs[i]? = none) : xs.set i y = xs := by
  exact List.set_eq_of_length_le (by simpa using h)

theorem unknown_weight {m : Message} {xs : List Val} {s : Nat} {p : Bool} {x : Val} (hm : m.unknown = some (s, p))
    (hx : xs[s]? = some x) : (unknownOf m xs).length ≤ weight x := by
  unfold unknownOf
  rw [hm]
  simp only [hx]
  split
  · rename_i u e
    cases e
    rw [weight_bytes]; omega
  · rename_i u e
    cases e
    rw [weight_ptr, weight_bytes]; omega
  · simp

theorem weight_add (m : Message) (xs : List Val) (raw : Bytes) :
    weights (addUnknown m xs raw) ≤ weights xs + raw.length + 1 := by
  unfold addUnknown
  split
  · omega
  · rename_i s hs
    cases hx : xs[s]? with
    | none => rw [weights_set_none hx]; omega
    | some x =>
      have h1 := weights_set xs s x (.bytes (some (unknownOf m xs ++ raw))) hx
      have h2 := unknown_weight hs hx
      rw [weight_bytes, List.length_append] at h1
      omega
  · rename_i s hs
    cases hx : xs[s]? with
    | none => rw [weights_set_none hx]; omega
    | some x =>
      have h1 := weights_set xs s x (.ptr (some (.bytes (some (unknownOf m xs ++ raw))))) hx
      have h2 := unknown_weight hs hx
      rw [weight_ptr, weight_bytes, List.length_append] at h1
      omega

theorem isKey_length {k : Bytes} {num : Nat} {t : WireType} (h : IsKey k num t) : 1 ≤ k.length :=
  IsVarint.length_pos h.1.1

theorem isValue_length {d num : Nat} {t : WireType} {v : Bytes} (h : IsValue d num t v) : 1 ≤ v.length := by
  cases h with
  | varint _ _ _ _ h => exact IsVarint.length_pos h.1
  | i32 _ _ _ h => omega
  | i64 _ _ _ h => omega
  | len _ _ _ _ h => have := len_length h; omega
  | group _ _ _ _ _ h => have := isKey_length h; simp only [List.length_append]; omega

section
variable {S : Schema} (hz : ∀ id, flat (S id).zero = true)
include hz

theorem zero_weight (id : Nat) : weight (S id).zero = 0 := weight_flat _ (hz id)

theorem shape_zero_weight (sh : Shape) : weight (sh.zero S) = 0 := by
  unfold Shape.zero Field.zero
  simp only
  cases sh with
  | single s => cases s <;> simp [Scalar.zero, weight]
  | msg id p =>
    cases p with
    | true => simp [weight]
    | false => exact zero_weight hz id
  | _ => simp [weight, weights]

mutual
theorem decodes_weight {d : Int} {id : Nat} {b : Bytes} {v w : Val} :
    Decodes S d id b v w → weight w ≤ weight v + 2 * b.length
  | .mk _ _ _ xs ys _ h => by
    have h1 := decRecs_weight h
    have h2 := weight_clear (S id) xs
    rw [weight_struct, weight_struct]; omega
theorem decRecs_weight {d : Int} {id : Nat} {b : Bytes} {xs ys : List Val} :
    DecRecs S d id b xs ys → weights ys ≤ weights xs + 2 * b.length
  | .nil _ _ _ => by omega
  | .unknown _ _ _ _ k v rest xs ys hk _ hv h => by
    have h1 := decRecs_weight h
    have h2 := weight_add (S id) xs (k ++ v)
    have h3 := isKey_length hk
    simp only [List.length_append] at h2 ⊢; omega
  | .field _ _ f _ k v rest xs x y ys hf hk hx hd h => by
    have h1 := decRecs_weight h
    have h2 := weights_set xs f.slot x y hx
    have h3 := decField_weight hd
    have h4 := isKey_length hk
    simp only [List.length_append]; omega
theorem decField_weight {d : Int} {f : Field} {t : WireType} {v : Bytes} {x y : Val} :
    DecField S d f t v x y → weight y ≤ weight x + 2 * v.length + 2
  | .plain _ _ _ _ _ _ _ h => by have := decShape_weight h; omega
  | .member _ _ _ _ w x y _ h => by
    have h1 := decShape_weight h
    rw [shape_zero_weight hz] at h1
    rw [weight_iface]; omega
theorem decShape_weight {d : Int} {sh : Shape} {t : WireType} {v : Bytes} {x y : Val} :
    DecShape S d sh t v x y → weight y ≤ weight x + 2 * v.length
  | .single _ _ _ _ _ h => by have := weight_scalar h; omega
  | .optional _ _ _ _ _ h => by have := weight_scalar h; rw [weight_ptr]; omega
  | .elem _ s p _ xs y h => by
    have := weight_scalar h
    rw [weight_slice, weight_slice, weights_append]
    simp only [List.length_append, List.length_singleton, weights]; omega
  | .packed _ _ _ _ _ _ hl h => by
    have h1 := packed_weight h
    have h2 := len_length hl
    rw [weight_slice]; omega
  | .msgPtr _ _ _ _ _ _ hl h => by
    have h1 := decodes_weight h
    have h2 := len_length hl
    rw [zero_weight hz] at h1
    rw [weight_ptr]; omega
  | .msgInline _ _ _ _ _ _ hl h => by
    have h1 := decodes_weight h
    have h2 := len_length hl
    omega
  | .msgElemPtr _ _ _ _ xs _ hl h => by
    have h1 := decodes_weight h
    have h2 := len_length hl
    rw [zero_weight hz] at h1
    rw [weight_slice, weight_slice, weights_append]
    simp only [List.length_append, List.length_singleton, weights, weight_ptr]; omega
  | .msgElemInline _ _ _ _ xs _ hl h => by
    have h1 := decodes_weight h
    have h2 := len_length hl
    rw [zero_weight hz] at h1
    rw [weight_slice, weight_slice, weights_append]
    simp only [List.length_append, List.length_singleton, weights]; omega
  | .entry _ ks vs v kb vb rest m k y hl hk hv => by
    have h1 := weight_scalar hk
    have h2 := weight_scalar hv
    have h3 := len_length hl
    have h4 := weight_put (m.getD []) k y
    rw [← key_weight] at h1
    rw [weight_map, weight_map]
    simp only [List.length_append, Option.getD_some] at h3 ⊢; omega
  | .entryPtr _ ks id v kb vb rest p m k y hl hk hv h => by
    have h1 := weight_scalar hk
    have h2 := decodes_weight h
    have h3 := len_length hl
    have h4 := weight_put (m.getD []) k (.ptr (some y))
    have h5 := len_length hv
    rw [zero_weight hz] at h2
    rw [← key_weight] at h1
    rw [weight_ptr] at h4
    rw [weight_map, weight_map]
    simp only [List.length_append, Option.getD_some] at h3 ⊢; omega
  | .entryInline _ ks id v kb vb rest p m k y hl hk hv h => by
    have h1 := weight_scalar hk
    have h2 := decodes_weight h
    have h3 := len_length hl
    have h4 := weight_put (m.getD []) k y
    have h5 := len_length hv
    rw [zero_weight hz] at h2
    rw [← key_weight] at h1
    rw [weight_map, weight_map]
    simp only [List.length_append, Option.getD_some] at h3 ⊢; omega
end

end

end Verif.Lemmas
