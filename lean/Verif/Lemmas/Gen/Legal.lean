import Verif.Spec.Gen.Legal
import Verif.Props.Gen.Loader
/-!
# Lemmas: zero values of structs that do not contain themselves
-/
namespace Verif.Props.Gen
open Verif.Spec Verif.Spec.Gen Verif.Model Verif.Model.Gen

variable {gs : List GenStruct} {enums : List (Str × Str)}

theorem ContainsStruct.trans {i j k : Nat} (h : ContainsStruct gs enums i j) (h' : ContainsStruct gs enums j k) : ContainsStruct gs enums i k := by
  induction h with
  | one i j h => exact .more _ _ _ h h'
  | more i j k h _ ih => exact .more _ _ _ h (ih h')

theorem basic_not_struct (s : Str) (j : Nat) : basicGoType s ≠ .struct j := by
  have h : ∀ p ∈ [("float64", GoType.float64), ("float32", .float32), ("int32", .int32), ("int64", .int64), ("uint32", .uint32), ("uint64", .uint64), ("bool", .bool),
    ("string", .string), ("[]byte", .bytes)], p.2 ≠ .struct j := by
    intro p hp
    simp only [List.mem_cons, List.not_mem_nil, or_false] at hp
    rcases hp with h | h | h | h | h | h | h | h | h <;> subst h <;> exact nofun
  unfold basicGoType
  match hf : List.find? (fun p : String × GoType => decide (p.1.toList = s)) [("float64", GoType.float64), ("float32", .float32), ("int32", .int32), ("int64", .int64), ("uint32", .uint32),
      ("uint64", .uint64), ("bool", .bool), ("string", .string), ("[]byte", .bytes)] with
  | none => exact nofun
  | some p => exact h p (List.mem_of_find?_eq_some hf)

theorem elab_lt {t : GoExpr} {ns : List (Str × Str)} {j : Nat} (h : elabType enums ns t = .struct j) : j < ns.length := by
  cases t with
  | basic s => exact absurd h (basic_not_struct s j)
  | named p n =>
    unfold elabType at h
    split at h
    · cases h
    · split at h
      · rename_i k hk
        cases h
        have := List.findIdx?_eq_some_iff_getElem.1 hk
        exact this.1
      · cases h
  | iface n => cases h
  | ptr t => cases h
  | slice t => cases h
  | map k v => cases h

theorem hasInside_lt {i j : Nat} (h : HasInside gs enums i j) : j < gs.length := by
  obtain ⟨g, _, f, _, h⟩ := h
  have := elab_lt h
  rwa [List.length_map] at this

theorem contains_lt {i j : Nat} (h : ContainsStruct gs enums i j) : j < gs.length := by
  induction h with
  | one i j h => exact hasInside_lt h
  | more i j k _ _ ih => exact ih

/-- The zero value of a type, given those of structs. -/
def zeroWith (z : Nat → Val) : GoType → Val
  | .struct j => z j
  | t => goZero [] t

theorem zeroWith_congr {z z' : Nat → Val} (t : GoType) (h : ∀ j, t = .struct j → z j = z' j) : zeroWith z t = zeroWith z' t := by
  cases t with
  | struct j => exact h j rfl
  | _ => rfl

/-- The zero value of a struct, to a depth. -/
def zeroAt (gs : List GenStruct) (enums : List (Str × Str)) : Nat → Nat → Val
  | 0, _ => .struct []
  | n + 1, i => match gs[i]? with
    | none => .struct []
    | some g => .struct (g.fields.map fun f => zeroWith (zeroAt gs enums n) (elabType enums (gs.map fun g => (g.pkg, g.name)) f.type))

/-- There are `n` structs inside of each other, the first inside of `i`. -/
def Deep (gs : List GenStruct) (enums : List (Str × Str)) (n i : Nat) : Prop := ∃ l : List Nat, l.length = n ∧ (i :: l).Pairwise (ContainsStruct gs enums)

theorem deep_succ {n i j : Nat} (h : HasInside gs enums i j) (hd : Deep gs enums n j) : Deep gs enums (n + 1) i := by
  obtain ⟨l, e, hp⟩ := hd
  refine ⟨j :: l, by rw [List.length_cons, e], List.pairwise_cons.2 ⟨fun x hx => ?_, hp⟩⟩
  rcases List.mem_cons.1 hx with rfl | hx
  · exact .one _ _ h
  · exact .more _ _ _ h ((List.pairwise_cons.1 hp).1 x hx)

theorem zero_stable : ∀ (n i : Nat), ¬ Deep gs enums n i → zeroAt gs enums n i = zeroAt gs enums (n + 1) i
  | 0, i, h => absurd ⟨[], rfl, List.pairwise_singleton ..⟩ h
  | n + 1, i, h => by
    unfold zeroAt
    match hg : gs[i]? with
    | none => rfl
    | some g =>
      dsimp only
      congr 1
      refine List.map_congr_left fun f hf => ?_
      exact zeroWith_congr _ fun j ht => zero_stable n j fun hd => h (deep_succ ⟨g, hg, f, hf, ht⟩ hd)

theorem not_deep (hf : ∀ i, ¬ ContainsStruct gs enums i i) (i : Nat) : ¬ Deep gs enums (gs.length + 1) i := by
  rintro ⟨l, e, hp⟩
  obtain ⟨h1, h2⟩ := List.pairwise_cons.1 hp
  have hn : l.Nodup := h2.imp (S := (· ≠ ·)) fun {a b} h e => hf a (by rw [← e] at h; exact h)
  have := nodup_length_le hn (m := List.range gs.length) fun x hx => List.mem_range.2 (contains_lt (h1 x hx))
  rw [List.length_range] at this
  omega

/-- What the compiler makes of accepted declarations. -/
def compiledTypes (gs : List GenStruct) (enums : List (Str × Str)) (size : Nat) : GoEnv where
  structs := gs.mapIdx fun i g =>
    { fields := g.fields.map (elabField enums (gs.map fun g => (g.pkg, g.name)))
      wrappers := elabWrappers enums (gs.map fun g => (g.pkg, g.name)) g
      size := size
      zero := zeroAt gs enums (gs.length + 1) i }

theorem compiles_of_legal (h : LegalTypes gs enums) (size : Nat) : Compiles gs enums (compiledTypes gs enums size) where
  distinct := h.distinct
  count := List.length_mapIdx ..
  fields := fun i g d hg hd => by
    unfold compiledTypes at hd
    rw [List.getElem?_mapIdx, hg] at hd
    cases hd
    rfl
  wrappers := fun i g d hg hd => by
    unfold compiledTypes at hd
    rw [List.getElem?_mapIdx, hg] at hd
    cases hd
    rfl
  zero := fun i d hd => by
    have hz : ∀ t, (∀ j, t = .struct j → j < gs.length) →
        zeroWith (zeroAt gs enums (gs.length + 1)) t = goZero (compiledTypes gs enums size).structs t := by
      intro t ht
      match t with
      | .struct j =>
        show _ = ((compiledTypes gs enums size).structs[j]?.map StructDecl.zero).getD _
        unfold compiledTypes
        rw [List.getElem?_mapIdx, List.getElem?_eq_getElem (ht j rfl)]
        rfl
      | .bool | .int32 | .int64 | .uint32 | .uint64 | .float32 | .float64 | .string | .bytes | .ptr _ | .slice _ | .map _ _ | .iface | .other _ => rfl
    have hd' := hd
    unfold compiledTypes at hd'
    rw [List.getElem?_mapIdx, Option.map_eq_some_iff] at hd'
    obtain ⟨g, hg, rfl⟩ := hd'
    dsimp only
    rw [zero_stable _ i (not_deep h.finite i)]
    conv => lhs; unfold zeroAt
    rw [hg]
    dsimp only
    rw [List.map_map]
    congr 1
    refine List.map_congr_left fun f hf => ?_
    exact hz _ fun j hj => hasInside_lt ⟨g, hg, f, hf, hj⟩

theorem zero_smaller {env : GoEnv} (hC : Compiles gs enums env) {i j : Nat} (h : HasInside gs enums i j) :
    ∃ d d', env.structs[i]? = some d ∧ env.structs[j]? = some d' ∧ sizeOf d'.zero < sizeOf d.zero := by
  have hj := hasInside_lt h
  obtain ⟨g, hg, f, hf, ht⟩ := h
  have hi := (List.getElem?_eq_some_iff.1 hg).1
  have hi' : i < env.structs.length := by rw [hC.count]; exact hi
  have hj' : j < env.structs.length := by rw [hC.count]; exact hj
  refine ⟨_, _, List.getElem?_eq_getElem hi', List.getElem?_eq_getElem hj', ?_⟩
  rw [hC.zero i _ (List.getElem?_eq_getElem hi'), hC.fields i g _ hg (List.getElem?_eq_getElem hi')]
  have hm : (env.structs[j]).zero ∈ List.map (fun f => goZero env.structs f.type) (g.fields.map (elabField enums (gs.map fun g => (g.pkg, g.name)))) := by
    refine List.mem_map.2 ⟨elabField enums _ f, List.mem_map.2 ⟨f, hf, rfl⟩, ?_⟩
    show goZero _ (elabType _ _ f.type) = _
    rw [ht]
    show (env.structs[j]?.map StructDecl.zero).getD _ = _
    rw [List.getElem?_eq_getElem hj']
    rfl
  have := List.sizeOf_lt_of_mem hm
  simp only [Val.struct.sizeOf_spec]
  omega

theorem legal_of_compiles {env : GoEnv} (hC : Compiles gs enums env) : LegalTypes gs enums where
  distinct := hC.distinct
  finite := by
    have key : ∀ i j, ContainsStruct gs enums i j → ∃ d d', env.structs[i]? = some d ∧ env.structs[j]? = some d' ∧ sizeOf d'.zero < sizeOf d.zero := by
      intro i j h
      induction h with
      | one i j h => exact zero_smaller hC h
      | more i j k h _ ih =>
        obtain ⟨d, d', h1, h2, h3⟩ := zero_smaller hC h
        obtain ⟨e, e', h4, h5, h6⟩ := ih
        rw [h2] at h4
        cases h4
        exact ⟨d, e', h1, h5, by omega⟩
    intro i h
    obtain ⟨d, d', h1, h2, h3⟩ := key i i h
    rw [h1] at h2
    cases h2
    omega

end Verif.Props.Gen
