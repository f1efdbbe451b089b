import Verif.Lemmas.Acts
import Verif.Model.Encoder
/-! Helper lemmas: the coders of the wire package on scalar values. -/
namespace Verif.Lemmas
open Verif.Model Verif.Spec

/-- The encoding named in the struct tag of a scalar. -/
def tagTypeOf : Scalar → TagType
  | .int32 | .int64 | .uint32 | .uint64 | .bool => .varint
  | .sint32 => .zigzag32
  | .sint64 => .zigzag64
  | .fixed32 | .sfixed32 | .float => .fixed32
  | .fixed64 | .sfixed64 | .double => .fixed64
  | .string | .bytes => .bytes

/-- The coder of a scalar. -/
def coderOf : Scalar → Coder
  | .int32 => .varintI32
  | .uint32 => .varintU32
  | .int64 | .uint64 => .varint64
  | .sint32 => .zigzag32
  | .sint64 => .zigzag64
  | .fixed32 | .sfixed32 | .float => .fixed32
  | .fixed64 | .sfixed64 | .double => .fixed64
  | .bool => .bool
  | .string => .string
  | .bytes => .bytes

theorem getCoderType_scalar (s : Scalar) : getCoderType (tagTypeOf s) s.goType.kind = coderOf s := by
  cases s <;> rfl
theorem realKind_scalar (s : Scalar) : s.goType.realKind = s.goType.kind := by cases s <;> rfl
theorem tagTypeOf_wire (s : Scalar) : (tagTypeOf s).wire = s.wire.code := by cases s <;> rfl
theorem coderOf_isScalar (s : Scalar) : (coderOf s).isScalar = true := by cases s <;> rfl
theorem coderOf_isPackable (s : Scalar) : (coderOf s).isPackable = s.packable := by
  cases s <;> rfl

/-- Scalars by representation. -/
inductive Rep | r32 | r64 | rbool | rstr | rbytes

def repOf : Scalar → Rep
  | .int32 | .sint32 | .sfixed32 | .uint32 | .fixed32 | .float => .r32
  | .int64 | .sint64 | .sfixed64 | .uint64 | .fixed64 | .double => .r64
  | .bool => .rbool
  | .string => .rstr
  | .bytes => .rbytes

theorem holds32 {s : Scalar} {v : Val} (hs : repOf s = .r32) (h : s.goType.holds v = true) :
    ∃ x, v = .w32 x := by
  cases s <;> cases hs <;> cases v <;> simp_all [Scalar.goType, GoType.holds]
theorem holds64 {s : Scalar} {v : Val} (hs : repOf s = .r64) (h : s.goType.holds v = true) :
    ∃ x, v = .w64 x := by
  cases s <;> cases hs <;> cases v <;> simp_all [Scalar.goType, GoType.holds]
theorem holdsBool {v : Val} (h : GoType.bool.holds v = true) : ∃ x, v = .bool x := by
  cases v <;> simp_all [GoType.holds]
theorem holdsStr {v : Val} (h : GoType.string.holds v = true) : ∃ x, v = .str x := by
  cases v <;> simp_all [GoType.holds]
theorem holdsBytes {v : Val} (h : GoType.bytes.holds v = true) : ∃ x, v = .bytes x := by
  cases v <;> simp_all [GoType.holds]

/-- The value of a scalar, by representation. -/
inductive ScalarVal : Scalar → Val → Prop
  | w32 (s : Scalar) (x : BitVec 32) : repOf s = .r32 → ScalarVal s (.w32 x)
  | w64 (s : Scalar) (x : BitVec 64) : repOf s = .r64 → ScalarVal s (.w64 x)
  | bool (x : Bool) : ScalarVal .bool (.bool x)
  | str (x : Bytes) : ScalarVal .string (.str x)
  | bytes (x : Option Bytes) : ScalarVal .bytes (.bytes x)

theorem scalarVal_of_holds {s : Scalar} {v : Val} (h : s.goType.holds v = true) :
    ScalarVal s v := by
  cases s with
  | bool => obtain ⟨x, rfl⟩ := holdsBool h; exact .bool x
  | string => obtain ⟨x, rfl⟩ := holdsStr h; exact .str x
  | bytes => obtain ⟨x, rfl⟩ := holdsBytes h; exact .bytes x
  | int32 => obtain ⟨x, rfl⟩ := holds32 rfl h; exact .w32 _ x rfl
  | uint32 => obtain ⟨x, rfl⟩ := holds32 rfl h; exact .w32 _ x rfl
  | sint32 => obtain ⟨x, rfl⟩ := holds32 rfl h; exact .w32 _ x rfl
  | fixed32 => obtain ⟨x, rfl⟩ := holds32 rfl h; exact .w32 _ x rfl
  | sfixed32 => obtain ⟨x, rfl⟩ := holds32 rfl h; exact .w32 _ x rfl
  | float => obtain ⟨x, rfl⟩ := holds32 rfl h; exact .w32 _ x rfl
  | int64 => obtain ⟨x, rfl⟩ := holds64 rfl h; exact .w64 _ x rfl
  | uint64 => obtain ⟨x, rfl⟩ := holds64 rfl h; exact .w64 _ x rfl
  | sint64 => obtain ⟨x, rfl⟩ := holds64 rfl h; exact .w64 _ x rfl
  | fixed64 => obtain ⟨x, rfl⟩ := holds64 rfl h; exact .w64 _ x rfl
  | sfixed64 => obtain ⟨x, rfl⟩ := holds64 rfl h; exact .w64 _ x rfl
  | double => obtain ⟨x, rfl⟩ := holds64 rfl h; exact .w64 _ x rfl

theorem signExtend_toNat (x : BitVec 32) : (x.signExtend 64).toNat = (x.toInt % 2 ^ 64).toNat := by
  rw [← BitVec.ofInt_toInt (x := x.signExtend 64), BitVec.toNat_ofInt, BitVec.toInt_signExtend_of_le (by decide)]
  rfl

theorem toInt_emod (x : BitVec 64) : (x.toInt % 2 ^ 64).toNat = x.toNat := by
  have := BitVec.toNat_ofInt (n := 64) x.toInt
  rw [BitVec.ofInt_toInt] at this
  exact this.symm

/-- The bytes of a scalar, without `Option`. -/
def encBytes (s : Scalar) (v : Val) : Bytes := (s.encode v).getD []

theorem encode_some {s : Scalar} {v : Val} (h : s.goType.holds v = true) :
    s.encode v = some (encBytes s v) := by
  have := scalarVal_of_holds h
  cases this with
  | w32 s x hs => cases s <;> first | rfl | cases hs
  | w64 s x hs => cases s <;> first | rfl | cases hs
  | bool x => rfl
  | str x => rfl
  | bytes x => rfl

theorem bool_varint (x : Bool) : varint (if x = true then 1 else 0) = varint x.toNat := by
  cases x <;> rfl

/-- Writing one scalar. -/
theorem appendCoder_writes {s : Scalar} {v : Val} (h : s.goType.holds v = true) :
    Writes (fun b => appendCoder (coderOf s) b v) (s.encode v) := by
  have := scalarVal_of_holds h
  cases this with
  | w32 s x hs =>
    cases s <;> (try (cases hs; done)) <;> refine Acts.ofSome (fun b => ?_) <;>
      simp only [appendCoder, coderOf, Val.asW32, Functor.map, Except.map] <;> congr 1
    · rw [appendI32_eq, signExtend_toNat]
    · rw [appendU32_eq]
    · rw [appendZigZag32_eq, zigzag32_toNat]
    all_goals rw [appendFixed32_eq]
  | w64 s x hs =>
    cases s <;> (try (cases hs; done)) <;> refine Acts.ofSome (fun b => ?_) <;>
      simp only [appendCoder, coderOf, Val.asW64, Functor.map, Except.map] <;> congr 1
    · rw [unrolled64, toInt_emod]
    · rw [unrolled64]
    · rw [appendZigZag64_eq, zigzag64_toNat]
    all_goals rw [appendFixed64_eq]
  | bool x =>
    refine Acts.ofSome (fun b => ?_)
    simp only [appendCoder, coderOf, Val.asBool, Functor.map, Except.map]
    rw [appendBool_eq, bool_varint]
  | str x =>
    refine fun b => ⟨_, rfl, fun hl => ?_⟩
    exact appendString_eq b x (by have := lenDelim_length_gt x; omega)
  | bytes x =>
    refine fun b => ⟨_, rfl, fun hl => ?_⟩
    exact appendString_eq b (x.getD []) (by have := lenDelim_length_gt (x.getD []); omega)

/-- The size of one scalar. -/
theorem sizeCoder_eq {s : Scalar} {v : Val} (h : s.goType.holds v = true) :
    ∃ n, sizeCoder (coderOf s) v = .ok n ∧ ((encBytes s v).length < 2 ^ 64 → n = (encBytes s v).length) := by
  have := scalarVal_of_holds h
  cases this with
  | w32 s x hs =>
    cases s <;> (try (cases hs; done)) <;> refine ⟨_, rfl, fun _ => ?_⟩ <;>
      simp only [encBytes, Scalar.encode, Option.getD_some]
    · rw [sizeVarint_eq, signExtend_toNat]
    · rw [sizeVarint_eq]; simp only [BitVec.toNat_setWidth]
      rw [Nat.mod_eq_of_lt (by omega)]
    · rw [sizeVarint_eq]; simp only [BitVec.toNat_setWidth]
      rw [Nat.mod_eq_of_lt (by omega), zigzag32_toNat]
    all_goals simp [le_length]
  | w64 s x hs =>
    cases s <;> (try (cases hs; done)) <;> refine ⟨_, rfl, fun _ => ?_⟩ <;>
      simp only [encBytes, Scalar.encode, Option.getD_some]
    · rw [sizeVarint_eq, toInt_emod]
    · rw [sizeVarint_eq]
    · rw [sizeVarint_eq, zigzag64_toNat]
    all_goals simp [le_length]
  | bool x =>
    refine ⟨_, rfl, fun _ => ?_⟩
    cases x <;> (simp only [encBytes, Scalar.encode, Option.getD_some]; rw [varint_small (by decide)]; rfl)
  | str x =>
    refine ⟨_, rfl, fun hl => ?_⟩
    exact sizeBytes_eq x (by have := lenDelim_length_gt x; simp only [encBytes, Scalar.encode, Option.getD_some] at hl; omega)
  | bytes x =>
    refine ⟨_, rfl, fun hl => ?_⟩
    exact sizeBytes_eq (x.getD []) (by have := lenDelim_length_gt (x.getD []); simp only [encBytes, Scalar.encode, Option.getD_some] at hl; omega)

/-! ### skipping of zero values -/

theorem skipZero_scalar (ssize : Nat → Nat) {s : Scalar} {v : Val} (h : s.goType.holds v = true) :
    skipZero ssize s.goType v = .ok (isDefault v) := by
  have := scalarVal_of_holds h
  cases this with
  | w32 s x hs => cases s <;> first | rfl | cases hs
  | w64 s x hs => cases s <;> first | rfl | cases hs
  | bool x => rfl
  | str x => cases x <;> rfl
  | bytes x =>
    match x with
    | none => rfl
    | some [] => rfl
    | some (_ :: _) => rfl

/-! ### lists -/

theorem list32 {s : Scalar} (hs : repOf s = .r32) : ∀ {xs : List Val},
    (∀ v ∈ xs, s.goType.holds v = true) → ∃ ws : List (BitVec 32), xs = ws.map .w32
  | [], _ => ⟨[], rfl⟩
  | v :: xs, h => by
    obtain ⟨ws, rfl⟩ := list32 hs (fun v hv => h v (List.mem_cons_of_mem _ hv))
    obtain ⟨x, rfl⟩ := holds32 hs (h v (by simp))
    exact ⟨x :: ws, rfl⟩

theorem list64 {s : Scalar} (hs : repOf s = .r64) : ∀ {xs : List Val},
    (∀ v ∈ xs, s.goType.holds v = true) → ∃ ws : List (BitVec 64), xs = ws.map .w64
  | [], _ => ⟨[], rfl⟩
  | v :: xs, h => by
    obtain ⟨ws, rfl⟩ := list64 hs (fun v hv => h v (List.mem_cons_of_mem _ hv))
    obtain ⟨x, rfl⟩ := holds64 hs (h v (by simp))
    exact ⟨x :: ws, rfl⟩

theorem listBool : ∀ {xs : List Val},
    (∀ v ∈ xs, GoType.bool.holds v = true) → ∃ ws : List Bool, xs = ws.map .bool
  | [], _ => ⟨[], rfl⟩
  | v :: xs, h => by
    obtain ⟨ws, rfl⟩ := listBool (fun v hv => h v (List.mem_cons_of_mem _ hv))
    obtain ⟨x, rfl⟩ := holdsBool (h v (by simp))
    exact ⟨x :: ws, rfl⟩

theorem mapM_ok {α : Type} (f : Val → Res α) (g : α → Val) (h : ∀ x, f (g x) = .ok x)
    (xs : List α) : (xs.map g).mapM f = .ok xs := by
  induction xs with
  | nil => rfl
  | cons x xs ih => rw [List.map_cons, List.mapM_cons, h, ih]; rfl

/-- The representation of a list of scalars. -/
inductive ScalarList : Scalar → List Val → Prop
  | w32 (s : Scalar) (xs : List (BitVec 32)) : repOf s = .r32 → ScalarList s (xs.map .w32)
  | w64 (s : Scalar) (xs : List (BitVec 64)) : repOf s = .r64 → ScalarList s (xs.map .w64)
  | bool (xs : List Bool) : ScalarList .bool (xs.map .bool)
  | str (xs : List Val) : (∀ v ∈ xs, GoType.string.holds v = true) → ScalarList .string xs
  | bytes (xs : List Val) : (∀ v ∈ xs, GoType.bytes.holds v = true) → ScalarList .bytes xs

theorem scalarList_of_holds {s : Scalar} {xs : List Val} (h : ∀ v ∈ xs, s.goType.holds v = true) :
    ScalarList s xs := by
  cases hr : repOf s with
  | r32 => obtain ⟨ws, rfl⟩ := list32 hr h; exact .w32 _ _ hr
  | r64 => obtain ⟨ws, rfl⟩ := list64 hr h; exact .w64 _ _ hr
  | rbool => cases s <;> cases hr; obtain ⟨ws, rfl⟩ := listBool h; exact .bool _
  | rstr => cases s <;> cases hr; exact .str _ h
  | rbytes => cases s <;> cases hr; exact .bytes _ h

theorem mapM_asStr : ∀ {xs : List Val},
    (∀ v ∈ xs, GoType.string.holds v = true ∨ GoType.bytes.holds v = true) →
    ∃ ws : List Bytes, xs.mapM Val.asStr = .ok ws ∧
      (∀ (s : Scalar) (T : Bytes), s = .string ∨ s = .bytes → (∀ v ∈ xs, s.goType.holds v = true) →
        concatM (fun v => (s.encode v).map (T ++ ·)) xs = some (ws.flatMap (fun x => T ++ lenDelim x)))
  | [], _ => ⟨[], rfl, fun _ _ _ _ => rfl⟩
  | v :: xs, h => by
    obtain ⟨ws, hw, hc⟩ := mapM_asStr (fun v hv => h v (List.mem_cons_of_mem _ hv))
    have : ∃ y, v.asStr = .ok y ∧ ∀ (s : Scalar), s = .string ∨ s = .bytes → s.goType.holds v = true →
        s.encode v = some (lenDelim y) := by
      rcases h v (by simp) with h | h
      · obtain ⟨y, rfl⟩ := holdsStr h
        exact ⟨y, rfl, by rintro s (rfl | rfl) h <;> first | rfl | cases h⟩
      · obtain ⟨y, rfl⟩ := holdsBytes h
        exact ⟨y.getD [], rfl, by rintro s (rfl | rfl) h <;> first | rfl | cases h⟩
    obtain ⟨y, hy, he⟩ := this
    refine ⟨y :: ws, by rw [List.mapM_cons, hy, hw]; rfl, fun s T hs hx => ?_⟩
    simp only [concatM]
    rw [he s hs (hx v (by simp)), hc s T hs (fun v hv => hx v (by simp [hv]))]
    simp

theorem flatMap_length_mem {α : Type} (f : α → Bytes) : ∀ {xs : List α} {x : α}, x ∈ xs →
    (f x).length ≤ (xs.flatMap f).length
  | y :: ys, x, h => by
    rw [List.flatMap_cons, List.length_append]
    cases h with
    | head => omega
    | tail _ h => have := flatMap_length_mem f h; omega

theorem appendStringList_writes (T : BitVec 64) (ws : List Bytes) :
    Writes (fun b => (appendStringList b T) <$> (.ok ws : Res (List Bytes)))
      (some (ws.flatMap (fun x => varint T.toNat ++ lenDelim x))) := by
  refine fun b => ⟨_, rfl, fun hl => appendStringList_eq b T ws (fun x hx => ?_)⟩
  have := flatMap_length_mem (fun x => varint T.toNat ++ lenDelim x) hx
  have h2 := lenDelim_length_gt x
  simp only [List.length_append] at this
  omega

/-- Writing an unpacked list of scalars. -/
theorem appendListCoder_writes {s : Scalar} {xs : List Val} (T : BitVec 64)
    (h : ∀ v ∈ xs, s.goType.holds v = true) :
    Writes (fun b => appendListCoder (coderOf s) b T (.slice xs))
      (concatM (fun v => (s.encode v).map (varint T.toNat ++ ·)) xs) := by
  have hl := scalarList_of_holds h
  cases hl with
  | w32 s xs hs =>
    rw [concatM_map]
    cases s <;> (try (cases hs; done)) <;>
      simp only [Scalar.encode, Option.map_some, concatM_flatMap] <;>
      refine Acts.ofSome (fun b => ?_) <;>
      simp only [appendListCoder, coderOf, Val.asSlice, bind, Except.bind,
        mapM_ok Val.asW32 .w32 (fun _ => rfl), Functor.map, Except.map] <;> congr 1
    · rw [appendI32List_eq]; simp only [signExtend_toNat]
    · rw [appendU32List_eq]
    · rw [appendZigZag32List_eq]; simp only [zigzag32_toNat]
    all_goals rw [appendFixed32List_eq]
  | w64 s xs hs =>
    rw [concatM_map]
    cases s <;> (try (cases hs; done)) <;>
      simp only [Scalar.encode, Option.map_some, concatM_flatMap] <;>
      refine Acts.ofSome (fun b => ?_) <;>
      simp only [appendListCoder, coderOf, Val.asSlice, bind, Except.bind,
        mapM_ok Val.asW64 .w64 (fun _ => rfl), Functor.map, Except.map] <;> congr 1
    · rw [appendU64List_eq]; simp only [toInt_emod]
    · rw [appendU64List_eq]
    · rw [appendZigZag64List_eq]; simp only [zigzag64_toNat]
    all_goals rw [appendFixed64List_eq]
  | bool xs =>
    rw [concatM_map]
    simp only [Scalar.encode, Option.map_some, concatM_flatMap, bool_varint]
    refine Acts.ofSome (fun b => ?_)
    simp only [appendListCoder, coderOf, Val.asSlice, bind, Except.bind,
        mapM_ok Val.asBool .bool (fun _ => rfl), Functor.map, Except.map]
    rw [appendBoolList_eq]
  | str xs h =>
    obtain ⟨ws, hw, hc⟩ := mapM_asStr (fun v hv => Or.inl (h v hv))
    rw [hc _ _ (Or.inl rfl) h]
    refine (appendStringList_writes T ws).congr (fun b => ?_)
    simp only [appendListCoder, coderOf, Val.asSlice, bind, Except.bind, hw]
  | bytes xs h =>
    obtain ⟨ws, hw, hc⟩ := mapM_asStr (fun v hv => Or.inr (h v hv))
    rw [hc _ _ (Or.inr rfl) h]
    refine (appendStringList_writes T ws).congr (fun b => ?_)
    simp only [appendListCoder, coderOf, Val.asSlice, bind, Except.bind, hw]

theorem writes_of_eq {w : Bytes → Res Bytes} {p : Bytes} (f : Bytes → Bytes)
    (h : ∀ b, w b = .ok (f b)) (hf : ∀ b, p.length < 2 ^ 64 → f b = b ++ lenDelim p) :
    Writes w (some (lenDelim p)) := by
  refine fun b => ⟨_, h b, fun hl => hf b ?_⟩
  have := lenDelim_length_gt p
  omega

theorem flatMap_varint_length {α : Type} (f : α → Nat) (xs : List α) :
    xs.length ≤ (xs.flatMap (fun x => varint (f x))).length := by
  induction xs with
  | nil => simp
  | cons x xs ih =>
    have := IsVarint.length_pos (isVarint_varint (f x))
    rw [List.flatMap_cons, List.length_append, List.length_cons]; omega

/-- Writing a packed list of scalars. -/
theorem appendPackedCoder_writes {s : Scalar} {xs : List Val} (hp : s.packable = true)
    (h : ∀ v ∈ xs, s.goType.holds v = true) :
    Writes (fun b => appendPackedCoder (coderOf s) b (.slice xs))
      ((concatM s.encode xs).map lenDelim) := by
  have hl := scalarList_of_holds h
  cases hl with
  | w32 s xs hs =>
    rw [concatM_map]
    cases s <;> (try (cases hs; done)) <;>
      simp only [Scalar.encode, Option.map_some, concatM_flatMap]
    · refine writes_of_eq (fun b => appendPackedI32 b xs) (fun b => ?_) (fun b hb => ?_)
      · simp only [appendPackedCoder, coderOf, Val.asSlice, bind, Except.bind,
          mapM_ok Val.asW32 .w32 (fun _ => rfl), Functor.map, Except.map]
      · simp only [← signExtend_toNat] at hb ⊢; exact appendPackedI32_eq b xs hb
    · refine writes_of_eq (fun b => appendPackedU32 b xs) (fun b => ?_) (fun b hb => ?_)
      · simp only [appendPackedCoder, coderOf, Val.asSlice, bind, Except.bind,
          mapM_ok Val.asW32 .w32 (fun _ => rfl), Functor.map, Except.map]
      · exact appendPackedU32_eq b xs hb
    · refine writes_of_eq (fun b => appendPackedZigZag32 b xs) (fun b => ?_) (fun b hb => ?_)
      · simp only [appendPackedCoder, coderOf, Val.asSlice, bind, Except.bind,
          mapM_ok Val.asW32 .w32 (fun _ => rfl), Functor.map, Except.map]
      · simp only [← zigzag32_toNat] at hb ⊢; exact appendPackedZigZag32_eq b xs hb
    all_goals
      refine writes_of_eq (fun b => appendPackedFixed32 b xs) (fun b => ?_) (fun b hb => ?_)
      · simp only [appendPackedCoder, coderOf, Val.asSlice, bind, Except.bind,
          mapM_ok Val.asW32 .w32 (fun _ => rfl), Functor.map, Except.map]
      · rw [flatMap_le_length] at hb; exact appendPackedFixed32_eq b xs hb
  | w64 s xs hs =>
    rw [concatM_map]
    cases s <;> (try (cases hs; done)) <;>
      simp only [Scalar.encode, Option.map_some, concatM_flatMap]
    · refine writes_of_eq (fun b => appendPackedU64 b xs) (fun b => ?_) (fun b hb => ?_)
      · simp only [appendPackedCoder, coderOf, Val.asSlice, bind, Except.bind,
          mapM_ok Val.asW64 .w64 (fun _ => rfl), Functor.map, Except.map]
      · simp only [toInt_emod] at hb ⊢; exact appendPackedU64_eq b xs hb
    · refine writes_of_eq (fun b => appendPackedU64 b xs) (fun b => ?_) (fun b hb => ?_)
      · simp only [appendPackedCoder, coderOf, Val.asSlice, bind, Except.bind,
          mapM_ok Val.asW64 .w64 (fun _ => rfl), Functor.map, Except.map]
      · exact appendPackedU64_eq b xs hb
    · refine writes_of_eq (fun b => appendPackedZigZag64 b xs) (fun b => ?_) (fun b hb => ?_)
      · simp only [appendPackedCoder, coderOf, Val.asSlice, bind, Except.bind,
          mapM_ok Val.asW64 .w64 (fun _ => rfl), Functor.map, Except.map]
      · simp only [← zigzag64_toNat] at hb ⊢; exact appendPackedZigZag64_eq b xs hb
    all_goals
      refine writes_of_eq (fun b => appendPackedFixed64 b xs) (fun b => ?_) (fun b hb => ?_)
      · simp only [appendPackedCoder, coderOf, Val.asSlice, bind, Except.bind,
          mapM_ok Val.asW64 .w64 (fun _ => rfl), Functor.map, Except.map]
      · rw [flatMap_le_length] at hb; exact appendPackedFixed64_eq b xs hb
  | bool xs =>
    rw [concatM_map]
    simp only [Scalar.encode, Option.map_some, concatM_flatMap, bool_varint]
    refine writes_of_eq (fun b => appendPackedBool b xs) (fun b => ?_) (fun b hb => ?_)
    · simp only [appendPackedCoder, coderOf, Val.asSlice, bind, Except.bind,
        mapM_ok Val.asBool .bool (fun _ => rfl), Functor.map, Except.map]
    · exact appendPackedBool_eq b xs (by have := flatMap_varint_length Bool.toNat xs; omega)
  | str xs h => cases hp
  | bytes xs h => cases hp

/-! ### specialised map writers -/

theorem appendMapKey_writes {s : Scalar} {v : Val} (hf : (coderOf s).isFastMapKey = true)
    (h : s.goType.holds v = true) :
    Writes (fun b => appendMapKey (coderOf s) b v) ((s.encode v).map (tag 1 s.wire ++ ·)) := by
  have t0 : ∀ b : Bytes, b ++ [1#8 <<< 3 ||| 0#8] = b ++ tag 1 .varint := fun b => (appendKeyTag_eq b .varint)
  have t1 : ∀ b : Bytes, b ++ [1#8 <<< 3 ||| 1#8] = b ++ tag 1 .i64 := fun b => (appendKeyTag_eq b .i64)
  have t2 : ∀ b : Bytes, b ++ [1#8 <<< 3 ||| 2#8] = b ++ tag 1 .len := fun b => (appendKeyTag_eq b .len)
  have t5 : ∀ b : Bytes, b ++ [1#8 <<< 3 ||| 5#8] = b ++ tag 1 .i32 := fun b => (appendKeyTag_eq b .i32)
  have := scalarVal_of_holds h
  cases this with
  | w32 s x hs =>
    cases s <;> (try (cases hs; done)) <;> (try (cases hf; done)) <;>
      refine Acts.ofSome (fun b => ?_) <;>
      simp only [appendMapKey, coderOf, Val.asW32, Functor.map, Except.map] <;> congr 1
    · rw [varintLoop32, t0, List.append_assoc]; rfl
    · rw [varintLoop32, t0, List.append_assoc, zigzag32_toNat]; rfl
    all_goals rw [t5, List.append_assoc, List.append_cancel_left_eq]; exact congrArg _ (appendFixed32_eq [] x)
  | w64 s x hs =>
    cases s <;> (try (cases hs; done)) <;> (try (cases hf; done)) <;>
      refine Acts.ofSome (fun b => ?_) <;>
      simp only [appendMapKey, coderOf, Val.asW64, Functor.map, Except.map] <;> congr 1
    · rw [varintLoop64, t0, List.append_assoc, toInt_emod]; rfl
    · rw [varintLoop64, t0, List.append_assoc]; rfl
    · rw [varintLoop64, t0, List.append_assoc, zigzag64_toNat]; rfl
    all_goals rw [t1, List.append_assoc, List.append_cancel_left_eq]; exact congrArg _ (appendFixed64_eq [] x)
  | bool x =>
    refine Acts.ofSome (fun b => ?_)
    simp only [appendMapKey, coderOf, Val.asBool, Functor.map, Except.map]
    rw [t0, List.append_assoc, bool_varint, ← boolByte_eq]
    cases x <;> rfl
  | str x =>
    refine fun b => ⟨_, rfl, fun hl => ?_⟩
    have : x.length < 2 ^ 64 := by
      have := lenDelim_length_gt x; rw [List.length_append] at hl; omega
    dsimp only
    rw [t2, appendVarint_eq, BitVec.toNat_ofNat, Nat.mod_eq_of_lt this]
    simp [lenDelim, Scalar.wire]
  | bytes x => cases hf

theorem appendMapValue_writes {s : Scalar} {v : Val} (hf : (coderOf s).isFastMapVal = true)
    (h : s.goType.holds v = true) :
    Writes (fun b => appendMapValue (coderOf s) b v) ((s.encode v).map (tag 2 s.wire ++ ·)) := by
  have t0 : ∀ b : Bytes, b ++ [2#8 <<< 3 ||| 0#8] = b ++ tag 2 .varint := fun b => (appendValTag_eq b .varint)
  have t1 : ∀ b : Bytes, b ++ [2#8 <<< 3 ||| 1#8] = b ++ tag 2 .i64 := fun b => (appendValTag_eq b .i64)
  have t2 : ∀ b : Bytes, b ++ [2#8 <<< 3 ||| 2#8] = b ++ tag 2 .len := fun b => (appendValTag_eq b .len)
  have t5 : ∀ b : Bytes, b ++ [2#8 <<< 3 ||| 5#8] = b ++ tag 2 .i32 := fun b => (appendValTag_eq b .i32)
  have := scalarVal_of_holds h
  cases this with
  | w32 s x hs =>
    cases s <;> (try (cases hs; done)) <;> (try (cases hf; done)) <;>
      refine Acts.ofSome (fun b => ?_) <;>
      simp only [appendMapValue, coderOf, Val.asW32, Functor.map, Except.map] <;> congr 1
    · rw [varintLoop32, t0, List.append_assoc]; rfl
    · rw [varintLoop32, t0, List.append_assoc, zigzag32_toNat]; rfl
    all_goals rw [t5, List.append_assoc, List.append_cancel_left_eq]; exact congrArg _ (appendFixed32_eq [] x)
  | w64 s x hs =>
    cases s <;> (try (cases hs; done)) <;> (try (cases hf; done)) <;>
      refine Acts.ofSome (fun b => ?_) <;>
      simp only [appendMapValue, coderOf, Val.asW64, Functor.map, Except.map] <;> congr 1
    · rw [varintLoop64, t0, List.append_assoc, toInt_emod]; rfl
    · rw [varintLoop64, t0, List.append_assoc]; rfl
    · rw [varintLoop64, t0, List.append_assoc, zigzag64_toNat]; rfl
    all_goals rw [t1, List.append_assoc, List.append_cancel_left_eq]; exact congrArg _ (appendFixed64_eq [] x)
  | bool x =>
    refine Acts.ofSome (fun b => ?_)
    simp only [appendMapValue, coderOf, Val.asBool, Functor.map, Except.map]
    rw [t0, List.append_assoc, bool_varint, ← boolByte_eq]
    cases x <;> rfl
  | str x =>
    refine fun b => ⟨_, rfl, fun hl => ?_⟩
    have : x.length < 2 ^ 64 := by
      have := lenDelim_length_gt x; rw [List.length_append] at hl; omega
    dsimp only
    rw [t2, appendVarint_eq, BitVec.toNat_ofNat, Nat.mod_eq_of_lt this]
    simp [lenDelim, Scalar.wire]
  | bytes x =>
    refine fun b => ⟨_, rfl, fun hl => ?_⟩
    have : (x.getD []).length < 2 ^ 64 := by
      have := lenDelim_length_gt (x.getD []); rw [List.length_append] at hl; omega
    dsimp only
    rw [t2, appendVarint_eq, BitVec.toNat_ofNat, Nat.mod_eq_of_lt this]
    simp [lenDelim, Scalar.wire]

end Verif.Lemmas
