import Verif.Lemmas.Regular
/-! Helper lemmas: a field that is accepted and has an ordinary type declares a field of a schema. -/
namespace Verif.Lemmas
open Verif.Model Verif.Spec

/-- The scalar with a Go type and an encoding. -/
def regScalar : GoType → TagType → Scalar
  | .int32, .varint => .int32 | .int32, .zigzag32 => .sint32 | .int32, _ => .sfixed32
  | .int64, .varint => .int64 | .int64, .zigzag64 => .sint64 | .int64, _ => .sfixed64
  | .uint32, .varint => .uint32 | .uint32, _ => .fixed32
  | .uint64, .varint => .uint64 | .uint64, _ => .fixed64
  | .float32, _ => .float | .float64, _ => .double | .bool, _ => .bool | .string, _ => .string
  | _, _ => .bytes

theorem scalarOf_ok {t : GoType} {tt : TagType} (hb : isBasic t = true) (hm : fieldTypeMatch tt t.realKind = true) :
    (regScalar t tt).goType = t ∧ tagTypeOf (regScalar t tt) = tt := by
  cases t <;> first | (cases hb; done) | (cases tt <;> first | (cases hm; done) | exact ⟨rfl, rfl⟩)

theorem scalarOf_key {t : GoType} {tt : TagType} (hb : isKeyType t = true) (hm : keyTypeMatch tt t.realKind = true) :
    (regScalar t tt).goType = t ∧ tagTypeOf (regScalar t tt) = tt ∧ (regScalar t tt).isKey = true := by
  cases t <;> first | (cases hb; done) | (cases tt <;> first | (cases hm; done) | exact ⟨rfl, rfl, rfl⟩)

theorem scalarOf_packable {t : GoType} {tt : TagType} (hb : isBasic t = true) (hm : fieldTypeMatch tt t.realKind = true)
    (hp : tt ≠ .bytes) : (regScalar t tt).packable = true := by
  cases t <;> first | (cases hb; done) | (cases tt <;> first | (cases hm; done) | rfl | exact absurd rfl hp)

/-- The shape of a field. -/
def regShape (tt : TagType) (packed : Bool) (kt vt : TagType) : GoType → Shape
  | .slice (.struct id) => .msgList id false
  | .slice (.ptr (.struct id)) => .msgList id true
  | .slice t => .list (regScalar t tt) packed
  | .map k (.struct id) => .mapMsg (regScalar k kt) id false
  | .map k (.ptr (.struct id)) => .mapMsg (regScalar k kt) id true
  | .map k v => .map (regScalar k kt) (regScalar v vt)
  | .struct id => .msg id false
  | .ptr (.struct id) => .msg id true
  | .ptr t => .optional (regScalar t tt)
  | t => .single (regScalar t tt)

theorem shapeOf_slice {t : GoType} (h : isBasic t = true) (tt : TagType) (p : Bool) (kt vt : TagType) :
    regShape tt p kt vt (.slice t) = .list (regScalar t tt) p := by
  cases t <;> first | (cases h; done) | rfl
theorem shapeOf_map {v : GoType} (h : isBasic v = true) (tt : TagType) (p : Bool) (kt vt : TagType) (k : GoType) :
    regShape tt p kt vt (.map k v) = .map (regScalar k kt) (regScalar v vt) := by
  cases v <;> first | (cases h; done) | rfl
theorem shapeOf_ptr {t : GoType} (h : isBasic t = true) (tt : TagType) (p : Bool) (kt vt : TagType) :
    regShape tt p kt vt (.ptr t) = .optional (regScalar t tt) := by
  cases t <;> first | (cases h; done) | rfl
theorem shapeOf_single {t : GoType} (h : isBasic t = true) (tt : TagType) (p : Bool) (kt vt : TagType) :
    regShape tt p kt vt t = .single (regScalar t tt) := by
  cases t <;> first | (cases h; done) | rfl

theorem check_parts {t : GoType} {tt : TagType} {r p : Bool} {kv : Option (TagType × TagType)}
    (h : checkTypeMatch t tt r p kv = true) :
    (p = true → t.isSlice = true ∧ tt ≠ .bytes) ∧ (r = true → t.isSlice = true ∨ t.kind = .map) ∧
    fieldTypeMatch tt t.realKind = true ∧
    (∀ k v, t = .map k v → ∃ kt vt, kv = some (kt, vt) ∧ r = true ∧ keyTypeMatch kt k.realKind = true ∧
      fieldTypeMatch vt v.realKind = true) := by
  unfold checkTypeMatch at h
  simp only [Bool.and_eq_true] at h
  obtain ⟨⟨⟨h1, h2⟩, h3⟩, h4⟩ := h
  refine ⟨fun hp => ?_, fun hr => ?_, h3, ?_⟩
  · subst hp
    simp only [Bool.not_true, Bool.false_or, Bool.and_eq_true, bne_iff_ne] at h1
    exact ⟨h1.1.2, h1.2⟩
  · subst hr
    simp only [Bool.not_true, Bool.false_or, Bool.and_eq_true, Bool.or_eq_true, beq_iff_eq] at h2
    exact h2.1
  · rintro k v rfl
    cases kv with
    | none => cases h4
    | some kv =>
      obtain ⟨kt, vt⟩ := kv
      simp only [Bool.and_eq_true] at h4
      exact ⟨kt, vt, rfl, h4.1.1, h4.1.2, h4.2⟩

theorem shape_ok {t : GoType} {tt : TagType} {r p : Bool} {kv : Option (TagType × TagType)} (hr : regularType t = true)
    (hc : checkTypeMatch t tt r p kv = true) (hl : Spec.isList t = true → r = true) (hkv : t.kind ≠ .map → kv = none) (kt vt : TagType)
    (hkt : ∀ a b, kv = some (a, b) → kt = a ∧ vt = b) :
    (regShape tt p kt vt t).goType = t ∧ (regShape tt p kt vt t).legal = true ∧ tagTypeOfShape (regShape tt p kt vt t) = tt ∧
    repeatedShape (regShape tt p kt vt t) = r ∧ packedShape (regShape tt p kt vt t) = p ∧ kvOfShape (regShape tt p kt vt t) = kv := by
  obtain ⟨c1, c2, c3, c4⟩ := check_parts hc
  have np : t.isSlice = false → p = false := fun e => by
    cases p with
    | false => rfl
    | true => rw [(c1 rfl).1] at e; cases e
  have nr : t.isSlice = false → t.kind ≠ .map → r = false := fun e1 e2 => by
    cases r with
    | false => rfl
    | true => rcases c2 rfl with h | h
              · rw [h] at e1; cases e1
              · exact absurd h e2
  have bytesOf : t.realKind = .struct → tt = .bytes := fun e => by
    rw [e] at c3; cases tt <;> first | rfl | (cases c3; done)
  have basic : isBasic t = true → t.isSlice = false → t.kind ≠ .map →
      (regShape tt p kt vt t).goType = t ∧ (regShape tt p kt vt t).legal = true ∧ tagTypeOfShape (regShape tt p kt vt t) = tt ∧
      repeatedShape (regShape tt p kt vt t) = r ∧ packedShape (regShape tt p kt vt t) = p ∧
      kvOfShape (regShape tt p kt vt t) = kv := fun hb e1 e2 => by
    obtain ⟨s1, s2⟩ := scalarOf_ok hb c3
    have hp := np e1
    have hre := nr e1 e2
    have hk := hkv e2
    subst hp hre hk
    rw [shapeOf_single hb]
    exact ⟨s1, rfl, s2, rfl, rfl, rfl⟩
  cases t with
  | bool => exact basic rfl rfl nofun
  | int32 => exact basic rfl rfl nofun
  | int64 => exact basic rfl rfl nofun
  | uint32 => exact basic rfl rfl nofun
  | uint64 => exact basic rfl rfl nofun
  | float32 => exact basic rfl rfl nofun
  | float64 => exact basic rfl rfl nofun
  | string => exact basic rfl rfl nofun
  | bytes => exact basic rfl rfl nofun
  | iface => cases hr
  | other n => cases hr
  | struct id =>
    have hp := np rfl
    have hre := nr rfl nofun
    have hk := hkv nofun
    subst hp hre hk
    exact ⟨rfl, rfl, (bytesOf rfl).symm, rfl, rfl, rfl⟩
  | ptr u =>
    have hp := np rfl
    have hre := nr rfl nofun
    have hk := hkv nofun
    subst hp hre hk
    by_cases hb : isBasic u = true
    · obtain ⟨s1, s2⟩ := scalarOf_ok hb c3
      rw [shapeOf_ptr hb]
      exact ⟨congrArg GoType.ptr s1, rfl, s2, rfl, rfl, rfl⟩
    · cases u <;> first | (exact absurd hr hb) | skip
      rename_i id
      exact ⟨rfl, rfl, (bytesOf rfl).symm, rfl, rfl, rfl⟩
  | slice u =>
    have hre := hl rfl
    have hk := hkv nofun
    subst hre hk
    by_cases hb : isBasic u = true
    · obtain ⟨s1, s2⟩ := scalarOf_ok hb c3
      rw [shapeOf_slice hb]
      refine ⟨congrArg GoType.slice s1, ?_, s2, rfl, rfl, rfl⟩
      cases p with
      | false => rfl
      | true => simp only [Shape.legal, Bool.not_true, Bool.false_or]; exact scalarOf_packable hb c3 (c1 rfl).2
    · have hm : isMsgType u = true := by
        simp only [regularType, Bool.or_eq_true] at hr
        exact hr.resolve_left hb
      have hp : ∀ e : u.realKind = .struct, p = false := fun e => by
        cases p with
        | false => rfl
        | true => exact absurd (bytesOf e) (c1 rfl).2
      cases u with
      | struct id => rw [hp rfl]; exact ⟨rfl, rfl, (bytesOf rfl).symm, rfl, rfl, rfl⟩
      | ptr w =>
        cases w with
        | struct id => rw [hp rfl]; exact ⟨rfl, rfl, (bytesOf rfl).symm, rfl, rfl, rfl⟩
        | _ => cases hm
      | _ => cases hm
  | map k v =>
    have hp := np rfl
    obtain ⟨a, b, hk, hre, c5, c6⟩ := c4 k v rfl
    obtain ⟨e1, e2⟩ := hkt a b hk
    subst hp hre hk e1 e2
    have htt : tt = .bytes := by
      have : fieldTypeMatch tt Kind.map = true := c3
      cases tt <;> first | rfl | (cases this; done)
    simp only [regularType, Bool.and_eq_true] at hr
    obtain ⟨s1, s2, s3⟩ := scalarOf_key hr.1 c5
    by_cases hb : isBasic v = true
    · obtain ⟨v1, v2⟩ := scalarOf_ok hb c6
      rw [shapeOf_map hb]
      refine ⟨by simp only [Shape.goType, s1, v1], s3, htt.symm, rfl, rfl, by simp only [kvOfShape, s2, v2]⟩
    · have hm : isMsgType v = true := by
        have := hr.2
        simp only [Bool.or_eq_true] at this
        exact this.resolve_left hb
      have hv : v.realKind = .struct → vt = .bytes := fun e => by
        rw [e] at c6; cases vt <;> first | rfl | (cases c6; done)
      cases v with
      | struct id =>
        refine ⟨by simp only [regShape, Shape.goType, s1]; rfl, s3, htt.symm, rfl, rfl, ?_⟩
        simp only [regShape, kvOfShape, s2, hv rfl]
      | ptr w =>
        cases w with
        | struct id =>
          refine ⟨by simp only [regShape, Shape.goType, s1]; rfl, s3, htt.symm, rfl, rfl, ?_⟩
          simp only [regShape, kvOfShape, s2, hv rfl]
        | _ => cases hm
      | _ => cases hm

/-! ## fields -/

theorem parseField_parts {gf : GoField} {slot : Nat} {o : Option Nat} {d : FieldDesc} (h : parseField gf slot o = .ok d) :
    ∃ p tt kv, parseStructTag gf.tag = .ok (p, tt) ∧ kvTags gf = .ok kv ∧
      checkTypeMatch gf.type tt p.repeated p.packed kv = true ∧ d = mkField gf.type slot o p tt kv := by
  unfold parseField at h
  obtain ⟨⟨p, tt⟩, h1, h⟩ := bindOk h
  dsimp only at h
  obtain ⟨kv, h2, h⟩ := bindOk h
  split at h
  · rename_i hc
    cases h
    rw [Bool.and_eq_true] at hc
    exact ⟨p, tt, kv, h1, h2, hc.2, rfl⟩
  · cases h

theorem mkField_proj (t : GoType) (slot : Nat) (o : Option Nat) (p : TagInfo) (tt : TagType) (kv : Option (TagType × TagType)) :
    (mkField t slot o p tt kv).id = p.id ∧ (mkField t slot o p tt kv).slot = slot ∧ (mkField t slot o p tt kv).t = t ∧
    (mkField t slot o p tt kv).tagType = tt ∧ (mkField t slot o p tt kv).repeated = p.repeated ∧
    (mkField t slot o p tt kv).packed = p.packed ∧ (mkField t slot o p tt kv).oneof = o := by
  unfold mkField
  dsimp only
  split <;> exact ⟨rfl, rfl, rfl, rfl, rfl, rfl, rfl⟩

theorem mkField_kv (k v : GoType) (slot : Nat) (o : Option Nat) (p : TagInfo) (tt a b : TagType) :
    (mkField (.map k v) slot o p tt (some (a, b))).keyType = a ∧ (mkField (.map k v) slot o p tt (some (a, b))).valType = b :=
  ⟨rfl, rfl⟩

/-- The field of the schema. -/
def undesc (d : FieldDesc) : Field := ⟨d.id.toNat, d.slot, d.oneof, regShape d.tagType d.packed d.keyType d.valType d.t⟩

/-- The word for an encoding. -/
def encWordOf : TagType → List Char
  | .varint => "varint".toList
  | .zigzag32 => "zigzag32".toList
  | .zigzag64 => "zigzag64".toList
  | .fixed32 => "fixed32".toList
  | .fixed64 => "fixed64".toList
  | .bytes => "bytes".toList

theorem encWord_of (tt : TagType) : EncWord (encWordOf tt) tt := by
  cases tt <;> constructor
theorem word_scalar (s : Scalar) : s.word = encWordOf (tagTypeOf s) := by cases s <;> rfl
theorem word_shape (s : Shape) : s.word = encWordOf (tagTypeOfShape s) := by
  cases s <;> first | exact word_scalar _ | rfl
theorem encWordOf_word (tt : TagType) : IsWord (encWordOf tt) := by
  cases tt <;> exact ⟨by decide, by decide, by decide⟩

theorem decimalDigits : ∀ (k n : Nat), n ≤ k → IsDecimal (Nat.toDigits 10 n) n
  | k, n, h => by
    by_cases hn : n < 10
    · rw [Nat.toDigits_of_lt_base hn]
      have : n.digitChar = digitChar n := by
        have : ∀ m < 10, m.digitChar = digitChar m := by decide
        exact this n hn
      rw [this]
      exact .digit n hn
    · cases k with
      | zero => omega
      | succ k =>
        rw [Nat.toDigits_of_base_le (by decide) (by omega)]
        have h1 : (n % 10).digitChar = digitChar (n % 10) := by
          have : ∀ m < 10, m.digitChar = digitChar m := by decide
          exact this _ (Nat.mod_lt _ (by decide))
        have h2 := IsDecimal.snoc _ _ (n % 10) (decimalDigits k (n / 10) (by omega)) (Nat.mod_lt _ (by decide))
        rw [h1]
        have h3 : 10 * (n / 10) + n % 10 = n := by omega
        rw [h3] at h2
        exact h2

theorem decimal_word {w : List Char} {n : Nat} (h : IsDecimal w n) : IsWord w := by
  have hd := (decimal_props h).2.1
  have key : ∀ c ∈ w, c ≠ ',' ∧ isBlank c = false := by
    intro c hc
    have := List.all_eq_true.1 hd c hc
    rw [isDigit_iff] at this
    refine ⟨fun e => by rw [e] at this; exact absurd this (by decide), ?_⟩
    rw [isBlank_eq]
    unfold isSpace
    dsimp only
    rw [Bool.eq_false_iff]
    simp only [Bool.or_eq_true, Bool.and_eq_true, decide_eq_true_eq, beq_iff_eq, ne_eq]
    omega
  refine ⟨fun hc => (key _ hc).1 rfl, fun c hc => (key c ?_).2, fun c hc => (key c ?_).2⟩
  · exact List.mem_of_mem_head? hc
  · exact List.mem_of_mem_getLast? hc

/-- A tag that says the same in the usual form. -/
def canonTag (d : FieldDesc) : List Char :=
  joinComma (encWordOf d.tagType :: Nat.toDigits 10 d.id.toNat ::
    ((if d.repeated then ["rep".toList] else []) ++ if d.packed then ["packed".toList] else []))

theorem canonTag_says (d : FieldDesc) : TagSays (canonTag d) (encWordOf d.tagType) d.id.toNat d.repeated d.packed := by
  have hdec : IsDecimal (Nat.toDigits 10 d.id.toNat) d.id.toNat := decimalDigits _ _ (Nat.le_refl _)
  have hf := (encWord_of d.tagType).facts
  have hrep : "rep".toList ≠ Nat.toDigits 10 d.id.toNat := fun e =>
    ne_of_digits (decimal_props hdec).2.1 (by decide) e.symm
  have hpack : "packed".toList ≠ Nat.toDigits 10 d.id.toNat := fun e =>
    ne_of_digits (decimal_props hdec).2.1 (by decide) e.symm
  refine ⟨_, rfl, ?_, ?_, by simp, ⟨_, by simp, hdec⟩, ?_, ?_⟩
  · intro w hw
    simp only [List.mem_cons, List.mem_append] at hw
    rcases hw with rfl | rfl | hw | hw
    · exact encWordOf_word _
    · exact decimal_word hdec
    · split at hw
      · rw [List.mem_singleton.1 hw]; exact ⟨by decide, by decide, by decide⟩
      · cases hw
    · split at hw
      · rw [List.mem_singleton.1 hw]; exact ⟨by decide, by decide, by decide⟩
      · cases hw
  · intro w hw
    simp only [List.mem_cons, List.mem_append] at hw
    rcases hw with rfl | rfl | hw | hw
    · exact .inl rfl
    · exact .inr (.inl hdec)
    · split at hw
      · exact .inr (.inr (.inl (List.mem_singleton.1 hw)))
      · cases hw
    · split at hw
      · exact .inr (.inr (.inr (.inl (List.mem_singleton.1 hw))))
      · cases hw
  · simp only [List.mem_cons, List.mem_append]
    constructor
    · rintro (h | h | h | h)
      · exact absurd h.symm hf.2.1
      · exact absurd h hrep
      · split at h
        · assumption
        · cases h
      · split at h
        · exact absurd (List.mem_singleton.1 h) (by decide)
        · cases h
    · intro h; rw [if_pos h]; exact .inr (.inr (.inl (by simp)))
  · simp only [List.mem_cons, List.mem_append]
    constructor
    · rintro (h | h | h | h)
      · exact absurd h.symm hf.2.2
      · exact absurd h hpack
      · split at h
        · exact absurd (List.mem_singleton.1 h) (by decide)
        · cases h
      · split at h
        · assumption
        · cases h
    · intro h; rw [if_pos h]; exact .inr (.inr (.inr (by simp)))

theorem kvWord_says (tt : TagType) : KVSays (encWordOf tt) (encWordOf tt) :=
  ⟨[encWordOf tt], rfl, fun w hw => by rw [List.mem_singleton.1 hw]; exact encWordOf_word tt, by simp,
    fun w hw => .inl (List.mem_singleton.1 hw)⟩

/-- The same declaration with the tags in the usual form. -/
def canonField (name : List Char) (gf : GoField) : GoField :=
  if gf.tag = [] then { gf with name := name }
  else match parseField gf 0 none with
    | .ok d => { name := name, type := gf.type, tag := canonTag d, keyTag := encWordOf d.keyType, valTag := encWordOf d.valType,
                 oneofTag := gf.oneofTag }
    | .error _ => gf

theorem canonField_eq {name : List Char} {gf : GoField} {slot : Nat} {o : Option Nat} {d : FieldDesc} (ht : gf.tag ≠ [])
    (h : parseField gf slot o = .ok d) :
    canonField name gf = ⟨name, gf.type, canonTag d, encWordOf d.keyType, encWordOf d.valType, gf.oneofTag⟩ := by
  obtain ⟨p, tt, kv, h1, h2, h3, rfl⟩ := parseField_parts h
  have h0 : ∃ d0, parseField gf 0 none = .ok d0 ∧ d0 = mkField gf.type 0 none p tt kv := by
    refine ⟨_, ?_, rfl⟩
    unfold parseField at h ⊢
    simp only [h1, h2, bind, Except.bind] at h ⊢
    split at h
    · rename_i hc; rw [if_pos hc]
    · cases h
  obtain ⟨d0, h0, rfl⟩ := h0
  unfold canonField
  rw [if_neg ht, h0]
  have e : ∀ s o', canonTag (mkField gf.type s o' p tt kv) =
      joinComma (encWordOf tt :: Nat.toDigits 10 p.id.toNat ::
        ((if p.repeated then ["rep".toList] else []) ++ if p.packed then ["packed".toList] else [])) := by
    intro s o'
    obtain ⟨e1, _, _, e4, e5, e6, _⟩ := mkField_proj gf.type s o' p tt kv
    unfold canonTag
    rw [e1, e4, e5, e6]
  have e2 : ∀ s o', (mkField gf.type s o' p tt kv).keyType = (mkField gf.type slot o p tt kv).keyType ∧
      (mkField gf.type s o' p tt kv).valType = (mkField gf.type slot o p tt kv).valType := by
    intro s o'
    unfold mkField
    dsimp only
    split <;> exact ⟨rfl, rfl⟩
  simp only [e, e2 0 none]

/-- An accepted field with an ordinary type. -/
theorem regular_field {gf : GoField} {slot : Nat} {o : Option Nat} {d : FieldDesc} (htag : gf.tag ≠ []) (h : parseField gf slot o = .ok d)
    (hr : regularType gf.type = true) (ht : TidyTag (Spec.isList gf.type) gf.tag) (hid : 0 ≤ d.id.toInt) (name : List Char) :
    (undesc d).shape.goType = gf.type ∧ (undesc d).shape.legal = true ∧ descOf (undesc d) = d ∧ 1 ≤ (undesc d).num ∧
    (undesc d).num < 2 ^ 31 ∧ Declares (canonField name gf) (undesc d) ∧ (undesc d).slot = slot ∧ (undesc d).member = o := by
  have hcan := canonField_eq (name := name) htag h
  obtain ⟨p, tt, kv, h1, h2, h3, hd⟩ := parseField_parts h
  obtain ⟨t1, t2⟩ := tidyTag_facts ht h1
  have hproj := mkField_proj gf.type slot o p tt kv
  rw [← hd] at hproj
  obtain ⟨p1, p2, p3, p4, p5, p6, p7⟩ := hproj
  have hkvn : gf.type.kind ≠ .map → kv = none := by
    intro hk
    unfold kvTags at h2
    split at h2
    · rename_i heq; rw [heq] at hk; exact absurd rfl hk
    · cases h2; rfl
  have hkvs : ∀ a b, kv = some (a, b) → d.keyType = a ∧ d.valType = b := by
    intro a b e
    unfold kvTags at h2
    split at h2
    · rename_i k v heq
      rw [hd, heq, e]
      exact mkField_kv k v slot o p tt a b
    · cases h2; cases e
  obtain ⟨s1, s2, s3, s4, s5, s6⟩ := shape_ok hr h3 t1 hkvn d.keyType d.valType hkvs
  have hshape : (undesc d).shape = regShape tt p.packed d.keyType d.valType gf.type := by
    unfold undesc; simp only [p3, p4, p6]
  have hnum : d.id.toNat < 2 ^ 31 := by
    rw [BitVec.toInt_eq_toNat_cond] at hid
    have := d.id.isLt
    split at hid <;> omega
  have hn1 : 1 ≤ d.id.toNat := by
    rcases Nat.eq_zero_or_pos d.id.toNat with e | e
    · exact absurd (BitVec.eq_of_toNat_eq (by rw [← p1, e]; rfl)) t2
    · exact e
  refine ⟨by rw [hshape]; exact s1, by rw [hshape]; exact s2, ?_, hn1, hnum, ?_, p2, p7⟩
  · unfold descOf
    have e1 : (undesc d).slot = slot := p2
    have e2 : (undesc d).member = o := p7
    have e3 : (undesc d).num = d.id.toNat := rfl
    rw [hshape, s1, s3, s4, s5, s6, e1, e2, e3]
    rw [hd]
    refine (mkField_congr _ _ _ _ _ _ _ ?_ rfl rfl)
    rw [(mkField_proj gf.type slot o p tt kv).1]
    exact BitVec.eq_of_toNat_eq (by rw [BitVec.toNat_ofNat]; exact Nat.mod_eq_of_lt p.id.isLt)
  · rw [hcan]
    refine ⟨by rw [hshape]; exact s1.symm, ?_, ?_, ?_⟩
    · have := canonTag_says d
      rw [p4, p5, p6] at this
      rw [word_shape, isRepeated_eq, isPacked_eq, hshape, s3, s4, s5]
      exact this
    · intro k v e
      rw [hshape] at e
      rw [e] at s6
      simp only [kvOfShape] at s6
      obtain ⟨e1, e2⟩ := hkvs _ _ s6.symm
      rw [e1, e2, word_scalar, word_scalar]
      exact ⟨kvWord_says _, kvWord_says _⟩
    · intro k id b e
      rw [hshape] at e
      rw [e] at s6
      simp only [kvOfShape] at s6
      obtain ⟨e1, e2⟩ := hkvs _ _ s6.symm
      rw [e1, e2, word_scalar]
      exact ⟨kvWord_says _, kvWord_says .bytes⟩

end Verif.Lemmas
