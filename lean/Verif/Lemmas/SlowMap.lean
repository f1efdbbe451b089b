import Verif.Lemmas.Fresh
import Verif.Lemmas.Coders
/-! Helper lemmas: specialised map functions against the generic ones. -/
namespace Verif.Lemmas
open Verif.Model Verif.Spec

theorem coder_realKind {tt : TagType} {t : GoType} (h : (getCoderType tt t.kind).isScalar = true) :
    getCoderType tt t.realKind = getCoderType tt t.kind := by
  cases t <;> first | rfl | (cases tt <;> first | rfl | cases h)

theorem fastKey_scalar {c : Coder} (h : c.isFastMapKey = true) : c.isScalar = true := by cases c <;> first | rfl | cases h
theorem fastVal_scalar {c : Coder} (h : c.isFastMapVal = true) : c.isScalar = true := by cases c <;> first | rfl | cases h
theorem sizeKey_scalar {c : Coder} (h : c.isSizeMapKey = true) : c.isScalar = true := by cases c <;> first | rfl | cases h

theorem bool_and_one (x : Bool) : (if x then 1#8 else 0#8) = boolByte x &&& 1#8 := by cases x <;> rfl

theorem appendMapKey_generic {tt : TagType} {k : Kind} (h : (getCoderType tt k).isFastMapKey = true) (b : Bytes) (v : Val) :
    appendMapKey (getCoderType tt k) b v = appendCoder (getCoderType tt k) (appendKeyTag b tt.wire) v := by
  cases tt
  case varint =>
    cases k <;> first | cases h; done | skip
    all_goals
      simp only [getCoderType, appendMapKey, appendCoder]
      congr 1
      funext x
      first | rw [varintLoop64, unrolled64]; rfl | rw [varintLoop32, appendU32_eq]; rfl | (rw [bool_and_one]; rfl)
  case zigzag32 =>
    simp only [getCoderType, appendMapKey, appendCoder]
    congr 1
    funext x
    rw [varintLoop32, appendZigZag32_eq]; rfl
  case zigzag64 =>
    simp only [getCoderType, appendMapKey, appendCoder]
    congr 1
    funext x
    rw [varintLoop64, appendZigZag64, unrolled64]; rfl
  case fixed32 => rfl
  case fixed64 => rfl
  case bytes =>
    cases k <;> first | cases h; done | rfl

theorem appendMapValue_generic {tt : TagType} {k : Kind} (h : (getCoderType tt k).isFastMapVal = true) (b : Bytes) (v : Val) :
    appendMapValue (getCoderType tt k) b v = appendCoder (getCoderType tt k) (appendValTag b tt.wire) v := by
  cases tt
  case varint =>
    cases k <;> first | cases h; done | skip
    all_goals
      simp only [getCoderType, appendMapValue, appendCoder]
      congr 1
      funext x
      first | rw [varintLoop64, unrolled64]; rfl | rw [varintLoop32, appendU32_eq]; rfl | (rw [bool_and_one]; rfl)
  case zigzag32 =>
    simp only [getCoderType, appendMapValue, appendCoder]
    congr 1
    funext x
    rw [varintLoop32, appendZigZag32_eq]; rfl
  case zigzag64 =>
    simp only [getCoderType, appendMapValue, appendCoder]
    congr 1
    funext x
    rw [varintLoop64, appendZigZag64, unrolled64]; rfl
  case fixed32 => rfl
  case fixed64 => rfl
  case bytes =>
    cases k <;> first | cases h; done | rfl

/-- The specialised functions of a field are those of its key and value types. -/
structure MapOK (f : FieldDesc) : Prop where
  append : ∀ kc vc, f.appendMap = some (kc, vc) → ∃ kt vt k v, f.t = .map kt vt ∧
    kc = getCoderType f.keyType k ∧ vc = getCoderType f.valType v ∧ kc.isFastMapKey = true ∧ vc.isFastMapVal = true ∧
    f.keyAppend = some (.plain kc) ∧ f.valAppend = some (.plain vc)
  size : ∀ kc vc, f.sizeMap = some (kc, vc) → (∃ kt vt, f.t = .map kt vt) ∧ f.keySize = some kc ∧ f.valSize = some vc

theorem mkField_mapOK (t : GoType) (slot : Nat) (o : Option Nat) (p : TagInfo) (tt : TagType)
    (kv : Option (TagType × TagType)) : MapOK (mkField t slot o p tt kv) := by
  by_cases h : ∃ k v kt vt, t = .map k v ∧ kv = some (kt, vt)
  · obtain ⟨k, v, kt, vt, rfl, rfl⟩ := h
    constructor
    · intro kc vc h
      have h' : getMapEncoder (getCoderType kt k.kind) (getCoderType vt v.kind) = some (kc, vc) := h
      unfold getMapEncoder at h'
      split at h'
      · rename_i hc
        rw [Bool.and_eq_true] at hc
        cases h'
        refine ⟨k, v, k.kind, v.kind, rfl, rfl, rfl, hc.1, hc.2, ?_, ?_⟩
        · show getAppendFn (getCoderType kt k.realKind) false = _
          rw [coder_realKind (fastKey_scalar hc.1)]
          simp [getAppendFn, fastKey_scalar hc.1]
        · show getAppendFn (getCoderType vt v.realKind) false = _
          rw [coder_realKind (fastVal_scalar hc.2)]
          simp [getAppendFn, fastVal_scalar hc.2]
      · cases h'
    · intro kc vc h
      have h' : getMapSize (getCoderType kt k.kind) (getCoderType vt v.kind) = some (kc, vc) := h
      unfold getMapSize at h'
      split at h'
      · rename_i hc
        rw [Bool.and_eq_true] at hc
        cases h'
        refine ⟨⟨k, v, rfl⟩, ?_, ?_⟩
        · show getSizeFn (getCoderType kt k.realKind) = _
          rw [coder_realKind (sizeKey_scalar hc.1)]
          simp [getSizeFn, sizeKey_scalar hc.1]
        · show getSizeFn (getCoderType vt v.realKind) = _
          rw [coder_realKind hc.2]
          simp [getSizeFn, hc.2]
      · cases h'
  · have e1 : (mkField t slot o p tt kv).appendMap = none := by
      cases t <;> cases kv <;> first | rfl | exact absurd ⟨_, _, _, _, rfl, rfl⟩ h
    have e2 : (mkField t slot o p tt kv).sizeMap = none := by
      cases t <;> cases kv <;> first | rfl | exact absurd ⟨_, _, _, _, rfl, rfl⟩ h
    constructor
    · intro kc vc h; rw [e1] at h; cases h
    · intro kc vc h; rw [e2] at h; cases h

theorem parseField_mapOK {gf : GoField} {i : Nat} {o : Option Nat} {f : FieldDesc} (h : parseField gf i o = .ok f) :
    MapOK f := by
  unfold parseField at h
  obtain ⟨⟨p, tt⟩, h1, h⟩ := bindOk h
  obtain ⟨kv, h2, h⟩ := bindOk h
  split at h
  · cases h; exact mkField_mapOK _ _ _ _ _ _
  · cases h

theorem parseDescs_mapOK {env : GoEnv} {D : Descs} (h : parseDescs env = .ok D) (i : Nat) :
    ∀ f ∈ (D i).fields, MapOK f := by
  intro f hf
  rcases parseDescs_facts h i with ⟨s, _, hs⟩ | hd
  · obtain ⟨q, hq⟩ := ((parseStruct_facts hs).1 f).1 hf
    cases hq with
    | plain _ _ _ _ _ h => exact parseField_mapOK h
    | member _ _ _ _ _ _ _ _ _ _ h => exact parseField_mapOK h
  · rw [hd] at hf; cases hf

theorem foldlM_congr {α β : Type} {f g : β → α → Res β} : ∀ (xs : List α), (∀ x ∈ xs, ∀ b, f b x = g b x) →
    ∀ b, xs.foldlM f b = xs.foldlM g b
  | [], _, _ => rfl
  | x :: xs, h, b => by
    rw [List.foldlM_cons, List.foldlM_cons, h x (by simp)]
    congr 1
    funext b'
    exact foldlM_congr xs (fun y hy => h y (by simp [hy])) b'

theorem appendEntry_slow {f : FieldDesc} (h : MapOK f) {kc vc : Coder} (hf : f.appendMap = some (kc, vc)) (rec : EncRec)
    (vt : GoType) (b : Bytes) (e : Key × Val) :
    appendMapEntry kc vc f.wireTag b e = appendEntryGeneric rec (slowField f) vt b e := by
  obtain ⟨kt, vt', k, v, h1, rfl, rfl, h4, h5, h6, h7⟩ := h.append _ _ hf
  unfold appendMapEntry appendEntryGeneric
  simp only [slowField, h6, h7, callAppend, appendMapKey_generic h4, appendMapValue_generic h5]

theorem appendPresent_slow {f : FieldDesc} (h : MapOK f) (rec : EncRec) (b : Bytes) (p : Val) :
    appendPresent rec (slowField f) b p = appendPresent rec f b p := by
  cases hm : f.appendMap with
  | none =>
    have : appendMapField rec (slowField f) b = appendMapField rec f b := rfl
    simp only [appendPresent, hm]
    rfl
  | some c =>
    obtain ⟨kc, vc⟩ := c
    obtain ⟨kt, vt, k, v, h1, h2, h3, h4, h5, h6, h7⟩ := h.append _ _ hm
    have key : ∀ p, appendMapField rec (slowField f) b p = appendMapFast kc vc b f.wireTag p := by
      intro p
      have e1 : (slowField f).t = .map kt vt := h1
      have e2 : (slowField f).valAppend = some (.plain vc) := h7
      unfold appendMapField appendMapFast
      rw [e1]
      simp only [e2, reduceCtorEq, false_and, if_false]
      congr 1
      funext m
      exact foldlM_congr m (fun e _ b => (appendEntry_slow h hm rec vt b e).symm) b
    unfold appendPresent
    simp only [hm, key]
    rfl

theorem sizeMap_slow {f : FieldDesc} (h : MapOK f) (rec : SizeRec) (p : Val) :
    sizeMapField rec (slowField f) p = sizeMapField rec f p := by
  cases hm : f.sizeMap with
  | none =>
    have e0 : f.sizeMap = (slowField f).sizeMap := hm
    unfold sizeMapField
    rw [e0]
    rfl
  | some c =>
    obtain ⟨kc, vc⟩ := c
    obtain ⟨⟨kt, vt, h1⟩, h2, h3⟩ := h.size _ _ hm
    have e1 : (slowField f).t = .map kt vt := h1
    have e2 : (slowField f).valSize = some vc := h3
    have e3 : (slowField f).sizeMap = none := rfl
    unfold sizeMapField
    rw [e3, hm, e1]
    simp only [e2, reduceCtorEq, false_and, if_false]
    unfold sizeMapFast
    congr 1
    funext m
    refine foldlM_congr m (fun e _ n => ?_) 0
    have e4 : (slowField f).keySize = some kc := h2
    unfold sizeEntryGeneric
    simp only [e2, e4, callSize]
    have e5 : (slowField f).wireTagSize = f.wireTagSize := rfl
    simp only [e5]
    congr 1
    funext k
    congr 1
    funext x
    rw [Nat.add_assoc (1 + k)]

theorem sizePresent_slow {f : FieldDesc} (h : MapOK f) (rec : SizeRec) (n : Nat) (p : Val) :
    sizePresent rec (slowField f) n p = sizePresent rec f n p := by
  unfold sizePresent
  simp only [sizeMap_slow h]
  rfl

theorem foldlM_map {α β γ : Type} (g : α → γ) (f : β → γ → Res β) : ∀ (xs : List α) (b : β),
    (xs.map g).foldlM f b = xs.foldlM (fun b x => f b (g x)) b
  | [], _ => rfl
  | x :: xs, b => by
    rw [List.map_cons, List.foldlM_cons, List.foldlM_cons]
    congr 1
    funext b'
    exact foldlM_map g f xs b'

theorem appendStruct_slow {D : Descs} (h : ∀ i, ∀ f ∈ (D i).fields, MapOK f) : ∀ (depth : Nat) (b : Bytes) (base : Option Val)
    (sid : Nat) (el : Bool), appendStruct (slowDescs D) depth b base sid el = appendStruct D depth b base sid el
  | 0, _, _, _, _ => rfl
  | depth + 1, b, base, sid, el => by
    have hrec : (fun b base sid => appendStruct (slowDescs D) depth b base sid true)
        = (fun b base sid => appendStruct D depth b base sid true) := by
      funext b base sid
      exact appendStruct_slow h depth b base sid true
    have e1 : (slowDescs D sid).empty = (D sid).empty := rfl
    have e2 : (slowDescs D sid).fields = (D sid).fields.map slowField := rfl
    have e3 : ∀ fs, unknownBytes (slowDescs D sid) fs = unknownBytes (D sid) fs := fun _ => rfl
    have e4 : (fun i => (slowDescs D i).size) = (fun i => (D i).size) := rfl
    simp only [appendStruct, hrec, e1, e2, e3, e4]
    cases base.getD (D sid).empty with
    | struct fs =>
      simp only [foldlM_map]
      congr 1
      refine foldlM_congr _ (fun f hf b' => ?_) _
      unfold appendField
      simp only [appendPresent_slow (h sid f hf)]
      rfl
    | _ => rfl

theorem sizeStruct_slow {D : Descs} (h : ∀ i, ∀ f ∈ (D i).fields, MapOK f) : ∀ (depth : Nat) (base : Option Val)
    (sid : Nat), sizeStruct (slowDescs D) depth base sid = sizeStruct D depth base sid
  | 0, _, _ => rfl
  | depth + 1, base, sid => by
    have hrec : sizeStruct (slowDescs D) depth = sizeStruct D depth := by
      funext base sid
      exact sizeStruct_slow h depth base sid
    have e1 : (slowDescs D sid).empty = (D sid).empty := rfl
    have e2 : (slowDescs D sid).fields = (D sid).fields.map slowField := rfl
    have e3 : ∀ fs, unknownBytes (slowDescs D sid) fs = unknownBytes (D sid) fs := fun _ => rfl
    have e4 : (fun i => (slowDescs D i).size) = (fun i => (D i).size) := rfl
    simp only [sizeStruct, hrec, e1, e2, e3, e4]
    cases base.getD (D sid).empty with
    | struct fs =>
      simp only [foldlM_map]
      congr 1
      refine foldlM_congr _ (fun f hf b' => ?_) _
      unfold sizeField
      simp only [sizePresent_slow (h sid f hf)]
      rfl
    | _ => rfl

end Verif.Lemmas
