import Verif.Spec.Fits
import Verif.Props.Tags
/-!
# C35, C28, C34: exactly which struct types are accepted
-/
namespace Verif.Props.Fits
open Verif.Spec Verif.Model Verif.Lemmas

theorem core_real {t u : GoType} (h : Core t u) : t.realKind = u.kind := by
  induction h <;> first | rfl | assumption

theorem core_exists : ∀ t : GoType, ∃ u, Core t u
  | .bool => ⟨_, .bool⟩ | .int32 => ⟨_, .int32⟩ | .int64 => ⟨_, .int64⟩ | .uint32 => ⟨_, .uint32⟩ | .uint64 => ⟨_, .uint64⟩
  | .float32 => ⟨_, .float32⟩ | .float64 => ⟨_, .float64⟩ | .string => ⟨_, .string⟩ | .bytes => ⟨_, .bytes⟩
  | .map k v => ⟨_, .map k v⟩ | .struct id => ⟨_, .struct id⟩ | .iface => ⟨_, .iface⟩ | .other n => ⟨_, .other n⟩
  | .ptr t => let ⟨u, h⟩ := core_exists t; ⟨u, .ptr t u h⟩
  | .slice t => let ⟨u, h⟩ := core_exists t; ⟨u, .slice t u h⟩

theorem keyEnc_iff (T : TagType) (t : GoType) : keyTypeMatch T t.kind = true ↔ KeyEnc T t := by
  constructor
  · intro h
    cases T <;> cases t <;> first | constructor | exact absurd h (by simp [keyTypeMatch, GoType.kind])
  · intro h; cases h <;> rfl

theorem enc_iff (T : TagType) (t : GoType) : fieldTypeMatch T t.kind = true ↔ Enc T t := by
  constructor
  · intro h
    cases T <;> cases t <;> first
      | exact .bytes | exact .msg _ | exact .map _ _ | exact .key _ _ (by constructor) | exact absurd h (by simp [fieldTypeMatch, GoType.kind])
  · intro h
    cases h with
    | key _ _ h => cases h <;> rfl
    | _ => rfl

theorem fits_key (T : TagType) (t : GoType) : keyTypeMatch T t.realKind = true ↔ ∃ u, Core t u ∧ KeyEnc T u := by
  constructor
  · intro h
    obtain ⟨u, hu⟩ := core_exists t
    exact ⟨u, hu, (keyEnc_iff T u).1 (core_real hu ▸ h)⟩
  · rintro ⟨u, hu, h⟩
    rw [core_real hu]; exact (keyEnc_iff T u).2 h

theorem fits_enc (T : TagType) (t : GoType) : fieldTypeMatch T t.realKind = true ↔ ∃ u, Core t u ∧ Enc T u := by
  constructor
  · intro h
    obtain ⟨u, hu⟩ := core_exists t
    exact ⟨u, hu, (enc_iff T u).1 (core_real hu ▸ h)⟩
  · rintro ⟨u, hu, h⟩
    rw [core_real hu]; exact (enc_iff T u).2 h

theorem parseOk_iff : ∀ t : GoType, t.parseOk = true ↔ ∀ u, ¬ Occurs t (.ptr (.ptr u))
  | .ptr t => by
    have ih := parseOk_iff t
    simp only [GoType.parseOk, Bool.and_eq_true, ih]
    constructor
    · rintro ⟨h1, h2⟩ u h
      cases h with
      | here => cases h1
      | ptr _ _ h => exact h2 u h
    · intro h
      refine ⟨?_, fun u hu => h u (.ptr _ _ hu)⟩
      cases t with
      | ptr u => exact (h u (.here _)).elim
      | _ => rfl
  | .slice t => by
    have ih := parseOk_iff t
    simp only [GoType.parseOk, ih]
    exact ⟨fun h u hu => (by cases hu with | slice _ _ hu => exact h u hu), fun h u hu => h u (.slice _ _ hu)⟩
  | .map k v => by
    have ih := parseOk_iff k
    have ih' := parseOk_iff v
    simp only [GoType.parseOk, Bool.and_eq_true, ih, ih']
    constructor
    · rintro ⟨h1, h2⟩ u hu
      cases hu with
      | key _ _ _ hu => exact h1 u hu
      | val _ _ _ hu => exact h2 u hu
    · exact fun h => ⟨fun u hu => h u (.key _ _ _ hu), fun u hu => h u (.val _ _ _ hu)⟩
  | .bool => ⟨fun _ _ h => (by cases h), fun _ => rfl⟩
  | .int32 => ⟨fun _ _ h => (by cases h), fun _ => rfl⟩
  | .int64 => ⟨fun _ _ h => (by cases h), fun _ => rfl⟩
  | .uint32 => ⟨fun _ _ h => (by cases h), fun _ => rfl⟩
  | .uint64 => ⟨fun _ _ h => (by cases h), fun _ => rfl⟩
  | .float32 => ⟨fun _ _ h => (by cases h), fun _ => rfl⟩
  | .float64 => ⟨fun _ _ h => (by cases h), fun _ => rfl⟩
  | .string => ⟨fun _ _ h => (by cases h), fun _ => rfl⟩
  | .bytes => ⟨fun _ _ h => (by cases h), fun _ => rfl⟩
  | .struct _ => ⟨fun _ _ h => (by cases h), fun _ => rfl⟩
  | .iface => ⟨fun _ _ h => (by cases h), fun _ => rfl⟩
  | .other _ => ⟨fun _ _ h => (by cases h), fun _ => rfl⟩

theorem multi_iff (t : GoType) : (t.isSlice || t.kind == .map) = true ↔ Multi t := by
  cases t <;> first
    | exact ⟨fun _ => .slice _, fun _ => rfl⟩
    | exact ⟨fun _ => .map _ _, fun _ => rfl⟩
    | exact ⟨fun h => (by cases h), fun h => (by cases h)⟩

theorem slice_iff (t : GoType) : t.isSlice = true ↔ ∃ u, t = .slice u := by
  cases t <;> simp [GoType.isSlice]

/-- The check of list elements. -/
theorem nested_iff (t : GoType) : (match t with
    | .slice (.ptr el) => !(el.isSlice || el.kind == .map)
    | .slice el => !(el.isSlice || el.kind == .map)
    | _ => true) = true ↔ ∀ u, t = .slice u → ¬ Multi u ∧ ∀ w, u = .ptr w → ¬ Multi w := by
  cases t with
  | slice u =>
    cases u with
    | ptr w =>
      simp only [Bool.not_eq_true', ← Bool.not_eq_true, multi_iff]
      constructor
      · intro h u' e; cases e
        exact ⟨fun h => (by cases h), fun w' e => by cases e; exact h⟩
      · intro h
        exact (h _ rfl).2 _ rfl
    | _ =>
      simp only [Bool.not_eq_true', ← Bool.not_eq_true, multi_iff]
      constructor
      · intro h u' e; cases e
        exact ⟨h, fun w' e => by cases e⟩
      · intro h
        exact (h _ rfl).1
  | _ => exact ⟨fun _ _ e => (by cases e), fun _ => rfl⟩

/-- Equal words. -/
theorem words_unique {t : List Char} {a b : List (List Char)} (h : TagWords t a) (h' : TagWords t b) : a = b := by
  rw [← tagWords_eq h, ← tagWords_eq h']

theorem entryEnc_iff (tag : List Char) (T : TagType) : parseKVTag tag = .ok T ↔ EntryEnc tag T := by
  obtain ⟨ws, hws⟩ := C34_words tag
  rw [C34_kv_exact hws T]
  constructor
  · rintro ⟨a, w, b, e, h⟩
    exact ⟨a, w, b, e ▸ hws, h⟩
  · rintro ⟨a, w, b, hw, h⟩
    exact ⟨a, w, b, words_unique hws hw, h⟩

/-- The check of the type, given the flags. -/
theorem check_iff {t : GoType} {T : TagType} {rep packed : Bool} {kv : Option (TagType × TagType)} :
    checkTypeMatch t T rep packed kv = true ↔
      (∃ u, Core t u ∧ Enc T u) ∧ (packed = true → rep = true ∧ (∃ u, t = .slice u) ∧ T ≠ .bytes) ∧
      (rep = true → Multi t ∧ ∀ u, t = .slice u → ¬ Multi u ∧ ∀ w, u = .ptr w → ¬ Multi w) ∧
      ∀ k v, t = .map k v → rep = true ∧ ∃ K V, kv = some (K, V) ∧ (∃ k', Core k k' ∧ KeyEnc K k') ∧ ∃ v', Core v v' ∧ Enc V v' := by
  unfold checkTypeMatch
  simp only [Bool.and_eq_true, fits_enc]
  constructor
  · rintro ⟨⟨⟨h1, h2⟩, h3⟩, h4⟩
    refine ⟨h3, ?_, ?_, ?_⟩
    · rintro rfl
      simpa [slice_iff, and_assoc] using h1
    · rintro rfl
      have h2' := h2
      simp only [Bool.not_true, Bool.false_or, Bool.and_eq_true] at h2'
      exact ⟨(multi_iff t).1 h2'.1, (nested_iff t).1 h2'.2⟩
    · rintro k v rfl
      cases kv with
      | none => cases h4
      | some kv =>
        simp only [Bool.and_eq_true, fits_enc, fits_key] at h4
        exact ⟨h4.1.1, _, _, rfl, h4.1.2, h4.2⟩
  · rintro ⟨h3, h1, h2, h4⟩
    refine ⟨⟨⟨?_, ?_⟩, h3⟩, ?_⟩
    · cases packed with
      | false => rfl
      | true =>
        have := h1 rfl
        simpa [slice_iff, and_assoc] using this
    · cases rep with
      | false => rfl
      | true =>
        have := h2 rfl
        simp only [Bool.not_true, Bool.false_or, Bool.and_eq_true]
        exact ⟨(multi_iff t).2 this.1, (nested_iff t).2 this.2⟩
    · cases t with
      | map k v =>
        obtain ⟨hr, K, V, rfl, hk, hv⟩ := h4 k v rfl
        simp only [Bool.and_eq_true, fits_enc, fits_key]
        exact ⟨⟨hr, hk⟩, hv⟩
      | _ => rfl

/-- A field is accepted exactly if it is well declared. -/
theorem field_iff (gf : GoField) (i : Nat) (o : Option Nat) (n : Nat) :
    (∃ f, parseField gf i o = .ok f ∧ f.id.toNat = n) ↔ ∃ ws T, GoodField gf n ws T := by
  constructor
  · rintro ⟨f, hf, hn⟩
    unfold parseField at hf
    obtain ⟨⟨p, T⟩, hp, hf⟩ := bindOk hf
    obtain ⟨kv, hkv, hf⟩ := bindOk hf
    split at hf
    · rename_i hc
      rw [Bool.and_eq_true, check_iff, parseOk_iff] at hc
      obtain ⟨hc0, hc1, hc2, hc3, hc4⟩ := hc
      obtain ⟨ws, hws⟩ := C34_words gf.tag
      obtain ⟨h1, h2, h3, h4, h5, h6, h7⟩ := (C34_exact hws p T).1 hp
      have hid : p.id.toNat = n := by
        rw [← hn]
        cases hf
        unfold mkField
        dsimp only
        split <;> rfl
      refine ⟨ws, T, hws, h1, h2, ?_, hc0, hc1, fun h => ?_, fun h => hc3 (h5.2 h), ?_⟩
      · rcases h4 with h4 | ⟨h4, e⟩
        · exact .inl (hid ▸ h4)
        · exact .inr ⟨h4, by rw [← hid, e]; rfl⟩
      · obtain ⟨a, b, c⟩ := hc2 (h6.2 h)
        exact ⟨h5.1 a, b, c⟩
      · intro k v hkv'
        obtain ⟨hr, K, V, hKV, ⟨k', hk1, hk2⟩, v', hv1, hv2⟩ := hc4 k v hkv'
        rw [hKV] at hkv
        unfold kvTags at hkv
        rw [hkv'] at hkv
        obtain ⟨K', hK', hkv⟩ := bindOk hkv
        obtain ⟨V', hV', hkv⟩ := bindOk hkv
        cases hkv
        exact ⟨h5.1 hr, ⟨K, k', (entryEnc_iff _ _).1 hK', hk1, hk2⟩, V, v', (entryEnc_iff _ _).1 hV', hv1, hv2⟩
    · cases hf
  · rintro ⟨ws, T, h⟩
    classical
    have hn32 : n < 2 ^ 32 := by
      rcases h.number with ⟨a, w, b, rfl, hd, _⟩ | ⟨_, rfl⟩
      · exact (h.clean w (by simp)).2 n hd
      · decide
    let p : TagInfo := ⟨BitVec.ofNat 32 n, some T, decide ("req".toList ∈ ws), decide ("rep".toList ∈ ws), decide ("packed".toList ∈ ws)⟩
    have hid : (BitVec.ofNat 32 n).toNat = n := by rw [BitVec.toNat_ofNat, Nat.mod_eq_of_lt hn32]
    have hp : parseStructTag gf.tag = .ok (p, T) := by
      refine (C34_exact h.words p T).2 ⟨h.clean, h.enc, rfl, ?_, by simp [p], by simp [p], by simp [p]⟩
      rcases h.number with h4 | ⟨h4, e⟩
      · exact .inl (by show LastOf IsDecimal ws (BitVec.ofNat 32 n).toNat; rw [hid]; exact h4)
      · exact .inr ⟨h4, by rw [show p.id = BitVec.ofNat 32 n from rfl, e]⟩
    have key : ∀ kv, kvTags gf = .ok kv → (∀ k v, gf.type = .map k v → "rep".toList ∈ ws ∧ ∃ K V, kv = some (K, V) ∧
        (∃ k', Core k k' ∧ KeyEnc K k') ∧ ∃ v', Core v v' ∧ Enc V v') → ∃ f, parseField gf i o = .ok f ∧ f.id.toNat = n := by
      intro kv hkv hm
      have hc : checkTypeMatch gf.type T p.repeated p.packed kv = true := by
        refine check_iff.2 ⟨h.fits, ?_, ?_, ?_⟩
        · simp only [p, decide_eq_true_eq]; exact h.packed
        · simp only [p, decide_eq_true_eq]; exact h.rep
        · simp only [p, decide_eq_true_eq]; exact hm
      refine ⟨mkField gf.type i o p T kv, ?_, ?_⟩
      · unfold parseField
        rw [hp, hkv]
        simp only [bind, Except.bind, hc, (parseOk_iff _).2 h.pointers, Bool.and_self, if_true]
      · rw [← hid]
        unfold mkField
        dsimp only
        split <;> rfl
    cases hty : gf.type with
    | map k v =>
      obtain ⟨hr, ⟨K, k', hK, hk⟩, V, v', hV, hv⟩ := h.map k v hty
      refine key (some (K, V)) ?_ ?_
      · unfold kvTags
        rw [hty]
        dsimp only
        rw [(entryEnc_iff _ _).2 hK, (entryEnc_iff _ _).2 hV]
        rfl
      · intro k1 v1 e
        rw [hty] at e; cases e
        exact ⟨hr, K, V, rfl, ⟨k', hk⟩, v', hv⟩
    | _ => exact key none (by unfold kvTags; rw [hty]) (fun k v e => by rw [hty] at e; cases e)

end Verif.Props.Fits

namespace Verif.Props
open Verif.Spec Verif.Model Verif.Lemmas Fits

/-- **C35, C28, C34**, exactly: a struct type is accepted if and only if it is a `GoodStruct`. -/
theorem C35_exact (s : StructDecl) : (∃ d, parseStruct s = .ok d) ↔ GoodStruct s := by
  have at_of : ∀ q f, Declared s q f → NumberAt s q f.id.toNat := by
    intro q f h
    cases h with
    | plain i gf _ h1 h2 h3 =>
      obtain ⟨ws, T, h⟩ := (field_iff gf i none f.id.toNat).1 ⟨f, h3, rfl⟩
      exact .plain i gf _ ws T h1 h2 h
    | member j w i gf _ h1 h2 h3 h4 h5 h6 =>
      obtain ⟨ws, T, h⟩ := (field_iff gf i _ f.id.toNat).1 ⟨f, h6, rfl⟩
      exact .member j w i gf _ ws T h1 h2 h3 h5 h
  have of_at : ∀ q n, NumberAt s q n → ∃ f, Declared s q f ∧ f.id.toNat = n := by
    intro q n h
    cases h with
    | plain i gf _ ws T h1 h2 h3 =>
      obtain ⟨f, hf, hn⟩ := (field_iff gf i none n).2 ⟨ws, T, h3⟩
      exact ⟨f, .plain i gf f h1 h2 hf, hn⟩
    | member j w i gf _ ws T h1 h2 h3 h4 h5 =>
      have hm : ∃ i0, (IsOneofSlot s i0 ∧ i0 ∈ w.implements) ∧ ∀ i', i' < i0 → IsOneofSlot s i' → i' ∉ w.implements := by
        classical
        have : ∀ k, (∃ i0, i0 ≤ k ∧ IsOneofSlot s i0 ∧ i0 ∈ w.implements) →
            ∃ i0, (IsOneofSlot s i0 ∧ i0 ∈ w.implements) ∧ ∀ i', i' < i0 → IsOneofSlot s i' → i' ∉ w.implements := by
          intro k
          induction k with
          | zero =>
            rintro ⟨i0, hle, h⟩
            exact ⟨i0, h, fun i' hi' => by omega⟩
          | succ k ih =>
            rintro ⟨i0, hle, h⟩
            by_cases hx : ∃ i', i' < i0 ∧ IsOneofSlot s i' ∧ i' ∈ w.implements
            · obtain ⟨i', a, b⟩ := hx
              exact ih ⟨i', by omega, b⟩
            · exact ⟨i0, h, fun i' a b c => hx ⟨i', a, b, c⟩⟩
        exact this i ⟨i, Nat.le_refl _, h2, h3⟩
      obtain ⟨i0, ⟨a, b⟩, c⟩ := hm
      obtain ⟨f, hf, hn⟩ := (field_iff gf i0 (some w.id) n).2 ⟨ws, T, h5⟩
      exact ⟨f, .member j w i0 gf f h1 a b c h4 hf, hn⟩
  have int_iff : ∀ x : BitVec 32, 0 ≤ x.toInt ↔ x.toNat < 2 ^ 31 := by
    intro x
    rw [BitVec.toInt_eq_toNat_cond]
    have := x.isLt
    split <;> omega
  rw [C28_accepted]
  constructor
  · rintro ⟨h1, h2, h3, h4⟩
    refine ⟨fun i gf hi ht => ?_, fun j w hj he => ?_, fun q n hq => ?_, fun q q' n hq hq' => ?_⟩
    · obtain ⟨f, hf⟩ := h1 i gf hi ht
      exact ⟨_, at_of _ _ hf⟩
    · obtain ⟨f, hf⟩ := h2 j w hj he
      exact ⟨_, at_of _ _ hf⟩
    · obtain ⟨f, hf, hn⟩ := of_at q n hq
      rw [← hn]; exact (int_iff _).1 (h3 q f hf)
    · obtain ⟨f, hf, hn⟩ := of_at q n hq
      obtain ⟨g, hg, hn'⟩ := of_at q' n hq'
      exact h4 q q' f g hf hg (BitVec.eq_of_toNat_eq (by rw [hn, hn']))
  · rintro ⟨h1, h2, h3, h4⟩
    refine ⟨fun i gf hi ht => ?_, fun j w hj he => ?_, fun q f hq => ?_, fun q q' f g hq hq' e => ?_⟩
    · obtain ⟨n, hn⟩ := h1 i gf hi ht
      obtain ⟨f, hf, _⟩ := of_at _ _ hn
      exact ⟨f, hf⟩
    · obtain ⟨n, hn⟩ := h2 j w hj he
      obtain ⟨f, hf, _⟩ := of_at _ _ hn
      exact ⟨f, hf⟩
    · exact (int_iff _).2 (h3 q _ (at_of q f hq))
    · exact h4 q q' _ (at_of q f hq) (e ▸ at_of q' g hq')

/-- A set of types is accepted exactly if each of them is good. -/
theorem C35_exact_all (env : GoEnv) : (∃ D, parseDescs env = .ok D) ↔ ∀ s ∈ env.structs, GoodStruct s := by
  have : ∀ L : List StructDecl, (∃ r, L.mapM parseStruct = .ok r) ↔ ∀ s ∈ L, ∃ d, parseStruct s = .ok d := by
    intro L
    induction L with
    | nil => exact ⟨fun _ _ h => (by cases h), fun _ => ⟨[], rfl⟩⟩
    | cons s L ih =>
      rw [List.mapM_cons]
      constructor
      · rintro ⟨r, hr⟩
        obtain ⟨d, hd, hr⟩ := bindOk hr
        obtain ⟨ds, hds, hr⟩ := bindOk hr
        intro x hx
        cases hx with
        | head => exact ⟨d, hd⟩
        | tail _ hx => exact ih.1 ⟨ds, hds⟩ x hx
      · intro h
        obtain ⟨d, hd⟩ := h s (by simp)
        obtain ⟨ds, hds⟩ := ih.2 (fun x hx => h x (by simp [hx]))
        exact ⟨d :: ds, by rw [hd, hds]; rfl⟩
  constructor
  · rintro ⟨D, h⟩
    unfold parseDescs at h
    obtain ⟨ds, hds, _⟩ := bindOk h
    exact fun s hs => (C35_exact s).1 ((this _).1 ⟨ds, hds⟩ s hs)
  · intro h
    obtain ⟨ds, hds⟩ := (this env.structs).2 (fun s hs => (C35_exact s).2 (h s hs))
    exact ⟨_, by unfold parseDescs; rw [hds]; rfl⟩

/-- The type of the other examples, which has all kinds of fields and a oneof, is good; the one with a clash of numbers is not. -/
example : GoodStruct sampleDecl ∧ ¬ GoodStruct clashDecl := by
  refine ⟨(C35_exact _).1 ⟨_, rfl⟩, fun h => ?_⟩
  obtain ⟨d, hd⟩ := (C35_exact _).2 h
  have : (parseStruct clashDecl).toOption.isNone = true := rfl
  rw [hd] at this
  cases this

end Verif.Props
