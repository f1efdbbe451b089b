import Verif.Lemmas.Fresh
import Verif.Lemmas.SlowMap
import Verif.Lemmas.Round
import Verif.Lemmas.DecRefine
import Verif.Props.Sample
/-!
# Properties of message types: lookup, duplicates, and the field cache of the decoder
-/
namespace Verif.Props
open Verif.Spec Verif.Model Verif.Lemmas

/-- **C27.**  Looking up a number gives the declaration (of a plain field or a oneof member) with that number. -/
theorem C27_lookup {s : StructDecl} {d : StructDesc} (h : parseStruct s = .ok d) (n : Nat) (f : FieldDesc) :
    d.getField n = some f ↔ (∃ q, Declared s q f) ∧ f.id.toInt = (n : Int) := by
  obtain ⟨h1, h2, h3, h4, h5⟩ := parseStruct_facts h
  rw [h5]
  constructor
  · intro hf
    exact ⟨(h1 f).1 (List.mem_of_find?_eq_some hf), by simpa using List.find?_some hf⟩
  · rintro ⟨hq, hn⟩
    have hm := (h1 f).2 hq
    cases hg : d.fields.find? (fun f => f.id.toInt == (n : Int)) with
    | none =>
      have := List.find?_eq_none.1 hg f hm
      simp [hn] at this
    | some g =>
      have e1 : g.id.toInt = (n : Int) := by simpa using List.find?_some hg
      obtain ⟨q', hq'⟩ := (h1 g).1 (List.mem_of_find?_eq_some hg)
      obtain ⟨q, hq⟩ := hq
      have e : f.id = g.id := BitVec.eq_of_toInt_eq (by rw [hn, e1])
      have := h4 q q' f g hq hq' e
      subst this
      cases hq with
      | plain i gf _ a1 a2 a3 =>
        cases hq' with
        | plain _ gf' _ b1 b2 b3 => rw [a1] at b1; cases b1; rw [a3] at b3; cases b3; rfl
      | member j w i gf _ a1 a2 a3 a4 a5 a6 =>
        cases hq' with
        | member _ w' i' gf' _ b1 b2 b3 b4 b5 b6 =>
          rw [a1] at b1; cases b1
          rw [a5] at b5; cases b5
          have : i = i' := by
            rcases Nat.lt_trichotomy i i' with h | h | h
            · exact absurd a3 (b4 i h a2)
            · exact h
            · exact absurd b3 (a4 i' h b2)
          subst this
          rw [a6] at b6; cases b6; rfl

/-- **C27.**  Looking up a number that no declaration has gives nothing. -/
theorem C27_absent {s : StructDecl} {d : StructDesc} (h : parseStruct s = .ok d) (n : Nat) :
    d.getField n = none ↔ ∀ q f, Declared s q f → f.id.toInt ≠ (n : Int) := by
  constructor
  · intro hn q f hq e
    rw [(C27_lookup h n f).2 ⟨⟨q, hq⟩, e⟩] at hn
    cases hn
  · intro hn
    cases hg : d.getField n with
    | none => rfl
    | some f =>
      obtain ⟨⟨q, hq⟩, e⟩ := (C27_lookup h n f).1 hg
      exact absurd e (hn q f hq)

/-- The sample type: fields by number, a sparse number, a oneof member, a number that is not declared. -/
def sampleDecl : StructDecl := Sample.env.structs.headD default

example : (parseStruct sampleDecl).toOption.map (fun d => ((d.getField 1).map (·.slot), (d.getField 2000).map (·.slot),
    (d.getField 7).map (fun f => (f.slot, f.oneof)), (d.getField 12).isNone, (d.getField 70000).isNone))
    = some (some 0, some 8, some (5, some 101), true, true) := rfl

/-- **C28.**  The descriptor of an accepted type holds every declaration, once, in ascending order of number; no
two declarations have the same number. -/
theorem C28_fields {s : StructDecl} {d : StructDesc} (h : parseStruct s = .ok d) :
    (∀ f, f ∈ d.fields ↔ ∃ q, Declared s q f) ∧ d.fields.Pairwise (fun a b => a.id.toInt < b.id.toInt) ∧
    ∀ q q' f g, Declared s q f → Declared s q' g → f.id = g.id → q = q' :=
  let ⟨h1, h2, _, h4, _⟩ := parseStruct_facts h
  ⟨h1, h2, h4⟩

theorem parseFields_of_declared {s : StructDecl} : ∀ (gfs pre : List GoField), s.fields = pre ++ gfs →
    (∀ i gf, s.fields[i]? = some gf → gf.tag ≠ [] → ∃ f, Declared s (.inl i) f) → ∃ L, parseFields pre.length gfs = .ok L
  | [], _, _, _ => ⟨[], rfl⟩
  | gf :: gfs, pre, hd, h => by
    have hgf : s.fields[pre.length]? = some gf := by rw [hd]; simp
    obtain ⟨L, hL⟩ := parseFields_of_declared (s := s) gfs (pre ++ [gf]) (by simp [hd]) h
    rw [List.length_append, List.length_singleton] at hL
    simp only [parseFields]
    split
    · exact ⟨L, hL⟩
    · rename_i ht
      obtain ⟨f, hf⟩ := h _ _ hgf ht
      cases hf with
      | plain _ gf' _ a1 a2 a3 =>
        rw [hgf] at a1; cases a1
        exact ⟨f :: L, by rw [a3, hL]; rfl⟩

theorem parseField_tag {gf : GoField} {i : Nat} {o : Option Nat} {f : FieldDesc} (h : parseField gf i o = .ok f) :
    gf.tag ≠ [] := by
  intro e
  unfold parseField at h
  rw [e] at h
  cases h

theorem parseWrappers_of_declared {s : StructDecl} : ∀ (ws pre : List Wrapper), s.wrappers = pre ++ ws →
    (∀ j w, s.wrappers[j]? = some w → (∃ i, IsOneofSlot s i ∧ i ∈ w.implements) → ∃ f, Declared s (.inr j) f) →
    ∃ L, parseWrappers (oneofSlots 0 s.fields) ws = .ok L
  | [], _, _, _ => ⟨[], rfl⟩
  | w :: ws, pre, hd, h => by
    have hw : s.wrappers[pre.length]? = some w := by rw [hd]; simp
    obtain ⟨L, hL⟩ := parseWrappers_of_declared (s := s) ws (pre ++ [w]) (by simp [hd]) h
    simp only [parseWrappers]
    split
    · exact ⟨L, hL⟩
    · rename_i i hi
      obtain ⟨b1, b2, b3⟩ := (find_slot_iff s w i).1 hi
      obtain ⟨f, hf⟩ := h _ _ hw ⟨i, b1, b2⟩
      cases hf with
      | member _ w' i' gf _ a1 a2 a3 a4 a5 a6 =>
        rw [hw] at a1; cases a1
        have := (find_slot_iff s w i').2 ⟨a2, a3, a4⟩
        rw [hi] at this; cases this
        rw [a5]
        simp only
        rw [if_neg (parseField_tag a6), a6, hL]
        exact ⟨_, rfl⟩

theorem parseFields_good {s : StructDecl} : ∀ (gfs pre : List GoField) (L : List FieldDesc), s.fields = pre ++ gfs →
    parseFields pre.length gfs = .ok L → ∀ i gf, s.fields[i]? = some gf → gf.tag ≠ [] → pre.length ≤ i →
    ∃ f, Declared s (.inl i) f
  | [], pre, L, hd, h, i, gf, hi, ht, hle => by
    rw [hd, List.append_nil, List.getElem?_eq_none hle] at hi
    cases hi
  | gf :: gfs, pre, L, hd, h, i, gf', hi, ht, hle => by
    have hgf : s.fields[pre.length]? = some gf := by rw [hd]; simp
    have rest : ∀ L', parseFields (pre.length + 1) gfs = .ok L' → pre.length + 1 ≤ i → ∃ f, Declared s (.inl i) f :=
      fun L' hL' hlt => parseFields_good (s := s) gfs (pre ++ [gf]) L' (by simp [hd]) (by simpa using hL') i gf' hi ht (by simpa using hlt)
    simp only [parseFields] at h
    split at h
    · rename_i ht'
      rcases Nat.lt_or_ge pre.length i with hlt | hge
      · exact rest L h hlt
      · have : i = pre.length := by omega
        subst this
        rw [hgf] at hi; cases hi
        exact absurd ht' ht
    · obtain ⟨f, hf, h⟩ := bindOk h
      obtain ⟨L', hL', h⟩ := bindOk h
      rcases Nat.lt_or_ge pre.length i with hlt | hge
      · exact rest L' hL' hlt
      · have : i = pre.length := by omega
        subst this
        rw [hgf] at hi; cases hi
        exact ⟨f, .plain _ _ _ hgf ht hf⟩

theorem parseWrappers_good {s : StructDecl} : ∀ (ws pre : List Wrapper) (L : List FieldDesc), s.wrappers = pre ++ ws →
    parseWrappers (oneofSlots 0 s.fields) ws = .ok L → ∀ j w, s.wrappers[j]? = some w →
    (∃ i, IsOneofSlot s i ∧ i ∈ w.implements) → pre.length ≤ j → ∃ f, Declared s (.inr j) f
  | [], pre, L, hd, h, j, w, hj, hex, hle => by
    rw [hd, List.append_nil, List.getElem?_eq_none hle] at hj
    cases hj
  | w :: ws, pre, L, hd, h, j, w', hj, hex, hle => by
    have hw : s.wrappers[pre.length]? = some w := by rw [hd]; simp
    have rest : ∀ L', parseWrappers (oneofSlots 0 s.fields) ws = .ok L' → pre.length + 1 ≤ j → ∃ f, Declared s (.inr j) f :=
      fun L' hL' hlt => parseWrappers_good (s := s) ws (pre ++ [w]) L' (by simp [hd]) hL' j w' hj hex (by simpa using hlt)
    simp only [parseWrappers] at h
    split at h
    · rename_i hnone
      rcases Nat.lt_or_ge pre.length j with hlt | hge
      · exact rest L h hlt
      · have : j = pre.length := by omega
        subst this
        rw [hw] at hj; cases hj
        obtain ⟨i, hi, hm⟩ := hex
        have := List.find?_eq_none.1 hnone i ((oneofSlots_iff s i).2 hi)
        simp [hm] at this
    · rename_i i hi
      split at h
      · rename_i gf hgf
        split at h
        · cases h
        · obtain ⟨f, hf, h⟩ := bindOk h
          obtain ⟨L', hL', h⟩ := bindOk h
          rcases Nat.lt_or_ge pre.length j with hlt | hge
          · exact rest L' hL' hlt
          · have : j = pre.length := by omega
            subst this
            rw [hw] at hj; cases hj
            obtain ⟨b1, b2, b3⟩ := (find_slot_iff s w i).1 hi
            exact ⟨f, .member _ _ _ _ _ hw b1 b2 b3 hgf hf⟩
      · cases h

/-- **C28.**  A struct type is accepted exactly if each tagged field and each oneof member has a good declaration, no
number is negative, and no two declarations have the same number. -/
theorem C28_accepted (s : StructDecl) : (∃ d, parseStruct s = .ok d) ↔
    (∀ i gf, s.fields[i]? = some gf → gf.tag ≠ [] → ∃ f, Declared s (.inl i) f) ∧
    (∀ j w, s.wrappers[j]? = some w → (∃ i, IsOneofSlot s i ∧ i ∈ w.implements) → ∃ f, Declared s (.inr j) f) ∧
    (∀ q f, Declared s q f → 0 ≤ f.id.toInt) ∧
    (∀ q q' f g, Declared s q f → Declared s q' g → f.id = g.id → q = q') := by
  constructor
  · rintro ⟨d, h⟩
    obtain ⟨h1, h2, h3, h4, h5⟩ := parseStruct_facts h
    refine ⟨?_, ?_, fun q f hq => h3 f ((h1 f).2 ⟨q, hq⟩), h4⟩
    · unfold parseStruct at h
      obtain ⟨fs, hfs, h⟩ := bindOk h
      exact fun i gf hi ht => parseFields_good _ [] fs rfl hfs i gf hi ht (Nat.zero_le _)
    · unfold parseStruct at h
      obtain ⟨fs, hfs, h⟩ := bindOk h
      dsimp only at h
      obtain ⟨ws, hws, h⟩ := iteBindOk h
      intro j w hj hex
      split at hws
      · rename_i hno
        obtain ⟨i, hi, _⟩ := hex
        have := (oneofSlots_iff s i).2 hi
        rw [hno] at this; cases this
      · exact parseWrappers_good _ [] ws rfl hws j w hj hex (Nat.zero_le _)
  · rintro ⟨h1, h2, h3, h4⟩
    obtain ⟨fs, hfs⟩ := parseFields_of_declared s.fields [] rfl h1
    obtain ⟨ws, hws⟩ := parseWrappers_of_declared s.wrappers [] rfl h2
    by_cases hno : oneofSlots 0 s.fields = []
    · exact parseStruct_complete (ws := []) hfs (by rw [if_pos hno]; rfl) h3 h4
    · exact parseStruct_complete (ws := ws) hfs (by rw [if_neg hno]; exact hws) h3 h4

/-- Two fields with the same number: no descriptor. -/
theorem C28_duplicate {s : StructDecl} {q q' : Nat ⊕ Nat} {f g : FieldDesc} (hf : Declared s q f)
    (hg : Declared s q' g) (hne : q ≠ q') (hid : f.id = g.id) : ∃ e, parseStruct s = .error e := by
  cases h : parseStruct s with
  | error e => exact ⟨e, rfl⟩
  | ok d => exact absurd ((C28_fields h).2.2 q q' f g hf hg hid) hne

example : (parseStruct sampleDecl).toOption.map (fun d => d.fields.map (fun f => f.id.toInt))
    = some [1, 2, 3, 4, 5, 6, 7, 8, 9, 10, 11, 2000] := rfl

/-- A oneof member with the number of a plain field is found, too. -/
def clashDecl : StructDecl where
  fields := [{ name := "A".toList, type := .int32, tag := "varint,6,opt,name=a".toList },
    { name := "F".toList, type := .iface, oneofTag := "f".toList }]
  wrappers := [{ id := 100, implements := [1], fields := [{ name := "F1".toList, type := .string, tag := "bytes,6,opt,name=f1,oneof".toList }] }]
  size := 24

example : ∃ f g, Declared clashDecl (.inl 0) f ∧ Declared clashDecl (.inr 0) g ∧ f.id = g.id :=
  ⟨_, _, .plain 0 _ _ rfl (by decide) rfl, .member 0 _ 1 _ _ rfl ⟨_, rfl, rfl, by decide⟩ (by decide)
    (fun i' h ⟨_, h1, h2, h3⟩ => by
      match i' with
      | 0 => cases h1; exact absurd rfl h3
      | i + 1 => omega) rfl rfl, rfl⟩
example : (parseStruct clashDecl).toOption.isNone = true := rfl

/-- **C30.**  The one-entry field cache of the decoder cannot be observed. -/
theorem C30_cache (env : GoEnv) (bs : Bytes) (a : Arg) : unmarshal env bs a = unmarshalFresh env bs a := by
  cases a with
  | ptr sid v =>
    simp only [unmarshal, unmarshalFresh]
    cases hD : parseDescs env with
    | error e => rfl
    | ok D =>
      cases v with
      | none => rfl
      | some v => exact struct_fresh hD _ _ _ _ _
  | _ => rfl

/-- The cache is used: two records of the same field one after the other, then another field. -/
example : unmarshal Sample.env [0x08, 0x01, 0x08, 0x02, 0x12, 0x01, 0x61, 0x12, 0x01, 0x62] (.ptr 0 (some (.struct Sample.msgZero)))
    = .ok (.struct ((Sample.msgZero.set 0 (.w32 2#32)).set 1 (.ptr (some (.str [0x62#8]))))) := rfl

/-! ## specialised map functions -/

/-- **C29.**  `MarshalAppend` returns the same with the generic code for every map (any types, any values). -/
theorem C29_marshal (env : GoEnv) (b : Bytes) (a : Arg) : marshalAppend env b a = marshalAppendSlow env b a := by
  cases a with
  | ptr sid v =>
    simp only [marshalAppend, marshalAppendSlow]
    cases hD : parseDescs env with
    | error e => simp only [bind, Except.bind]
    | ok D =>
      simp only [bind, Except.bind]
      rw [appendStruct_slow (parseDescs_mapOK hD)]
  | _ => rfl

/-- **C29.**  `Size` returns the same with the generic code for every map. -/
theorem C29_size (env : GoEnv) (a : Arg) : size env a = sizeSlow env a := by
  cases a with
  | ptr sid v =>
    cases v with
    | none => rfl
    | some v =>
      simp only [size, sizeSlow]
      cases hD : parseDescs env with
      | error e => simp only [bind, Except.bind]
      | ok D =>
        simp only [bind, Except.bind]
        rw [sizeStruct_slow (parseDescs_mapOK hD)]
  | ptrOther n => cases n <;> rfl
  | _ => rfl

/-- A value with a map that has specialised functions. -/
example : marshalAppendSlow Sample.env [7] (.ptr 0 (some (.struct (Sample.msgZero.set 8 (.map (some [(.w32 5#32, .bool true)]))))))
    = .ok [7, 0x82, 0x7d, 0x04, 0x08, 0x05, 0x10, 0x01] ∧
    sizeSlow Sample.env (.ptr 0 (some (.struct (Sample.msgZero.set 8 (.map (some [(.w32 5#32, .bool true)])))))) = .ok 7 := ⟨rfl, rfl⟩

/-- The generic decoder on a record of a map field. -/
theorem slow_reads {n sl : Nat} {m : Option Nat} {k v : Scalar} (hk : k.isKey = true) (D : Descs) (rec : DecRec) (typ : WType)
    (b : Bytes) (cur : Val) (d : Int) :
    Reads (decodePtr D rec (slowField (descOf ⟨n, sl, m, .map k v⟩)) typ b cur d) b (fun v' y => typ = WireType.len.code ∧
      ∃ kb vb rest mm kk z, IsLen v' (tag 1 k.wire ++ kb ++ (tag 2 v.wire ++ vb) ++ rest) ∧ cur = .map mm ∧
        ScalarDec false k kb (Key.toVal kk) ∧ ScalarDec false v vb z ∧ y = .map (some (putEntry (mm.getD []) kk z))) := by
  have h : decodePtr D rec (slowField (descOf ⟨n, sl, m, .map k v⟩)) typ b cur d
      = lenThen typ b (fun fb => decodeMapPair D rec (slowField (descOf ⟨n, sl, m, .map k v⟩)) k.goType v.goType fb cur (d - 1)) := by
    have h : decodePtr D rec (slowField (descOf ⟨n, sl, m, .map k v⟩)) typ b cur d
        = decodeValueAt D rec (slowField (descOf ⟨n, sl, m, .map k v⟩)) (.map k.goType v.goType) typ b cur d := by
      rw [descOf_map]; rfl
    rw [h, valueAt_len _ _ _ (by rw [descOf_map]; rfl)]
    congr 1
  rw [h]
  refine (lenThen_reads typ b _).congr (fun v' y => ?_)
  have hR := fun typ b => mapScalar_reads (D := D) (rec := rec) (f := slowField (descOf ⟨n, sl, m, .map k v⟩)) (s := v)
    (by rw [descOf_map]; rfl) typ b (d - 1)
  have hP := fun p y => mapPair_ok (f := slowField (descOf ⟨n, sl, m, .map k v⟩)) (by rw [descOf_map]; rfl) hk p (fun typ b' _ => hR typ b') cur y
  constructor
  · rintro ⟨h1, p, h2, h3⟩
    obtain ⟨kb, vb, rest, mm, kk, z, rfl, h4⟩ := (hP p y).1 h3
    exact ⟨h1, kb, vb, rest, mm, kk, z, h2, h4⟩
  · rintro ⟨h1, kb, vb, rest, mm, kk, z, h2, h4⟩
    exact ⟨h1, _, h2, (hP _ y).2 ⟨kb, vb, rest, mm, kk, z, rfl, h4⟩⟩

/-- The decoder on a record of a map field. -/
theorem fast_reads {n sl : Nat} {m : Option Nat} {k v : Scalar} (hk : k.isKey = true) (D : Descs) (rec : DecRec) (typ : WType)
    (b : Bytes) (cur : Val) (d : Int) :
    Reads (decodePtr D rec (descOf ⟨n, sl, m, .map k v⟩) typ b cur d) b (fun v' y => typ = WireType.len.code ∧
      ∃ kb vb rest mm kk z, IsLen v' (tag 1 k.wire ++ kb ++ (tag 2 v.wire ++ vb) ++ rest) ∧ cur = .map mm ∧
        ScalarDec (fastPair k v) k kb (Key.toVal kk) ∧ ScalarDec (fastPair k v) v vb z ∧
        y = .map (some (putEntry (mm.getD []) kk z))) := by
  cases hfast : fastPair k v with
  | false =>
    have h : descOf ⟨n, sl, m, .map k v⟩ = { descOf ⟨n, sl, m, .map k v⟩ with decodeMap := none } := by
      rw [descOf_map]
      have := fastPair_iff (k := k) (v := v)
      rw [hfast] at this
      simp only [this]
      rfl
    have h2 : decodePtr D rec (descOf ⟨n, sl, m, .map k v⟩) typ b cur d
        = decodePtr D rec (slowField (descOf ⟨n, sl, m, .map k v⟩)) typ b cur d := by
      rw [h]; rfl
    rw [h2]
    exact slow_reads hk D rec typ b cur d
  | true =>
    rw [ptr_map]
    simp only [hfast, if_true]
    refine (lenThen_reads typ b _).congr (fun v' y => ?_)
    constructor
    · rintro ⟨h1, p, h2, h3⟩
      obtain ⟨kb, vb, rest, mm, kk, z, rfl, h4⟩ := mapFast_sound h3
      exact ⟨h1, kb, vb, rest, mm, kk, z, h2, h4⟩
    · rintro ⟨h1, kb, vb, rest, mm, kk, z, h2, rfl, g1, g2, rfl⟩
      exact ⟨h1, _, h2, mapFast_complete hfast g1 g2 mm⟩

theorem scalarDec_bool {s : Scalar} (h : s ≠ .bool) (o o' : Bool) (v : Bytes) (y : Val) :
    ScalarDec o s v y ↔ ScalarDec o' s v y := by cases s <;> first | exact absurd rfl h | exact Iff.rfl

theorem field_eta (f : Field) {k v : Scalar} (h : f.shape = .map k v) : f = ⟨f.num, f.slot, f.member, .map k v⟩ := by
  cases f; cases h; rfl

/-- **C29.**  Without booleans, the specialised and the generic decoder of a map field accept the same records - any
bytes, not only Marshal's - and do the same to the map. -/
theorem C29_decode {gf : GoField} {f : Field} {k v : Scalar} (hd : Declares gf f) (hs : f.shape = .map k v)
    (hk : k.isKey = true) (h2 : f.num < 2 ^ 31) {fd : FieldDesc} (hp : parseField gf f.slot f.member = .ok fd)
    (hkb : k ≠ .bool) (hvb : v ≠ .bool) (D : Descs) (rec : DecRec) (typ : WType) (b : Bytes) (cur : Val) (d : Int)
    (y : Val) (n : Nat) :
    decodePtr D rec fd typ b cur d = .ok (y, n) ↔ decodePtr D rec (slowField fd) typ b cur d = .ok (y, n) := by
  rw [parseField_ok hd h2 (by rw [hs]; exact hk)] at hp
  cases hp
  rw [field_eta f hs, fast_reads hk D rec typ b cur d y n, slow_reads hk D rec typ b cur d y n]
  simp only [scalarDec_bool hkb (fastPair k v) false, scalarDec_bool hvb (fastPair k v) false]

/-- **C29.**  On the record Marshal writes for an entry, whatever follows it, both add the entry to the map
(booleans included). -/
theorem C29_decode_entry {gf : GoField} {f : Field} {k v : Scalar} (hd : Declares gf f) (hs : f.shape = .map k v)
    (hk : k.isKey = true) (h2 : f.num < 2 ^ 31) {fd : FieldDesc} (hp : parseField gf f.slot f.member = .ok fd)
    {x : Key} {z : Val} {a c : Bytes} (hx : k.HasKey x) (hz : v.goType.holds z = true) (ha : k.encode x.toVal = some a)
    (hc : v.encode z = some c) (hl : (tag 1 k.wire ++ a ++ (tag 2 v.wire ++ c)).length < 2 ^ 64) (rest : Bytes) (D : Descs)
    (rec : DecRec) (mm : Option (List (Key × Val))) (d : Int) :
    ∃ z', SameScalar z z' ∧ (v ≠ .bytes → z' = z) ∧
      decodePtr D rec fd tBytes (lenDelim (tag 1 k.wire ++ a ++ (tag 2 v.wire ++ c)) ++ rest) (.map mm) d
        = .ok (.map (some (putEntry (mm.getD []) x z')), (lenDelim (tag 1 k.wire ++ a ++ (tag 2 v.wire ++ c))).length) ∧
      decodePtr D rec (slowField fd) tBytes (lenDelim (tag 1 k.wire ++ a ++ (tag 2 v.wire ++ c)) ++ rest) (.map mm) d
        = .ok (.map (some (putEntry (mm.getD []) x z')), (lenDelim (tag 1 k.wire ++ a ++ (tag 2 v.wire ++ c))).length) := by
  rw [parseField_ok hd h2 (by rw [hs]; exact hk)] at hp
  cases hp
  have hla : a.length < 2 ^ 64 := by simp only [List.length_append] at hl; omega
  have hlc : c.length < 2 ^ 64 := by simp only [List.length_append] at hl; omega
  have hkx : k ≠ .bytes := by rintro rfl; cases hk
  have both : ∀ o, ScalarDec o k a x.toVal := fun o => by
    obtain ⟨y, g1, -, g2, -⟩ := scalarDec_encode o hx ha hla
    rw [g2 hkx] at g1; exact g1
  obtain ⟨z', g1, g2, g3, -⟩ := scalarDec_encode false hz hc hlc
  have gz : ∀ o, ScalarDec o v c z' := fun o => by
    by_cases hvb : v = .bool
    · obtain ⟨y, q1, -, q2, -⟩ := scalarDec_encode o hz hc hlc
      rw [q2 (by rw [hvb]; decide)] at q1
      rw [g3 (by rw [hvb]; decide)]; exact q1
    · exact (scalarDec_bool hvb _ _ _ _).1 g1
  refine ⟨z', g2, g3, ?_, ?_⟩
  · rw [field_eta f hs]
    exact (fast_reads hk D rec _ _ _ d _ _).2 ⟨_, rest, rfl, rfl, rfl, a, c, [], mm, x, z',
      by simpa using isLen_lenDelim hl, rfl, both _, gz _, rfl⟩
  · rw [field_eta f hs]
    exact (slow_reads hk D rec _ _ _ d _ _).2 ⟨_, rest, rfl, rfl, rfl, a, c, [], mm, x, z',
      by simpa using isLen_lenDelim hl, rfl, both _, gz _, rfl⟩

/-- The hypotheses hold for field `I map[int32]bool` of the sample type. -/
example : ∃ gf, sampleDecl.fields[8]? = some gf ∧ Declares gf ⟨2000, 8, none, .map .int32 .bool⟩ :=
  (Sample.env_implements 0).plain ⟨2000, 8, none, .map .int32 .bool⟩ (List.mem_of_getElem? (i := 11) rfl) rfl

/-- On booleans that Marshal does not write, the two differ (see C25). -/
theorem C29_bool_violated : ∃ (b : Bytes) (D : Descs) (rec : DecRec) (gf : GoField) (fd : FieldDesc), sampleDecl.fields[8]? = some gf ∧
    parseField gf 8 none = .ok fd ∧ decodePtr D rec fd tBytes b (.map none) 5 = .ok (.map (some [(.w32 1, .bool true)]), 5) ∧
    decodePtr D rec (slowField fd) tBytes b (.map none) 5 = .ok (.map (some [(.w32 1, .bool false)]), 5) :=
  ⟨[4, 0x08, 1, 0x10, 2], fun _ => default, fun _ _ _ _ => .error .panic, _, _, rfl, rfl, rfl, rfl⟩

end Verif.Props
