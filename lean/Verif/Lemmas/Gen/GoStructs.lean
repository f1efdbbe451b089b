import Verif.Lemmas.Gen.GoTypes
/-!
# Lemmas: the struct types of generated files
-/
namespace Verif.Props.Gen
open Verif.Spec Verif.Spec.Gen Verif.Model Verif.Model.Gen

section
variable {W : World} {o : GenOptions} {imps : Nat → List (Str × Str)} {declared : Str → Str} {p : Nat} {c : Chain}

/-! ## The types of fields -/

theorem name_safe (hn : ∀ f, NamedFile (W.file f)) (hF : AllFound W) {f : FieldDecl} (ha : Around (W.file p).messages c) (hf : f ∈ c.msg.fields) :
    SafeExpr W p (typeGoName W p (fieldType W p c f)) := by
  have he := fieldType_eq hF ha hf
  cases ht : fieldType W p c f with
  | scalar g =>
    rw [ht] at he
    exact resolve_basic he
  | decl r q =>
    rw [ht] at he
    refine ⟨type_named (hn r.file) (resolve_found ha he), fun hne => ?_⟩
    cases q with
    | none => exact absurd rfl hne
    | some x =>
      obtain ⟨_, i, hi, rfl⟩ := external ht
      exact ⟨i, hi, rfl⟩

theorem elem_safe {t : Resolved} {b : Bool} (h : SafeExpr W p (typeGoName W p t)) : SafeExpr W p (elemTypeName W p t b) := by
  unfold elemTypeName
  split <;> exact h

theorem key_safe {k : Str} (h : (["int32", "int64", "uint32", "uint64", "sint32", "sint64", "fixed32", "fixed64", "sfixed32", "sfixed64", "bool",
    "string"].map String.toList).contains k = true) : SafeExpr W p (keyGoName k) := by
  have key : ∀ k ∈ ["int32", "int64", "uint32", "uint64", "sint32", "sint64", "fixed32", "fixed64", "sfixed32", "sfixed64", "bool", "string"].map String.toList,
      (scalarTypes.lookup k).isSome = true := by decide +kernel
  obtain ⟨g, hg⟩ := Option.isSome_iff_exists.1 (key k (List.contains_iff_mem.1 h))
  unfold keyGoName
  rw [hg]
  exact List.mem_map.2 ⟨_, lookup_mem hg, rfl⟩

theorem fieldGoType_safe (hn : ∀ f, NamedFile (W.file f)) (hF : AllFound W) {f : FieldDecl} (ha : Around (W.file p).messages c) (hf : f ∈ c.msg.fields) :
    SafeExpr W p (fieldGoType W p c.msg f (fieldType W p c f)) := by
  have ht := name_safe hn hF ha hf
  unfold fieldGoType
  split
  · rename_i k hk
    exact ⟨key_safe (((hn p).messages _ (within_msg ha)).keys f hf k hk), elem_safe ht⟩
  · split
    · exact elem_safe (p := p) ht
    · split <;> exact ht

/-- The fields of a struct: fields of the message, oneofs, and unknown fields. -/
theorem struct_field {f : GenField} (hf : f ∈ (genStruct W p c).fields) : (∃ x ∈ namedFields c.msg, f = fieldGen W p c x.1 x.2) ∨
    (∃ x ∈ namedFields c.msg, ∃ k, x.1.oneof = some k ∧ f = oneofSlot c k) ∨ f = Model.Gen.unknownSlot := by
  rcases List.mem_append.1 hf with h | h
  · rcases (slots_mem W p c f _ _).1 h with ⟨x, hx, _, rfl⟩ | ⟨x, hx, k, hk, _, rfl⟩
    · exact .inl ⟨x, hx, rfl⟩
    · exact .inr (.inl ⟨x, hx, k, hk, rfl⟩)
  · split at h
    · exact .inr (.inr (List.mem_singleton.1 h))
    · cases h

theorem struct_safe (hn : ∀ f, NamedFile (W.file f)) (hF : AllFound W) (ha : Around (W.file p).messages c) {f : GenField} (hf : f ∈ (genStruct W p c).fields) :
    SafeExpr W p f.type := by
  rcases struct_field hf with ⟨x, hx, rfl⟩ | ⟨x, hx, k, hk, rfl⟩ | rfl
  · exact fieldGoType_safe hn hF ha (named_fst_mem hx)
  · exact isName_iface c k
  · show "[]byte".toList ∈ scalarTypes.map Prod.snd
    decide +kernel

theorem wrapperOf_mem {k : Nat} {w : GenWrapper} (h : w ∈ wrappersOf W p c k) : w.method = oneofFieldType c k ∧ ∃ x ∈ namedFields c.msg, w.field = fieldGen W p c x.1 x.2 := by
  obtain ⟨x, hx, rfl⟩ := List.mem_map.1 h
  exact ⟨rfl, x, (List.mem_filter.1 hx).1, rfl⟩

theorem wrapper_safe (hn : ∀ f, NamedFile (W.file f)) (hF : AllFound W) (ha : Around (W.file p).messages c) {k : Nat} {w : GenWrapper} (hw : w ∈ wrappersOf W p c k) :
    SafeExpr W p w.field.type := by
  obtain ⟨_, x, hx, e⟩ := wrapperOf_mem hw
  rw [e]
  exact fieldGoType_safe hn hF ha (named_fst_mem hx)

theorem genWrappers_mem {w : GenWrapper} : w ∈ (genStruct W p c).wrappers ↔ ∃ k, k < c.msg.oneofs.length ∧ w ∈ wrappersOf W p c k := by
  show w ∈ (List.range c.msg.oneofs.length).flatMap (wrappersOf W p c) ↔ _
  rw [List.mem_flatMap]
  simp only [List.mem_range]

/-! ## Fields -/

theorem goField_sound (hB : Bound W imps declared) (hN : (typeNames (sourcesOf W o imps)).Nodup) (hp : p < W.files.length) {f : GenField} {g : GoField}
    (h : HasField (sourcesOf W o imps) declared (goFileOf W o imps p) (fieldSyn (W.file p).goImport f) g) (hs : SafeExpr W p f.type) :
    g = elabField (genEnums W) (structNames W) f := by
  obtain ⟨h1, h2, h3, h4, h5, h6⟩ := h
  have h2' := type_sound hB hN hp h2 hs
  clear h2
  cases g
  dsimp only at h1 h2' h3 h4 h5 h6
  subst h1 h2' h3 h4 h5 h6
  rfl

/-- The fields of a struct are found in the file that declares it. -/
theorem hasFields_here (hN : (typeNames (sourcesOf W o imps)).Nodup) (hp : p < W.files.length) {n : Str} {fs fs' : List (Str × TypeSyn × Str)} {gs : List GoField}
    (hd : Part W p (.struct n fs)) (h : HasFields (sourcesOf W o imps) declared (W.file p).goImport n fs' gs) :
    fs' = fs ∧ All2 (HasField (sourcesOf W o imps) declared (goFileOf W o imps p)) fs gs := by
  obtain ⟨s, hs, e, hm, ha⟩ := h
  obtain ⟨e1, e2⟩ := declared_once hN hs (source_mem hp) hm (part_fileDecls hd : _ ∈ (goFileOf W o imps p).file.decls) e (n := n) rfl rfl
  cases e2
  subst e1
  exact ⟨rfl, ha⟩

/-! ## Wrappers -/

/-- All wrappers, with the files they are in. -/
def allWrappers (W : World) : List (Nat × GenWrapper) :=
  (List.range W.files.length).flatMap fun p => (msgsChains [] (W.file p).messages).flatMap fun c => (List.range c.msg.oneofs.length).flatMap fun k =>
    (wrappersOf W p c k).map fun w => (p, w)

theorem allWrappers_names (h : (typeNames (sourcesOf W o imps)).Nodup) : ((allWrappers W).map fun x => ((W.file x.1).goImport, x.2.name)).Nodup := by
  rw [typeNames_eq] at h
  refine List.Nodup.sublist ?_ h
  unfold allWrappers
  rw [List.map_flatMap]
  refine sublist_flatMap (fun p => ?_) _
  refine List.Sublist.trans ?_ (List.sublist_append_right _ _)
  rw [List.map_flatMap, List.map_flatMap]
  refine sublist_flatMap (fun c => ?_) _
  unfold chainNames
  rw [List.map_cons, List.map_flatMap, List.map_flatMap]
  refine List.Sublist.cons _ (sublist_flatMap (fun k => ?_) _)
  rw [List.map_cons, List.map_map, List.map_map]
  exact List.Sublist.cons _ (List.Sublist.refl _)

theorem wrapper_once (h : (typeNames (sourcesOf W o imps)).Nodup) {p p' : Nat} {c c' : Chain} {k k' : Nat} {w w' : GenWrapper} (hp : p < W.files.length)
    (hp' : p' < W.files.length) (hc : Around (W.file p).messages c) (hc' : Around (W.file p').messages c') (hk : k < c.msg.oneofs.length)
    (hk' : k' < c'.msg.oneofs.length) (hw : w ∈ wrappersOf W p c k) (hw' : w' ∈ wrappersOf W p' c' k') (e1 : (W.file p).goImport = (W.file p').goImport)
    (e2 : w.name = w'.name) : w = w' := by
  have key : ∀ {p : Nat} {c : Chain} {k : Nat} {w : GenWrapper}, p < W.files.length → Around (W.file p).messages c → k < c.msg.oneofs.length → w ∈ wrappersOf W p c k →
      (p, w) ∈ allWrappers W := fun hp hc hk hw => List.mem_flatMap.2 ⟨_, List.mem_range.2 hp, List.mem_flatMap.2 ⟨_, (chains_iff _ _).2 hc,
    List.mem_flatMap.2 ⟨_, List.mem_range.2 hk, List.mem_map.2 ⟨_, hw, rfl⟩⟩⟩⟩
  have := mem_of_nodup_map (allWrappers_names h) (key hp hc hk hw) (key hp' hc' hk' hw') (by dsimp only; rw [e1, e2])
  exact congrArg Prod.snd this

theorem iface_of_name {t : GoExpr} {n : Str} (hs : SafeExpr W p t) (hn : IsName n) (h : exprSyn (W.file p).goImport t = .name n) : t = .iface n := by
  cases t with
  | basic s =>
    unfold exprSyn at h
    split at h
    · cases h
    · cases h
      obtain ⟨r, rfl⟩ := hn
      have : ∀ s ∈ scalarTypes.map Prod.snd, s.take 2 ≠ ['i', 's'] := by decide +kernel
      exact absurd rfl (this _ hs)
  | iface m => cases h; rfl
  | named pkg m =>
    unfold exprSyn at h
    split at h
    · cases h
      exact absurd hs.1 (isName_not_exported hn)
    · cases h
  | ptr t => cases h
  | slice t => cases h
  | map k v => cases h

theorem storable_iff (hN : (typeNames (sourcesOf W o imps)).Nodup) (hp : p < W.files.length) (hc : Around (W.file p).messages c) {k : Nat} (hk : k < c.msg.oneofs.length)
    {w : GenWrapper} (hw : w ∈ wrappersOf W p c k) {f : GenField} (hs : SafeExpr W p f.type) :
    Storable (sourcesOf W o imps) (W.file p).goImport w.name (fieldSyn (W.file p).goImport f) ↔ f.type = .iface w.method := by
  constructor
  · rintro ⟨n, m, e, h1, h2⟩
    obtain ⟨p1, hp1, e1, h1⟩ := inPackage_part h1 (not_inert rfl)
    obtain ⟨p2, hp2, e2, h2⟩ := inPackage_part h2 fun h => h.2.2.1 _ _ rfl
    obtain ⟨rfl, hI⟩ := iface_part h1
    have hm : m = w.method := by
      generalize hwn : w.name = x at h2
      cases h2 with
      | marker c' k' w' hc' hk' hw' => rw [wrapper_once hN hp hp2 hc hc' hk hk' hw hw' e2.symm hwn]
    subst hm
    exact iface_of_name hs hI e
  · intro e
    refine ⟨w.method, w.method, ?_, ?_, part_inPackage hp (.marker c k w hc hk hw)⟩
    · show exprSyn _ f.type = _
      rw [e]
      rfl
    · rw [(wrapperOf_mem hw).1]
      exact part_inPackage hp (.iface c k hc hk)

theorem implementing_mem {fs : List GenField} {m : Str} {i : Nat} : i ∈ implementing fs m ↔ ∃ f, fs[i]? = some f ∧ f.type = .iface m := by
  unfold implementing
  rw [List.mem_filter, List.mem_range]
  simp only [decide_eq_true_eq, Option.map_eq_some_iff]
  constructor
  · exact fun h => h.2
  · rintro ⟨f, h, e⟩
    exact ⟨(List.getElem?_eq_some_iff.1 h).1, f, h, e⟩

theorem implementing_sorted (fs : List GenField) (m : Str) : (implementing fs m).Pairwise (· < ·) := List.Pairwise.filter _ List.pairwise_lt_range

theorem implements_iff (hn : ∀ f, NamedFile (W.file f)) (hF : AllFound W) (hN : (typeNames (sourcesOf W o imps)).Nodup) (hp : p < W.files.length)
    (hc : Around (W.file p).messages c) {k : Nat} (hk : k < c.msg.oneofs.length) {w : GenWrapper} (hw : w ∈ wrappersOf W p c k) (i : Nat) :
    (∃ f, ((genStruct W p c).fields.map (fieldSyn (W.file p).goImport))[i]? = some f ∧ Storable (sourcesOf W o imps) (W.file p).goImport w.name f) ↔
    i ∈ implementing (genStruct W p c).fields w.method := by
  rw [implementing_mem]
  constructor
  · rintro ⟨_, h, hS⟩
    rw [List.getElem?_map] at h
    obtain ⟨f, h', rfl⟩ := Option.map_eq_some_iff.1 h
    exact ⟨f, h', (storable_iff hN hp hc hk hw (struct_safe hn hF hc (List.mem_of_getElem? h'))).1 hS⟩
  · rintro ⟨f, h, e⟩
    refine ⟨fieldSyn _ f, ?_, (storable_iff hN hp hc hk hw (struct_safe hn hF hc (List.mem_of_getElem? h))).2 e⟩
    rw [List.getElem?_map, h]
    rfl

/-- What the method of a generated struct returns. -/
theorem returns_iff (hN : (typeNames (sourcesOf W o imps)).Nodup) (hp : p < W.files.length) (hc : Around (W.file p).messages c) (ws : List Str) :
    ReturnsWrappers (sourcesOf W o imps) (W.file p).goImport (goTypeName c.path) ws ↔ ws = (genStruct W p c).wrappers.map GenWrapper.name := by
  have once : ∀ {ws : List Str}, InPackage (sourcesOf W o imps) (W.file p).goImport (.wrappers (goTypeName c.path) ws) →
      ws = (genStruct W p c).wrappers.map GenWrapper.name ∧ c.msg.oneofs ≠ [] := by
    intro ws h
    obtain ⟨p', hp', e, h⟩ := inPackage_part h fun h => h.2.2.2 _ _ rfl
    generalize hn : goTypeName c.path = n at h
    cases h with
    | wrappers c' hc' hne =>
      have hd := (List.nodup_append.1 (distinct_names hN)).1
      unfold structNames genStructs at hd
      rw [List.map_map] at hd
      have := mem_of_nodup_map hd ((all_iff W p c).2 hc) ((all_iff W p' c').2 hc') (by
        show ((W.file p).goImport, goTypeName c.path) = ((W.file p').goImport, goTypeName c'.path)
        rw [e, hn])
      cases this
      exact ⟨rfl, hne⟩
  constructor
  · rintro (h | ⟨rfl, h⟩)
    · exact (once h).1
    · by_cases ho : c.msg.oneofs = []
      · show [] = (((List.range c.msg.oneofs.length).flatMap (wrappersOf W p c))).map GenWrapper.name
        rw [ho]
        rfl
      · exact absurd (part_inPackage hp (.wrappers c hc ho)) (h _)
  · rintro rfl
    by_cases ho : c.msg.oneofs = []
    · refine .inr ⟨?_, fun ws h => (once h).2 ho⟩
      show (((List.range c.msg.oneofs.length).flatMap (wrappersOf W p c))).map GenWrapper.name = []
      rw [ho]
      rfl
    · exact .inl (part_inPackage hp (.wrappers c hc ho))

/-! ## Structs -/

theorem elabWrappers_get {enums structs : List (Str × Str)} {g : GenStruct} {j : Nat} {x : Wrapper} : (elabWrappers enums structs g)[j]? = some x ↔
    ∃ w, g.wrappers[j]? = some w ∧ x = { id := j, implements := implementing g.fields w.method, fields := [elabField enums structs w.field] } := by
  unfold elabWrappers
  rw [List.getElem?_mapIdx, Option.map_eq_some_iff]
  constructor
  · rintro ⟨w, h, e⟩
    exact ⟨w, h, e.symm⟩
  · rintro ⟨w, h, e⟩
    exact ⟨w, h, e.symm⟩

theorem struct_sound (hB : Bound W imps declared) (hN : (typeNames (sourcesOf W o imps)).Nodup) (hp : p < W.files.length) (hc : Around (W.file p).messages c) {d : StructDecl}
    (h : HasStruct (sourcesOf W o imps) declared (W.file p).goImport (goTypeName c.path) d) :
    d.fields = (genStruct W p c).fields.map (elabField (genEnums W) (structNames W)) ∧ d.wrappers = elabWrappers (genEnums W) (structNames W) (genStruct W p c) := by
  obtain ⟨fs, ws, hf, hw, hl, hx⟩ := h
  obtain ⟨rfl, hf'⟩ := hasFields_here hN hp (.struct c hc) hf
  have hw := (returns_iff hN hp hc ws).1 hw
  subst hw
  constructor
  · refine all2_eq_map (all2_left.1 hf') fun f hf g hg => goField_sound hB hN hp hg (struct_safe hB.named hB.found hc hf)
  · rw [List.length_map] at hl
    refine List.ext_getElem? fun j => ?_
    by_cases hj : j < d.wrappers.length
    · have hj' : j < (genStruct W p c).wrappers.length := by omega
      have hxj := List.getElem?_eq_getElem hj
      have hwj := List.getElem?_eq_getElem hj'
      generalize d.wrappers[j] = x at hxj
      generalize (genStruct W p c).wrappers[j] = w at hwj
      obtain ⟨k, hk, hw⟩ := genWrappers_mem.1 (List.mem_of_getElem? hwj)
      obtain ⟨h1, ⟨fs', h2⟩, h3, h4⟩ := hx j w.name x (by rw [List.getElem?_map, hwj]; rfl) hxj
      obtain ⟨rfl, h2'⟩ := hasFields_here hN hp (.wrapper c k w hc hk hw) h2
      clear h2
      have h2 : All2 _ ([w.field].map (fieldSyn (W.file p).goImport)) x.fields := h2'
      have h2 := all2_eq_map (all2_left.1 h2) (f := elabField (genEnums W) (structNames W)) fun f hf g hg => by
        rw [List.mem_singleton] at hf
        subst hf
        exact goField_sound hB hN hp hg (wrapper_safe hB.named hB.found hc hw)
      rw [hxj]
      refine (elabWrappers_get.2 ⟨w, hwj, ?_⟩).symm
      have h5 := sorted_ext h3 (implementing_sorted (genStruct W p c).fields w.method) fun i => (h4 i).trans (implements_iff hB.named hB.found hN hp hc hk hw i)
      cases x
      dsimp only at h1 h2 h5
      subst h1 h2 h5
      rfl
    · rw [List.getElem?_eq_none_iff.2 (by omega), List.getElem?_eq_none_iff.2]
      unfold elabWrappers
      rw [List.length_mapIdx]
      omega

/-- The structs of a program that compiles. -/
theorem compiled_sound {env : GoEnv} (hB : Bound W imps declared) (h : Compiled (sourcesOf W o imps) declared env) : Compiles (genStructs W) (genEnums W) env := by
  have hN := h.distinct
  have key : ∀ (i : Nat) (g : GenStruct) (d : StructDecl), (genStructs W)[i]? = some g → env.structs[i]? = some d →
      d.fields = g.fields.map (elabField (genEnums W) (structNames W)) ∧ d.wrappers = elabWrappers (genEnums W) (structNames W) g := by
    intro i g d hg hd
    unfold genStructs at hg
    rw [List.getElem?_map] at hg
    obtain ⟨⟨p, c⟩, hx, rfl⟩ := Option.map_eq_some_iff.1 hg
    have hc := (all_iff W p c).1 (List.mem_of_getElem? hx)
    refine struct_sound hB hN (around_file hc) hc (h.structs i ((W.file p).goImport, goTypeName c.path) d ?_ hd)
    rw [messageTypes_eq]
    unfold structNames genStructs
    rw [List.getElem?_map, List.getElem?_map, hx]
    rfl
  refine ⟨distinct_names hN, ?_, fun i g d hg hd => (key i g d hg hd).1, fun i g d hg hd => (key i g d hg hd).2, h.zero⟩
  rw [h.count, messageTypes_eq]
  unfold structNames
  rw [List.length_map]

/-! ## The other direction -/

/-- The types that an expression mentions are generated. -/
def KnownExpr (W : World) (p : Nat) : GoExpr → Prop
  | .basic _ => True
  | .iface n => Part W p (.iface n n)
  | .named pkg n => (pkg, n) ∈ genEnums W ∨ (pkg, n) ∈ structNames W
  | .ptr t => KnownExpr W p t
  | .slice t => KnownExpr W p t
  | .map k v => KnownExpr W p k ∧ KnownExpr W p v

theorem named_complete (hN : (typeNames (sourcesOf W o imps)).Nodup) {path n : Str} (h : (path, n) ∈ genEnums W ∨ (path, n) ∈ structNames W) :
    NamedType (sourcesOf W o imps) path n (elabType (genEnums W) (structNames W) (.named path n)) := by
  have hd := List.nodup_append.1 (distinct_names hN)
  unfold elabType
  rcases h with h | h
  · rw [if_pos (List.contains_iff_mem.2 h)]
    rw [genEnums_eq] at h
    obtain ⟨p, hp, h⟩ := List.mem_flatMap.1 h
    obtain ⟨n', hn, e⟩ := List.mem_map.1 h
    cases e
    exact .int32 (part_inPackage (List.mem_range.1 hp) (.enum _ hn))
  · rw [if_neg fun he => hd.2.2 _ h _ (List.contains_iff_mem.1 he) rfl]
    obtain ⟨i, hi⟩ := List.getElem?_of_mem h
    rw [idxOf_nodup hd.1 hi]
    unfold structNames genStructs at h
    rw [List.map_map] at h
    obtain ⟨⟨p, c⟩, hx, e⟩ := List.mem_map.1 h
    cases e
    have hc := (all_iff W p c).1 hx
    refine .struct i _ (part_inPackage (around_file hc) (.struct c hc)) ?_
    rw [messageTypes_eq]
    exact hi

theorem type_complete (hB : Bound W imps declared) (hN : (typeNames (sourcesOf W o imps)).Nodup) (hp : p < W.files.length) :
    ∀ {t : GoExpr}, SafeExpr W p t → KnownExpr W p t → (∀ q ∈ (exprSyn (W.file p).goImport t).quals, ∃ i ∈ imps p, pathBase i.2 = q) →
      HasType (sourcesOf W o imps) declared (goFileOf W o imps p) (exprSyn (W.file p).goImport t) (elabType (genEnums W) (structNames W) t)
  | .basic s, hs, _, _ => by
    unfold exprSyn
    rcases basic_word hs with rfl | hb
    · rw [if_pos rfl]
      exact .bytes (not_typeName hB.named (List.mem_cons_self ..))
    · have hne : s ≠ "[]byte".toList := by
        rintro rfl
        have : ∀ x ∈ predeclared, x.1 ≠ "[]byte".toList := by decide +kernel
        exact this _ hb rfl
      rw [if_neg hne]
      exact .predeclared _ _ (not_typeName hB.named (List.mem_cons_of_mem _ (List.mem_map.2 ⟨_, hb, rfl⟩))) hb
  | .iface n, hs, hk, _ => .own _ _ (.iface n (part_inPackage hp hk))
  | .named pkg n, hs, hk, hq => by
    unfold exprSyn at hq ⊢
    split at hq
    · rename_i e
      subst e
      rw [if_pos rfl]
      exact .own _ _ (named_complete hN hk)
    · rename_i hne
      rw [if_neg hne]
      obtain ⟨j, hj, e⟩ := hs.2 hne
      have hkn : pkg ∈ knownPaths W p := List.mem_cons_of_mem _ (List.mem_cons_of_mem _ (List.mem_map.2 ⟨j, hj, e.symm⟩))
      obtain ⟨i, hi, hb⟩ := hq _ (List.mem_singleton.2 rfl)
      have hbound : ∀ i ∈ imps p, boundName declared i = pathBase i.2 := by
        intro i hi
        unfold boundName
        rw [if_pos (hB.plain p hp i hi), hB.declared p hp _ (hB.paths p hp i hi)]
      have hip : ∀ j ∈ imps p, pathBase j.2 = pathBase pkg → j = ([], pkg) := fun j hj h =>
        Prod.ext (hB.plain p hp j hj) (hB.bases p hp _ (hB.paths p hp j hj) _ hkn h)
      have e2 := hip i hi hb
      subst e2
      refine .imported _ _ ([], pkg) _ hi (hbound _ hi) (fun j hj h => hip j hj ?_) hs.1 (named_complete hN hk)
      rw [← h, hbound j hj]
  | .ptr t, hs, hk, hq => .ptr _ _ (type_complete hB hN hp hs hk hq)
  | .slice t, hs, hk, hq => .slice _ _ (type_complete hB hN hp hs hk hq)
  | .map k v, hs, hk, hq => .map _ _ _ _ (type_complete hB hN hp hs.1 hk.1 fun q h => hq q (List.mem_append_left _ h))
      (type_complete hB hN hp hs.2 hk.2 fun q h => hq q (List.mem_append_right _ h))

/-- Types that fields refer to are generated. -/
structure Generated (W : World) : Prop where
  enums : ∀ r, Exists W r → r.isEnum = true → r.path.length ≤ 2
  publics : ∀ g x, (x, true) ∈ W.imports g → (W.file x).goImport = (W.file g).goImport

theorem name_known (hG : Generated W) (hF : AllFound W) {f : FieldDecl} (ha : Around (W.file p).messages c) (hf : f ∈ c.msg.fields) :
    KnownExpr W p (typeGoName W p (fieldType W p c f)) := by
  have he := fieldType_eq hF ha hf
  cases ht : fieldType W p c f with
  | scalar g => exact trivial
  | decl r q =>
    rw [ht] at he
    obtain ⟨h1, h2⟩ := resolve_exists ha hG.publics he
    show (resolvedImport W p q, goTypeName r.path) ∈ _ ∨ (resolvedImport W p q, goTypeName r.path) ∈ _
    rw [h2]
    cases hE : r.isEnum with
    | true => exact .inl (exists_enum h1 hE (hG.enums r h1 hE))
    | false =>
      obtain ⟨id, c', h3, h4⟩ := exists_message h1 hE
      have h5 := List.mem_of_getElem? h3
      refine .inr (List.mem_map.2 ⟨genStruct W r.file c', List.mem_map.2 ⟨_, h5, rfl⟩, ?_⟩)
      show ((W.file r.file).goImport, goTypeName c'.path) = _
      rw [← around_path ((all_iff W r.file c').1 h5), h4]

theorem elem_known {t : Resolved} {b : Bool} (h : KnownExpr W p (typeGoName W p t)) : KnownExpr W p (elemTypeName W p t b) := by
  unfold elemTypeName
  split <;> exact h

theorem fieldGoType_known (hG : Generated W) (hF : AllFound W) {f : FieldDecl} (ha : Around (W.file p).messages c) (hf : f ∈ c.msg.fields) :
    KnownExpr W p (fieldGoType W p c.msg f (fieldType W p c f)) := by
  have ht := name_known hG hF ha hf
  unfold fieldGoType
  split
  · exact ⟨trivial, elem_known ht⟩
  · split
    · exact elem_known (p := p) ht
    · split <;> exact ht

theorem struct_known (hG : Generated W) (hB : Bound W imps declared) (ha : Around (W.file p).messages c) {f : GenField} (hf : f ∈ (genStruct W p c).fields) :
    KnownExpr W p f.type := by
  rcases struct_field hf with ⟨x, hx, rfl⟩ | ⟨x, hx, k, hk, rfl⟩ | rfl
  · exact fieldGoType_known hG hB.found ha (named_fst_mem hx)
  · exact .iface c k ha (((hB.named p).messages _ (within_msg ha)).exist _ (named_fst_mem hx) k hk)
  · exact trivial

theorem goField_complete (hB : Bound W imps declared) (hN : (typeNames (sourcesOf W o imps)).Nodup) (hp : p < W.files.length)
    (hq : ∀ d ∈ fileDecls W o p, ∀ q ∈ d.quals, ∃ i ∈ imps p, pathBase i.2 = q) {n : Str} {fs : List GenField}
    (hd : Part W p (.struct n (fs.map (fieldSyn (W.file p).goImport)))) {f : GenField} (hf : f ∈ fs) (hs : SafeExpr W p f.type) (hk : KnownExpr W p f.type) :
    HasField (sourcesOf W o imps) declared (goFileOf W o imps p) (fieldSyn (W.file p).goImport f) (elabField (genEnums W) (structNames W) f) := by
  refine ⟨rfl, type_complete hB hN hp hs hk fun q h => hq _ (part_fileDecls hd) q ?_, rfl, rfl, rfl, rfl⟩
  exact List.mem_flatMap.2 ⟨fieldSyn _ f, List.mem_map.2 ⟨f, hf, rfl⟩, h⟩

theorem struct_complete (hG : Generated W) (hB : Bound W imps declared) (hN : (typeNames (sourcesOf W o imps)).Nodup) (hp : p < W.files.length)
    (hq : ∀ d ∈ fileDecls W o p, ∀ q ∈ d.quals, ∃ i ∈ imps p, pathBase i.2 = q) (hc : Around (W.file p).messages c) {d : StructDecl}
    (h1 : d.fields = (genStruct W p c).fields.map (elabField (genEnums W) (structNames W)))
    (h2 : d.wrappers = elabWrappers (genEnums W) (structNames W) (genStruct W p c)) :
    HasStruct (sourcesOf W o imps) declared (W.file p).goImport (goTypeName c.path) d := by
  refine ⟨_, _, ⟨goFileOf W o imps p, source_mem hp, rfl, part_fileDecls (.struct c hc), ?_⟩, (returns_iff hN hp hc _).2 rfl, ?_, ?_⟩
  · rw [h1]
    exact all2_left.2 (all2_of_map fun f hf => goField_complete hB hN hp hq (.struct c hc) hf (struct_safe hB.named hB.found hc hf) (struct_known hG hB hc hf))
  · rw [h2]
    unfold elabWrappers
    rw [List.length_mapIdx, List.length_map]
  · intro j n x hn hx
    rw [h2] at hx
    obtain ⟨w, hw, rfl⟩ := elabWrappers_get.1 hx
    rw [List.getElem?_map, hw] at hn
    cases hn
    obtain ⟨k, hk, hw⟩ := genWrappers_mem.1 (List.mem_of_getElem? hw)
    refine ⟨rfl, ⟨_, goFileOf W o imps p, source_mem hp, rfl, part_fileDecls (.wrapper c k w hc hk hw), ?_⟩, implementing_sorted _ _,
      fun i => (implements_iff hB.named hB.found hN hp hc hk hw i).symm⟩
    refine All2.cons ?_ .nil
    refine goField_complete hB hN hp hq (fs := [w.field]) (.wrapper c k w hc hk hw) (List.mem_cons_self ..) (wrapper_safe hB.named hB.found hc hw) ?_
    obtain ⟨_, y, hy, e⟩ := wrapperOf_mem hw
    rw [e]
    exact fieldGoType_known hG hB.found hc (named_fst_mem hy)

/-- Generated files compile if their types have different names. -/
theorem compiled_complete {env : GoEnv} (hG : Generated W) (hB : Bound W imps declared) (hN : (typeNames (sourcesOf W o imps)).Nodup)
    (hq : ∀ p, p < W.files.length → ∀ d ∈ fileDecls W o p, ∀ q ∈ d.quals, ∃ i ∈ imps p, pathBase i.2 = q)
    (hD : ∀ p, p < W.files.length → (W.file p).goPackage = declared (W.file p).goImport)
    (h : Compiles (genStructs W) (genEnums W) env) : Compiled (sourcesOf W o imps) declared env := by
  refine ⟨fun s hs => ?_, hN, ?_, fun i t d ht hd => ?_, h.zero⟩
  · obtain ⟨p, hp, rfl⟩ := mem_source hs
    exact hD p hp
  · rw [h.count, messageTypes_eq]
    unfold structNames
    rw [List.length_map]
  · rw [messageTypes_eq] at ht
    unfold structNames at ht
    rw [List.getElem?_map] at ht
    obtain ⟨g, hg, e⟩ := Option.map_eq_some_iff.1 ht
    have h1 := h.fields i g d hg hd
    have h2 := h.wrappers i g d hg hd
    unfold genStructs at hg
    rw [List.getElem?_map] at hg
    obtain ⟨⟨p, c⟩, hx, e'⟩ := Option.map_eq_some_iff.1 hg
    subst e' e
    have hc := (all_iff W p c).1 (List.mem_of_getElem? hx)
    exact struct_complete hG hB hN (around_file hc) (hq p (around_file hc)) hc h1 h2

end

end Verif.Props.Gen
