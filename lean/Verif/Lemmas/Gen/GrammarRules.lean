import Verif.Lemmas.Gen.Grammar
/-! Helper lemmas: the rules of the grammar. -/
namespace Verif.Lemmas.Gen
open Verif.Model.Gen Verif.Spec.Gen

theorem eat_none {k : Str} {ts : List Str} (h : ts.head? ≠ some k) : eat k ts = none := by
  cases ts with
  | nil => rfl
  | cons t ts => exact eat_ne _ (by simpa using h)

/-! ## Fields -/

/-- The part that all fields have. -/
def spellEnd (f : RawField) : List Str := f.name :: "=".toList :: f.number :: (spellBrackets f.options ++ [";".toList])

theorem fieldEnd_sound {l : Option Label} {k : Option Str} {t ts r : List Str} {f : RawField} (h : parseFieldEnd l k t ts = some (f, r)) :
    ts = spellEnd f ++ r ∧ f.label = l ∧ f.key = k ∧ f.typ = t ∧ NameTok f.name ∧ IntTok f.number ∧ ∀ o ∈ f.options, WFOption o := by
  simp only [parseFieldEnd, bind, Option.bind_eq_some_iff, Prod.exists, eat_iff, takeIf_iff, pure, Option.some.injEq, Prod.mk.injEq] at h
  obtain ⟨n, r1, ⟨rfl, hn⟩, r2, rfl, i, r3, ⟨rfl, hi⟩, os, r4, h4, r5, rfl, rfl, rfl⟩ := h
  obtain ⟨h5, h6⟩ := parseBrackets_sound _ _ _ h4
  exact ⟨by rw [h5]; simp [spellEnd], rfl, rfl, rfl, (isNameTok_iff n).1 hn, (isIntTok_iff i).1 hi, h6⟩

theorem fieldEnd_complete {f : RawField} (h1 : NameTok f.name) (h2 : IntTok f.number) (h3 : ∀ o ∈ f.options, WFOption o) (r : List Str) :
    parseFieldEnd f.label f.key f.typ (spellEnd f ++ r) = some (f, r) := by
  have hb := parseBrackets_complete (r := ";".toList :: r) h3 (by simp)
  simp only [parseFieldEnd, spellEnd, List.append_assoc, List.cons_append, List.nil_append, bind, takeIf_self _ ((isNameTok_iff _).2 h1), Option.bind_some,
    eat_self, takeIf_self _ ((isIntTok_iff _).2 h2), hb, pure]

theorem fieldRest_sound {l : Option Label} {ts r : List Str} {f : RawField} (h : parseFieldRest l ts = some (f, r)) :
    ts = f.typ ++ (spellEnd f ++ r) ∧ f.label = l ∧ f.key = none ∧ WFFieldEnd f := by
  simp only [parseFieldRest, bind, Option.bind_eq_some_iff, Prod.exists] at h
  obtain ⟨t, r1, h1, h2⟩ := h
  obtain ⟨h3, h4⟩ := takeType_sound _ _ _ h1
  obtain ⟨h5, h6, h7, h8, h9⟩ := fieldEnd_sound h2
  subst h8
  exact ⟨by rw [h3, h5]; rfl, h6, h7, h4, h9⟩

theorem fieldRest_complete {f : RawField} (h : WFFieldEnd f) (hk : f.key = none) (r : List Str) :
    parseFieldRest f.label (f.typ ++ (spellEnd f ++ r)) = some (f, r) := by
  have h1 : takeType (f.typ ++ (spellEnd f ++ r)) = some (f.typ, spellEnd f ++ r) :=
    takeType_complete _ _ h.1 (by
      have : f.name ≠ ".".toList := name_ne h.2.1 (c := '.') rfl []
      simpa [spellEnd] using this)
  have h2 := fieldEnd_complete h.2.1 h.2.2.1 h.2.2.2 r
  rw [hk] at h2
  simp only [parseFieldRest, bind, h1, Option.bind_some, h2]

theorem takeLabel_sound {ts r : List Str} {l : Label} (h : takeLabel ts = some (l, r)) : ts = spellLabel (some l) ++ r := by
  cases ts with
  | nil => cases h
  | cons t ts =>
    rw [takeLabel] at h
    split at h
    · rename_i ht; cases h; rw [ht]; rfl
    · split at h
      · rename_i ht; cases h; rw [ht]; rfl
      · split at h
        · rename_i ht; cases h; rw [ht]; rfl
        · cases h

theorem takeLabel_complete (l : Label) (r : List Str) : takeLabel (spellLabel (some l) ++ r) = some (l, r) := by
  cases l <;> rfl

theorem spellField_plain {f : RawField} (h : f.key = none) : spellField f = spellLabel f.label ++ (f.typ ++ spellEnd f) := by
  rw [spellField, h]; rfl

theorem fieldStmt_sound : Sound parseFieldStmt spellField WFField := by
  refine Sound.orElse ?_ ?_
  · intro ts f r h
    simp only [parseLabelled, bind, Option.bind_eq_some_iff, Prod.exists] at h
    obtain ⟨l, r1, h1, h2⟩ := h
    have h3 := takeLabel_sound h1
    obtain ⟨h4, h5, h6, h7⟩ := fieldRest_sound h2
    refine ⟨?_, h7, h6⟩
    rw [spellField_plain h6, h5, h3, h4]
    simp
  · intro ts f r h
    obtain ⟨h4, h5, h6, h7⟩ := fieldRest_sound h
    refine ⟨?_, h7, h6⟩
    rw [spellField_plain h6, h5, h4]
    simp [spellLabel]

theorem takeType_none {t : Str} {s : List Str} (h1 : t ≠ ".".toList) (h2 : isNameTok t = false) : takeType (t :: s) = none := by
  rw [takeType, eat_ne _ h1]
  dsimp only
  rw [takePath, if_neg (by simp [h2])]

theorem takeType_one {t : Str} {s : List Str} (h1 : NameTok t) (h2 : s.head? ≠ some ".".toList) : takeType (t :: s) = some ([t], s) :=
  takeType_complete [t] s (.plain _ (.one t h1)) h2

theorem fieldRest_none_eq {l : Option Label} {n : Str} {s : List Str} (h : NameTok n) : parseFieldRest l (n :: "=".toList :: s) = none := by
  rw [parseFieldRest, takeType_one h (by simp)]
  rfl

theorem typeToks_head {p : List Str} (h : TypeToks p) : ∃ t q, p = t :: q ∧ (NameTok t ∨ t = ".".toList) := by
  cases h with
  | plain _ hp => obtain ⟨n, q, rfl, hn⟩ := path_head hp; exact ⟨n, q, rfl, .inl hn⟩
  | rooted q hp => exact ⟨_, q, rfl, .inr rfl⟩

theorem fieldStmt_complete {f : RawField} (h : WFField f) (hp : ProperField f) (r : List Str) : parseFieldStmt (spellField f ++ r) = some (f, r) := by
  have hr := fieldRest_complete h.1 h.2 r
  rw [spellField_plain h.2]
  match hl : f.label with
  | some l =>
    refine orElse_left ?_
    rw [List.append_assoc, List.append_assoc, parseLabelled, takeLabel_complete]
    rw [hl] at hr
    exact hr
  | none =>
    rw [hl] at hr
    rw [spellLabel, List.nil_append, List.append_assoc]
    rw [parseFieldStmt, orElse_right]
    · exact hr
    · obtain ⟨t, q, e, ht⟩ := typeToks_head h.1.1
      have hq := hp hl t q e
      rw [e, List.cons_append, parseLabelled, takeLabel]
      split
      · rename_i hto
        have := hq (.inl hto)
        subst this
        exact fieldRest_none_eq h.1.2.1
      · split
        · rename_i hto
          rcases ht with ht | ht
          · exact absurd hto ht.2.1
          · rw [ht] at hto; exact absurd hto (by decide)
        · split
          · rename_i hto
            have := hq (.inr hto)
            subst this
            exact fieldRest_none_eq h.1.2.1
          · rfl

/-- The first token is not a label. -/
theorem labelled_none {t : Str} {s : List Str} (h1 : t ≠ "optional".toList) (h2 : t ≠ "required".toList) (h3 : t ≠ "repeated".toList) :
    parseLabelled (t :: s) = none := by
  rw [parseLabelled, takeLabel, if_neg h1, if_neg h2, if_neg h3]; rfl

/-- A word that is no label and what does not continue a field. -/
theorem fieldStmt_none_second {k u : Str} {s : List Str} (hk : NameTok k) (h1 : k ≠ "optional".toList) (h3 : k ≠ "repeated".toList)
    (hu : u ≠ ".".toList) (hu' : isNameTok u = false) : parseFieldStmt (k :: u :: s) = none := by
  rw [parseFieldStmt, orElse_right (labelled_none h1 hk.2.1 h3), parseFieldRest, takeType_one hk (by simpa using hu)]
  show parseFieldEnd _ _ _ (u :: s) = none
  rw [parseFieldEnd, takeIf, if_neg (by simp [hu'])]
  rfl

theorem fieldStmt_none_third {k u v : Str} {s : List Str} (hk : NameTok k) (h1 : k ≠ "optional".toList) (h3 : k ≠ "repeated".toList)
    (hu : NameTok u) (hv : v ≠ "=".toList) : parseFieldStmt (k :: u :: v :: s) = none := by
  rw [parseFieldStmt, orElse_right (labelled_none h1 hk.2.1 h3), parseFieldRest, takeType_one hk (by
    have : u ≠ ".".toList := name_ne hu (c := '.') rfl []
    simpa using this)]
  show parseFieldEnd _ _ _ (u :: v :: s) = none
  rw [parseFieldEnd, takeIf_self _ ((isNameTok_iff u).2 hu)]
  show (eat "=".toList (v :: s)).bind _ = none
  rw [eat_ne _ hv]
  rfl

theorem fieldStmt_none_fourth {k u w : Str} {s : List Str} (hk : NameTok k) (h1 : k ≠ "optional".toList) (h3 : k ≠ "repeated".toList)
    (hu : NameTok u) (hw : ¬ IntTok w) : parseFieldStmt (k :: u :: "=".toList :: w :: s) = none := by
  rw [parseFieldStmt, orElse_right (labelled_none h1 hk.2.1 h3), parseFieldRest, takeType_one hk (by
    have : u ≠ ".".toList := name_ne hu (c := '.') rfl []
    simpa using this)]
  have hw' : takeIf isIntTok (w :: s) = none := by rw [takeIf, if_neg (by rw [isIntTok_iff]; exact hw)]
  simp only [parseFieldEnd, bind, takeIf_self _ ((isNameTok_iff u).2 hu), Option.bind_some, eat_self, hw', Option.bind_none]

theorem fieldStmt_none_semi (s : List Str) : parseFieldStmt (";".toList :: s) = none := by
  rw [parseFieldStmt, orElse_right (labelled_none (by decide) (by decide) (by decide)), parseFieldRest, takeType_none (by decide) (by decide)]
  rfl

/-- `extend .a.b {` -/
theorem fieldStmt_none_extend {p s : List Str} (hp : PathToks p) : parseFieldStmt ("extend".toList :: ".".toList :: (p ++ "{".toList :: s)) = none := by
  have hk : NameTok "extend".toList := (isNameTok_iff _).1 (by decide)
  have h1 : takeType ("extend".toList :: ".".toList :: (p ++ "{".toList :: s)) = some ("extend".toList :: ".".toList :: p, "{".toList :: s) :=
    takeType_complete ("extend".toList :: ".".toList :: p) ("{".toList :: s) (.plain _ (.dot _ _ hk hp)) (by simp)
  rw [parseFieldStmt, orElse_right (labelled_none (by decide) (by decide) (by decide)), parseFieldRest, h1]
  rfl

theorem isMapKeyType_iff (s : Str) : isMapKeyType s = true ↔ KeyType s := by
  rw [isMapKeyType, List.any_eq_true]
  simp only [decide_eq_true_eq, KeyType]

theorem mapField_sound : Sound parseMapField spellField WFMapField := by
  intro ts f r h
  simp only [parseMapField, bind, Option.bind_eq_some_iff, Prod.exists, eat_iff, takeIf_iff] at h
  obtain ⟨r1, rfl, r2, rfl, k, r3, ⟨rfl, hk⟩, r4, rfl, t, r5, h5, r6, rfl, h6⟩ := h
  obtain ⟨h7, h8⟩ := takeType_sound _ _ _ h5
  obtain ⟨h9, h10, h11, h12, h13⟩ := fieldEnd_sound h6
  subst h12
  refine ⟨?_, ⟨h8, h13⟩, h10, k, h11, (isMapKeyType_iff k).1 hk⟩
  rw [spellField, h10, h11, h7, h9]
  simp [spellLabel, spellEnd]

theorem mapField_complete {f : RawField} (h : WFMapField f) (r : List Str) : parseMapField (spellField f ++ r) = some (f, r) := by
  obtain ⟨h1, h2, k, h3, h4⟩ := h
  have hr := fieldEnd_complete h1.2.1 h1.2.2.1 h1.2.2.2 r
  rw [h2, h3] at hr
  have ht : takeType (f.typ ++ (">".toList :: (spellEnd f ++ r))) = some (f.typ, ">".toList :: (spellEnd f ++ r)) := takeType_complete _ _ h1.1 (by simp)
  have e : spellField f ++ r = "map".toList :: "<".toList :: k :: ",".toList :: (f.typ ++ (">".toList :: (spellEnd f ++ r))) := by
    rw [spellField, h2, h3]; simp [spellLabel, spellEnd]
  rw [e]
  simp only [parseMapField, bind, eat_self, Option.bind_some, takeIf_self _ ((isMapKeyType_iff _).2 h4), ht, hr]

/-! ## Ranges -/

/-- What may follow a range. -/
def FolRange (r : List Str) : Prop := r.head? ≠ some "to".toList

theorem takeRangeEnd_cases {ts r : List Str} {e : RangeEnd} (h : takeRangeEnd ts = some (e, r)) :
    (e = .single ∧ ts = r) ∨ (e = .max ∧ ts = "to".toList :: "max".toList :: r) ∨ ∃ s, e = .lit s ∧ ts = "to".toList :: s :: r ∧ IntTok s := by
  rw [takeRangeEnd] at h
  split at h
  · cases h; exact .inl ⟨rfl, rfl⟩
  · rename_i r1 h1
    rw [eat_iff] at h1
    split at h
    · rename_i r2 h2
      rw [eat_iff] at h2
      cases h
      exact .inr (.inl ⟨rfl, by rw [h1, h2]⟩)
    · split at h
      · cases h
      · rename_i i r2 h2
        rw [takeIf_iff] at h2
        cases h
        exact .inr (.inr ⟨i, rfl, by rw [h1, h2.1], (isIntTok_iff i).1 h2.2⟩)

theorem range_sound : Sound parseRange spellRange WFRange := by
  intro ts x r h
  simp only [parseRange, bind, Option.bind_eq_some_iff, Prod.exists, takeIf_iff, pure, Option.some.injEq, Prod.mk.injEq] at h
  obtain ⟨i, r1, ⟨rfl, hi⟩, e, r2, h2, rfl, rfl⟩ := h
  rcases takeRangeEnd_cases h2 with ⟨rfl, rfl⟩ | ⟨rfl, rfl⟩ | ⟨s, rfl, rfl, hs⟩
  · exact ⟨rfl, (isIntTok_iff i).1 hi, fun s hs => by cases hs⟩
  · exact ⟨rfl, (isIntTok_iff i).1 hi, fun s hs => by cases hs⟩
  · exact ⟨rfl, (isIntTok_iff i).1 hi, fun s' hs' => by cases hs'; exact hs⟩

theorem int_notName {s : Str} (h : IntTok s) : isNameTok s = false := num_notName ((isNumTok_iff s).2 (.inl h))

theorem range_complete : Complete parseRange spellRange WFRange FolRange := by
  intro x r hx hr
  obtain ⟨lo, hi⟩ := x
  obtain ⟨h1, h2⟩ := hx
  cases hi with
  | single =>
    have : takeRangeEnd r = some (.single, r) := by rw [takeRangeEnd, eat_none hr]
    show parseRange (lo :: r) = _
    simp only [parseRange, bind, takeIf_self _ ((isIntTok_iff _).2 h1), Option.bind_some, this, pure]
  | max =>
    have : takeRangeEnd ("to".toList :: "max".toList :: r) = some (.max, r) := by rw [takeRangeEnd, eat_self]; dsimp only; rw [eat_self]
    show parseRange (lo :: "to".toList :: "max".toList :: r) = _
    simp only [parseRange, bind, takeIf_self _ ((isIntTok_iff _).2 h1), Option.bind_some, this, pure]
  | lit s =>
    have hs := h2 s rfl
    have hne : s ≠ "max".toList := by
      rintro rfl
      exact absurd (int_notName hs) (by decide)
    have : takeRangeEnd ("to".toList :: s :: r) = some (.lit s, r) := by
      rw [takeRangeEnd, eat_self]; dsimp only; rw [eat_ne _ hne]; dsimp only; rw [takeIf_self _ ((isIntTok_iff _).2 hs)]
    show parseRange (lo :: "to".toList :: s :: r) = _
    simp only [parseRange, bind, takeIf_self _ ((isIntTok_iff _).2 h1), Option.bind_some, this, pure]

theorem spellRange_ne (r : RangeNode) : spellRange r ≠ [] := by rw [spellRange]; split <;> simp

theorem reserved_sound : Sound parseReserved spellReserved WFRanges := by
  intro ts x r h
  simp only [parseReserved, bind, Option.bind_eq_some_iff, Prod.exists, eat_iff, pure, Option.some.injEq, Prod.mk.injEq] at h
  obtain ⟨r1, rfl, rr, r2, h2, r3, rfl, rfl, rfl⟩ := h
  obtain ⟨h3, h4⟩ := sepBy_sound range_sound _ _ _ _ h2
  exact ⟨by rw [h3]; simp [spellReserved], h4⟩

theorem ranges_complete {rr : List RangeNode} (h : WFRanges rr) {r : List Str} (h1 : FolRange r) (h2 : r.head? ≠ some ",".toList) :
    sepBy parseRange (commaSep spellRange rr ++ r).length (commaSep spellRange rr ++ r) = some (rr, r) :=
  sepBy_complete range_complete (fun r => by simp [FolRange]) _ rr r h.1 h.2 h1 h2 (by
    have := length_commaSep spellRange rr (fun x _ => spellRange_ne x)
    rw [List.length_append]; omega)

theorem reserved_complete {rr : List RangeNode} (h : WFRanges rr) (r : List Str) : parseReserved (spellReserved rr ++ r) = some (rr, r) := by
  have := ranges_complete (r := ";".toList :: r) h (by simp [FolRange]) (by simp)
  simp only [parseReserved, spellReserved, List.append_assoc, List.cons_append, List.nil_append, bind, eat_self, Option.bind_some, this, pure]

theorem reservedNames_sound : Sound parseReservedNames spellReservedNames WFNames := by
  intro ts x r h
  simp only [parseReservedNames, bind, Option.bind_eq_some_iff, Prod.exists, eat_iff, pure, Option.some.injEq, Prod.mk.injEq] at h
  obtain ⟨r1, rfl, rr, r2, h2, r3, rfl, rfl, rfl⟩ := h
  obtain ⟨h3, h4⟩ := sepBy_sound takeStrs_sound _ _ _ _ h2
  exact ⟨by rw [h3]; simp [spellReservedNames], h4⟩

theorem reservedNames_complete {ss : List (List Str)} (h : WFNames ss) (r : List Str) : parseReservedNames (spellReservedNames ss ++ r) = some (ss, r) := by
  have := sepBy_complete takeStrs_complete (fun r t ht => by cases ht; decide) (commaSep id ss ++ (";".toList :: r)).length ss (";".toList :: r) h.1 h.2
    (fun t ht => by cases ht; decide) (by simp) (by
      have := length_commaSep id ss (fun x hx => (h.2 x hx).1)
      rw [List.length_append]; omega)
  simp only [parseReservedNames, spellReservedNames, List.append_assoc, List.cons_append, List.nil_append, bind, eat_self, Option.bind_some, this, pure]

theorem extensions_sound : Sound parseExtensions (fun x => spellExtensions x.1 x.2) (fun x => WFRanges x.1 ∧ ∀ o ∈ x.2, WFOption o) := by
  intro ts x r h
  simp only [parseExtensions, bind, Option.bind_eq_some_iff, Prod.exists, eat_iff, pure, Option.some.injEq, Prod.mk.injEq] at h
  obtain ⟨r1, rfl, rr, r2, h2, os, r3, h3, r4, rfl, rfl, rfl⟩ := h
  obtain ⟨h4, h5⟩ := sepBy_sound range_sound _ _ _ _ h2
  obtain ⟨h6, h7⟩ := parseBrackets_sound _ _ _ h3
  exact ⟨by rw [h4, h6]; simp [spellExtensions], h5, h7⟩

theorem extensions_complete {rr : List RangeNode} {os : List RawOption} (h : WFRanges rr) (ho : ∀ o ∈ os, WFOption o) (r : List Str) :
    parseExtensions (spellExtensions rr os ++ r) = some ((rr, os), r) := by
  have hb := parseBrackets_complete (r := ";".toList :: r) ho (by simp)
  have hh : (spellBrackets os ++ (";".toList :: r)).head? = some "[".toList ∨ (spellBrackets os ++ (";".toList :: r)).head? = some ";".toList := by
    rw [spellBrackets]; split
    · exact .inr rfl
    · exact .inl rfl
  have := ranges_complete (r := spellBrackets os ++ (";".toList :: r)) h
    (by rw [FolRange]; rcases hh with e | e <;> rw [e] <;> decide) (by rcases hh with e | e <;> rw [e] <;> decide)
  simp only [parseExtensions, spellExtensions, List.append_assoc, List.cons_append, List.nil_append, bind, eat_self, Option.bind_some, this, hb, pure]

/-! ## Rules that do not apply -/

theorem optionStmt_none {ts : List Str} (h : ts.head? ≠ some "option".toList) : parseOptionStmt ts = none := by
  rw [parseOptionStmt, eat_none h]; rfl
theorem reserved_none {ts : List Str} (h : ts.head? ≠ some "reserved".toList) : parseReserved ts = none := by
  rw [parseReserved, eat_none h]; rfl
theorem reservedNames_none {ts : List Str} (h : ts.head? ≠ some "reserved".toList) : parseReservedNames ts = none := by
  rw [parseReservedNames, eat_none h]; rfl
theorem extensions_none {ts : List Str} (h : ts.head? ≠ some "extensions".toList) : parseExtensions ts = none := by
  rw [parseExtensions, eat_none h]; rfl
theorem block_none {α : Type} {p : Rule α} {k : Str} {ts : List Str} (h : ts.head? ≠ some k) : parseBlock k p ts = none := by
  rw [parseBlock, eat_none h]; rfl
theorem enum_none {ts : List Str} (h : ts.head? ≠ some "enum".toList) : parseEnum ts = none := as_none (block_none h)
theorem extend_none {ts : List Str} (h : ts.head? ≠ some "extend".toList) : parseExtend ts = none := by
  rw [parseExtend, eat_none h]; rfl
theorem mapField_none {ts : List Str} (h : ts.head? ≠ some "map".toList) : parseMapField ts = none := by
  rw [parseMapField, eat_none h]; rfl
theorem rpc_none {ts : List Str} (h : ts.head? ≠ some "rpc".toList) : parseRpc ts = none := by
  rw [parseRpc, eat_none h]; rfl
theorem import_none {ts : List Str} (h : ts.head? ≠ some "import".toList) : parseImport ts = none := by
  rw [parseImport, eat_none h]; rfl
theorem package_none {ts : List Str} (h : ts.head? ≠ some "package".toList) : parsePackage ts = none := by
  rw [parsePackage, eat_none h]; rfl
theorem empty_some (r : List Str) : takeEmpty (";".toList :: r) = some ((), r) := by rw [takeEmpty, eat_self]
theorem empty_sound : Sound takeEmpty (fun _ => [";".toList]) (fun _ => True) := by
  intro ts x r h
  rw [takeEmpty] at h
  split at h
  · cases h
  · rename_i r' h1
    rw [eat_iff] at h1
    cases h
    exact ⟨h1, trivial⟩

theorem strlit_head {ss : List Str} (h : StrLitToks ss) : ∃ s q, ss = s :: q ∧ StrTok s := by
  cases ss with
  | nil => exact absurd rfl h.1
  | cons s q => exact ⟨s, q, rfl, h.2 s (by simp)⟩

theorem str_notInt {s : Str} (h : StrTok s) : isIntTok s = false := by
  rw [← Bool.not_eq_true, isIntTok_iff]
  intro hi
  have := str_notNum ((isStrTok_iff s).2 h)
  rw [(isNumTok_iff s).2 (.inl hi)] at this
  cases this

/-- `reserved "…"` is no range. -/
theorem reserved_none_str {s : Str} {q : List Str} (h : StrTok s) : parseReserved ("reserved".toList :: s :: q) = none := by
  rw [parseReserved, eat_self]
  show (sepBy parseRange (q.length + 1) (s :: q)).bind _ = none
  rw [sepBy, parseRange, takeIf, if_neg (by simp [str_notInt h])]
  rfl

/-! ## Enums -/

theorem takeMinus_eq (ts : List Str) : ts = (if (takeMinus ts).1 then ["-".toList] else []) ++ (takeMinus ts).2 := by
  rw [takeMinus]
  split
  · rename_i r h
    rw [eat_iff] at h
    exact h
  · rfl

theorem enumValue_sound : Sound parseEnumValue spellEnumValue (fun v => WFEnumElem (.value v)) := by
  intro ts v r h
  simp only [parseEnumValue, bind, Option.bind_eq_some_iff, Prod.exists, eat_iff, takeIf_iff, pure, Option.some.injEq, Prod.mk.injEq] at h
  obtain ⟨n, r1, ⟨rfl, hn⟩, r2, rfl, i, r3, ⟨h3, hi⟩, os, r4, h4, r5, rfl, rfl, rfl⟩ := h
  obtain ⟨h5, h6⟩ := parseBrackets_sound _ _ _ h4
  refine ⟨?_, (isNameTok_iff n).1 hn, (isIntTok_iff i).1 hi, h6⟩
  have := takeMinus_eq r2
  rw [h3, h5] at this
  simp only [spellEnumValue, List.cons_append, List.append_assoc, List.nil_append]
  rw [← this]

theorem enumValue_complete {v : RawEnumValue} (h : WFEnumElem (.value v)) (r : List Str) : parseEnumValue (spellEnumValue v ++ r) = some (v, r) := by
  obtain ⟨n, m, i, os⟩ := v
  obtain ⟨h1, h2, h3⟩ := h
  dsimp only at h1 h2 h3
  have hb := parseBrackets_complete (r := ";".toList :: r) h3 (by simp)
  have hm : takeMinus ((if m then ["-".toList] else []) ++ (i :: (spellBrackets os ++ (";".toList :: r)))) = (m, i :: (spellBrackets os ++ (";".toList :: r))) := by
    cases m with
    | true => rfl
    | false =>
      rw [if_neg (by simp), List.nil_append, takeMinus, eat_ne]
      rintro rfl
      exact absurd ((isIntTok_iff _).2 h2) (by decide)
  simp only [parseEnumValue, spellEnumValue, List.append_assoc, List.cons_append, List.nil_append, bind, takeIf_self _ ((isNameTok_iff _).2 h1), eat_self,
    Option.bind_some, hm, takeIf_self _ ((isIntTok_iff _).2 h2), hb, pure]

theorem enumElem_sound : Sound parseEnumElem spellEnumElem WFEnumElem :=
  .orElse (parseOptionStmt_sound.as (fun _ => rfl) fun _ h => h) <| .orElse (enumValue_sound.as (fun _ => rfl) fun _ h => h) <|
    .orElse (reserved_sound.as (fun _ => rfl) fun _ h => h) <| .orElse (reservedNames_sound.as (fun _ => rfl) fun _ h => h) <|
    empty_sound.as (fun _ => rfl) fun _ h => h

theorem enumValue_none {k u : Str} {s : List Str} (hk : NameTok k) (hu : u ≠ "=".toList) : parseEnumValue (k :: u :: s) = none := by
  rw [parseEnumValue, takeIf_self _ ((isNameTok_iff k).2 hk)]
  show (eat "=".toList (u :: s)).bind _ = none
  rw [eat_ne _ hu]; rfl

theorem commaSep_head {α : Type} {f : α → List Str} {xs : List α} {P : Str → Prop} (h : xs ≠ []) (hx : ∀ x ∈ xs, ∃ t s, f x = t :: s ∧ P t) :
    ∃ t s, commaSep f xs = t :: s ∧ P t := by
  cases xs with
  | nil => exact absurd rfl h
  | cons x xs =>
    obtain ⟨t, s, e, ht⟩ := hx x (by simp)
    cases xs with
    | nil => exact ⟨t, s, e, ht⟩
    | cons y ys => exact ⟨t, s ++ ",".toList :: commaSep f (y :: ys), by rw [commaSep_cons _ _ _ (by simp), e]; rfl, ht⟩

theorem spellReserved_form {rr : List RangeNode} (h : WFRanges rr) : ∃ t s, spellReserved rr = "reserved".toList :: t :: s ∧ IntTok t := by
  obtain ⟨t, s, e, ht⟩ := commaSep_head (f := spellRange) (P := IntTok) h.1 (fun x hx => by
    obtain ⟨lo, hi⟩ := x
    exact ⟨lo, (spellRange ⟨lo, hi⟩).tail, by cases hi <;> rfl, (h.2 _ hx).1⟩)
  exact ⟨t, s ++ [";".toList], by rw [spellReserved, e]; rfl, ht⟩

theorem spellReservedNames_form {ss : List (List Str)} (h : WFNames ss) : ∃ t s, spellReservedNames ss = "reserved".toList :: t :: s ∧ StrTok t := by
  obtain ⟨t, s, e, ht⟩ := commaSep_head (f := id) (P := StrTok) h.1 (fun x hx => by
    obtain ⟨t, q, rfl, ht⟩ := strlit_head (h.2 x hx)
    exact ⟨t, q, rfl, ht⟩)
  exact ⟨t, s ++ [";".toList], by rw [spellReservedNames, e]; rfl, ht⟩

theorem nameReserved : NameTok "reserved".toList := (isNameTok_iff _).1 (by decide)

theorem enumElem_complete {x : RawEnumElem} (h : WFEnumElem x) (r : List Str) : parseEnumElem (spellEnumElem x ++ r) = some (x, r) := by
  cases x with
  | option o => exact orElse_left (as_some (parseOptionStmt_complete o r h trivial))
  | value v =>
    have hc := as_some (f := RawEnumElem.value) (enumValue_complete h r)
    have h1 : parseOptionStmt (spellEnumValue v ++ r) = none := by
      obtain ⟨n, m, i, os⟩ := v
      by_cases hn : n = "option".toList
      · subst hn
        rfl
      · exact optionStmt_none (by simpa [spellEnumValue] using hn)
    exact (orElse_right (as_none h1)).trans (orElse_left hc)
  | reserved rr =>
    have hc := as_some (f := RawEnumElem.reserved) (reserved_complete h r)
    obtain ⟨t, s, e, ht⟩ := spellReserved_form h
    have h1 : parseOptionStmt (spellReserved rr ++ r) = none := optionStmt_none (by simp [spellReserved])
    have h2 : parseEnumValue (spellReserved rr ++ r) = none := by
      rw [e]
      exact enumValue_none nameReserved (by rintro rfl; exact absurd ((isIntTok_iff _).2 ht) (by decide))
    exact (orElse_right (as_none h1)).trans ((orElse_right (as_none h2)).trans (orElse_left hc))
  | reservedNames ss =>
    have hc := as_some (f := RawEnumElem.reservedNames) (reservedNames_complete h r)
    obtain ⟨t, s, e, ht⟩ := spellReservedNames_form h
    have h1 : parseOptionStmt (spellReservedNames ss ++ r) = none := optionStmt_none (by simp [spellReservedNames])
    have h2 : parseEnumValue (spellReservedNames ss ++ r) = none := by
      rw [e]
      exact enumValue_none nameReserved (by rintro rfl; exact absurd ((isStrTok_iff _).2 ht) (by decide))
    have h3 : parseReserved (spellReservedNames ss ++ r) = none := by
      rw [e]
      exact reserved_none_str ht
    exact (orElse_right (as_none h1)).trans ((orElse_right (as_none h2)).trans ((orElse_right (as_none h3)).trans (orElse_left hc)))
  | empty =>
    rw [parseEnumElem, orElse_right (as_none (optionStmt_none (by simp [spellEnumElem]))), orElse_right (as_none (by rfl)),
      orElse_right (as_none (reserved_none (by simp [spellEnumElem]))), orElse_right (as_none (reservedNames_none (by simp [spellEnumElem])))]
    exact as_some (empty_some r)

theorem block_sound {α : Type} {k : Str} {p : Rule α} {sp : α → List Str} {wf : α → Prop} (h : Sound p sp wf) :
    Sound (parseBlock k p) (fun x => spellBlock k x.1 (x.2.flatMap sp)) (fun x => NameTok x.1 ∧ ∀ e ∈ x.2, wf e) := by
  intro ts x r e
  simp only [parseBlock, bind, Option.bind_eq_some_iff, Prod.exists, eat_iff, takeIf_iff, pure, Option.some.injEq, Prod.mk.injEq] at e
  obtain ⟨r1, rfl, n, r2, ⟨rfl, hn⟩, r3, rfl, es, r4, h4, rfl, rfl⟩ := e
  obtain ⟨h5, h6⟩ := manyUntil_sound h _ _ _ _ h4
  exact ⟨by rw [h5]; simp [spellBlock], (isNameTok_iff n).1 hn, h6⟩

theorem length_flatMap {α : Type} (f : α → List Str) : ∀ xs : List α, (∀ x ∈ xs, f x ≠ []) → xs.length ≤ (xs.flatMap f).length
  | [], _ => by simp
  | x :: xs, h => by
    have h1 := length_flatMap f xs (fun z hz => h z (by simp [hz]))
    have h2 := List.length_pos_iff.2 (h x (by simp))
    simp only [List.flatMap_cons, List.length_cons, List.length_append]
    omega

theorem opens_ne {α : Type} {sp : α → List Str} {x : α} (h : Opens sp x) : sp x ≠ [] := by
  obtain ⟨t, r, e, _⟩ := h; rw [e]; simp

theorem many_complete {α : Type} {p : Rule α} {sp : α → List Str} {es : List α} {r : List Str}
    (h : ∀ e ∈ es, Opens sp e ∧ ∀ r', p (sp e ++ r') = some (e, r')) :
    manyUntil p (es.flatMap sp ++ ("}".toList :: r)).length (es.flatMap sp ++ ("}".toList :: r)) = some (es, r) :=
  manyUntil_complete _ es r h (by
    have := length_flatMap sp es (fun e he => opens_ne (h e he).1)
    simp only [List.length_append, List.length_cons]; omega)

theorem block_complete {α : Type} {k n : Str} {p : Rule α} {sp : α → List Str} {es : List α} (hn : NameTok n)
    (h : ∀ e ∈ es, Opens sp e ∧ ∀ r', p (sp e ++ r') = some (e, r')) (r : List Str) :
    parseBlock k p (spellBlock k n (es.flatMap sp) ++ r) = some ((n, es), r) := by
  have := many_complete (r := r) h
  simp only [parseBlock, spellBlock, List.append_assoc, List.cons_append, List.nil_append, bind, eat_self, Option.bind_some,
    takeIf_self _ ((isNameTok_iff n).2 hn), this, pure]

theorem name_open {n : Str} (h : NameTok n) : n ≠ "}".toList := name_ne h (c := '}') rfl []

theorem enumElem_opens {x : RawEnumElem} (h : WFEnumElem x) : Opens spellEnumElem x := by
  cases x with
  | value v => exact ⟨v.name, _, rfl, name_open h.1⟩
  | option | reserved | reservedNames | empty => exact ⟨_, _, rfl, by decide⟩

theorem enum_sound : Sound parseEnum spellEnum WFEnum := (block_sound enumElem_sound).as (fun _ => rfl) fun _ h => h

theorem enum_complete {e : RawEnum} (h : WFEnum e) (r : List Str) : parseEnum (spellEnum e ++ r) = some (e, r) :=
  as_some (block_complete h.1 (fun x hx => ⟨enumElem_opens (h.2 x hx), fun r' => enumElem_complete (h.2 x hx) r'⟩) r)

end Verif.Lemmas.Gen
