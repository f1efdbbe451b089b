import Verif.Lemmas.Gen.GrammarRules
/-! Helper lemmas: messages, services and files. -/
namespace Verif.Lemmas.Gen
open Verif.Model.Gen Verif.Spec.Gen

/-! ## Oneofs -/

theorem oneofField_sound : Sound (parseFieldRest none) spellField WFOneofField := by
  intro ts f r h
  obtain ⟨h4, h5, h6, h7⟩ := fieldRest_sound h
  refine ⟨?_, h7, h6, h5⟩
  rw [spellField_plain h6, h5, h4]
  simp [spellLabel]

theorem oneofElem_sound : Sound parseOneofElem spellOneofElem WFOneofElem :=
  .orElse (parseOptionStmt_sound.as (fun _ => rfl) fun _ h => h) <| .orElse (oneofField_sound.as (fun _ => rfl) fun _ h => h) <|
    empty_sound.as (fun _ => rfl) fun _ h => h

theorem spellOneof_eq {f : RawField} (h : WFOneofField f) (r : List Str) : spellField f ++ r = f.typ ++ (spellEnd f ++ r) := by
  rw [spellField_plain h.2.1, h.2.2]; simp [spellLabel]

theorem int_num {s : Str} (h : IntTok s) : isNumTok s = true := (isNumTok_iff s).2 (.inl h)

theorem takeConst_int {n : Nat} {v : Str} {s : List Str} (h : IntTok v) : takeConst (n + 1) (v :: s) = some ([v], s) := by
  rw [takeConst, if_neg (by simp [int_notName h]), if_pos (int_num h)]

/-- `option name = 1 [` is no option. -/
theorem optionStmt_none_field {f : RawField} (h : WFOneofField f) (hp : ProperOneofElem (.field f)) (r : List Str) :
    parseOptionStmt (f.typ ++ (spellEnd f ++ r)) = none := by
  cases ht : f.typ with
  | nil => rw [List.nil_append]; obtain ⟨t, q, e, _⟩ := typeToks_head h.1.1; rw [ht] at e; cases e
  | cons t q =>
    by_cases hto : t = "option".toList
    · subst hto
      have htt := h.1.1
      rw [ht] at htt
      cases htt with
      | plain _ hpath =>
        cases hpath with
        | one _ _ =>
          have hos : f.options ≠ [] := fun hos => hp ⟨ht, hos⟩
          have hname : takeOptName (f.name :: "=".toList :: f.number :: (spellBrackets f.options ++ (";".toList :: r))) =
              some ([f.name], "=".toList :: f.number :: (spellBrackets f.options ++ (";".toList :: r))) :=
            takeOptName_complete [f.name] _ (.plain _ (.one _ h.1.2.1)) (by simp)
          have hb : spellBrackets f.options ++ (";".toList :: r) = "[".toList :: ((commaSep spellOption f.options ++ ["]".toList]) ++ (";".toList :: r)) := by
            rw [spellBrackets, if_neg hos]; rfl
          have hc := fun n => takeConst_int (n := n) (s := spellBrackets f.options ++ (";".toList :: r)) h.1.2.2.1
          simp only [parseOptionStmt, parseOption, spellEnd, List.append_assoc, List.cons_append, List.nil_append, bind, eat_self, Option.bind_some, hname,
            List.length_cons, hc, pure]
          rw [hb, eat_ne _ (by decide)]
          rfl
        | dot _ p hn hp' => rfl
    · exact optionStmt_none (by simpa using hto)

theorem oneofElem_complete {x : RawOneofElem} (h : WFOneofElem x) (hp : ProperOneofElem x) (r : List Str) :
    parseOneofElem (spellOneofElem x ++ r) = some (x, r) := by
  cases x with
  | option o => exact orElse_left (as_some (parseOptionStmt_complete o r h trivial))
  | field f =>
    have hr := fieldRest_complete h.1 h.2.1 r
    rw [h.2.2] at hr
    have h1 := optionStmt_none_field h hp r
    show parseOneofElem (spellField f ++ r) = _
    rw [spellOneof_eq h]
    exact (orElse_right (as_none h1)).trans (orElse_left (as_some hr))
  | empty => rfl

theorem type_opens {f : RawField} (h : TypeToks f.typ) {t : Str} {q : List Str} (e : f.typ = t :: q) : t ≠ "}".toList := by
  obtain ⟨t', q', e', ht⟩ := typeToks_head h
  rw [e] at e'
  cases e'
  rcases ht with ht | ht
  · exact name_open ht
  · rw [ht]; decide

theorem field_opens {f : RawField} (h : WFFieldEnd f) : Opens spellField f := by
  obtain ⟨t, q, e, ht⟩ := typeToks_head h.1
  rw [Opens, spellField]
  match f.label with
  | some .optional => exact ⟨_, _, rfl, by decide⟩
  | some .required => exact ⟨_, _, rfl, by decide⟩
  | some .repeated => exact ⟨_, _, rfl, by decide⟩
  | none =>
    match f.key with
    | some k => exact ⟨_, _, rfl, by decide⟩
    | none =>
      refine ⟨t, q ++ (f.name :: "=".toList :: f.number :: (spellBrackets f.options ++ [";".toList])), ?_, ?_⟩
      · simp [spellLabel, e]
      · exact type_opens h.1 e

theorem oneofElem_opens {x : RawOneofElem} (h : WFOneofElem x) : Opens spellOneofElem x := by
  cases x with
  | field f => exact field_opens h.1
  | option | empty => exact ⟨_, _, rfl, by decide⟩

/-! ## Extensions -/

theorem extendElem_sound : Sound parseExtendElem spellExtendElem (fun x => ∀ f, x = some f → WFField f) :=
  .orElse (fieldStmt_sound.as (fun _ => rfl) fun _ h => fun _ e => by cases e; exact h) <| empty_sound.as (fun _ => rfl) fun _ h => fun _ e => by cases e

theorem extendElem_complete {x : Option RawField} (h : ∀ f, x = some f → WFField f ∧ ProperField f) (r : List Str) :
    parseExtendElem (spellExtendElem x ++ r) = some (x, r) := by
  cases x with
  | some f => exact orElse_left (as_some (fieldStmt_complete (h f rfl).1 (h f rfl).2 r))
  | none => exact (orElse_right (as_none (fieldStmt_none_semi r))).trans (as_some (empty_some r))

theorem extendElem_opens {x : Option RawField} (h : ∀ f, x = some f → WFField f) : Opens spellExtendElem x := by
  cases x with
  | some f => exact field_opens (h f rfl).1
  | none => exact ⟨_, _, rfl, by decide⟩

theorem extend_sound : Sound parseExtend (fun x => spellExtend x.1 x.2) (fun x => WFExtend x.1 x.2) := by
  intro ts x r h
  simp only [parseExtend, bind, Option.bind_eq_some_iff, Prod.exists, eat_iff, pure, Option.some.injEq, Prod.mk.injEq] at h
  obtain ⟨r1, rfl, t, r2, h2, r3, rfl, fs, r4, h4, rfl, rfl⟩ := h
  obtain ⟨h5, h6⟩ := takeType_sound _ _ _ h2
  obtain ⟨h7, h8⟩ := manyUntil_sound extendElem_sound _ _ _ _ h4
  exact ⟨by rw [h5, h7]; simp [spellExtend], h6, fun f hf => h8 _ hf f rfl⟩

theorem extend_complete {t : List Str} {fs : List (Option RawField)} (h : WFExtend t fs) (hp : ProperExtend fs) (r : List Str) :
    parseExtend (spellExtend t fs ++ r) = some ((t, fs), r) := by
  have hf := many_complete (p := parseExtendElem) (sp := spellExtendElem) (es := fs) (r := r) (fun x hx =>
    ⟨extendElem_opens fun f e => h.2 f (e ▸ hx), fun r' => extendElem_complete (fun f e => ⟨h.2 f (e ▸ hx), hp f (e ▸ hx)⟩) r'⟩)
  have ht := takeType_complete t ("{".toList :: (fs.flatMap spellExtendElem ++ ("}".toList :: r))) h.1 (by simp)
  rw [id_eq] at ht
  simp only [parseExtend, spellExtend, List.append_assoc, List.cons_append, List.nil_append, bind, eat_self, Option.bind_some, ht, hf, pure]

/-! ## Messages -/

theorem spellElems_eq : ∀ es : List RawElem, spellElems es = es.flatMap spellElem
  | [] => rfl
  | e :: es => by rw [spellElems, spellElems_eq es]; rfl

theorem wfElems_iff : ∀ es : List RawElem, WFElems es ↔ ∀ e ∈ es, WFElem e
  | [] => by simp [WFElems]
  | e :: es => by rw [WFElems, wfElems_iff es]; simp

theorem properElems_iff : ∀ es : List RawElem, ProperElems es ↔ ∀ e ∈ es, ProperElem e
  | [] => by simp [ProperElems]
  | e :: es => by rw [ProperElems, properElems_iff es]; simp

theorem elem_sound : ∀ n, Sound (parseElem n) spellElem WFElem
  | 0 => fun _ _ _ h => by cases h
  | n + 1 =>
    .orElse (fieldStmt_sound.as (fun _ => rfl) fun _ h => h) <|
    .orElse (enum_sound.as (fun _ => rfl) fun _ h => h) <|
    .orElse ((block_sound (elem_sound n)).as (fun x => by rw [spellElem, spellElems_eq]) fun x h => ⟨h.1, (wfElems_iff _).2 h.2⟩) <|
    .orElse (extend_sound.as (fun _ => rfl) fun _ h => h) <|
    .orElse (parseOptionStmt_sound.as (fun _ => rfl) fun _ h => h) <|
    .orElse ((block_sound oneofElem_sound).as (fun _ => rfl) fun _ h => h) <|
    .orElse (mapField_sound.as (fun _ => rfl) fun _ h => h) <|
    .orElse (reserved_sound.as (fun _ => rfl) fun _ h => h) <|
    .orElse (reservedNames_sound.as (fun _ => rfl) fun _ h => h) <|
    .orElse (extensions_sound.as (fun _ => rfl) fun _ h => h) <|
    empty_sound.as (fun _ => rfl) fun _ h => h

theorem name_of {s : Str} (h : isNameTok s = true) : NameTok s := (isNameTok_iff s).1 h

theorem fieldStmt_none_block {k n : Str} {b r : List Str} (hk : NameTok k) (h1 : k ≠ "optional".toList) (h3 : k ≠ "repeated".toList) (hn : NameTok n) :
    parseFieldStmt (spellBlock k n b ++ r) = none := fieldStmt_none_third hk h1 h3 hn (by decide)

theorem fieldStmt_none_ext {t : List Str} {fs : List (Option RawField)} (h : TypeToks t) (r : List Str) : parseFieldStmt (spellExtend t fs ++ r) = none := by
  have hk : NameTok "extend".toList := name_of (by decide)
  rw [spellExtend]
  cases h with
  | plain _ hp =>
    cases hp with
    | one n hn => exact fieldStmt_none_third hk (by decide) (by decide) hn (by decide)
    | dot n p hn hp => exact fieldStmt_none_third hk (by decide) (by decide) hn (by decide)
  | rooted p hp =>
    have e : "extend".toList :: (".".toList :: p ++ "{".toList :: (fs.flatMap spellExtendElem ++ ["}".toList])) ++ r =
        "extend".toList :: ".".toList :: (p ++ "{".toList :: (fs.flatMap spellExtendElem ++ ["}".toList] ++ r)) := by simp
    rw [e]
    exact fieldStmt_none_extend hp

theorem const_int {c : List Str} (h : ConstToks c) {v : Str} {s : List Str} (e : c = v :: s) (hv : IntTok v) : s = [] := by
  cases h with
  | path _ hp =>
    obtain ⟨n, q, e', hn⟩ := path_head hp
    rw [e] at e'
    cases e'
    exact absurd ((isNameTok_iff _).2 hn) (by simp [int_notName hv])
  | num => cases e; rfl
  | signed g x hs hx =>
    cases e
    have := (isIntTok_iff v).2 hv
    rcases hs with rfl | rfl <;> exact absurd this (by decide)
  | str _ hs =>
    subst e
    exact absurd ((isIntTok_iff _).2 hv) (by simp [str_notInt (hs.2 v (by simp))])
  | block es hs =>
    cases e
    exact absurd ((isIntTok_iff _).2 hv) (by decide)

theorem fieldStmt_none_option {o : RawOption} (h : WFOption o) (hp : ProperMsgOption o) (r : List Str) : parseFieldStmt (spellOptionStmt o ++ r) = none := by
  have hk : NameTok "option".toList := name_of (by decide)
  obtain ⟨n, v⟩ := o
  obtain ⟨h1, h2⟩ := h
  dsimp only at h1 h2
  rw [spellOptionStmt, spellOption]
  dsimp only
  cases h1 with
  | plain _ hpath =>
    cases hpath with
    | one n hn =>
      cases v with
      | nil => exact absurd rfl (const_ne h2)
      | cons w s =>
        refine fieldStmt_none_fourth hk (by decide) (by decide) hn ?_
        intro hw
        have := const_int h2 rfl hw
        subst this
        exact hp ⟨n, w, rfl, rfl, hw⟩
    | dot n p hn hp => exact fieldStmt_none_third hk (by decide) (by decide) hn (by decide)
  | ext p hpath => exact fieldStmt_none_second hk (by decide) (by decide) (by decide) (by decide)
  | extDot p q hpath hq => exact fieldStmt_none_second hk (by decide) (by decide) (by decide) (by decide)

theorem spellMap_form {f : RawField} (h : WFMapField f) : ∃ s, spellField f = "map".toList :: "<".toList :: s := by
  obtain ⟨_, h2, k, h3, _⟩ := h
  rw [spellField, h2, h3]
  exact ⟨_, rfl⟩

theorem spellExtensions_form {rr : List RangeNode} (os : List RawOption) (h : WFRanges rr) :
    ∃ t s, spellExtensions rr os = "extensions".toList :: t :: s ∧ IntTok t := by
  obtain ⟨t, s, e, ht⟩ := commaSep_head (f := spellRange) (P := IntTok) h.1 (fun x hx => by
    obtain ⟨lo, hi⟩ := x
    exact ⟨lo, (spellRange ⟨lo, hi⟩).tail, by cases hi <;> rfl, (h.2 _ hx).1⟩)
  exact ⟨t, s ++ (spellBrackets os ++ [";".toList]), by rw [spellExtensions, e]; rfl, ht⟩

theorem elem_opens {e : RawElem} (h : WFElem e) : Opens spellElem e := by
  cases e with
  | field f => exact field_opens h.1
  | mapField f => exact field_opens h.1
  | empty => exact ⟨_, _, by rw [spellElem], by decide⟩
  | enum | message | extend | option | oneof | reserved | reservedNames | extensions => exact ⟨_, _, by rw [spellElem]; rfl, by decide⟩

theorem length_elem {es : List RawElem} {e : RawElem} (h : e ∈ es) : (spellElem e).length ≤ (es.flatMap spellElem).length := by
  induction es with
  | nil => cases h
  | cons x es ih =>
    rw [List.flatMap_cons, List.length_append]
    rcases List.mem_cons.1 h with rfl | h
    · omega
    · have := ih h; omega

/-- What is written as an element of a message is read as it. -/
theorem elem_complete : ∀ (n : Nat) {e : RawElem}, WFElem e → ProperElem e → (spellElem e).length ≤ n → ∀ r, parseElem n (spellElem e ++ r) = some (e, r)
  | 0, e, h, _, hn, _ => by
    have := opens_ne (elem_opens h)
    exact absurd (List.length_eq_zero_iff.1 (Nat.le_zero.1 hn)) this
  | n + 1, .field f, h, hp, _, r => by
    rw [spellElem]
    exact orElse_left (as_some (fieldStmt_complete h hp r))
  | n + 1, .enum e, h, _, _, r => by
    rw [spellElem]
    have h1 : parseFieldStmt (spellEnum e ++ r) = none := fieldStmt_none_block (name_of (by decide)) (by decide) (by decide) h.1
    exact (orElse_right (as_none h1)).trans (orElse_left (as_some (enum_complete h r)))
  | n + 1, .message m es, h, hp, hn, r => by
    rw [spellElem, spellElems_eq] at hn
    rw [WFElem] at h
    rw [ProperElem] at hp
    obtain ⟨hm, hes⟩ := h
    rw [wfElems_iff] at hes
    rw [properElems_iff] at hp
    rw [spellElem, spellElems_eq]
    have hc := block_complete (k := "message".toList) (p := parseElem n) (sp := spellElem) (es := es) hm (fun x hx =>
      ⟨elem_opens (hes x hx), fun r' => elem_complete n (hes x hx) (hp x hx) (by
        have := length_elem hx
        simp only [spellBlock, List.length_cons, List.length_append] at hn
        omega) r'⟩) r
    have h1 : parseFieldStmt (spellBlock "message".toList m (es.flatMap spellElem) ++ r) = none :=
      fieldStmt_none_block (name_of (by decide)) (by decide) (by decide) hm
    have h2 : parseEnum (spellBlock "message".toList m (es.flatMap spellElem) ++ r) = none := enum_none (by simp [spellBlock])
    exact (orElse_right (as_none h1)).trans ((orElse_right (as_none h2)).trans (orElse_left (as_some hc)))
  | n + 1, .extend t fs, h, hp, _, r => by
    rw [spellElem]
    have h1 := fieldStmt_none_ext (fs := fs) h.1 r
    have h2 : parseEnum (spellExtend t fs ++ r) = none := enum_none (by simp [spellExtend])
    have h3 : parseBlock "message".toList (parseElem n) (spellExtend t fs ++ r) = none := block_none (by simp [spellExtend])
    exact (orElse_right (as_none h1)).trans ((orElse_right (as_none h2)).trans ((orElse_right (as_none h3)).trans
      (orElse_left (as_some (extend_complete h hp r)))))
  | n + 1, .option o, h, hp, _, r => by
    rw [spellElem]
    have h1 := fieldStmt_none_option h hp r
    have hh : (spellOptionStmt o ++ r).head? = some "option".toList := rfl
    have h2 : parseEnum (spellOptionStmt o ++ r) = none := enum_none (by rw [hh]; decide)
    have h3 : parseBlock "message".toList (parseElem n) (spellOptionStmt o ++ r) = none := block_none (by rw [hh]; decide)
    have h4 : parseExtend (spellOptionStmt o ++ r) = none := extend_none (by rw [hh]; decide)
    exact (orElse_right (as_none h1)).trans ((orElse_right (as_none h2)).trans ((orElse_right (as_none h3)).trans ((orElse_right (as_none h4)).trans
      (orElse_left (as_some (parseOptionStmt_complete o r h trivial))))))
  | n + 1, .oneof m es, h, hp, _, r => by
    rw [spellElem]
    have hc := block_complete (k := "oneof".toList) (p := parseOneofElem) (sp := spellOneofElem) (es := es) h.1 (fun x hx =>
      ⟨oneofElem_opens (h.2 x hx), fun r' => oneofElem_complete (h.2 x hx) (hp x hx) r'⟩) r
    have hh : (spellBlock "oneof".toList m (es.flatMap spellOneofElem) ++ r).head? = some "oneof".toList := rfl
    have h1 : parseFieldStmt (spellBlock "oneof".toList m (es.flatMap spellOneofElem) ++ r) = none :=
      fieldStmt_none_block (name_of (by decide)) (by decide) (by decide) h.1
    exact (orElse_right (as_none h1)).trans ((orElse_right (as_none (enum_none (by rw [hh]; decide)))).trans
      ((orElse_right (as_none (block_none (by rw [hh]; decide)))).trans ((orElse_right (as_none (extend_none (by rw [hh]; decide)))).trans
      ((orElse_right (as_none (optionStmt_none (by rw [hh]; decide)))).trans (orElse_left (as_some hc))))))
  | n + 1, .mapField f, h, _, _, r => by
    rw [spellElem]
    have hc := mapField_complete h r
    obtain ⟨s, e⟩ := spellMap_form h
    have hh : (spellField f ++ r).head? = some "map".toList := by rw [e]; rfl
    have h1 : parseFieldStmt (spellField f ++ r) = none := by
      rw [e]; exact fieldStmt_none_second (name_of (by decide)) (by decide) (by decide) (by decide) (by decide)
    exact (orElse_right (as_none h1)).trans ((orElse_right (as_none (enum_none (by rw [hh]; decide)))).trans
      ((orElse_right (as_none (block_none (by rw [hh]; decide)))).trans ((orElse_right (as_none (extend_none (by rw [hh]; decide)))).trans
      ((orElse_right (as_none (optionStmt_none (by rw [hh]; decide)))).trans ((orElse_right (as_none (block_none (by rw [hh]; decide)))).trans
      (orElse_left (as_some hc)))))))
  | n + 1, .reserved rr, h, _, _, r => by
    rw [spellElem]
    have hc := reserved_complete h r
    obtain ⟨t, s, e, ht⟩ := spellReserved_form h
    have hh : (spellReserved rr ++ r).head? = some "reserved".toList := rfl
    have h1 : parseFieldStmt (spellReserved rr ++ r) = none := by
      rw [e]
      exact fieldStmt_none_second (name_of (by decide)) (by decide) (by decide)
        (by rintro rfl; exact absurd ((isIntTok_iff _).2 ht) (by decide)) (int_notName ht)
    exact (orElse_right (as_none h1)).trans ((orElse_right (as_none (enum_none (by rw [hh]; decide)))).trans
      ((orElse_right (as_none (block_none (by rw [hh]; decide)))).trans ((orElse_right (as_none (extend_none (by rw [hh]; decide)))).trans
      ((orElse_right (as_none (optionStmt_none (by rw [hh]; decide)))).trans ((orElse_right (as_none (block_none (by rw [hh]; decide)))).trans
      ((orElse_right (as_none (mapField_none (by rw [hh]; decide)))).trans (orElse_left (as_some hc))))))))
  | n + 1, .reservedNames ss, h, _, _, r => by
    rw [spellElem]
    have hc := reservedNames_complete h r
    obtain ⟨t, s, e, ht⟩ := spellReservedNames_form h
    have hh : (spellReservedNames ss ++ r).head? = some "reserved".toList := rfl
    have h1 : parseFieldStmt (spellReservedNames ss ++ r) = none := by
      rw [e]
      exact fieldStmt_none_second (name_of (by decide)) (by decide) (by decide)
        (by rintro rfl; exact absurd ((isStrTok_iff _).2 ht) (by decide)) (str_notName ((isStrTok_iff _).2 ht))
    have h2 : parseReserved (spellReservedNames ss ++ r) = none := by rw [e]; exact reserved_none_str ht
    exact (orElse_right (as_none h1)).trans ((orElse_right (as_none (enum_none (by rw [hh]; decide)))).trans
      ((orElse_right (as_none (block_none (by rw [hh]; decide)))).trans ((orElse_right (as_none (extend_none (by rw [hh]; decide)))).trans
      ((orElse_right (as_none (optionStmt_none (by rw [hh]; decide)))).trans ((orElse_right (as_none (block_none (by rw [hh]; decide)))).trans
      ((orElse_right (as_none (mapField_none (by rw [hh]; decide)))).trans ((orElse_right (as_none h2)).trans (orElse_left (as_some hc)))))))))
  | n + 1, .extensions rr os, h, _, _, r => by
    rw [spellElem]
    have hc := extensions_complete h.1 h.2 r
    obtain ⟨t, s, e, ht⟩ := spellExtensions_form os h.1
    have hh : (spellExtensions rr os ++ r).head? = some "extensions".toList := rfl
    have h1 : parseFieldStmt (spellExtensions rr os ++ r) = none := by
      rw [e]
      exact fieldStmt_none_second (name_of (by decide)) (by decide) (by decide)
        (by rintro rfl; exact absurd ((isIntTok_iff _).2 ht) (by decide)) (int_notName ht)
    exact (orElse_right (as_none h1)).trans ((orElse_right (as_none (enum_none (by rw [hh]; decide)))).trans
      ((orElse_right (as_none (block_none (by rw [hh]; decide)))).trans ((orElse_right (as_none (extend_none (by rw [hh]; decide)))).trans
      ((orElse_right (as_none (optionStmt_none (by rw [hh]; decide)))).trans ((orElse_right (as_none (block_none (by rw [hh]; decide)))).trans
      ((orElse_right (as_none (mapField_none (by rw [hh]; decide)))).trans ((orElse_right (as_none (reserved_none (by rw [hh]; decide)))).trans
      ((orElse_right (as_none (reservedNames_none (by rw [hh]; decide)))).trans (orElse_left (as_some hc))))))))))
  | n + 1, .empty, _, _, _, r => by
    have hh : (";".toList :: r).head? = some ";".toList := rfl
    exact (orElse_right (as_none (fieldStmt_none_semi r))).trans ((orElse_right (as_none (enum_none (by rw [hh]; decide)))).trans
      ((orElse_right (as_none (block_none (by rw [hh]; decide)))).trans ((orElse_right (as_none (extend_none (by rw [hh]; decide)))).trans
      ((orElse_right (as_none (optionStmt_none (by rw [hh]; decide)))).trans ((orElse_right (as_none (block_none (by rw [hh]; decide)))).trans
      ((orElse_right (as_none (mapField_none (by rw [hh]; decide)))).trans ((orElse_right (as_none (reserved_none (by rw [hh]; decide)))).trans
      ((orElse_right (as_none (reservedNames_none (by rw [hh]; decide)))).trans ((orElse_right (as_none (extensions_none (by rw [hh]; decide)))).trans
      (as_some (empty_some r)))))))))))

/-! ## Services -/

theorem rpcType_sound : Sound takeRpcType (fun x => spellRpcType x.1 x.2) (fun x => TypeToks x.2) := by
  refine Sound.orElse ?_ ?_
  · intro ts x r h
    simp only [takeStreamed, bind, Option.bind_eq_some_iff, Prod.exists, eat_iff, pure, Option.some.injEq, Prod.mk.injEq] at h
    obtain ⟨r1, rfl, r2, rfl, t, r3, h3, r4, rfl, rfl, rfl⟩ := h
    obtain ⟨h4, h5⟩ := takeType_sound _ _ _ h3
    exact ⟨by rw [h4]; simp [spellRpcType], h5⟩
  · intro ts x r h
    simp only [takeUnary, bind, Option.bind_eq_some_iff, Prod.exists, eat_iff, pure, Option.some.injEq, Prod.mk.injEq] at h
    obtain ⟨r1, rfl, t, r3, h3, r4, rfl, rfl, rfl⟩ := h
    obtain ⟨h4, h5⟩ := takeType_sound _ _ _ h3
    exact ⟨by rw [h4]; simp [spellRpcType], h5⟩

theorem rpcType_complete {b : Bool} {t : List Str} (h : TypeToks t) (hp : ProperRpcType b t) (r : List Str) :
    takeRpcType (spellRpcType b t ++ r) = some ((b, t), r) := by
  have ht := takeType_complete t (")".toList :: r) h (by simp)
  rw [id_eq] at ht
  cases b with
  | true =>
    refine orElse_left ?_
    simp only [takeStreamed, spellRpcType, if_true, List.append_assoc, List.cons_append, List.nil_append, bind, eat_self, Option.bind_some, ht, pure]
  | false =>
    refine (orElse_right ?_).trans ?_
    · obtain ⟨u, q, e, _⟩ := typeToks_head h
      have hq := hp rfl
      subst e
      by_cases hu : u = "stream".toList
      · subst hu
        have := hq q rfl
        subst this
        rfl
      · simp only [takeStreamed, spellRpcType, Bool.false_eq_true, if_false, List.append_assoc, List.cons_append, List.nil_append, bind, eat_self,
          Option.bind_some, eat_ne _ hu, Option.bind_none]
    · simp only [takeUnary, spellRpcType, Bool.false_eq_true, if_false, List.append_assoc, List.cons_append, List.nil_append, bind, eat_self, Option.bind_some,
        ht, pure]

theorem rpcElem_sound : Sound parseRpcElem spellRpcElem (fun x => ∀ o, x = some o → WFOption o) :=
  .orElse (parseOptionStmt_sound.as (fun _ => rfl) fun _ h => fun _ e => by cases e; exact h) <| empty_sound.as (fun _ => rfl) fun _ h => fun _ e => by cases e

theorem rpcElem_complete {x : Option RawOption} (h : ∀ o, x = some o → WFOption o) (r : List Str) : parseRpcElem (spellRpcElem x ++ r) = some (x, r) := by
  cases x with
  | some o => exact orElse_left (as_some (parseOptionStmt_complete o r (h o rfl) trivial))
  | none => exact (orElse_right (as_none (optionStmt_none (by simp [spellRpcElem])))).trans (as_some (empty_some r))

theorem rpcBody_sound : Sound parseRpcBody spellRpcBody (fun x => ∀ es, x = some es → ∀ o, some o ∈ es → WFOption o) := by
  intro ts x r h
  rw [parseRpcBody] at h
  split at h
  · rename_i r1 h1
    rw [eat_iff] at h1
    rw [Rule.as] at h
    split at h
    · cases h
    · rename_i es r2 h2
      cases h
      obtain ⟨h3, h4⟩ := manyUntil_sound rpcElem_sound _ _ _ _ h2
      exact ⟨by rw [h1, h3]; simp [spellRpcBody], fun es' e o ho => by cases e; exact h4 _ ho o rfl⟩
  · exact (empty_sound.as (sp' := spellRpcBody) (wf' := fun x => ∀ es, x = some es → ∀ o, some o ∈ es → WFOption o) (fun _ => rfl)
      fun _ _ => fun _ e => by cases e) _ _ _ h

theorem rpcBody_complete {x : Option (List (Option RawOption))} (h : ∀ es, x = some es → ∀ o, some o ∈ es → WFOption o) (r : List Str) :
    parseRpcBody (spellRpcBody x ++ r) = some (x, r) := by
  cases x with
  | none => rfl
  | some es =>
    have hm := many_complete (p := parseRpcElem) (sp := spellRpcElem) (es := es) (r := r) (fun x hx =>
      ⟨by cases x <;> exact ⟨_, _, rfl, by decide⟩, fun r' => rpcElem_complete (fun o e => h es rfl o (e ▸ hx)) r'⟩)
    have e : spellRpcBody (some es) ++ r = "{".toList :: (es.flatMap spellRpcElem ++ ("}".toList :: r)) := by simp [spellRpcBody]
    rw [e, parseRpcBody, eat_self]
    exact as_some hm

theorem rpc_sound : Sound parseRpc spellRpc WFRpc := by
  intro ts x r h
  simp only [parseRpc, bind, Option.bind_eq_some_iff, Prod.exists, eat_iff, takeIf_iff, pure, Option.some.injEq, Prod.mk.injEq] at h
  obtain ⟨r1, rfl, n, r2, ⟨rfl, hn⟩, b1, t1, r3, h3, r4, rfl, b2, t2, r5, h5, bd, r6, h6, rfl, rfl⟩ := h
  obtain ⟨h7, h8⟩ := rpcType_sound _ _ _ h3
  obtain ⟨h9, h10⟩ := rpcType_sound _ _ _ h5
  obtain ⟨h11, h12⟩ := rpcBody_sound _ _ _ h6
  exact ⟨by rw [h7, h9, h11]; simp [spellRpc], (isNameTok_iff n).1 hn, h8, h10, h12⟩

theorem rpc_complete {x : RawRpc} (h : WFRpc x) (hp : ProperServiceElem (.rpc x)) (r : List Str) : parseRpc (spellRpc x ++ r) = some (x, r) := by
  obtain ⟨h1, h2, h3, h4⟩ := h
  have e1 := rpcType_complete h2 hp.1 ("returns".toList :: (spellRpcType x.returnStream x.ret ++ (spellRpcBody x.body ++ r)))
  have e2 := rpcType_complete h3 hp.2 (spellRpcBody x.body ++ r)
  have e3 := rpcBody_complete h4 r
  simp only [parseRpc, spellRpc, List.append_assoc, List.cons_append, bind, eat_self, Option.bind_some, takeIf_self _ ((isNameTok_iff _).2 h1), e1, e2, e3, pure]

theorem serviceElem_sound : Sound parseServiceElem spellServiceElem WFServiceElem :=
  .orElse (parseOptionStmt_sound.as (fun _ => rfl) fun _ h => h) <| .orElse (rpc_sound.as (fun _ => rfl) fun _ h => h) <|
    empty_sound.as (fun _ => rfl) fun _ h => h

theorem serviceElem_complete {x : RawServiceElem} (h : WFServiceElem x) (hp : ProperServiceElem x) (r : List Str) :
    parseServiceElem (spellServiceElem x ++ r) = some (x, r) := by
  cases x with
  | option o => exact orElse_left (as_some (parseOptionStmt_complete o r h trivial))
  | rpc x => exact (orElse_right (as_none (optionStmt_none (by simp [spellServiceElem, spellRpc])))).trans (orElse_left (as_some (rpc_complete h hp r)))
  | empty => rfl

theorem serviceElem_opens (x : RawServiceElem) : Opens spellServiceElem x := by
  cases x <;> exact ⟨_, _, rfl, by decide⟩

/-! ## Files -/

theorem takeImportKind_eq (ts : List Str) : ts = spellImportKind (takeImportKind ts).1 ++ (takeImportKind ts).2 := by
  cases ts with
  | nil => rfl
  | cons t ts =>
    rw [takeImportKind]
    split
    · rename_i h; rw [h]; rfl
    · split
      · rename_i h; rw [h]; rfl
      · rfl

theorem import_sound : Sound parseImport (fun x => spellTop (.importStmt x.1 x.2)) (fun x => WFTop (.importStmt x.1 x.2)) := by
  intro ts x r h
  simp only [parseImport, bind, Option.bind_eq_some_iff, Prod.exists, eat_iff, pure, Option.some.injEq, Prod.mk.injEq] at h
  obtain ⟨r1, rfl, s, r2, h2, r3, rfl, rfl, rfl⟩ := h
  obtain ⟨h3, h4⟩ := takeStrs_sound _ _ _ h2
  refine ⟨?_, h4⟩
  have := takeImportKind_eq r1
  rw [h3] at this
  simp only [spellTop, List.cons_append, List.append_assoc, List.nil_append]
  rw [← List.append_assoc] at this
  simpa using this

theorem import_complete {k : ImportKind} {p : List Str} (h : StrLitToks p) (r : List Str) :
    parseImport (spellTop (.importStmt k p) ++ r) = some ((k, p), r) := by
  have hs := takeStrs_complete p (";".toList :: r) h (fun t ht => by cases ht; decide)
  rw [id_eq] at hs
  have hk : takeImportKind (spellImportKind k ++ (p ++ (";".toList :: r))) = (k, p ++ (";".toList :: r)) := by
    cases k with
    | weak => rfl
    | «public» => rfl
    | plain =>
      obtain ⟨s, q, rfl, hq⟩ := strlit_head h
      have h1 : s ≠ "weak".toList := by rintro rfl; exact absurd ((isStrTok_iff _).2 hq) (by decide)
      have h2 : s ≠ "public".toList := by rintro rfl; exact absurd ((isStrTok_iff _).2 hq) (by decide)
      show takeImportKind (s :: _) = _
      rw [takeImportKind, if_neg h1, if_neg h2]
      rfl
  simp only [parseImport, spellTop, List.append_assoc, List.cons_append, List.nil_append, bind, eat_self, Option.bind_some, hk, hs, pure]

theorem package_sound : Sound parsePackage (fun x => spellTop (.package x)) (fun x => WFTop (.package x)) := by
  intro ts x r h
  simp only [parsePackage, bind, Option.bind_eq_some_iff, Prod.exists, eat_iff, pure, Option.some.injEq, Prod.mk.injEq] at h
  obtain ⟨r1, rfl, s, r2, h2, r3, rfl, rfl, rfl⟩ := h
  obtain ⟨h3, h4⟩ := takePath_sound _ _ _ h2
  exact ⟨by rw [h3]; simp [spellTop], h4⟩

theorem package_complete {p : List Str} (h : PathToks p) (r : List Str) : parsePackage (spellTop (.package p) ++ r) = some (p, r) := by
  have hs := takePath_complete p (";".toList :: r) h (by simp)
  rw [id_eq] at hs
  simp only [parsePackage, spellTop, List.append_assoc, List.cons_append, List.nil_append, bind, eat_self, Option.bind_some, hs, pure]

theorem top_sound (n : Nat) : Sound (parseTop n) spellTop WFTop :=
  .orElse (import_sound.as (fun _ => rfl) fun _ h => h) <|
  .orElse (package_sound.as (fun _ => rfl) fun _ h => h) <|
  .orElse (parseOptionStmt_sound.as (fun _ => rfl) fun _ h => h) <|
  .orElse ((block_sound (elem_sound n)).as (fun x => by rw [spellTop, spellElems_eq]) fun x h => ⟨h.1, (wfElems_iff _).2 h.2⟩) <|
  .orElse (enum_sound.as (fun _ => rfl) fun _ h => h) <|
  .orElse (extend_sound.as (fun _ => rfl) fun _ h => h) <|
  .orElse ((block_sound serviceElem_sound).as (fun _ => rfl) fun _ h => h) <|
  empty_sound.as (fun _ => rfl) fun _ h => h

theorem top_complete {n : Nat} {e : RawTop} (h : WFTop e) (hp : ProperTop e) (hn : (spellTop e).length ≤ n) (r : List Str) :
    parseTop n (spellTop e ++ r) = some (e, r) := by
  cases e with
  | importStmt k p => exact orElse_left (as_some (f := fun x : ImportKind × List Str => RawTop.importStmt x.1 x.2) (import_complete h r))
  | package p =>
    have hh : (spellTop (.package p) ++ r).head? = some "package".toList := rfl
    exact (orElse_right (as_none (import_none (by rw [hh]; decide)))).trans (orElse_left (as_some (package_complete h r)))
  | option o =>
    have hh : (spellTop (.option o) ++ r).head? = some "option".toList := rfl
    exact (orElse_right (as_none (import_none (by rw [hh]; decide)))).trans ((orElse_right (as_none (package_none (by rw [hh]; decide)))).trans
      (orElse_left (as_some (parseOptionStmt_complete o r h trivial))))
  | message m es =>
    have hh : (spellTop (.message m es) ++ r).head? = some "message".toList := rfl
    have hes := (wfElems_iff es).1 h.2
    have hpe := (properElems_iff es).1 hp
    have e : spellTop (.message m es) = spellBlock "message".toList m (es.flatMap spellElem) := by rw [spellTop, spellElems_eq]
    have hc := block_complete (k := "message".toList) (p := parseElem n) (sp := spellElem) (es := es) h.1 (fun x hx =>
      ⟨elem_opens (hes x hx), fun r' => elem_complete n (hes x hx) (hpe x hx) (by
        have := length_elem hx
        rw [e] at hn
        simp only [spellBlock, List.length_cons, List.length_append] at hn
        omega) r'⟩) r
    rw [← e] at hc
    exact (orElse_right (as_none (import_none (by rw [hh]; decide)))).trans ((orElse_right (as_none (package_none (by rw [hh]; decide)))).trans
      ((orElse_right (as_none (optionStmt_none (by rw [hh]; decide)))).trans
      (orElse_left (as_some (f := fun x : Str × List RawElem => RawTop.message x.1 x.2) hc))))
  | enum e =>
    have hh : (spellTop (.enum e) ++ r).head? = some "enum".toList := rfl
    exact (orElse_right (as_none (import_none (by rw [hh]; decide)))).trans ((orElse_right (as_none (package_none (by rw [hh]; decide)))).trans
      ((orElse_right (as_none (optionStmt_none (by rw [hh]; decide)))).trans ((orElse_right (as_none (block_none (by rw [hh]; decide)))).trans
      (orElse_left (as_some (enum_complete h r))))))
  | extend t fs =>
    have hh : (spellTop (.extend t fs) ++ r).head? = some "extend".toList := rfl
    exact (orElse_right (as_none (import_none (by rw [hh]; decide)))).trans ((orElse_right (as_none (package_none (by rw [hh]; decide)))).trans
      ((orElse_right (as_none (optionStmt_none (by rw [hh]; decide)))).trans ((orElse_right (as_none (block_none (by rw [hh]; decide)))).trans
      ((orElse_right (as_none (enum_none (by rw [hh]; decide)))).trans
      (orElse_left (as_some (f := fun x : List Str × List (Option RawField) => RawTop.extend x.1 x.2) (extend_complete h hp r)))))))
  | service m es =>
    have hh : (spellTop (.service m es) ++ r).head? = some "service".toList := rfl
    have hc := block_complete (k := "service".toList) (p := parseServiceElem) (sp := spellServiceElem) (es := es) h.1 (fun x hx =>
      ⟨serviceElem_opens x, fun r' => serviceElem_complete (h.2 x hx) (hp x hx) r'⟩) r
    exact (orElse_right (as_none (import_none (by rw [hh]; decide)))).trans ((orElse_right (as_none (package_none (by rw [hh]; decide)))).trans
      ((orElse_right (as_none (optionStmt_none (by rw [hh]; decide)))).trans ((orElse_right (as_none (block_none (by rw [hh]; decide)))).trans
      ((orElse_right (as_none (enum_none (by rw [hh]; decide)))).trans ((orElse_right (as_none (extend_none (by rw [hh]; decide)))).trans
      (orElse_left (as_some (f := fun x : Str × List RawServiceElem => RawTop.service x.1 x.2) hc)))))))
  | empty => rfl

theorem edition_sound : Sound parseEdition spellEdition (fun e => StrLitToks e.lit) := by
  intro ts x r h
  simp only [parseEdition, bind, Option.bind_eq_some_iff, Prod.exists, eat_iff, pure, Option.some.injEq, Prod.mk.injEq] at h
  obtain ⟨b, r0, h0, r1, rfl, s, r2, h2, r3, rfl, rfl, rfl⟩ := h
  obtain ⟨h3, h4⟩ := takeStrs_sound _ _ _ h2
  refine ⟨?_, h4⟩
  cases ts with
  | nil => cases h0
  | cons t ts =>
    rw [takeEditionWord] at h0
    split at h0
    · rename_i ht; cases h0; rw [ht, h3]; simp [spellEdition]
    · split at h0
      · rename_i ht; cases h0; rw [ht, h3]; simp [spellEdition]
      · cases h0

theorem edition_complete {e : RawEdition} (h : StrLitToks e.lit) (r : List Str) : parseEdition (spellEdition e ++ r) = some (e, r) := by
  obtain ⟨b, s⟩ := e
  have hs := takeStrs_complete s (";".toList :: r) h (fun t ht => by cases ht; decide)
  rw [id_eq] at hs
  have hw : takeEditionWord ((if b then "edition".toList else "syntax".toList) :: "=".toList :: (s ++ (";".toList :: r))) =
      some (b, "=".toList :: (s ++ (";".toList :: r))) := by cases b <;> rfl
  simp only [parseEdition, spellEdition, List.append_assoc, List.cons_append, List.nil_append, bind, hw, eat_self, Option.bind_some, hs, pure]

theorem top_head (e : RawTop) : ∃ t s, spellTop e = t :: s ∧ t ≠ "syntax".toList ∧ t ≠ "edition".toList := by
  cases e <;> exact ⟨_, _, rfl, by decide, by decide⟩

theorem editionOpt_sound : Sound parseEditionOpt spellEditionOpt (fun x => ∀ e, x = some e → StrLitToks e.lit) :=
  .orElse (edition_sound.as (fun _ => rfl) fun _ h => fun _ e => by cases e; exact h) fun ts x r h => by
    cases h
    exact ⟨rfl, fun _ e => by cases e⟩

theorem editionOpt_complete {x : Option RawEdition} (h : ∀ e, x = some e → StrLitToks e.lit) (es : List RawTop) :
    parseEditionOpt (spellEditionOpt x ++ es.flatMap spellTop) = some (x, es.flatMap spellTop) := by
  cases x with
  | some e => exact orElse_left (as_some (edition_complete (h e rfl) _))
  | none =>
    refine (orElse_right (as_none ?_)).trans rfl
    cases es with
    | nil => rfl
    | cons e es =>
      obtain ⟨t, s, e', h1, h2⟩ := top_head e
      show parseEdition ((spellTop e ++ es.flatMap spellTop)) = none
      rw [e', List.cons_append, parseEdition, takeEditionWord, if_neg h1, if_neg h2]
      rfl

theorem proto_sound {ts : List Str} {p : RawProto} (h : parseProto ts = some p) : ts = spellProto p ∧ WFProto p := by
  simp only [parseProto, bind, Option.bind_eq_some_iff, Prod.exists, pure, Option.some.injEq] at h
  obtain ⟨e, r, h1, es, h2, rfl⟩ := h
  obtain ⟨h3, h4⟩ := editionOpt_sound _ _ _ h1
  obtain ⟨h5, h6⟩ := manyToEnd_sound (top_sound _) _ _ _ h2
  exact ⟨by rw [h3, h5]; rfl, h4, h6⟩

theorem length_top {es : List RawTop} {e : RawTop} (h : e ∈ es) : (spellTop e).length ≤ (es.flatMap spellTop).length := by
  induction es with
  | nil => cases h
  | cons x es ih =>
    rw [List.flatMap_cons, List.length_append]
    rcases List.mem_cons.1 h with rfl | h
    · omega
    · have := ih h; omega

theorem proto_complete {p : RawProto} (h : WFProto p) (hp : ProperProto p) : parseProto (spellProto p) = some p := by
  have h1 := editionOpt_complete h.1 p.elems
  have h2 : manyToEnd (parseTop (p.elems.flatMap spellTop).length) (p.elems.flatMap spellTop).length (p.elems.flatMap spellTop) = some p.elems :=
    manyToEnd_complete _ p.elems (fun e he => ⟨by
      obtain ⟨t, s, e', _⟩ := top_head e
      rw [e']; simp, fun r => top_complete (h.2 e he) (hp e he) (length_top he) r⟩)
      (length_flatMap spellTop p.elems (fun e _ => by
        obtain ⟨t, s, e', _⟩ := top_head e
        rw [e']; simp))
  simp only [parseProto, spellProto, bind, h1, Option.bind_some, h2, pure]

end Verif.Lemmas.Gen
