import Verif.Lemmas.Gen.Reader
/-! Helper lemmas: the trees hold what is written. -/
namespace Verif.Lemmas.Gen
open Verif.Model.Gen Verif.Spec.Gen

theorem num_notQuoted {s : Str} (h : IntTok s ∨ FloatTok s) : s ≠ [] ∧ ¬ Quoted s := by
  have h := (isNumTok_iff s).2 h
  constructor
  · rintro rfl; cases h
  · rintro hq
    cases s with
    | nil => cases h
    | cons c r =>
      have : c = '"' ∨ c = '\'' := by rcases hq with hq | hq <;> (cases hq; simp)
      rcases this with rfl | rfl <;>
        · simp only [isNumTok, Bool.or_eq_true, Bool.and_eq_true, beq_iff_eq] at h
          rcases h with (((h | h) | h) | h)
          · exact absurd h.1 (by decide)
          · exact absurd h.1.1 (by decide)
          · cases h
          · cases h

theorem name_notQuoted {s : Str} (h : NameTok s) : s ≠ [] ∧ ¬ Quoted s := by
  constructor
  · rintro rfl
    obtain ⟨⟨c, r, e, _⟩, _⟩ := h
    cases e
  · rintro hq
    cases s with
    | nil => rcases hq with hq | hq <;> cases hq
    | cons c r =>
      have := name_ne h (c := c)
      rcases hq with hq | hq <;> (cases hq; exact this rfl r rfl)

theorem const_head {ts : List Str} (h : ConstToks ts) : ∃ t r, ts = t :: r ∧ t ≠ [] ∧ (Quoted t → StrTok t) := by
  cases h with
  | path p hp =>
    obtain ⟨n, q, rfl, hn⟩ := path_head hp
    exact ⟨n, q, rfl, (name_notQuoted hn).1, fun h => absurd h (name_notQuoted hn).2⟩
  | num s hs => exact ⟨s, [], rfl, (num_notQuoted hs).1, fun h => absurd h (num_notQuoted hs).2⟩
  | signed sign s hsign hs =>
    refine ⟨sign, [s], rfl, ?_, ?_⟩
    · rcases hsign with rfl | rfl <;> decide
    · rintro (h | h) <;> rcases hsign with rfl | rfl <;> cases h
  | str _ hs =>
    cases ts with
    | nil => exact absurd rfl hs.1
    | cons t r =>
      have ht := hs.2 t (by simp)
      refine ⟨t, r, rfl, ?_, fun _ => ht⟩
      obtain ⟨q, r, rfl, _⟩ := ht
      exact List.cons_ne_nil _ _
  | block es he =>
    refine ⟨_, _, rfl, by decide, ?_⟩
    rintro (h | h) <;> cases h

theorem unmarshalConst_is {ts : List Str} (h : ConstToks ts) (hs : SimpleConst ts) : ConstIs ts (unmarshalConst ts.flatten) := by
  obtain ⟨t, r, rfl, hne, hq⟩ := const_head h
  by_cases hQ : Quoted t
  · obtain ⟨rfl, hu⟩ := hs t r rfl hQ
    have : unmarshalConst [t].flatten = unmarshalChars t := by
      cases t with
      | nil => exact absurd rfl hne
      | cons c s =>
        have : c = '\'' ∨ c = '"' := by rcases hQ with hQ | hQ <;> (cases hQ; simp)
        simp only [List.flatten_cons, List.flatten_nil, List.append_nil, unmarshalConst, if_pos this]
    rw [this]
    exact unmarshalChars_is (hq hQ) hu
  · cases t with
    | nil => exact absurd rfl hne
    | cons c s =>
      have : ¬ (c = '\'' ∨ c = '"') := by
        rintro (rfl | rfl)
        · exact hQ (.inr rfl)
        · exact hQ (.inl rfl)
      have e : unmarshalConst ((c :: s) :: r).flatten = some ((c :: s) :: r).flatten := by
        simp only [List.flatten_cons, List.cons_append, unmarshalConst, if_neg this]
      rw [e]
      refine .plain _ ?_
      intro t ht
      simp only [List.head?_cons, Option.mem_def, Option.some.injEq] at ht
      rw [← ht]
      exact hQ

theorem readOption_is {o : RawOption} (h : WFOption o) (hs : SimpleConst o.value) : OptionReads o (readOption o) :=
  ⟨rfl, unmarshalConst_is h.2 hs⟩

theorem all2_map {α β : Type} {R : α → β → Prop} {f : α → β} : ∀ {l : List α}, (∀ x ∈ l, R x (f x)) → All2 R l (l.map f)
  | [], _ => .nil
  | x :: xs, h => .cons (h x (by simp)) (all2_map fun y hy => h y (List.mem_cons_of_mem _ hy))

theorem readOptions_are {os : List RawOption} (h : ∀ o ∈ os, WFOption o) (hs : ∀ c ∈ optionsConsts os, SimpleConst c) : All2 OptionReads os (os.map readOption) :=
  all2_map fun o ho => readOption_is (h o ho) (hs _ (List.mem_map.2 ⟨o, ho, rfl⟩))

/-- The same for the strings of editions and import statements. -/
theorem strLit_is {ts : List Str} (h : StrLitToks ts) (hs : SimpleConst ts) : ConstIs ts (unmarshalChars ts.flatten) := by
  obtain ⟨hne, ht⟩ := h
  cases ts with
  | nil => exact absurd rfl hne
  | cons t r =>
    have ht' := ht t (by simp)
    obtain ⟨rfl, hu⟩ := hs t r rfl (strTok_quoted ht')
    have : [t].flatten = t := by simp
    rw [this]
    exact unmarshalChars_is ht' hu

/-! ## Parts -/

section
variable {toks : List Tok}

theorem readField_is {f : RawField} (h : WFFieldEnd f) (hs : ∀ c ∈ optionsConsts f.options, SimpleConst c) (c : List Nat) (k : Nat) :
    FieldReads f (readField toks c k f).1 := ⟨rfl, rfl, rfl, rfl, rfl, readOptions_are h.2.2.2 hs⟩

theorem readMany_is {α β : Type} {width : α → Nat} {read : List Nat → Nat → α → β × List Nat} {R : α → β → Prop} :
    ∀ {l : List α}, (∀ x ∈ l, ∀ c k, R x (read c k x).1) → ∀ c k, All2 R l (readMany width read c k l).1
  | [], _, _, _ => .nil
  | x :: _, h, c, k => .cons (h x (by simp) c k) (readMany_is (fun y hy => h y (List.mem_cons_of_mem _ hy)) _ _)

theorem readEnumElem_is {e : RawEnumElem} (h : WFEnumElem e) (hs : ∀ c ∈ enumElemConsts e, SimpleConst c) (c : List Nat) (k : Nat) :
    EnumElemReads e (readEnumElem toks c k e).1 := by
  cases e with
  | option o => exact .option (readOption_is h (hs _ (by simp [enumElemConsts])))
  | value v => exact .value ⟨rfl, rfl, rfl, readOptions_are h.2.2 hs⟩
  | reserved rr => exact .reserved rr
  | reservedNames ss => exact .reservedNames ss
  | empty => exact .empty

theorem readEnum_is {e : RawEnum} (h : WFEnum e) (hs : ∀ c ∈ e.elems.flatMap enumElemConsts, SimpleConst c) (c : List Nat) (k : Nat) :
    EnumReads e (readEnum toks c k e).1 :=
  ⟨rfl, readMany_is (fun x hx c k => readEnumElem_is (h.2 x hx) (fun y hy => hs y (List.mem_flatMap.2 ⟨x, hx, hy⟩)) c k) _ _⟩

theorem readOneofElem_is {e : RawOneofElem} (h : WFOneofElem e) (hs : ∀ c ∈ oneofElemConsts e, SimpleConst c) (c : List Nat) (k : Nat) :
    OneofElemReads e (readOneofElem toks c k e).1 := by
  cases e with
  | option o => exact .option (readOption_is h (hs _ (by simp [oneofElemConsts])))
  | field f => exact .field (readField_is h.1 hs c k)
  | empty => exact .empty

theorem readExtend_is : ∀ {fs : List (Option RawField)}, (∀ f, some f ∈ fs → WFField f) → (∀ c ∈ extendConsts fs, SimpleConst c) →
    All2 FieldReads (fs.filterMap id) (readExtendFields fs)
  | [], _, _ => .nil
  | none :: fs, h, hs => readExtend_is (fs := fs) (fun f hf => h f (List.mem_cons_of_mem _ hf)) hs
  | some f :: fs, h, hs => by
    have e : extendConsts (some f :: fs) = optionsConsts f.options ++ extendConsts fs := by simp [extendConsts]
    rw [e] at hs
    exact .cons ⟨rfl, rfl, rfl, rfl, rfl, readOptions_are (h f (by simp)).1.2.2.2 fun c hc => hs c (List.mem_append_left _ hc)⟩
      (readExtend_is (fun g hg => h g (List.mem_cons_of_mem _ hg)) fun c hc => hs c (List.mem_append_right _ hc))

mutual
theorem readElem_is : ∀ {e : RawElem}, WFElem e → (∀ c ∈ elemConsts e, SimpleConst c) → ∀ c k, ElemReads e (readElem toks c k e).1
  | .field f, h, hs, c, k => by
    rw [WFElem] at h; rw [elemConsts] at hs; rw [readElem]
    exact .field (readField_is h.1 hs c k)
  | .enum e, h, hs, c, k => by
    rw [WFElem] at h; rw [elemConsts] at hs; rw [readElem]
    exact .enum (readEnum_is h hs c k)
  | .message n es, h, hs, c, k => by
    rw [WFElem] at h; rw [elemConsts] at hs; rw [readElem]
    exact .message (readElems_are h.2 hs _ _)
  | .extend t fs, h, hs, c, k => by
    rw [WFElem] at h; rw [elemConsts] at hs; rw [readElem]
    exact .extend (readExtend_is h.2 hs)
  | .option o, h, hs, c, k => by
    rw [WFElem] at h; rw [elemConsts] at hs; rw [readElem]
    exact .option (readOption_is h (hs _ (by simp)))
  | .oneof n es, h, hs, c, k => by
    rw [WFElem] at h; rw [elemConsts] at hs; rw [readElem]
    exact .oneof (readMany_is (fun x hx c k => readOneofElem_is (h.2 x hx) (fun y hy => hs y (List.mem_flatMap.2 ⟨x, hx, hy⟩)) c k) _ _)
  | .mapField f, h, hs, c, k => by
    rw [WFElem] at h; rw [elemConsts] at hs; rw [readElem]
    exact .mapField (readField_is h.1 hs c k)
  | .reserved rr, _, _, c, k => by rw [readElem]; exact .reserved rr
  | .reservedNames ss, _, _, c, k => by rw [readElem]; exact .reservedNames ss
  | .extensions rr os, h, hs, c, k => by
    rw [WFElem] at h; rw [elemConsts] at hs; rw [readElem]
    exact .extensions (readOptions_are h.2 hs)
  | .empty, _, _, c, k => by rw [readElem]; exact .empty
theorem readElems_are : ∀ {es : List RawElem}, WFElems es → (∀ c ∈ elemsConsts es, SimpleConst c) → ∀ c k, ElemsRead es (readElems toks c k es).1
  | [], _, _, _, _ => by rw [readElems]; exact .nil
  | e :: es, h, hs, c, k => by
    rw [WFElems] at h; rw [elemsConsts] at hs; rw [readElems]
    exact .cons (readElem_is h.1 (fun x hx => hs x (List.mem_append_left _ hx)) c k)
      (readElems_are h.2 (fun x hx => hs x (List.mem_append_right _ hx)) _ _)
end

theorem rpcOptions_are {es : List (Option RawOption)} (h : ∀ o, some o ∈ es → WFOption o) (hs : ∀ c ∈ optionsConsts (es.filterMap id), SimpleConst c) :
    All2 OptionReads (es.filterMap id) ((es.map (Option.map readOption)).filterMap id) := by
  have e : (es.map (Option.map readOption)).filterMap id = (es.filterMap id).map readOption := by
    induction es with
    | nil => rfl
    | cons o es ih =>
      have ih := ih (fun o ho => h o (List.mem_cons_of_mem _ ho)) (by
        intro c hc
        refine hs c ?_
        simp only [optionsConsts, List.mem_map] at hc ⊢
        obtain ⟨x, hx, e⟩ := hc
        refine ⟨x, ?_, e⟩
        cases o with
        | none => exact hx
        | some o => exact List.mem_cons_of_mem _ hx)
      cases o with
      | none => exact ih
      | some o => exact congrArg (readOption o :: ·) ih
  rw [e]
  exact readOptions_are (fun o ho => h o (by
    obtain ⟨x, hx, e⟩ := List.mem_filterMap.1 ho
    cases e; exact hx)) hs

theorem readServiceElem_is {e : RawServiceElem} (h : WFServiceElem e) (hs : ∀ c ∈ serviceElemConsts e, SimpleConst c) (c : List Nat) (k : Nat) :
    ServiceElemReads e (readServiceElem toks c k e).1 := by
  cases e with
  | option o => exact .option (readOption_is h (hs _ (by simp [serviceElemConsts])))
  | rpc r =>
    rcases r with ⟨name, rs, rq, ts, rt, body⟩
    refine .rpc ⟨rfl, ?_, rfl, ?_, rfl, ?_⟩
    · cases rs <;> rfl
    · cases ts <;> rfl
    · cases body with
      | none => exact .nil
      | some es => exact rpcOptions_are (h.2.2.2 es rfl) hs
  | empty => exact .empty

theorem readTop_is {e : RawTop} (h : WFTop e) (hs : ∀ c ∈ topConsts e, SimpleConst c) (c : List Nat) (k : Nat) :
    TopReads e (readTop toks c k e).1 := by
  cases e with
  | importStmt kind p =>
    refine .importStmt ?_ (strLit_is h (hs p (by simp [topConsts])))
    exact decide_eq_true_iff
  | package p => exact .package p
  | option o => exact .option (readOption_is h (hs _ (by simp [topConsts])))
  | message n es => exact .message (readElems_are h.2 hs _ _)
  | enum e => exact .enum (readEnum_is h hs c k)
  | extend t fs => exact .extend (readExtend_is h.2 hs)
  | service n es =>
    exact .service (readMany_is (fun x hx c k => readServiceElem_is (h.2 x hx) (fun y hy => hs y (List.mem_flatMap.2 ⟨x, hx, hy⟩)) c k) _ _)
  | empty => exact .empty

theorem readProto_is {p : RawProto} (h : WFProto p) (hs : ∀ c ∈ protoConsts p, SimpleConst c) : ProtoReads p (readProto toks p).tree := by
  refine ⟨?_, readMany_is (fun x hx c k => readTop_is (h.2 x hx) (fun y hy => hs y (List.mem_append_right _ (List.mem_flatMap.2 ⟨x, hx, hy⟩))) c k) _ _⟩
  rcases p with ⟨edition, elems⟩
  cases edition with
  | none => exact .none
  | some e => exact .some e _ (strLit_is (h.1 e rfl) (hs _ (List.mem_append_left _ (by simp))))

/-! ## Numbers and places -/

theorem inside_cons {x e : MsgElem} {xs : List MsgElem} (h : Inside (x :: xs) e) : x = e ∨ (∃ n d ms, x = .message n d ms ∧ Inside ms e) ∨ Inside xs e := by
  cases h with
  | here h =>
    rcases List.mem_cons.1 h with h | h
    · exact .inl h.symm
    · exact .inr (.inr (.here h))
  | deeper h hi =>
    rcases List.mem_cons.1 h with h | h
    · exact .inr (.inl ⟨_, _, _, h.symm, hi⟩)
    · exact .inr (.inr (.deeper h hi))

theorem readMany_mem {α β : Type} {width : α → Nat} {read : List Nat → Nat → α → β × List Nat} {y : β} :
    ∀ {l : List α} {c : List Nat} {k : Nat}, y ∈ (readMany width read c k l).1 → ∃ x ∈ l, ∃ c' k', y = (read c' k' x).1
  | [], _, _, h => by cases h
  | x :: xs, c, k, h => by
    rcases List.mem_cons.1 h with h | h
    · exact ⟨x, by simp, c, k, h⟩
    · obtain ⟨x', hx, r⟩ := readMany_mem (l := xs) h
      exact ⟨x', List.mem_cons_of_mem _ hx, r⟩

theorem enumValues_mem {v : EnumValueNode} : ∀ {es : List EnumElem}, v ∈ enumValues es → .value v ∈ es
  | [], h => by cases h
  | e :: es, h => by
    cases e <;> first
      | exact List.mem_cons_of_mem _ (enumValues_mem (es := es) h)
      | (rcases List.mem_cons.1 h with h | h
         · rw [h]; exact List.mem_cons_self ..
         · exact List.mem_cons_of_mem _ (enumValues_mem (es := es) h))

theorem oneofFields_mem {v : FieldNode} : ∀ {es : List OneofElem}, v ∈ oneofFields es → .field v ∈ es
  | [], h => by cases h
  | e :: es, h => by
    cases e <;> first
      | exact List.mem_cons_of_mem _ (oneofFields_mem (es := es) h)
      | (rcases List.mem_cons.1 h with h | h
         · rw [h]; exact List.mem_cons_self ..
         · exact List.mem_cons_of_mem _ (oneofFields_mem (es := es) h))

theorem topPackages_mem {v : Str} : ∀ {es : List TopElem}, v ∈ topPackages es → .package v ∈ es
  | [], h => by cases h
  | e :: es, h => by
    cases e <;> first
      | exact List.mem_cons_of_mem _ (topPackages_mem (es := es) h)
      | (rcases List.mem_cons.1 h with h | h
         · rw [h]; exact List.mem_cons_self ..
         · exact List.mem_cons_of_mem _ (topPackages_mem (es := es) h))

theorem serviceRpcs_mem {v : RpcNode} : ∀ {es : List ServiceElem}, v ∈ serviceRpcs es → .rpc v ∈ es
  | [], h => by cases h
  | e :: es, h => by
    cases e <;> first
      | exact List.mem_cons_of_mem _ (serviceRpcs_mem (es := es) h)
      | (rcases List.mem_cons.1 h with h | h
         · rw [h]; exact List.mem_cons_self ..
         · exact List.mem_cons_of_mem _ (serviceRpcs_mem (es := es) h))

theorem enumRanges_mem {v : RangeNode} : ∀ {es : List EnumElem}, v ∈ enumRanges es → ∃ rr, .reserved rr ∈ es ∧ v ∈ rr
  | [], h => by cases h
  | e :: es, h => by
    cases e with
    | reserved rr =>
      rcases List.mem_append.1 h with h | h
      · exact ⟨rr, List.mem_cons_self .., h⟩
      · obtain ⟨qq, h1, h2⟩ := enumRanges_mem (es := es) h
        exact ⟨qq, List.mem_cons_of_mem _ h1, h2⟩
    | _ =>
      obtain ⟨qq, h1, h2⟩ := enumRanges_mem (es := es) h
      exact ⟨qq, List.mem_cons_of_mem _ h1, h2⟩

theorem readEnum_numbers {e : RawEnum} (h : WFEnum e) (hr : ∀ r ∈ e.elems.flatMap enumElemRanges, DecimalRange r) (c : List Nat) (k : Nat) :
    NumbersElem (.enum (readEnum toks c k e).1) := by
  constructor
  · intro v hv
    obtain ⟨y, hy, c', k', hxv⟩ := readMany_mem (enumValues_mem hv)
    cases y with
    | value w =>
      cases hxv
      exact (h.2 _ hy).2.1
    | _ => cases hxv
  · intro r hrr
    obtain ⟨rr, hx, hxr⟩ := enumRanges_mem hrr
    obtain ⟨y, hy, c', k', he⟩ := readMany_mem hx
    cases y with
    | reserved qq =>
      cases he
      exact hr r (List.mem_flatMap.2 ⟨_, hy, hxr⟩)
    | _ => cases he

mutual
theorem readElem_numbers : ∀ {e : RawElem}, WFElem e → (∀ r ∈ elemRanges e, DecimalRange r) → ∀ c k, NumbersElem (readElem toks c k e).1 ∧
    ∀ n d ms, (readElem toks c k e).1 = .message n d ms → ∀ x, Inside ms x → NumbersElem x
  | .field f, h, hs, c, k => by
    rw [WFElem] at h; rw [readElem]
    exact ⟨h.1.2.2.1, fun _ _ _ e => by cases e⟩
  | .enum e, h, hs, c, k => by
    rw [WFElem] at h; rw [elemRanges] at hs; rw [readElem]
    exact ⟨readEnum_numbers h hs c k, fun _ _ _ e => by cases e⟩
  | .message n es, h, hs, c, k => by
    rw [WFElem] at h; rw [elemRanges] at hs; rw [readElem]
    refine ⟨trivial, fun _ _ _ e => ?_⟩
    cases e
    exact readElems_numbers h.2 hs _ _
  | .extend t fs, h, hs, c, k => by rw [readElem]; exact ⟨trivial, fun _ _ _ e => by cases e⟩
  | .option o, h, hs, c, k => by rw [readElem]; exact ⟨trivial, fun _ _ _ e => by cases e⟩
  | .oneof n es, h, hs, c, k => by
    rw [WFElem] at h; rw [readElem]
    refine ⟨?_, fun _ _ _ e => by cases e⟩
    intro f hf
    obtain ⟨y, hy, c', k', hxf⟩ := readMany_mem (oneofFields_mem hf)
    cases y with
    | field g =>
      cases hxf
      exact (h.2 _ hy).1.2.2.1
    | _ => cases hxf
  | .mapField f, h, hs, c, k => by
    rw [WFElem] at h; rw [readElem]
    exact ⟨h.1.2.2.1, fun _ _ _ e => by cases e⟩
  | .reserved rr, h, hs, c, k => by
    rw [elemRanges] at hs; rw [readElem]
    exact ⟨hs, fun _ _ _ e => by cases e⟩
  | .reservedNames ss, _, _, c, k => by rw [readElem]; exact ⟨trivial, fun _ _ _ e => by cases e⟩
  | .extensions rr os, h, hs, c, k => by rw [readElem]; exact ⟨trivial, fun _ _ _ e => by cases e⟩
  | .empty, _, _, c, k => by rw [readElem]; exact ⟨trivial, fun _ _ _ e => by cases e⟩
theorem readElems_numbers : ∀ {es : List RawElem}, WFElems es → (∀ r ∈ elemsRanges es, DecimalRange r) → ∀ c k x, Inside (readElems toks c k es).1 x → NumbersElem x
  | [], _, _, _, _, x, hx => by
    rw [readElems] at hx
    cases hx with
    | here h => cases h
    | deeper h _ => cases h
  | e :: es, h, hs, c, k, x, hx => by
    rw [WFElems] at h; rw [elemsRanges] at hs; rw [readElems] at hx
    obtain ⟨h1, h2⟩ := readElem_numbers h.1 (fun r hr => hs r (List.mem_append_left _ hr)) c k
    rcases inside_cons hx with rfl | ⟨n, d, ms, e1, hi⟩ | hx
    · exact h1
    · exact h2 n d ms e1 x hi
    · exact readElems_numbers h.2 (fun r hr => hs r (List.mem_append_right _ hr)) _ _ x hx
end

theorem path_text {p : List Str} (h : PathToks p) : p.flatten ≠ [] := by
  obtain ⟨n, q, rfl, hn⟩ := path_head h
  intro e
  rw [List.flatten_cons, List.append_eq_nil_iff] at e
  exact (name_notQuoted hn).1 e.1

theorem readRpc_ordered (c : List Nat) (k : Nat) (r : RawRpc) : OrderedRpc (readRpc toks c k r).1 := by
  rcases r with ⟨name, rs, rq, ts, rt, body⟩
  constructor
  · intro x hx
    cases rs with
    | false => cases hx
    | true =>
      cases hx
      simp only [readRpc, requestAt]
      simp
  · intro x hx
    cases ts with
    | false => cases hx
    | true =>
      cases hx
      simp only [readRpc, requestAt, returnAt]
      simp
      split <;> omega

theorem readProto_parsed {p : RawProto} (h : WFProto p) (hr : DecimalRanges p) : Parsed (readProto toks p).tree := by
  have key : ∀ {x}, x ∈ (readProto toks p).tree.elems → ∃ y ∈ p.elems, ∃ c' k', x = (readTop toks c' k' y).1 := fun hx => readMany_mem hx
  refine ⟨?_, ?_, ?_, ?_⟩
  · intro n d es hm
    obtain ⟨y, hy, c', k', e⟩ := key hm
    have hw := h.2 y hy
    have hd := hr y hy
    cases y with
    | message m ms =>
      cases e
      exact readElems_numbers hw.2 hd _ _
    | _ => cases e
  · intro e hm
    obtain ⟨y, hy, c', k', he⟩ := key hm
    have hw := h.2 y hy
    have hd := hr y hy
    cases y with
    | enum m =>
      cases he
      exact readEnum_numbers hw hd _ _
    | _ => cases he
  · intro n hn
    obtain ⟨y, hy, c', k', hxn⟩ := key (topPackages_mem hn)
    have hw := h.2 y hy
    cases y with
    | package q =>
      cases hxn
      exact path_text hw
    | _ => cases hxn
  · intro n d es hm r hr
    obtain ⟨y, hy, c', k', he⟩ := key hm
    cases y with
    | service m ms =>
      cases he
      obtain ⟨z, hz, c'', k'', hxr⟩ := readMany_mem (serviceRpcs_mem hr)
      cases z with
      | rpc w =>
        cases hxr
        exact readRpc_ordered _ _ _
      | _ => cases hxr
    | _ => cases he

end

end Verif.Lemmas.Gen
