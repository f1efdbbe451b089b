import Verif.Lemmas.Gen.Schema
import Verif.Model.Gen.Getter
import Verif.Spec.Gen.Getter
/-!
# Lemmas: the generated getters
-/
namespace Verif.Props.Gen
open Verif.Spec Verif.Spec.Gen Verif.Model Verif.Model.Gen

/-! ## Finding a getter -/

theorem getters_mem (W : World) (p : Nat) (c : Chain) (g : GenGetter) : ∀ (l : List (FieldDecl × Str)) (seen : List Nat),
    g ∈ genGetters W p c seen l ↔ (∃ x ∈ l, x.1.oneof = none ∧ g = fieldGetter W p c x.1 x.2) ∨
      (∃ x ∈ l, ∃ k, x.1.oneof = some k ∧ g = memberGetter W p c k x.1 x.2) ∨
      (∃ x ∈ l, ∃ k, x.1.oneof = some k ∧ k ∉ seen ∧ g = oneofGetter c k)
  | [], seen => by simp [genGetters]
  | (f, n) :: rest, seen => by
    rw [genGetters]
    cases hf : f.oneof with
    | none =>
      dsimp only
      rw [List.mem_cons, getters_mem W p c g rest seen]
      simp only [List.mem_cons, exists_eq_or_imp, hf, true_and]
      constructor
      · rintro (h | h | h | h)
        · exact .inl (.inl h)
        · exact .inl (.inr h)
        · exact .inr (.inl (.inr h))
        · exact .inr (.inr (.inr h))
      · rintro ((h | h) | (h | h) | (h | h))
        · exact .inl h
        · exact .inr (.inl h)
        · obtain ⟨_, e, _⟩ := h
          cases e
        · exact .inr (.inr (.inl h))
        · obtain ⟨_, e, _⟩ := h
          cases e
        · exact .inr (.inr (.inr h))
    | some k =>
      dsimp only
      rw [List.mem_append, List.mem_cons, getters_mem W p c g rest (k :: seen)]
      have h0 : g ∈ (if seen.contains k then [] else [oneofGetter c k]) ↔ k ∉ seen ∧ g = oneofGetter c k := by
        split
        · rename_i h
          rw [List.contains_iff_mem] at h
          simp [h]
        · rename_i h
          rw [List.contains_iff_mem] at h
          simp [h]
      rw [h0]
      simp only [List.mem_cons, exists_eq_or_imp, hf]
      constructor
      · rintro (h | h | h | h | ⟨x, hx, k', e, h1, h2⟩)
        · exact .inr (.inr (.inl ⟨k, rfl, h⟩))
        · exact .inr (.inl (.inl ⟨k, rfl, h⟩))
        · exact .inl (.inr h)
        · exact .inr (.inl (.inr h))
        · exact .inr (.inr (.inr ⟨x, hx, k', e, fun h => h1 (.inr h), h2⟩))
      · rintro ((h | h) | (h | h) | (h | ⟨x, hx, k', e, h1, h2⟩))
        · cases h.1
        · exact .inr (.inr (.inl h))
        · obtain ⟨_, e, h⟩ := h
          cases e
          exact .inr (.inl h)
        · exact .inr (.inr (.inr (.inl h)))
        · obtain ⟨_, e, h⟩ := h
          cases e
          exact .inl h
        · by_cases hk : k' = k
          · subst hk
            exact .inl ⟨h1, h2⟩
          · refine .inr (.inr (.inr (.inr ⟨x, hx, k', e, ?_, h2⟩)))
            rintro (h | h)
            · exact hk h
            · exact h1 h

theorem fieldGetter_name (W : World) (p : Nat) (c : Chain) (f : FieldDecl) (n : Str) : (fieldGetter W p c f n).name = "Get".toList ++ n := by
  unfold fieldGetter
  dsimp only
  split <;> rfl

/-- The getters of a message. -/
abbrev gettersOf (W : World) (p : Nat) (c : Chain) : List GenGetter := genGetters W p c [] (namedFields c.msg)

/-- A getter with the name of the getter of field `x`. -/
theorem getter_named {W : World} {p : Nat} {c : Chain} {x : FieldDecl × Str} (hx : x ∈ namedFields c.msg) {g : GenGetter} (hg : g ∈ gettersOf W p c)
    (e : g.name = "Get".toList ++ x.2) : (x.1.oneof = none ∧ g = fieldGetter W p c x.1 x.2) ∨ ∃ k, x.1.oneof = some k ∧ g = memberGetter W p c k x.1 x.2 := by
  rcases (getters_mem W p c g _ _).1 hg with ⟨y, hy, ho, rfl⟩ | ⟨y, hy, k, ho, rfl⟩ | ⟨y, hy, k, ho, _, rfl⟩
  · rw [fieldGetter_name] at e
    have := named_inj hy hx (List.append_cancel_left e)
    subst this
    exact .inl ⟨ho, rfl⟩
  · have := named_inj hy hx (List.append_cancel_left (show "Get".toList ++ y.2 = _ from e))
    subst this
    exact .inr ⟨k, ho, rfl⟩
  · have h : oneofFieldName c.msg k = x.2 := List.append_cancel_left (show "Get".toList ++ oneofFieldName c.msg k = _ from e)
    refine absurd ?_ (oneofName_not_field (named_inhabited hy ho))
    rw [h, ← named_snd]
    exact List.mem_map.2 ⟨x, hx, rfl⟩

theorem find_unique {α : Type} {l : List α} {q : α → Bool} {a : α} (ha : a ∈ l) (hq : q a = true) (hu : ∀ b ∈ l, q b = true → b = a) : l.find? q = some a := by
  cases h : l.find? q with
  | none => exact absurd hq (by simpa using List.find?_eq_none.1 h a ha)
  | some b => rw [hu b (List.mem_of_find?_eq_some h) (List.find?_some h)]

theorem find_field {W : World} {p : Nat} {c : Chain} {x : FieldDecl × Str} (hx : x ∈ namedFields c.msg) (ho : x.1.oneof = none) :
    (gettersOf W p c).find? (fun g => g.name = "Get".toList ++ x.2) = some (fieldGetter W p c x.1 x.2) := by
  refine find_unique ((getters_mem ..).2 (.inl ⟨x, hx, ho, rfl⟩)) ?_ ?_
  · rw [decide_eq_true_eq, fieldGetter_name]
  · intro b hb e
    rw [decide_eq_true_eq] at e
    rcases getter_named hx hb e with ⟨_, h⟩ | ⟨k, h, _⟩
    · exact h
    · rw [ho] at h
      cases h

theorem find_member {W : World} {p : Nat} {c : Chain} {x : FieldDecl × Str} {k : Nat} (hx : x ∈ namedFields c.msg) (ho : x.1.oneof = some k) :
    (gettersOf W p c).find? (fun g => g.name = "Get".toList ++ x.2) = some (memberGetter W p c k x.1 x.2) := by
  refine find_unique ((getters_mem ..).2 (.inr (.inl ⟨x, hx, k, ho, rfl⟩))) ?_ ?_
  · rw [decide_eq_true_eq]
    rfl
  · intro b hb e
    rw [decide_eq_true_eq] at e
    rcases getter_named hx hb e with ⟨h, _⟩ | ⟨k', h, h'⟩
    · rw [ho] at h
      cases h
    · rw [ho] at h
      cases h
      exact h'

theorem find_oneof {W : World} {p : Nat} {c : Chain} {x : FieldDecl × Str} {k : Nat} (hx : x ∈ namedFields c.msg) (ho : x.1.oneof = some k) :
    (gettersOf W p c).find? (fun g => g.name = "Get".toList ++ oneofFieldName c.msg k) = some (oneofGetter c k) := by
  refine find_unique ((getters_mem ..).2 (.inr (.inr ⟨x, hx, k, ho, List.not_mem_nil, rfl⟩))) ?_ ?_
  · rw [decide_eq_true_eq]
    rfl
  · intro b hb e
    rw [decide_eq_true_eq] at e
    have hfield : ∀ y ∈ namedFields c.msg, y.2 ≠ oneofFieldName c.msg k := by
      intro y hy e
      refine oneofName_not_field (named_inhabited hx ho) ?_
      rw [← e, ← named_snd]
      exact List.mem_map.2 ⟨y, hy, rfl⟩
    rcases (getters_mem W p c b _ _).1 hb with ⟨y, hy, _, rfl⟩ | ⟨y, hy, k', _, rfl⟩ | ⟨y, hy, k', ho', _, rfl⟩
    · rw [fieldGetter_name] at e
      exact absurd (List.append_cancel_left e) (hfield y hy)
    · exact absurd (List.append_cancel_left (show "Get".toList ++ y.2 = _ from e)) (hfield y hy)
    · have h : oneofFieldName c.msg k' = oneofFieldName c.msg k := List.append_cancel_left (show "Get".toList ++ oneofFieldName c.msg k' = _ from e)
      rw [oneofName_inj (named_inhabited hy ho') (named_inhabited hx ho) h]

/-! ## Struct fields -/

theorem select_slot {W : World} {pkg : Nat → List Str} (hH : Handled W pkg) {f : Nat} {c : Chain} (hc : Around (W.file f).messages c)
    {x : FieldDecl × Str} (hx : x ∈ namedFields c.msg) (fs : List Val) :
    selectField (genStruct W f c).fields (slotName c.msg x) fs = (fs[slotOf W f c x]?).map fun v => ((slotField W f c x).type, v) := by
  have h := at_slot hH hc hx
  have hlt := (List.getElem?_eq_some_iff.1 h).1
  have hi : (genStruct W f c).fields.findIdx? (fun g => g.name = slotName c.msg x) = some (slotOf W f c x) := by
    rw [List.findIdx?_eq_some_iff_getElem]
    refine ⟨hlt, ?_, fun j hj e => ?_⟩
    · rw [(List.getElem?_eq_some_iff.1 h).2, slotField_name]
      simp
    · have e : ((genStruct W f c).fields[j]).name = slotName c.msg x := by simpa using e
      have := index_unique (struct_nodup hH hc) (List.getElem?_eq_getElem (Nat.lt_trans hj hlt))
      rw [e] at this
      have : j = slotOf W f c x := this
      omega
  unfold selectField
  rw [hi]
  dsimp only
  rw [h]
  cases fs[slotOf W f c x]? <;> rfl

/-! ## Zero values -/

theorem consts_mem {W : World} {r : Ref} {e : EnumDecl} {v : EnumField} (he : findEnum (W.file r.file).messages (W.file r.file).enums r.path = some e)
    (hv : v ∈ e.fields) (hl : r.path.length ≤ 2) :
    (⟨(W.file r.file).goImport, enumConst (W.file r.file) r.path.dropLast e v, goTypeName r.path, v.value⟩ : GoConst) ∈ genConsts W := by
  have hfile : r.file < W.files.length := by
    refine Nat.lt_of_not_le fun h => ?_
    have : W.file r.file = { edition := .proto3 } := by
      unfold World.file
      rw [List.getD_eq_getElem?_getD, List.getElem?_eq_none h]
      rfl
    rw [this] at he
    match r.path, he with
    | [], he => cases he
    | [_], he => cases he
    | _ :: _ :: _, he => cases he
  unfold genConsts
  rw [List.mem_flatMap]
  refine ⟨r.file, List.mem_range.2 hfile, List.mem_append.2 ?_⟩
  have hin : ∀ parent, (⟨(W.file r.file).goImport, enumConst (W.file r.file) parent e v, goTypeName (parent ++ [e.name]), v.value⟩ : GoConst) ∈
      enumConsts (W.file r.file) parent e := by
    intro parent
    unfold enumConsts
    exact List.mem_map.2 ⟨_, List.mem_map.2 ⟨v, hv, rfl⟩, rfl⟩
  generalize hp : r.path = path at he hl
  match path, he, hl with
  | [], he, _ => cases he
  | [n], he, _ =>
    rw [findEnum] at he
    have h1 := List.mem_of_find?_eq_some he
    have h2 : e.name = n := by simpa using List.find?_some he
    refine .inl (List.mem_flatMap.2 ⟨e, h1, ?_⟩)
    have := hin []
    rw [h2] at this
    exact this
  | [n, n'], he, _ =>
    rw [findEnum] at he
    · split at he
      · rename_i m hm
        have m1 := List.mem_of_find?_eq_some hm
        have m2 : m.name = n := by simpa using List.find?_some hm
        rw [findEnum] at he
        have h1 := List.mem_of_find?_eq_some he
        have h2 : e.name = n' := by simpa using List.find?_some he
        refine .inr (List.mem_flatMap.2 ⟨m, m1, List.mem_flatMap.2 ⟨e, h1, ?_⟩⟩)
        have := hin [m.name]
        rw [h2, m2] at this
        rw [m2]
        exact this
      · cases he
    · intro h
      cases h
  | _ :: _ :: _ :: _, _, hl => simp at hl

/-- The cases of a resolved type. -/
theorem resolved_cases {W : World} {pkg : Nat → List Str} (hH : Handled W pkg) {f : Nat} {c : Chain} (hc : Around (W.file f).messages c)
    {fd : FieldDecl} (hf : fd ∈ c.msg.fields) :
    (∃ s g, scalarTypes.lookup (keyword s) = some g ∧ fieldType W f c fd = .scalar g) ∨
    ∃ r q, fieldType W f c fd = .decl r q ∧ Spec.Gen.Exists W r ∧ resolvedImport W f q = (W.file r.file).goImport := by
  rcases (hH.fields f c hc fd hf).type with ⟨s, hs⟩ | ⟨name, r, i, hr⟩
  · obtain ⟨g, h1, _, _⟩ := keyword_go s
    refine .inl ⟨s, g, h1, ?_⟩
    unfold fieldType
    rw [hs, resolve_scalar W f c h1]
    rfl
  · have hsc : scalarTypes.lookup (joinDots name) = none := by
      cases hl : scalarTypes.lookup (joinDots name) with
      | none => rfl
      | some g =>
        obtain ⟨s, e⟩ := scalar_keyword hl
        exact absurd (hr.spelled.trans e) (hr.scalar s)
    obtain ⟨p, h1, h2⟩ := C55_resolves_partial W pkg f c name r i hH.packages (hH.tidy f (around_file hc)) hc hr.nonempty hr.idents hsc hr.self hr.doubled
      hr.means hr.scope
    refine .inr ⟨r, p, ?_, hr.means.2.2.1, h2⟩
    unfold fieldType
    rw [hr.spelled, h1]
    rfl

/-- What Go demands of constants. -/
def ConstsDistinct (W : World) : Prop := ((genConsts W).map fun c => (c.pkg, c.name)).Nodup

theorem scalar_zeroValue (P : Program) (W : World) (f : Nat) (m : MsgDecl) (fd : FieldDecl) (s : Scalar) (g : Str) (h : scalarTypes.lookup (keyword s) = some g)
    (hk : (fd.key.isSome || fd.repeated) = false) :
    P.zeroValue (.basic g) (fieldGoZero W f m fd (.scalar g)) = some (goZero P.decls (elabType P.enums P.structs (.basic g))) := by
  unfold fieldGoZero
  rw [hk, if_neg (by simp)]
  dsimp only
  cases s <;> (cases h; rfl)

theorem const_value {W : World} (hn : ConstsDistinct W) {k : GoConst} (hk : k ∈ genConsts W) :
    (genConsts W).find? (fun c => c.pkg = k.pkg && c.name = k.name) = some k := by
  refine find_unique hk (by simp) fun b hb e => ?_
  rw [Bool.and_eq_true, decide_eq_true_eq, decide_eq_true_eq] at e
  exact mem_of_nodup_map (g := fun c : GoConst => (c.pkg, c.name)) hn hb hk (by rw [e.1, e.2])

/-- The zero value of a type that is not a pointer, map or slice. -/
theorem single_zero {W : World} {pkg : Nat → List Str} {env : GoEnv} (hH : Handled W pkg) (hd : (structNames W ++ genEnums W).Nodup) (hn : ConstsDistinct W)
    {f : Nat} {c : Chain} (hc : Around (W.file f).messages c) {fd : FieldDecl} (hf : fd ∈ c.msg.fields) (hk : (fd.key.isSome || fd.repeated) = false)
    (hm : (fieldType W f c fd).isMessage = false ∨ genNoPointer c.msg fd = true) :
    (genProgram W env).zeroValue (typeGoName W f (fieldType W f c fd)) (fieldGoZero W f c.msg fd (fieldType W f c fd)) =
      some (goZero env.structs (elabType (genEnums W) (structNames W) (typeGoName W f (fieldType W f c fd)))) := by
  obtain ⟨x, hT⟩ := type_facts hH hd hc hf
  have hty := hT.type
  have hmsg := hT.message
  rcases resolved_cases hH hc hf with ⟨s, g, h1, h2⟩ | ⟨r, q, h1, h2, h3⟩
  · rw [h2]
    exact scalar_zeroValue (genProgram W env) W f c.msg fd s g h1 hk
  · rw [h1] at hty hmsg hm ⊢
    unfold fieldGoZero
    rw [hk, if_neg (by simp)]
    dsimp only
    cases he : r.isEnum with
    | true =>
      rw [if_pos rfl]
      have hmem := exists_enum h2 he (hH.enums r h2 he)
      have hel : elabType (genEnums W) (structNames W) (typeGoName W f (.decl r q)) = .int32 := by
        show (if (genEnums W).contains (resolvedImport W f q, goTypeName r.path) then _ else _) = _
        rw [h3, if_pos (List.contains_iff_mem.2 hmem)]
      have hzero : (genProgram W env).zeroValue (typeGoName W f (.decl r q)) .zero = some (goZero env.structs .int32) := by
        unfold Program.zeroValue
        dsimp only
        rw [show elabType (genProgram W env).enums (genProgram W env).structs (typeGoName W f (.decl r q)) = .int32 from hel]
        rfl
      rw [hel]
      split
      · exact hzero
      · rename_i e hfe
        split
        · rename_i v hv
          have hv0 : v.value = 0 := by simpa using List.find?_some hv
          have hin := consts_mem hfe (List.mem_of_find?_eq_some hv) (hH.enums r h2 he)
          have hfind := const_value hn hin
          unfold Program.zeroValue
          dsimp only
          rw [h3]
          rw [show (genProgram W env).consts = genConsts W from rfl, hfind]
          dsimp only
          rw [if_pos, hv0]
          · rfl
          · rw [Bool.and_eq_true, decide_eq_true_eq]
            refine ⟨?_, List.contains_iff_mem.2 hmem⟩
            show GoExpr.named (resolvedImport W f q) _ = _
            rw [h3]
        · exact hzero
    | false =>
      have hm' : (Resolved.decl r q).isMessage = true := by
        show (!r.isEnum) = true
        rw [he]
        rfl
      rcases hm with h | h
      · rw [hm'] at h
        cases h
      · rw [if_neg (by simp), if_pos h]
        obtain ⟨id, rfl⟩ := hmsg.1 hm'
        unfold Program.zeroValue
        dsimp only
        rw [show elabType (genProgram W env).enums (genProgram W env).structs (typeGoName W f (.decl r q)) = .struct id from hty, hty]
        dsimp only
        rw [if_pos rfl]
        rfl

theorem goType_map {sh : Shape} {k v : GoType} (h : sh.goType = .map k v) (S : Schema) : unsetValue S sh = .map none ∧ ∀ s, sh ≠ .optional s := by
  cases sh with
  | single s => cases s <;> cases h
  | msg id b => cases b <;> cases h
  | map _ _ => exact ⟨rfl, fun s e => by cases e⟩
  | mapMsg _ _ _ => exact ⟨rfl, fun s e => by cases e⟩
  | _ => cases h

theorem goType_slice {sh : Shape} {v : GoType} (h : sh.goType = .slice v) (S : Schema) : unsetValue S sh = .slice [] ∧ ∀ s, sh ≠ .optional s := by
  cases sh with
  | single s => cases s <;> cases h
  | msg id b => cases b <;> cases h
  | list _ _ => exact ⟨rfl, fun s e => by cases e⟩
  | msgList _ _ => exact ⟨rfl, fun s e => by cases e⟩
  | _ => cases h

theorem goType_struct {sh : Shape} {id : Nat} (h : sh.goType = .struct id) : sh = .msg id false := by
  cases sh with
  | single s => cases s <;> cases h
  | msg id b =>
    cases b
    · cases h
      rfl
    · cases h
  | _ => cases h

theorem goType_ptr_struct {sh : Shape} {id : Nat} (h : sh.goType = .ptr (.struct id)) : sh = .msg id true := by
  cases sh with
  | single s => cases s <;> cases h
  | optional s => cases s <;> cases h
  | msg id b =>
    cases b
    · cases h
    · cases h
      rfl
  | _ => cases h

theorem goType_scalar {sh : Shape} {s : Scalar} (h : sh.goType = s.goType) : ∃ s', sh = .single s' ∧ s'.goType = s.goType := by
  cases sh with
  | single s' => exact ⟨s', rfl, h⟩
  | msg id b => cases b <;> cases s <;> cases h
  | _ => cases s <;> cases h

theorem goType_ptr_scalar {sh : Shape} {s : Scalar} (h : sh.goType = .ptr s.goType) : ∃ s', sh = .optional s' ∧ s'.goType = s.goType := by
  cases sh with
  | single s' => cases s' <;> cases h
  | optional s' => exact ⟨s', rfl, (GoType.ptr.inj h)⟩
  | msg id b => cases b <;> cases s <;> cases h
  | _ => cases s <;> cases h

/-- What is shown of the getter of a field. -/
structure GetterFacts (W : World) (env : GoEnv) (S : Schema) (f : Nat) (c : Chain) (x : FieldDecl × Str) (sh : Shape) : Prop where
  name : (fieldGetter W f c x.1 x.2).name = "Get".toList ++ x.2
  zexpr : (fieldGetter W f c x.1 x.2).zero = fieldGoZero W f c.msg x.1 (fieldType W f c x.1)
  zero : (genProgram W env).zeroValue (fieldGetter W f c x.1 x.2).type (fieldGetter W f c x.1 x.2).zero = some (unsetValue S sh)
  body : ((fieldGetter W f c x.1 x.2).body = .field x.2 ∧ fieldGoType W f c.msg x.1 (fieldType W f c x.1) = (fieldGetter W f c x.1 x.2).type ∧
      ∀ s, sh ≠ .optional s) ∨
    ((fieldGetter W f c x.1 x.2).body = .deref x.2 ∧ fieldGoType W f c.msg x.1 (fieldType W f c x.1) = .ptr (fieldGetter W f c x.1 x.2).type ∧
      ∃ s, sh = .optional s)

theorem fieldGetter_plain {W : World} {f : Nat} {c : Chain} {fd : FieldDecl} {n : Str}
    (h : (fieldType W f c fd).isMessage = true ∨ ∀ e, fieldGoType W f c.msg fd (fieldType W f c fd) ≠ .ptr e) :
    fieldGetter W f c fd n = ⟨"Get".toList ++ n, fieldGoType W f c.msg fd (fieldType W f c fd), .field n, fieldGoZero W f c.msg fd (fieldType W f c fd)⟩ := by
  unfold fieldGetter
  dsimp only
  split
  · rename_i h1 h2
    rcases h with h | h
    · rw [h] at h1
      cases h1
    · exact absurd h2 (h _)
  · rfl

theorem fieldGetter_deref {W : World} {f : Nat} {c : Chain} {fd : FieldDecl} {n : Str} {e : GoExpr} (h : (fieldType W f c fd).isMessage = false)
    (he : fieldGoType W f c.msg fd (fieldType W f c fd) = .ptr e) :
    fieldGetter W f c fd n = ⟨"Get".toList ++ n, e, .deref n, fieldGoZero W f c.msg fd (fieldType W f c fd)⟩ := by
  unfold fieldGetter
  dsimp only
  rw [h, he]

theorem nil_value {W : World} {env : GoEnv} {t : GoExpr} {v : Val}
    (h : (∃ e, elabType (genEnums W) (structNames W) t = .ptr e ∧ v = .ptr none) ∨ (∃ e, elabType (genEnums W) (structNames W) t = .slice e ∧ v = .slice []) ∨
      ∃ k e, elabType (genEnums W) (structNames W) t = .map k e ∧ v = .map none) : (genProgram W env).zeroValue t .nil = some v := by
  unfold Program.zeroValue
  dsimp only
  show (match elabType (genEnums W) (structNames W) t with
    | .ptr _ | .slice _ | .map _ _ | .bytes | .iface => some (goZero _ (elabType (genEnums W) (structNames W) t))
    | _ => none) = _
  rcases h with ⟨e, h, rfl⟩ | ⟨e, h, rfl⟩ | ⟨k, e, h, rfl⟩ <;> (rw [h]; rfl)

theorem getter_facts {W : World} {pkg : Nat → List Str} {env : GoEnv} {S : Schema} (hH : Handled W pkg) (hd : (structNames W ++ genEnums W).Nodup)
    (hn : ConstsDistinct W) (hS : ∀ id, (S id).zero = (env.structs[id]?.map StructDecl.zero).getD (.struct [])) {f : Nat} {c : Chain}
    (hc : Around (W.file f).messages c) {x : FieldDecl × Str} (hx : x ∈ namedFields c.msg) :
    GetterFacts W env S f c x (shapeOf W pkg f c x) := by
  have hf := named_fst_mem hx
  obtain ⟨y, hT⟩ := type_facts hH hd hc hf
  have hty := ((shape_facts hH hd hc hx).declares 0 none).type
  have hty : elabType (genEnums W) (structNames W) (fieldGoType W f c.msg x.1 (fieldType W f c x.1)) = (shapeOf W pkg f c x).goType := hty
  generalize shapeOf W pkg f c x = sh at hty
  have hz : ∀ {t}, (x.1.key.isSome || x.1.repeated) = true → fieldGoZero W f c.msg x.1 t = .nil := by
    intro t h
    unfold fieldGoZero
    rw [h, if_pos rfl]
  cases hk : x.1.key with
  | some k =>
    have hgo : fieldGoType W f c.msg x.1 (fieldType W f c x.1) = .map (keyGoName k) (elemTypeName W f (fieldType W f c x.1) (genNoPointer c.msg x.1)) := by
      unfold fieldGoType
      rw [hk]
    have hz := @hz (fieldType W f c x.1) (by rw [hk]; rfl)
    have hg := fieldGetter_plain (W := W) (f := f) (c := c) (fd := x.1) (n := x.2) (.inr fun e he => by rw [hgo] at he; cases he)
    have hm := goType_map (show sh.goType = .map _ _ from by rw [← hty, hgo]; rfl) S
    refine ⟨fieldGetter_name .., by rw [hg], ?_, .inl ⟨by rw [hg], by rw [hg], hm.2⟩⟩
    rw [hg, hz]
    dsimp only
    refine nil_value (.inr (.inr ⟨_, _, (congrArg (elabType (genEnums W) (structNames W)) hgo).trans rfl, hm.1⟩))
  | none =>
    cases hr : x.1.repeated with
    | true =>
      have hgo : fieldGoType W f c.msg x.1 (fieldType W f c x.1) = .slice (elemTypeName W f (fieldType W f c x.1) (genNoPointer c.msg x.1)) := by
        unfold fieldGoType
        rw [hk, hr]
        rfl
      have hz := @hz (fieldType W f c x.1) (by rw [hk, hr]; rfl)
      have hg := fieldGetter_plain (W := W) (f := f) (c := c) (fd := x.1) (n := x.2) (.inr fun e he => by rw [hgo] at he; cases he)
      have hm := goType_slice (show sh.goType = .slice _ from by rw [← hty, hgo]; rfl) S
      refine ⟨fieldGetter_name .., by rw [hg], ?_, .inl ⟨by rw [hg], by rw [hg], hm.2⟩⟩
      rw [hg, hz]
      dsimp only
      refine nil_value (.inr (.inl ⟨_, (congrArg (elabType (genEnums W) (structNames W)) hgo).trans rfl, hm.1⟩))
    | false =>
      have hkr : (x.1.key.isSome || x.1.repeated) = false := by rw [hk, hr]; rfl
      have hgo : fieldGoType W f c.msg x.1 (fieldType W f c x.1) = if isPointer W f c.msg x.1 (fieldType W f c x.1) then
          .ptr (typeGoName W f (fieldType W f c x.1)) else typeGoName W f (fieldType W f c x.1) := by
        unfold fieldGoType
        rw [hk, hr]
        rfl
      have hel := hT.type
      cases hm : (fieldType W f c x.1).isMessage with
      | true =>
        obtain ⟨id, rfl⟩ := hT.message.1 hm
        have hel : elabType (genEnums W) (structNames W) (typeGoName W f (fieldType W f c x.1)) = .struct id := hel
        have hg := fieldGetter_plain (W := W) (f := f) (c := c) (fd := x.1) (n := x.2) (.inl hm)
        cases hp : isPointer W f c.msg x.1 (fieldType W f c x.1) with
        | true =>
          rw [hp, if_pos rfl] at hgo
          have hnp : genNoPointer c.msg x.1 = false := by
            cases h : genNoPointer c.msg x.1 with
            | false => rfl
            | true =>
              unfold isPointer at hp
              rw [h] at hp
              cases hp
          have hsh := goType_ptr_struct (show sh.goType = .ptr (.struct id) by rw [← hty, hgo, elab_ptr, hel])
          subst hsh
          refine ⟨fieldGetter_name .., by rw [hg], ?_, .inl ⟨by rw [hg], by rw [hg], fun s e => by cases e⟩⟩
          have hz : fieldGoZero W f c.msg x.1 (fieldType W f c x.1) = .nil := by
            unfold fieldGoZero
            rw [hkr, if_neg (by simp)]
            revert hm
            cases fieldType W f c x.1 with
            | scalar g => intro hm; cases hm
            | decl r q =>
              intro hm
              have hm : (!r.isEnum) = true := hm
              dsimp only
              rw [if_neg (by simpa using hm), hnp]
              rfl
          rw [hg, hz]
          dsimp only
          refine nil_value (.inl ⟨_, (congrArg (elabType (genEnums W) (structNames W)) hgo).trans rfl, rfl⟩)
        | false =>
          rw [hp, if_neg (by simp)] at hgo
          have hnp : genNoPointer c.msg x.1 = true := by
            cases h : genNoPointer c.msg x.1 with
            | true => rfl
            | false =>
              have hnb : fieldType W f c x.1 ≠ .scalar "[]byte".toList := by
                intro e
                have := hT.bytes.1 e
                cases this
              unfold isPointer at hp
              rw [h, hk, hr, hm] at hp
              simp only [Bool.false_eq_true, if_false, Option.isSome_none, Bool.false_or, decide_eq_true_eq] at hp
              rw [if_neg hnb] at hp
              cases hp
          have hsh := goType_struct (show sh.goType = .struct id by rw [← hty, hgo, hel])
          subst hsh
          refine ⟨fieldGetter_name .., by rw [hg], ?_, .inl ⟨by rw [hg], by rw [hg], fun s e => by cases e⟩⟩
          rw [hg]
          dsimp only
          rw [hgo, single_zero hH hd hn hc hf hkr (.inr hnp), hel]
          show some (goZero env.structs (.struct id)) = some (S id).zero
          rw [hS]
          rfl
      | false =>
        have hsz := single_zero (env := env) hH hd hn hc hf hkr (.inl hm)
        have hsc : ∃ s : Scalar, elabType (genEnums W) (structNames W) (typeGoName W f (fieldType W f c x.1)) = s.goType := by
          rcases content_cases y with ⟨s, _, h2, _⟩ | ⟨id, rfl⟩
          · exact ⟨s, hel.trans h2⟩
          · rw [hT.message.2 ⟨id, rfl⟩] at hm
            cases hm
        obtain ⟨s, hs⟩ := hsc
        rw [hs] at hsz
        cases hp : isPointer W f c.msg x.1 (fieldType W f c x.1) with
        | true =>
          rw [hp, if_pos rfl] at hgo
          have hg := fieldGetter_deref (W := W) (f := f) (c := c) (fd := x.1) (n := x.2) hm hgo
          obtain ⟨s', rfl, hs'⟩ := goType_ptr_scalar (show sh.goType = .ptr s.goType by rw [← hty, hgo, elab_ptr, hs])
          refine ⟨fieldGetter_name .., by rw [hg], ?_, .inr ⟨by rw [hg], by rw [hg, hgo], s', rfl⟩⟩
          rw [hg]
          dsimp only
          rw [hsz, ← hs', scalar_zero]
          rfl
        | false =>
          rw [hp, if_neg (by simp)] at hgo
          have hne : ∀ e, fieldGoType W f c.msg x.1 (fieldType W f c x.1) ≠ .ptr e := by
            intro e he
            rw [hgo] at he
            cases ht : fieldType W f c x.1 with
            | scalar g => rw [ht] at he; cases he
            | decl r q => rw [ht] at he; cases he
          have hg := fieldGetter_plain (W := W) (f := f) (c := c) (fd := x.1) (n := x.2) (.inr hne)
          obtain ⟨s', rfl, hs'⟩ := goType_scalar (show sh.goType = s.goType by rw [← hty, hgo, hs])
          refine ⟨fieldGetter_name .., by rw [hg], ?_, .inl ⟨by rw [hg], by rw [hg], fun s e => by cases e⟩⟩
          rw [hg]
          dsimp only
          rw [hgo, hsz, ← hs', scalar_zero]
          rfl

/-! ## Calls -/

theorem wrapper_index {W : World} {f : Nat} {c : Chain} (hw : ((genWrappers W f c).map GenWrapper.name).Nodup) {k : Nat} {x : FieldDecl × Str}
    (hk : k < c.msg.oneofs.length) (hx : x ∈ namedFields c.msg) (ho : x.1.oneof = some k) :
    (genStruct W f c).wrappers.findIdx? (fun y => y.name = (wrapperOf W f c k x).name) = some (memberOf W f c x) := by
  have h := at_member (W := W) (f := f) hk hx ho
  obtain ⟨hlt, e⟩ := List.getElem?_eq_some_iff.1 h
  show (genWrappers W f c).findIdx? _ = _
  rw [List.findIdx?_eq_some_iff_getElem]
  refine ⟨hlt, by rw [e]; simp, fun j hj hjn => ?_⟩
  have hjn : ((genWrappers W f c)[j]).name = (wrapperOf W f c k x).name := by simpa using hjn
  rw [← e] at hjn
  have := (List.getElem_inj (xs := (genWrappers W f c).map GenWrapper.name) (i := j) (j := memberOf W f c x)
    (h₀ := by simpa using Nat.lt_trans hj hlt) (h₁ := by simpa using hlt) hw).1 (by rw [List.getElem_map, List.getElem_map, hjn])
  omega

theorem getter_call {W : World} {pkg : Nat → List Str} {env : GoEnv} {S : Schema} (hH : Handled W pkg) (hd : (structNames W ++ genEnums W).Nodup)
    (hn : ConstsDistinct W) (hS : ∀ id, (S id).zero = (env.structs[id]?.map StructDecl.zero).getD (.struct [])) {f : Nat} {c : Chain}
    (hc : Around (W.file f).messages c) (hw : ((genWrappers W f c).map GenWrapper.name).Nodup) {x : FieldDecl × Str} (hx : x ∈ namedFields c.msg)
    {v : Option Val} {r : Val} (h : Shows S (mkField W pkg f c x) v r) : callGetter W env f c ("Get".toList ++ x.2) v = some r := by
  have F := getter_facts (env := env) hH hd hn hS hc hx
  unfold callGetter Program.call
  cases ho : x.1.oneof with
  | none =>
    have hm : (mkField W pkg f c x).member = none := by
      show x.1.oneof.map _ = none
      rw [ho]
      rfl
    have hsl : slotName c.msg x = x.2 := by
      unfold slotName
      rw [ho]
    have hsf : (slotField W f c x).type = fieldGoType W f c.msg x.1 (fieldType W f c x.1) := by
      unfold slotField
      rw [ho]
      rfl
    have hsel : ∀ fs, selectField (genStruct W f c).fields x.2 fs = (fs[slotOf W f c x]?).map fun v => (fieldGoType W f c.msg x.1 (fieldType W f c x.1), v) := by
      intro fs
      rw [← hsl, select_slot hH hc hx, hsf]
    rw [find_field hx ho]
    dsimp only
    have hnm : ∀ {o w n}, (fieldGetter W f c x.1 x.2).body ≠ .member o w n := by
      intro o w n e
      rcases F.body with ⟨h, _⟩ | ⟨h, _⟩ <;> (rw [h] at e; cases e)
    have hcall : (genProgram W env).callPlain (genStruct W f c) (fieldGetter W f c x.1 x.2) v = some r := by
      have hz := F.zero
      rcases F.body with ⟨hb, ht, hopt⟩ | ⟨hb, ht, s, hopt⟩
      · unfold Program.callPlain
        rw [hb]
        cases h with
        | nil => exact hz
        | plain fs _ _ _ hat =>
          have hat : fs[slotOf W f c x]? = some r := hat
          dsimp only
          rw [hsel, hat]
          dsimp only [Option.map]
          rw [if_pos ht]
        | set fs s w _ e _ => exact absurd e (hopt s)
        | unset fs s _ e _ => exact absurd e (hopt s)
        | member fs w u e _ => rw [hm] at e; cases e
        | other fs w w' u e _ _ => rw [hm] at e; cases e
        | none fs w e _ => rw [hm] at e; cases e
      · have hopt : (mkField W pkg f c x).shape = .optional s := hopt
        have hz : (genProgram W env).zeroValue (fieldGetter W f c x.1 x.2).type (fieldGetter W f c x.1 x.2).zero = some (unsetValue S (mkField W pkg f c x).shape) := hz
        unfold Program.callPlain
        rw [hb]
        cases h with
        | nil => exact hz
        | plain fs w _ e _ => exact absurd hopt (e s)
        | set fs s w _ e hat =>
          have hat : fs[slotOf W f c x]? = _ := hat
          dsimp only
          rw [hsel, hat]
          dsimp only [Option.map]
          rw [if_pos ht]
        | unset fs s' _ e hat =>
          have hat : fs[slotOf W f c x]? = _ := hat
          dsimp only
          rw [hsel, hat]
          dsimp only [Option.map]
          rw [if_pos ht, hz, e]
          rfl
        | member fs w u e _ => rw [hm] at e; cases e
        | other fs w w' u e _ _ => rw [hm] at e; cases e
        | none fs w e _ => rw [hm] at e; cases e
    split
    · rename_i h1
      exact absurd h1 hnm
    · exact hcall
  | some k =>
    have hk := oneof_lt hH hc hx ho
    have hm : (mkField W pkg f c x).member = some (memberOf W f c x) := by
      show x.1.oneof.map _ = _
      rw [ho]
      rfl
    have hsl : slotName c.msg x = oneofFieldName c.msg k := by
      unfold slotName
      rw [ho]
    have hsf : (slotField W f c x).type = .iface (oneofFieldType c k) := by
      unfold slotField
      rw [ho]
      rfl
    have hsel : ∀ fs, selectField (genStruct W f c).fields (oneofFieldName c.msg k) fs =
        (fs[slotOf W f c x]?).map fun v => (GoExpr.iface (oneofFieldType c k), v) := by
      intro fs
      rw [← hsl, select_slot hH hc hx, hsf]
    have hg := (shape_facts hH hd hc hx).member (by rw [ho]; simp)
    have hz : (genProgram W env).zeroValue (memberGetter W f c k x.1 x.2).type (memberGetter W f c k x.1 x.2).zero = some (unsetValue S (mkField W pkg f c x).shape) := by
      have hz := F.zero
      rcases F.body with ⟨hb, ht, hopt⟩ | ⟨hb, ht, s, hopt⟩
      · rw [← ht, F.zexpr] at hz
        exact hz
      · rw [hopt] at hg
        rcases hg with ⟨s, hs⟩ | ⟨id, p, hs⟩ <;> cases hs
    rw [find_member hx ho]
    dsimp only [memberGetter] at hz ⊢
    rw [find_oneof hx ho]
    dsimp only [Option.bind]
    rw [show (genStruct W f c).wrappers.findIdx? (fun y => y.name = oneofStructName (goTypeName c.path) (nestedNames c.path c.msg) x.2) = some (memberOf W f c x) from
      wrapper_index hw hk hx ho]
    have hcall : ∀ fs i, fs[slotOf W f c x]? = some i → (genProgram W env).callPlain (genStruct W f c) (oneofGetter c k) (some (.struct fs)) = some i := by
      intro fs i hat
      unfold Program.callPlain oneofGetter
      dsimp only
      rw [hsel, hat]
      dsimp only [Option.map]
      rw [if_pos rfl]
    cases h with
    | nil =>
      rw [show (genProgram W env).callPlain (genStruct W f c) (oneofGetter c k) none = some (.iface none) from rfl]
      exact hz
    | plain fs w e _ _ => rw [hm] at e; cases e
    | set fs s w e _ _ => rw [hm] at e; cases e
    | unset fs s e _ _ => rw [hm] at e; cases e
    | member fs w u e hat =>
      rw [hm] at e
      cases e
      rw [hcall fs _ hat]
      dsimp only
      rw [if_pos rfl]
      have hat2 : (genStruct W f c).wrappers[memberOf W f c x]? = some (wrapperOf W f c k x) := at_member hk hx ho
      rw [hat2]
      dsimp only [wrapperOf, fieldGen]
      rw [if_pos (by simp)]
    | other fs w w' u e hat hne =>
      rw [hm] at e
      cases e
      rw [hcall fs _ hat]
      dsimp only
      rw [if_neg hne]
      exact hz
    | none fs w e hat =>
      rw [hcall fs _ hat]
      exact hz

end Verif.Props.Gen
