import Verif.Lemmas.Gen.ReaderTree
import Verif.Lemmas.Gen.GoTypes
import Verif.Spec.Gen.Texts
/-!
# The names in files that the parser accepts
-/
namespace Verif.Props.Gen
open Verif.Spec Verif.Spec.Gen Verif.Model.Gen Verif.Lemmas.Gen

def NamesEnum (n : EnumNode) : Prop := ProtoIdent n.name ∧ ∀ v ∈ enumValues n.elems, ProtoIdent v.name

def NamesField (f : FieldNode) : Prop := ProtoIdent f.name ∧ ∀ k, f.key = some k → KeyType k

def NamesElem : MsgElem → Prop
  | .field f => NamesField f
  | .mapField f => NamesField f
  | .oneof n os => ProtoIdent n ∧ ∀ f ∈ oneofFields os, NamesField f
  | .enum e => NamesEnum e
  | .message n _ _ => ProtoIdent n
  | _ => True

def NamesTree (p : ProtoNode) : Prop :=
  (∀ n d es, .message n d es ∈ p.elems → ProtoIdent n ∧ ∀ e, Inside es e → NamesElem e) ∧ ∀ e, .enum e ∈ p.elems → NamesEnum e

/-! ## Trees -/

variable {toks : List Tok}

theorem readEnum_names {e : RawEnum} (h : WFEnum e) (c : List Nat) (k : Nat) : NamesEnum (readEnum toks c k e).1 := by
  refine ⟨h.1.1, fun v hv => ?_⟩
  obtain ⟨y, hy, c', k', hxv⟩ := readMany_mem (enumValues_mem hv)
  cases y with
  | value w =>
    cases hxv
    exact (h.2 _ hy).1.1
  | _ => cases hxv

mutual
theorem readElem_names : ∀ {e : RawElem}, WFElem e → ∀ c k, NamesElem (readElem toks c k e).1 ∧
    ∀ n d ms, (readElem toks c k e).1 = .message n d ms → ∀ x, Inside ms x → NamesElem x
  | .field f, h, c, k => by
    rw [WFElem] at h; rw [readElem]
    exact ⟨⟨h.1.2.1.1, fun x hx => by cases h.2.symm.trans hx⟩, fun _ _ _ e => by cases e⟩
  | .enum e, h, c, k => by
    rw [WFElem] at h; rw [readElem]
    exact ⟨readEnum_names h c k, fun _ _ _ e => by cases e⟩
  | .message n es, h, c, k => by
    rw [WFElem] at h; rw [readElem]
    refine ⟨h.1.1, fun _ _ _ e => ?_⟩
    cases e
    exact readElems_names h.2 _ _
  | .extend t fs, h, c, k => by rw [readElem]; exact ⟨trivial, fun _ _ _ e => by cases e⟩
  | .option o, h, c, k => by rw [readElem]; exact ⟨trivial, fun _ _ _ e => by cases e⟩
  | .oneof n es, h, c, k => by
    rw [WFElem] at h; rw [readElem]
    refine ⟨⟨h.1.1, ?_⟩, fun _ _ _ e => by cases e⟩
    intro f hf
    obtain ⟨y, hy, c', k', hxf⟩ := readMany_mem (oneofFields_mem hf)
    cases y with
    | field g =>
      cases hxf
      have hg := h.2 _ hy
      exact ⟨hg.1.2.1.1, fun x hx => by cases hg.2.1.symm.trans hx⟩
    | _ => cases hxf
  | .mapField f, h, c, k => by
    rw [WFElem] at h; rw [readElem]
    obtain ⟨h1, _, k', h2, h3⟩ := h
    exact ⟨⟨h1.2.1.1, fun x hx => by cases h2.symm.trans hx; exact h3⟩, fun _ _ _ e => by cases e⟩
  | .reserved rr, h, c, k => by rw [readElem]; exact ⟨trivial, fun _ _ _ e => by cases e⟩
  | .reservedNames ss, _, c, k => by rw [readElem]; exact ⟨trivial, fun _ _ _ e => by cases e⟩
  | .extensions rr os, h, c, k => by rw [readElem]; exact ⟨trivial, fun _ _ _ e => by cases e⟩
  | .empty, _, c, k => by rw [readElem]; exact ⟨trivial, fun _ _ _ e => by cases e⟩
theorem readElems_names : ∀ {es : List RawElem}, WFElems es → ∀ c k x, Inside (readElems toks c k es).1 x → NamesElem x
  | [], _, _, _, x, hx => by
    rw [readElems] at hx
    cases hx with
    | here h => cases h
    | deeper h _ => cases h
  | e :: es, h, c, k, x, hx => by
    rw [WFElems] at h; rw [readElems] at hx
    obtain ⟨h1, h2⟩ := readElem_names h.1 c k
    rcases inside_cons hx with rfl | ⟨n, d, ms, e1, hi⟩ | hx
    · exact h1
    · exact h2 n d ms e1 x hi
    · exact readElems_names h.2 _ _ x hx
end

theorem readProto_names {p : RawProto} (h : WFProto p) : NamesTree (readProto toks p).tree := by
  have key : ∀ {x}, x ∈ (readProto toks p).tree.elems → ∃ y ∈ p.elems, ∃ c' k', x = (readTop toks c' k' y).1 := fun hx => readMany_mem hx
  refine ⟨?_, ?_⟩
  · intro n d es hm
    obtain ⟨y, hy, c', k', e⟩ := key hm
    have hw := h.2 y hy
    cases y with
    | message m ms =>
      cases e
      exact ⟨hw.1.1, readElems_names hw.2 _ _⟩
    | _ => cases e
  · intro e hm
    obtain ⟨y, hy, c', k', he⟩ := key hm
    have hw := h.2 y hy
    cases y with
    | enum m =>
      cases he
      exact readEnum_names hw _ _
    | _ => cases he

/-! ## Declarations -/

theorem all2_mem_right {α β : Type} {R : α → β → Prop} : ∀ {xs : List α} {ys : List β}, All2 R xs ys → ∀ {y}, y ∈ ys → ∃ x ∈ xs, R x y
  | _, _, .nil, _, hy => by cases hy
  | _, _, .cons h hs, y, hy => by
    rcases List.mem_cons.1 hy with rfl | hy
    · exact ⟨_, List.mem_cons_self .., h⟩
    · obtain ⟨x, hx, hr⟩ := all2_mem_right hs hy
      exact ⟨x, List.mem_cons_of_mem _ hx, hr⟩

theorem enumIs_named {n : EnumNode} {e : EnumDecl} (h : EnumIs n e) (hn : NamesEnum n) : NamedEnum e := by
  refine ⟨by rw [h.1]; exact hn.1, fun v hv => ?_⟩
  obtain ⟨x, hx, hv⟩ := all2_mem_right h.2.2.1 hv
  rw [hv.1]
  exact hn.2 x hx

theorem enumsOf_mem {e : EnumNode} : ∀ {es : List MsgElem}, e ∈ enumsOf es → .enum e ∈ es
  | [], h => by cases h
  | x :: es, h => by
    cases x <;> first
      | exact List.mem_cons_of_mem _ (enumsOf_mem (es := es) h)
      | (rcases List.mem_cons.1 h with h | h
         · rw [h]; exact List.mem_cons_self ..
         · exact List.mem_cons_of_mem _ (enumsOf_mem (es := es) h))

theorem messagesOf_mem {x : Str × List Str × List MsgElem} : ∀ {es : List MsgElem}, x ∈ messagesOf es → .message x.1 x.2.1 x.2.2 ∈ es
  | [], h => by cases h
  | y :: es, h => by
    cases y <;> first
      | exact List.mem_cons_of_mem _ (messagesOf_mem (es := es) h)
      | (rcases List.mem_cons.1 h with h | h
         · rw [h]; exact List.mem_cons_self ..
         · exact List.mem_cons_of_mem _ (messagesOf_mem (es := es) h))

theorem topMessages_mem {x : Str × List Str × List MsgElem} : ∀ {es : List TopElem}, x ∈ topMessages es → .message x.1 x.2.1 x.2.2 ∈ es
  | [], h => by cases h
  | y :: es, h => by
    cases y <;> first
      | exact List.mem_cons_of_mem _ (topMessages_mem (es := es) h)
      | (rcases List.mem_cons.1 h with h | h
         · rw [h]; exact List.mem_cons_self ..
         · exact List.mem_cons_of_mem _ (topMessages_mem (es := es) h))

theorem topEnums_mem {e : EnumNode} : ∀ {es : List TopElem}, e ∈ topEnums es → .enum e ∈ es
  | [], h => by cases h
  | y :: es, h => by
    cases y <;> first
      | exact List.mem_cons_of_mem _ (topEnums_mem (es := es) h)
      | (rcases List.mem_cons.1 h with h | h
         · rw [h]; exact List.mem_cons_self ..
         · exact List.mem_cons_of_mem _ (topEnums_mem (es := es) h))

/-- The oneofs have names, and fields are in oneofs that exist. -/
theorem fieldsOf_names : ∀ {es : List MsgElem} {k n : Nat}, (∀ e ∈ es, NamesElem e) →
    (∀ x ∈ fieldsOf k es, NamesField x.2.1 ∧ ∀ j, x.2.2 = some j → j < k + (oneofsOf n es).length) ∧ ∀ o ∈ oneofsOf n es, ProtoIdent o.1
  | [], k, n, _ => ⟨(fun x hx => by cases hx), (fun o ho => by cases ho)⟩
  | e :: es, k, n, h => by
    have he := h e (List.mem_cons_self ..)
    have hs : ∀ e ∈ es, NamesElem e := fun e h' => h e (List.mem_cons_of_mem _ h')
    cases e with
    | field f =>
      obtain ⟨h1, h2⟩ := fieldsOf_names (k := k) (n := n + 1) hs
      refine ⟨fun x hx => ?_, h2⟩
      rcases List.mem_cons.1 hx with rfl | hx
      · exact ⟨he, fun j hj => by cases hj⟩
      · exact h1 x hx
    | mapField f =>
      obtain ⟨h1, h2⟩ := fieldsOf_names (k := k) (n := n + 1) hs
      refine ⟨fun x hx => ?_, h2⟩
      rcases List.mem_cons.1 hx with rfl | hx
      · exact ⟨he, fun j hj => by cases hj⟩
      · exact h1 x hx
    | oneof m os =>
      obtain ⟨h1, h2⟩ := fieldsOf_names (k := k + 1) (n := n + (oneofFields os).length) hs
      refine ⟨fun x hx => ?_, fun o ho => ?_⟩
      · rcases List.mem_append.1 hx with hx | hx
        · obtain ⟨f, hf, rfl⟩ := List.mem_map.1 hx
          refine ⟨he.2 f hf, fun j hj => ?_⟩
          cases hj
          show k < k + (_ :: oneofsOf _ es).length
          rw [List.length_cons]
          omega
        · refine ⟨(h1 x hx).1, fun j hj => ?_⟩
          have := (h1 x hx).2 j hj
          show j < k + (_ :: oneofsOf _ es).length
          rw [List.length_cons]
          omega
      · rcases List.mem_cons.1 ho with rfl | ho
        · exact he.1
        · exact h2 o ho
    | _ => exact fieldsOf_names (es := es) (k := k) (n := n) hs

theorem keyType_mem {k : Str} (h : KeyType k) : (["int32", "int64", "uint32", "uint64", "sint32", "sint64", "fixed32", "fixed64", "sfixed32", "sfixed64", "bool",
    "string"].map String.toList).contains k = true := by
  obtain ⟨s, hs, rfl⟩ := h
  exact List.elem_iff.2 (List.mem_map_of_mem hs)

theorem messageIs_named {x : Str × List Str × List MsgElem} {m : MsgDecl} (h : MessageIs x m) : ProtoIdent x.1 → (∀ e, Inside x.2.2 e → NamesElem e) →
    ∀ m', m' = m ∨ Within m.messages m' → NamedMsg m' := by
  induction h with
  | @mk name directives elems enums messages fields options reserved h1 h2 h3 h4 h5 h6 ih =>
    intro hn hE m' hm
    dsimp only at hn hE
    rcases hm with rfl | hm
    · obtain ⟨f1, f2⟩ := fieldsOf_names (k := 0) (n := 0) fun e he => hE e (.here he)
      have hf : ∀ fd ∈ fields, ProtoIdent fd.name ∧ (∀ k, fd.key = some k → KeyType k) ∧ ∀ k, fd.oneof = some k → k < (oneofsOf 0 elems).length := by
        intro fd hfd
        obtain ⟨x, hx, hi⟩ := all2_mem_right h4 hfd
        refine ⟨by rw [hi.1]; exact (f1 x hx).1.1, fun k hk => (f1 x hx).1.2 k (by rw [← hi.2.1]; exact hk), fun k hk => ?_⟩
        have := (f1 x hx).2 k (by rw [← hi.2.2.2.2.2.2.1]; exact hk)
        omega
      refine ⟨hn, fun fd hfd => (hf fd hfd).1, fun o ho => ?_, fun e he => ?_, fun fd hfd k hk => keyType_mem ((hf fd hfd).2.1 k hk), fun fd hfd k hk => ?_⟩
      · obtain ⟨y, hy, rfl⟩ := List.mem_map.1 ho
        exact f2 y hy
      · obtain ⟨y, hy, hi⟩ := all2_mem_right h1 he
        exact enumIs_named hi (hE _ (.here (enumsOf_mem hy)))
      · show k < ((oneofsOf 0 elems).map Prod.fst).length
        rw [List.length_map]
        exact (hf fd hfd).2.2 k hk
    · have key : ∃ m0 ∈ messages, m' = m0 ∨ Within m0.messages m' := by
        cases hm with
        | here h => exact ⟨m', h, .inl rfl⟩
        | deeper h h' => exact ⟨_, h, .inr h'⟩
      obtain ⟨m0, hm0, hm'⟩ := key
      obtain ⟨j, hj, e⟩ := List.getElem_of_mem hm0
      have g2 := List.getElem?_eq_getElem hj
      rw [e] at g2
      have g1 := List.getElem?_eq_getElem (l := messagesOf elems) (i := j) (by omega)
      have hy := messagesOf_mem (List.mem_of_getElem? g1)
      exact ih j _ m0 g1 g2 (hE _ (.here hy)) (fun e he => hE e (.deeper hy he)) m' hm'

theorem fileIs_named {t : Text} {d : FileDecl} (h : FileIs t d) (hn : NamesTree t.tree) : NamedFile d := by
  refine ⟨fun e he => ?_, fun m hm => ?_⟩
  · obtain ⟨y, hy, hi⟩ := all2_mem_right h.enums he
    exact enumIs_named hi (hn.2 _ (topEnums_mem hy))
  · have key : ∃ m0 ∈ d.messages, m = m0 ∨ Within m0.messages m := by
      cases hm with
      | here h => exact ⟨m, h, .inl rfl⟩
      | deeper h h' => exact ⟨_, h, .inr h'⟩
    obtain ⟨m0, hm0, hm'⟩ := key
    obtain ⟨y, hy, hi⟩ := all2_mem_right h.messages hm0
    obtain ⟨h1, h2⟩ := hn.1 _ _ _ (topMessages_mem hy)
    exact messageIs_named hi h1 h2 m hm'

end Verif.Props.Gen
