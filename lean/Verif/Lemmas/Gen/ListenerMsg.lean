import Verif.Lemmas.Gen.Listener
/-!
# Lemmas about the listeners: messages
-/
namespace Verif.Props.Gen
open Verif.Model.Gen Verif.Spec.Gen

/-! ## Three lists -/

def All3 {α β γ : Type} (R : α → β → γ → Prop) (xs : List α) (ys : List β) (zs : List γ) : Prop :=
  ys.length = xs.length ∧ zs.length = xs.length ∧
    ∀ (k : Nat) (x : α) (y : β) (z : γ), xs[k]? = some x → ys[k]? = some y → zs[k]? = some z → R x y z

theorem All3.nil {α β γ : Type} {R : α → β → γ → Prop} : All3 R [] [] [] := ⟨rfl, rfl, fun k x y z h => by simp at h⟩

theorem All3.one {α β γ : Type} {R : α → β → γ → Prop} {x : α} {y : β} {z : γ} (h : R x y z) : All3 R [x] [y] [z] := by
  refine ⟨rfl, rfl, fun k a b c h1 h2 h3 => ?_⟩
  cases k with
  | zero => simp at h1 h2 h3; subst h1 h2 h3; exact h
  | succ k => simp at h1

theorem All3.append {α β γ : Type} {R : α → β → γ → Prop} {xs xs' : List α} {ys ys' : List β} {zs zs' : List γ} (h : All3 R xs ys zs)
    (h' : All3 R xs' ys' zs') : All3 R (xs ++ xs') (ys ++ ys') (zs ++ zs') := by
  obtain ⟨a, b, c⟩ := h
  obtain ⟨a', b', c'⟩ := h'
  refine ⟨by simp [a, a'], by simp [b, b'], fun k x y z h1 h2 h3 => ?_⟩
  by_cases hk : k < xs.length
  · rw [List.getElem?_append_left (by omega)] at h1 h2 h3
    exact c k x y z h1 h2 h3
  · rw [List.getElem?_append_right (by omega)] at h1 h2 h3
    rw [a] at h2; rw [b] at h3
    exact c' _ x y z h1 h2 h3

theorem All3.mono {α β γ : Type} {R R' : α → β → γ → Prop} {xs : List α} {ys : List β} {zs : List γ} (h : All3 R xs ys zs)
    (hR : ∀ x y z, y ∈ ys → R x y z → R' x y z) : All3 R' xs ys zs :=
  ⟨h.1, h.2.1, fun k x y z h1 h2 h3 => hR x y z (List.mem_of_getElem? h2) (h.2.2 k x y z h1 h2 h3)⟩

/-- An enum in the table. -/
def EnumAt (s : LState) (p : Option Nat) (n : EnumNode) (j : Nat) (e : EnumDecl) : Prop := s.enumStore[j]? = some ⟨e, p⟩ ∧ EnumIs n e

/-- A message in the table. -/
def MsgAt (s : LState) (p : Option Nat) (n : Str × List Str × List MsgElem) (j : Nat) (m : MsgDecl) : Prop := Loaded s p n.1 n.2.1 n.2.2 j m

/-! ## What stays the same -/

structure Grown (s s' : LState) (i : Nat) : Prop where
  rest : s' = { s with msgStore := s'.msgStore, enumStore := s'.enumStore }
  msgLen : s.msgStore.length ≤ s'.msgStore.length
  enumLen : s.enumStore.length ≤ s'.enumStore.length
  msgs : ∀ j, j < s.msgStore.length → j ≠ i → s'.msgStore[j]? = s.msgStore[j]?
  enums : ∀ j, j < s.enumStore.length → s'.enumStore[j]? = s.enumStore[j]?

theorem Grown.refl (s : LState) (i : Nat) : Grown s s i := ⟨rfl, Nat.le_refl _, Nat.le_refl _, fun _ _ _ => rfl, fun _ _ => rfl⟩

theorem Grown.trans {s s1 s2 : LState} {i : Nat} (h1 : Grown s s1 i) (h2 : Grown s1 s2 i) : Grown s s2 i := by
  refine ⟨?_, Nat.le_trans h1.msgLen h2.msgLen, Nat.le_trans h1.enumLen h2.enumLen, ?_, ?_⟩
  · have e := h2.rest
    rw [h1.rest] at e
    exact e
  · intro j hj hne
    rw [h2.msgs j (Nat.lt_of_lt_of_le hj h1.msgLen) hne, h1.msgs j hj hne]
  · intro j hj
    rw [h2.enums j (Nat.lt_of_lt_of_le hj h1.enumLen), h1.enums j hj]

theorem Grown.msgstack {s s' : LState} {i : Nat} (h : Grown s s' i) : s'.msgstack = s.msgstack := by rw [h.rest]
theorem Grown.enum {s s' : LState} {i : Nat} (h : Grown s s' i) : s'.enum = s.enum := by rw [h.rest]
theorem Grown.edition {s s' : LState} {i : Nat} (h : Grown s s' i) : s'.edition = s.edition := by rw [h.rest]

theorem grown_set (s : LState) (i : Nat) (r : MsgRec) : Grown s { s with msgStore := s.msgStore.set i r } i := by
  refine ⟨rfl, by simp, Nat.le_refl _, fun j hj hne => ?_, fun _ _ => rfl⟩
  exact List.getElem?_set_ne (by omega)

theorem enumAt_grown {s s' : LState} {i : Nat} {p : Option Nat} {n : EnumNode} {j : Nat} {e : EnumDecl} (h : EnumAt s p n j e) (g : Grown s s' i) :
    EnumAt s' p n j e := by
  obtain ⟨hlt, _⟩ := List.getElem?_eq_some_iff.1 h.1
  exact ⟨by rw [g.enums j hlt]; exact h.1, h.2⟩

theorem loaded_frame {s s' : LState} {p : Option Nat} {n : Str} {d : List Str} {es : List MsgElem} {j : Nat} {m : MsgDecl}
    (h : Loaded s p n d es j m) :
    (∀ (k : Nat) (r : MsgRec), j ≤ k → s.msgStore[k]? = some r → s'.msgStore[k]? = some r) → (∀ (k : Nat) (e : EnumRec), s.enumStore[k]? = some e → s'.enumStore[k]? = some e) →
    Loaded s' p n d es j m := by
  induction h with
  | mk h1 h2 h3 h4 h5 h6 h7 h8 h9 h10 h11 h12 h13 _ h15 ih =>
    intro hm he
    refine .mk (hm _ _ (Nat.le_refl _) h1) h2 h3 h4 h5 h6 h7 h8 h9 h10 ?_ h12 h13 ?_ h15
    · intro k n j e a b c
      obtain ⟨x, y⟩ := h11 k n j e a b c
      exact ⟨he _ _ x, y⟩
    · intro k n d es j m a b c
      refine ih k n d es j m a b c (fun k' r hk hr => hm k' r ?_ hr) he
      have := h15 j (List.mem_of_getElem? b)
      omega

theorem msgAt_grown {s s' : LState} {i : Nat} {p : Option Nat} {n : Str × List Str × List MsgElem} {j : Nat} {m : MsgDecl} (h : MsgAt s p n j m)
    (g : Grown s s' i) (hj : i < j) : MsgAt s' p n j m := by
  refine loaded_frame h (fun k r hk hr => ?_) (fun k e he => ?_)
  · obtain ⟨hlt, _⟩ := List.getElem?_eq_some_iff.1 hr
    rw [g.msgs k hlt (by omega)]; exact hr
  · obtain ⟨hlt, _⟩ := List.getElem?_eq_some_iff.1 he
    rw [g.enums k hlt]; exact he

/-! ## What is added -/

structure Added (s' : LState) (i : Nat) (es : List MsgElem) (r r' : MsgRec) : Prop where
  name : r'.name = r.name
  directives : r'.directives = r.directives
  parent : r'.parent = r.parent
  fields : ∃ fs, r'.fields = r.fields ++ fs ∧ All2 FieldIs (fieldsOf r.oneofs.length es) fs
  oneofs : ∃ os, r'.oneofs = r.oneofs ++ os ∧ All2 OneofIs (oneofsOf r.fields.length es) os
  options : ∃ oo, r'.options = r.options ++ oo ∧ OptionsAre (optionsOf es) oo
  reserved : ∃ rr, r'.reserved = r.reserved ++ rr ∧ All2 RangeIs (rangesOf es) rr
  enums : ∃ js ds, r'.enums = r.enums ++ js ∧ All3 (EnumAt s' (some i)) (enumsOf es) js ds
  messages : ∃ js ms, r'.messages = r.messages ++ js ∧ All3 (MsgAt s' (some i)) (messagesOf es) js ms ∧ ∀ j ∈ js, i < j

theorem fieldsOf_cons (k n : Nat) (e : MsgElem) (es : List MsgElem) :
    fieldsOf k (e :: es) = fieldsOf k [e] ++ fieldsOf (k + (oneofsOf n [e]).length) es := by
  cases e <;> simp [fieldsOf, oneofsOf]

theorem oneofsOf_cons (k n : Nat) (e : MsgElem) (es : List MsgElem) :
    oneofsOf n (e :: es) = oneofsOf n [e] ++ oneofsOf (n + (fieldsOf k [e]).length) es := by
  cases e <;> simp [fieldsOf, oneofsOf]

theorem optionsOf_cons (e : MsgElem) (es : List MsgElem) : optionsOf (e :: es) = optionsOf [e] ++ optionsOf es := by
  cases e <;> simp [optionsOf]

theorem rangesOf_cons (e : MsgElem) (es : List MsgElem) : rangesOf (e :: es) = rangesOf [e] ++ rangesOf es := by
  cases e <;> simp [rangesOf]

theorem enumsOf_cons (e : MsgElem) (es : List MsgElem) : enumsOf (e :: es) = enumsOf [e] ++ enumsOf es := by
  cases e <;> simp [enumsOf]

theorem messagesOf_cons (e : MsgElem) (es : List MsgElem) : messagesOf (e :: es) = messagesOf [e] ++ messagesOf es := by
  cases e <;> simp [messagesOf]

theorem Added.trans {s1 s2 : LState} {i : Nat} {e : MsgElem} {es : List MsgElem} {r r1 r2 : MsgRec} (h1 : Added s1 i [e] r r1)
    (g : Grown s1 s2 i) (h2 : Added s2 i es r1 r2) : Added s2 i (e :: es) r r2 := by
  obtain ⟨fs1, f1, f1'⟩ := h1.fields
  obtain ⟨fs2, f2, f2'⟩ := h2.fields
  obtain ⟨os1, o1, o1'⟩ := h1.oneofs
  obtain ⟨os2, o2, o2'⟩ := h2.oneofs
  obtain ⟨oo1, p1, p1'⟩ := h1.options
  obtain ⟨oo2, p2, p2'⟩ := h2.options
  obtain ⟨rr1, q1, q1'⟩ := h1.reserved
  obtain ⟨rr2, q2, q2'⟩ := h2.reserved
  obtain ⟨ej1, ed1, e1, e1'⟩ := h1.enums
  obtain ⟨ej2, ed2, e2, e2'⟩ := h2.enums
  obtain ⟨mj1, md1, m1, m1', m1''⟩ := h1.messages
  obtain ⟨mj2, md2, m2, m2', m2''⟩ := h2.messages
  refine ⟨h2.name.trans h1.name, h2.directives.trans h1.directives, h2.parent.trans h1.parent, ⟨fs1 ++ fs2, ?_, ?_⟩, ⟨os1 ++ os2, ?_, ?_⟩,
    ⟨oo1 ++ oo2, ?_, ?_⟩, ⟨rr1 ++ rr2, ?_, ?_⟩, ⟨ej1 ++ ej2, ed1 ++ ed2, ?_, ?_⟩, mj1 ++ mj2, md1 ++ md2, ?_, ?_, ?_⟩
  · rw [f2, f1, List.append_assoc]
  · rw [fieldsOf_cons _ r.fields.length, all2_length o1']
    refine all2_append f1' ?_
    rw [o1, List.length_append] at f2'
    exact f2'
  · rw [o2, o1, List.append_assoc]
  · rw [oneofsOf_cons r.oneofs.length, all2_length f1']
    refine all2_append o1' ?_
    rw [f1, List.length_append] at o2'
    exact o2'
  · rw [p2, p1, List.append_assoc]
  · rw [optionsOf_cons]; exact optionsAre_append p1' p2'
  · rw [q2, q1, List.append_assoc]
  · rw [rangesOf_cons]; exact all2_append q1' q2'
  · rw [e2, e1, List.append_assoc]
  · rw [enumsOf_cons]
    exact (e1'.mono fun n j d _ h => enumAt_grown h g).append e2'
  · rw [m2, m1, List.append_assoc]
  · rw [messagesOf_cons]
    exact (m1'.mono fun n j d hj h => msgAt_grown h g (m1'' j hj)).append m2'
  · intro j hj
    rcases List.mem_append.1 hj with h | h
    · exact m1'' j h
    · exact m2'' j h

theorem Added.same {s : LState} {i : Nat} {es : List MsgElem} {r : MsgRec} (h1 : fieldsOf r.oneofs.length es = []) (h2 : oneofsOf r.fields.length es = [])
    (h3 : optionsOf es = []) (h4 : rangesOf es = []) (h5 : enumsOf es = []) (h6 : messagesOf es = []) : Added s i es r r :=
  ⟨rfl, rfl, rfl, ⟨[], by simp, by rw [h1]; exact .nil⟩, ⟨[], by simp, by rw [h2]; exact .nil⟩, ⟨[], by simp, by rw [h3]; exact optionsAre_nil⟩,
    ⟨[], by simp, by rw [h4]; exact .nil⟩, ⟨[], [], by simp, by rw [h5]; exact .nil⟩, [], [], by simp, by rw [h6]; exact .nil, by simp⟩

/-! ## Elements inside -/

theorem inside_cons {P : MsgElem → Prop} {e : MsgElem} {es : List MsgElem} :
    (∀ x, Inside (e :: es) x → P x) ↔ (∀ x, Inside [e] x → P x) ∧ ∀ x, Inside es x → P x := by
  constructor
  · intro h
    constructor
    · intro x hx
      refine h x ?_
      cases hx with
      | here hm => exact .here (by simp at hm; simp [hm])
      | deeper hm hx => exact .deeper (List.mem_cons.2 (.inl (List.mem_singleton.1 hm))) hx
    · intro x hx
      refine h x ?_
      cases hx with
      | here hm => exact .here (List.mem_cons_of_mem _ hm)
      | deeper hm hx => exact .deeper (List.mem_cons_of_mem _ hm) hx
  · rintro ⟨h1, h2⟩ x hx
    cases hx with
    | here hm =>
      rcases List.mem_cons.1 hm with h | h
      · exact h1 x (.here (by simp [h]))
      · exact h2 x (.here h)
    | deeper hm hx =>
      rcases List.mem_cons.1 hm with h | h
      · exact h1 x (.deeper (by rw [h]; exact List.mem_singleton.2 rfl) hx)
      · exact h2 x (.deeper h hx)

theorem inside_message {P : MsgElem → Prop} {n : Str} {d : List Str} {ms : List MsgElem} :
    (∀ x, Inside [.message n d ms] x → P x) ↔ P (.message n d ms) ∧ ∀ x, Inside ms x → P x := by
  constructor
  · intro h
    exact ⟨h _ (.here (List.mem_singleton.2 rfl)), fun x hx => h x (.deeper (List.mem_singleton.2 rfl) hx)⟩
  · rintro ⟨h1, h2⟩ x hx
    cases hx with
    | here hm => rw [List.mem_singleton.1 hm]; exact h1
    | deeper hm hx =>
      cases List.mem_singleton.1 hm
      exact h2 x hx

theorem inside_other {P : MsgElem → Prop} {e : MsgElem} (hne : ∀ n d ms, e ≠ .message n d ms) : (∀ x, Inside [e] x → P x) ↔ P e := by
  constructor
  · intro h
    exact h _ (.here (List.mem_singleton.2 rfl))
  · intro h x hx
    cases hx with
    | here hm => rw [List.mem_singleton.1 hm]; exact h
    | deeper hm hx => exact absurd (List.mem_singleton.1 hm).symm (hne _ _ _)

theorem inside_nil {P : MsgElem → Prop} : (∀ x, Inside [] x → P x) ↔ True := by
  refine ⟨fun _ => trivial, fun _ x hx => ?_⟩
  cases hx with
  | here hm => cases hm
  | deeper hm _ => cases hm

/-! ## The elements of a message -/

/-- The outcome for elements `es` of the message at `i`. -/
def MsgPost (s : LState) (i : Nat) (r : MsgRec) (es : List MsgElem) (s' : LState) : Prop :=
  Grown s s' i ∧ ∃ r', s'.msgStore[i]? = some r' ∧ Added s' i es r r'

theorem MsgPost.set {s : LState} {i : Nat} {r r' : MsgRec} {es : List MsgElem} (h : s.msgStore[i]? = some r)
    (ha : ∀ s', Added s' i es r r') : MsgPost s i r es { s with msgStore := s.msgStore.set i r' } :=
  ⟨grown_set s i r', r', getElem?_set_same h, ha _⟩

theorem addField {s' : LState} {i : Nat} {e : MsgElem} {r : MsgRec} {fs : List FieldDecl} (h1 : All2 FieldIs (fieldsOf r.oneofs.length [e]) fs)
    (h2 : oneofsOf r.fields.length [e] = []) (h3 : optionsOf [e] = []) (h4 : rangesOf [e] = []) (h5 : enumsOf [e] = []) (h6 : messagesOf [e] = []) :
    Added s' i [e] r { r with fields := r.fields ++ fs } :=
  ⟨rfl, rfl, rfl, ⟨fs, rfl, h1⟩, ⟨[], by simp, by rw [h2]; exact .nil⟩, ⟨[], by simp, by rw [h3]; exact optionsAre_nil⟩,
    ⟨[], by simp, by rw [h4]; exact .nil⟩, ⟨[], [], by simp, by rw [h5]; exact .nil⟩, [], [], by simp, by rw [h6]; exact .nil, by simp⟩

theorem exitField_ends {s : LState} {i : Nat} {st : List Nat} {r : MsgRec} {f : FieldNode} (hs : s.msgstack = i :: st)
    (h : s.msgStore[i]? = some r) (hn : IsNumber f.number) :
    Ends (GoodField f ∧ (f.label = some .required → s.edition = .proto2)) (exitField s .messageElement f) (MsgPost s i r [.field f]) := by
  unfold exitField
  rw [if_neg (by decide)]
  refine (newField_ends hn).bind (P2 := f.label = some .required → s.edition = .proto2) (fun d hd => ?_) Iff.rfl
  obtain ⟨a1, a2, a3, a4, a5, a6, a7, a8, a9, a10⟩ := hd
  have h8 : d.repeated = false := by simpa using a8
  have h9 : d.required = false := by simpa using a9
  have h10 : d.optional = false := by simpa using a10
  refine Ends.bind (Q1 := FieldIs (f.label, f, none)) (P1 := f.label = some .required → s.edition = .proto2) (P2 := True) ?_ (fun d hd => ?_) (P := f.label = some .required → s.edition = .proto2) (by simp)
  · unfold setLabel
    cases hl : f.label with
    | none => exact .pure (by simp) ⟨a1, a2, a3, a4, a5, a6, a7, a8, a9, a10⟩
    | some l =>
      cases l with
      | optional => exact .pure (by simp) ⟨a1, a2, a3, a4, a5, a6, a7, by simp [h8], by simp [h9], by simp⟩
      | repeated => exact .pure (by simp) ⟨a1, a2, a3, a4, a5, a6, a7, by simp, by simp [h9], by simp [h10]⟩
      | required =>
        dsimp only
        by_cases he : s.edition = .proto2
        · rw [if_neg (by simp [he])]
          exact .pure (fun _ => he) ⟨a1, a2, a3, a4, a5, a6, a7, by simp [h8], by simp, by simp [h10]⟩
        · rw [if_pos he]
          exact .fail (fun h => he (h rfl))
  · rw [updateMsg_pure hs h]
    exact .pure trivial (.set h fun s' => addField (all2_one hd) rfl rfl rfl rfl rfl)

theorem run_extend (fs : List FieldNode) (s : LState) : run (fs.map (.exitField .extendDef)) s = .ok s := by
  induction fs with
  | nil => rfl
  | cons f fs ih =>
    rw [List.map_cons, run_cons]
    exact ih

/-- The message made by `enterMessage` and filled by the elements `es`. -/
theorem loaded_new {s1 s2 : LState} {j : Nat} {n : Str} {d : List Str} {p : Option Nat} {es : List MsgElem}
    (hp : MsgPost s1 j { name := n, directives := d, parent := p } es s2) : ∃ m, Loaded s2 p n d es j m := by
  obtain ⟨_, r', hr, ha⟩ := hp
  obtain ⟨fs, f1, f2⟩ := ha.fields
  obtain ⟨os, o1, o2⟩ := ha.oneofs
  obtain ⟨oo, p1, p2⟩ := ha.options
  obtain ⟨rr, q1, q2⟩ := ha.reserved
  obtain ⟨ej, ed, e1, e2⟩ := ha.enums
  obtain ⟨mj, md, m1, m2, m3⟩ := ha.messages
  simp only [List.nil_append, List.length_nil] at f1 f2 o1 o2 p1 p2 q1 q2 e1 e2 m1 m2
  subst f1 o1 p1 q1 e1 m1
  exact ⟨_, .mk hr ha.name ha.directives ha.parent f2 o2 p2 q2 e2.1 e2.2.1 e2.2.2 m2.1 m2.2.1
    (fun k n d es j m a b c => m2.2.2 k (n, d, es) j m a b c) m3⟩

mutual
theorem elem_ends (e : MsgElem) (s : LState) (i : Nat) (st : List Nat) (r : MsgRec) (hs : s.msgstack = i :: st) (h : s.msgStore[i]? = some r)
    (hen : s.enum = none) (hn : ∀ x, Inside [e] x → NumbersElem x) :
    Ends (∀ x, Inside [e] x → GoodElem s.edition x) (run (evElem e) s) (MsgPost s i r [e]) := by
  cases e with
  | field f =>
    rw [inside_other (by intros; simp)] at hn ⊢
    rw [evElem, run_one]
    exact exitField_ends hs h hn
  | mapField f =>
    rw [inside_other (by intros; simp)] at hn ⊢
    rw [evElem, run_one]
    simp only [step, exitMapField]
    refine (newField_ends hn).bind (P2 := True) (fun d hd => ?_) (by simp [GoodElem])
    rw [updateMsg_pure hs h]
    exact .pure trivial (.set h fun s' => addField (all2_one hd) rfl rfl rfl rfl rfl)
  | extend t fs =>
    rw [inside_other (by intros; simp)] at ⊢
    rw [evElem, run_extend]
    exact .pure trivial ⟨.refl _ _, r, h, .same rfl rfl rfl rfl rfl rfl⟩
  | option o =>
    rw [inside_other (by intros; simp)] at ⊢
    rw [evElem, run_one]
    refine exitOption_ends (fun v hv => ⟨_, by rw [addOption, updateMsg_pure hs h], .set h fun s' => ?_⟩)
    exact ⟨rfl, rfl, rfl, ⟨[], by simp, .nil⟩, ⟨[], by simp, .nil⟩, ⟨_, rfl, optionsAre_one hv⟩,
      ⟨[], by simp, .nil⟩, ⟨[], [], by simp, .nil⟩, [], [], by simp, .nil, by simp⟩
  | oneof n os =>
    rw [inside_other (by intros; simp)] at hn ⊢
    rw [evElem, run_cons]
    simp only [step, enterOneof]
    rw [updateMsg_pure hs h]
    show Ends _ (run _ _) _
    refine (oneofElems_ends os (s := { s with msgStore := s.msgStore.set i _ }) hs (getElem?_set_same h) rfl hn).mono Iff.rfl ?_
    rintro s' ⟨fs, oo, rfl, hf, ho⟩
    simp only [List.set_set]
    refine .set h fun s' => ⟨rfl, rfl, rfl, ⟨fs, rfl, ?_⟩, ⟨_, rfl, ?_⟩, ⟨[], by simp, optionsAre_nil⟩,
      ⟨[], by simp, .nil⟩, ⟨[], [], by simp, .nil⟩, [], [], by simp, .nil, by simp⟩
    · simpa [fieldsOf] using hf
    · exact all2_one ⟨rfl, by simpa using ho, by simp⟩
  | reserved rr =>
    rw [inside_other (by intros; simp)] at hn ⊢
    rw [evElem, run_one]
    simp only [step, exitReservedStmt]
    refine (reservedRanges_ends rr hn).bind (P2 := True) (fun x hx => ?_) (by simp [GoodElem])
    rw [updateMsg_pure hs h]
    refine .pure trivial (.set h fun s' => ⟨rfl, rfl, rfl, ⟨[], by simp, .nil⟩, ⟨[], by simp, .nil⟩, ⟨[], by simp, optionsAre_nil⟩,
      ⟨_, rfl, ?_⟩, ⟨[], [], by simp, .nil⟩, [], [], by simp, .nil, by simp⟩)
    simpa [rangesOf] using hx
  | reservedNames ss =>
    rw [inside_other (by intros; simp)] at ⊢
    rw [evElem, run_one]
    exact .pure trivial ⟨.refl _ _, r, h, .same rfl rfl rfl rfl rfl rfl⟩
  | extensions rr oo =>
    rw [inside_other (by intros; simp)] at ⊢
    exact .pure trivial ⟨.refl _ _, r, h, .same rfl rfl rfl rfl rfl rfl⟩
  | empty =>
    rw [inside_other (by intros; simp)] at ⊢
    exact .pure trivial ⟨.refl _ _, r, h, .same rfl rfl rfl rfl rfl rfl⟩
  | enum e =>
    rw [inside_other (by intros; simp)] at hn ⊢
    rw [evElem]
    refine (enum_ends (p := some i) (t := { s with msgStore := s.msgStore.set i { r with enums := r.enums ++ [s.enumStore.length] } })
      ?_ hn.1 hn.2).mono Iff.rfl ?_
    · simp only [enterEnum, hs]
      rw [updateMsg_pure hs h]
      simp [bind, Except.bind, pure, Except.pure, hs]
    · rintro s' ⟨d, rfl, hd⟩
      refine ⟨⟨?_, by simp, by simp, fun j hj hne => ?_, fun j hj => ?_⟩, { r with enums := r.enums ++ [s.enumStore.length] },
        getElem?_set_same h, ⟨rfl, rfl, rfl, ⟨[], by simp, .nil⟩, ⟨[], by simp, .nil⟩, ⟨[], by simp, optionsAre_nil⟩,
        ⟨[], by simp, .nil⟩, ⟨_, [d], rfl, ?_⟩, [], [], by simp, .nil, by simp⟩⟩
      · simp [hen]
      · exact List.getElem?_set_ne (by omega)
      · exact List.getElem?_append_left hj
      · exact .one ⟨by simp, hd⟩
  | message n d es =>
    rw [inside_message] at hn ⊢
    rw [evElem, run_cons]
    obtain ⟨hlt, _⟩ := List.getElem?_eq_some_iff.1 h
    have hent : step s (.enterMessage .messageElement n d) = .ok { s with
        msgStore := s.msgStore.set i { r with messages := r.messages ++ [s.msgStore.length] } ++ [{ name := n, directives := d, parent := some i }],
        msgstack := s.msgStore.length :: i :: st } := by
      simp only [step, enterMessage, hs]
      rw [updateMsg_pure hs h]
      simp [bind, Except.bind, pure, Except.pure, hs]
    rw [hent]
    show Ends _ (run _ _) _
    refine Ends.append (elems_ends es { s with
        msgStore := s.msgStore.set i { r with messages := r.messages ++ [s.msgStore.length] } ++ [{ name := n, directives := d, parent := some i }],
        msgstack := s.msgStore.length :: i :: st } s.msgStore.length (i :: st) { name := n, directives := d, parent := some i } rfl (by simp) hen hn.2)
      (P2 := True) ?_ (by simp only [GoodElem, true_and, and_true])
    intro s1 hp
    have hg := hp.1
    obtain ⟨m, hm⟩ := loaded_new hp
    rw [run_one]
    simp only [step, exitMessage, hg.msgstack]
    refine .pure trivial ⟨⟨?_, ?_, hg.enumLen, ?_, hg.enums⟩, { r with messages := r.messages ++ [s.msgStore.length] }, ?_, ?_⟩
    · have e := hg.rest
      rw [e]
      simp [hs]
    · have := hg.msgLen
      simp at this ⊢
      omega
    · intro j hj hne
      have := hg.msgs j (by simp; omega) (by omega)
      dsimp only at this ⊢
      rw [this, List.getElem?_append_left (by simpa using hj), List.getElem?_set_ne (by omega)]
    · have := hg.msgs i (by simp; omega) (by omega)
      dsimp only at this ⊢
      rw [this, List.getElem?_append_left (by simpa using hlt)]
      exact getElem?_set_same h
    · refine ⟨rfl, rfl, rfl, ⟨[], by simp, .nil⟩, ⟨[], by simp, .nil⟩, ⟨[], by simp, optionsAre_nil⟩,
        ⟨[], by simp, .nil⟩, ⟨[], [], by simp, .nil⟩, _, [m], rfl, .one ?_, by simp [hlt]⟩
      exact loaded_frame hm (fun k r _ h => h) (fun k e h => h)
  termination_by structural e

theorem elems_ends (es : List MsgElem) (s : LState) (i : Nat) (st : List Nat) (r : MsgRec) (hs : s.msgstack = i :: st) (h : s.msgStore[i]? = some r)
    (hen : s.enum = none) (hn : ∀ x, Inside es x → NumbersElem x) :
    Ends (∀ x, Inside es x → GoodElem s.edition x) (run (evElems es) s) (MsgPost s i r es) := by
  cases es with
  | nil =>
    rw [evElems]
    exact .pure (inside_nil.2 trivial) ⟨.refl _ _, r, h, .same rfl rfl rfl rfl rfl rfl⟩
  | cons e es =>
    rw [evElems]
    rw [inside_cons] at hn
    refine (elem_ends e s i st r hs h hen hn.1).append (P2 := ∀ x, Inside es x → GoodElem s.edition x) ?_ inside_cons
    rintro s1 ⟨g1, r1, hr1, a1⟩
    have := elems_ends es s1 i st r1 (g1.msgstack.trans hs) hr1 (g1.enum.trans hen) hn.2
    rw [g1.edition] at this
    refine this.mono Iff.rfl ?_
    rintro s2 ⟨g2, r2, hr2, a2⟩
    exact ⟨g1.trans g2, r2, hr2, a1.trans g2 a2⟩
  termination_by structural es
end

end Verif.Props.Gen
