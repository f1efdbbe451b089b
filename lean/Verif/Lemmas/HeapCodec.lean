import Verif.Lemmas.Heap
/-! Helper lemmas: the codec on a memory with sharing and cycles does what it does on a deep enough unfolding. -/
namespace Verif.Lemmas
open Verif.Model Verif.Spec

variable {h : Heap} {S : Schema} {P : Nat → HVal → Prop}

theorem foldlM_map_congr {α β γ : Type} (g : α → β) (F : γ → α → Res γ) (G : γ → β → Res γ) : ∀ (xs : List α) (b : γ),
    (∀ x ∈ xs, ∀ b, F b x = G b (g x)) → xs.foldlM F b = (xs.map g).foldlM G b
  | [], _, _ => rfl
  | x :: xs, b, hx => by
    rw [List.map_cons, List.foldlM_cons, List.foldlM_cons, hx x (by simp) b]
    congr 1
    funext c
    exact foldlM_map_congr g F G xs c fun y hy => hx y (by simp [hy])

theorem skipZero_tree (ssize : Nat → Nat) (t : GoType) (v : HVal) (n : Nat) : skipZeroH h ssize t v = skipZero ssize t (v.tree h (n + 1)) := by
  unfold skipZeroH skipZero
  rw [memZero_tree]
  dsimp only
  split
  · rfl
  split
  · cases v with
    | data v => rw [tree_data]
    | slice a => rw [tree_slice]; simp only [Val.len, List.length_map]; rfl
    | ptr a => cases a with
      | none => rw [tree_ptr_none]; rfl
      | some a => rw [tree_ptr]; rfl
    | struct fs => rw [tree_struct]; rfl
    | map a => cases a with
      | none => rw [tree_map_none]; rfl
      | some a => rw [tree_map]; rfl
    | iface x => cases x with
      | none => rw [tree_iface_none]; rfl
      | some x =>
        obtain ⟨w, a⟩ := x
        cases a with
        | none => rw [tree_iface_nil]; rfl
        | some a => rw [tree_iface]; rfl
  · rfl

/-- The nested calls agree. -/
structure SimE (h : Heap) (P : Nat → HVal → Prop) (recH : EncRecH) (recT : EncRec) (k : Nat) : Prop where
  some : ∀ id v, P id v → ∀ n, k ≤ n → ∀ b, recH b (some v) id = recT b (some (v.tree h n)) id
  none : ∀ id b, recH b none id = recT b none id

/-- The nested calls agree. -/
structure SimS (h : Heap) (P : Nat → HVal → Prop) (recH : SizeRecH) (recT : SizeRec) (k : Nat) : Prop where
  some : ∀ id v, P id v → ∀ n, k ≤ n → recH (some v) id = recT (some (v.tree h n)) id
  none : ∀ id, recH none id = recT none id

theorem elemBase_sim {id : Nat} {p : Bool} {x : HVal} (hx : RefTypedH h P id p x) (n : Nat) :
    (elemBaseH h (msgType id p) x = .ok none ∧ elemBase (msgType id p) (x.tree h (n + 1)) = .ok none) ∨
    ∃ v n', P id v ∧ n ≤ n' ∧ elemBaseH h (msgType id p) x = .ok (some v) ∧ elemBase (msgType id p) (x.tree h (n + 1)) = .ok (some (v.tree h n')) := by
  cases hx with
  | nil => exact .inl ⟨rfl, by rw [tree_ptr_none]; rfl⟩
  | ptr a hp => exact .inr ⟨_, n, hp, Nat.le_refl _, rfl, by rw [tree_ptr]; rfl⟩
  | inline _ hp => exact .inr ⟨x, n + 1, hp, by omega, rfl, rfl⟩

theorem elemE {recH : EncRecH} {recT : EncRec} {k : Nat} (hr : SimE h P recH recT k) {id : Nat} {p : Bool} {x : HVal} (hx : RefTypedH h P id p x)
    {n : Nat} (hn : k + 1 ≤ n) : ∃ m t, elemBaseH h (msgType id p) x = .ok m ∧ elemBase (msgType id p) (x.tree h n) = .ok t ∧
      ∀ b, recH b m id = recT b t id := by
  obtain ⟨n, rfl⟩ : ∃ j, n = j + 1 := ⟨n - 1, by omega⟩
  rcases elemBase_sim hx n with ⟨e, e'⟩ | ⟨v, n', hp, hn', e, e'⟩
  · exact ⟨_, _, e, e', fun b => hr.none id b⟩
  · exact ⟨_, _, e, e', fun b => hr.some id v hp n' (by omega) b⟩

theorem elemS {recH : SizeRecH} {recT : SizeRec} {k : Nat} (hr : SimS h P recH recT k) {id : Nat} {p : Bool} {x : HVal} (hx : RefTypedH h P id p x)
    {n : Nat} (hn : k + 1 ≤ n) : ∃ m t, elemBaseH h (msgType id p) x = .ok m ∧ elemBase (msgType id p) (x.tree h n) = .ok t ∧
      recH m id = recT t id := by
  obtain ⟨n, rfl⟩ : ∃ j, n = j + 1 := ⟨n - 1, by omega⟩
  rcases elemBase_sim hx n with ⟨e, e'⟩ | ⟨v, n', hp, hn', e, e'⟩
  · exact ⟨_, _, e, e', hr.none id⟩
  · exact ⟨_, _, e, e', hr.some id v hp n' (by omega)⟩

/-! ## Fields without messages -/

theorem mapField_norec (recA recB : EncRec) (f : FieldDesc) (c : AppendFn) (hv : f.valAppend = some c) (b : Bytes) (p : Val) :
    appendMapField recA f b p = appendMapField recB f b p := by
  have : ∀ vt, appendEntryGeneric recA f vt = appendEntryGeneric recB f vt := fun vt => by
    funext b e
    unfold appendEntryGeneric
    simp only [hv]
  unfold appendMapField
  cases f.t <;> simp only [hv, this] <;> simp

theorem present_norec (recA recB : EncRec) {f : Field} (hl : f.shape.legal = true) (hm : f.shape.isMsg = false) (b : Bytes) (v : Val) :
    appendPresent recA (descOf f) b v = appendPresent recB (descOf f) b v := by
  obtain ⟨num, slot, mem, shape⟩ := f
  cases shape with
  | single s => rw [descOf_single]; rfl
  | optional s => rw [descOf_optional]; cases v <;> first | rfl | (rename_i q; cases q <;> rfl)
  | list s p =>
    cases p with
    | false => rw [descOf_list]; rfl
    | true => rw [descOf_packed _ _ _ _ (by simpa [Shape.legal] using hl)]; rfl
  | msg id p => simp [Shape.isMsg] at hm
  | msgList id p => simp [Shape.isMsg] at hm
  | map k w =>
    unfold appendPresent
    have hv : (descOf ⟨num, slot, mem, .map k w⟩).valAppend = some (.plain (coderOf w)) := by rw [descOf_map]
    simp only [mapField_norec recA recB _ _ hv]
    rw [descOf_map]
    rfl
  | mapMsg k id p => simp [Shape.isMsg] at hm

theorem mapSize_norec (recA recB : SizeRec) (f : FieldDesc) (c : Coder) (hv : f.valSize = some c) (p : Val) :
    sizeMapField recA f p = sizeMapField recB f p := by
  have : ∀ vt, sizeEntryGeneric recA f vt = sizeEntryGeneric recB f vt := fun vt => by
    funext b e
    unfold sizeEntryGeneric
    simp only [hv]
  unfold sizeMapField
  cases f.sizeMap with
  | some c => rfl
  | none => cases f.t <;> simp only [hv, this] <;> simp

theorem presentSize_norec (recA recB : SizeRec) {f : Field} (hl : f.shape.legal = true) (hm : f.shape.isMsg = false) (b : Nat) (v : Val) :
    sizePresent recA (descOf f) b v = sizePresent recB (descOf f) b v := by
  obtain ⟨num, slot, mem, shape⟩ := f
  cases shape with
  | single s => rw [descOf_single]; rfl
  | optional s => rw [descOf_optional]; cases v <;> first | rfl | (rename_i q; cases q <;> rfl)
  | list s p =>
    cases p with
    | false => rw [descOf_list]; rfl
    | true => rw [descOf_packed _ _ _ _ (by simpa [Shape.legal] using hl)]; rfl
  | msg id p => simp [Shape.isMsg] at hm
  | msgList id p => simp [Shape.isMsg] at hm
  | map k w =>
    unfold sizePresent
    have hv : (descOf ⟨num, slot, mem, .map k w⟩).valSize = some (coderOf w) := by rw [descOf_map]
    simp only [mapSize_norec recA recB _ _ hv]
    rw [descOf_map]
    rfl
  | mapMsg k id p => simp [Shape.isMsg] at hm

/-! ## Fields with messages -/

theorem typed_struct (hP : ∀ id v, P id v → MsgTypedH h S P id v) {id : Nat} {v : HVal} (hv : P id v) : ∃ fs, v = .struct fs := by
  obtain ⟨fs, e, _⟩ := hP id v hv
  exact ⟨fs, e⟩

theorem present_sim (hP : ∀ id v, P id v → MsgTypedH h S P id v) {recH : EncRecH} {recT : EncRec} {k : Nat} (hr : SimE h P recH recT k)
    {f : Field} (hl : f.shape.legal = true) {x : HVal} (hx : ShapeTypedH h S P f.shape x) {n : Nat} (hn : k + 2 ≤ n) (b : Bytes) :
    appendPresentH h recH (descOf f) b x = appendPresent recT (descOf f) b (x.tree h n) := by
  obtain ⟨n, rfl⟩ : ∃ j, n = j + 1 := ⟨n - 1, by omega⟩
  obtain ⟨num, slot, mem, shape⟩ := f
  cases hx with
  | data _ v hm hv =>
    rw [tree_data]
    exact present_norec _ _ hl hm b v
  | msg id p _ hx =>
    rw [descOf_msg]
    cases hx with
    | nil => rw [tree_ptr_none]; rfl
    | ptr a hp =>
      rw [tree_ptr]
      exact hr.some id _ hp n (by omega) _
    | inline _ hp =>
      obtain ⟨fs, rfl⟩ := typed_struct hP hp
      exact hr.some id _ hp (n + 1) (by omega) _
  | msgList id p a hx =>
    rw [tree_slice, descOf_msgList]
    simp only [appendPresentH, appendPresent, derefFieldH, derefField, appendListFieldH, appendListField, GoType.elem, HVal.asSlice, Val.asSlice, bind, Except.bind,
      elemStruct_msgType, if_true, Bool.false_eq_true, if_false, reduceCtorEq, false_and]
    exact foldlM_map_congr _ _ _ _ _ fun y hy b => by
      obtain ⟨m, t, e, e', he⟩ := elemE hr (hx y hy) (n := n) (by omega)
      rw [e, e']
      exact he _
  | mapMsgNil kk id p =>
    rw [tree_map_none, descOf_mapMsg]
    cases kk <;> cases p <;> rfl
  | mapMsg kk id p a _ _ hx =>
    rw [tree_map, descOf_mapMsg]
    simp only [appendPresentH, appendPresent, derefFieldH, derefField, appendMapFieldH, appendMapField, HVal.asMap, Val.asMap, bind, Except.bind,
      elemStruct_msgType, if_true, Bool.false_eq_true, if_false, reduceCtorEq, false_and, Option.getD_some, true_and]
    have h1 : ∀ (f : FieldDesc) (wk : Bytes → Val → Res Bytes) (b : Bytes),
        (h.table a).foldlM (appendStructEntryH h recH f (msgType id p) id wk) b =
        ((h.table a).map fun e => (e.1, e.2.tree h n)).foldlM (appendStructEntry recT f (msgType id p) id wk) b := fun f wk b =>
      foldlM_map_congr _ _ _ _ _ fun y hy b => by
        obtain ⟨m, t, e, e', he⟩ := elemE hr (hx y hy) (n := n) (by omega)
        simp only [appendStructEntryH, appendStructEntry, e, e', he, bind, Except.bind]
    have h2 : ∀ (f : FieldDesc) (_ : f.valAppend = none) (b : Bytes),
        (h.table a).foldlM (appendEntryGenericH h recH f (msgType id p)) b =
        ((h.table a).map fun e => (e.1, e.2.tree h n)).foldlM (appendEntryGeneric recT f (msgType id p)) b := fun f hv b =>
      foldlM_map_congr _ _ _ _ _ fun y hy b => by
        obtain ⟨m, t, e, e', he⟩ := elemE hr (hx y hy) (n := n) (by omega)
        simp only [appendEntryGenericH, appendEntryGeneric, hv, e, e', he, elemStruct_msgType, bind, Except.bind]
    split
    · exact h1 _ _ _
    split
    · exact h1 _ _ _
    · exact h2 _ rfl _

theorem presentSize_sim (hP : ∀ id v, P id v → MsgTypedH h S P id v) {recH : SizeRecH} {recT : SizeRec} {k : Nat} (hr : SimS h P recH recT k)
    {f : Field} (hl : f.shape.legal = true) {x : HVal} (hx : ShapeTypedH h S P f.shape x) {n : Nat} (hn : k + 2 ≤ n) (b : Nat) :
    sizePresentH h recH (descOf f) b x = sizePresent recT (descOf f) b (x.tree h n) := by
  obtain ⟨n, rfl⟩ : ∃ j, n = j + 1 := ⟨n - 1, by omega⟩
  obtain ⟨num, slot, mem, shape⟩ := f
  cases hx with
  | data _ v hm hv =>
    rw [tree_data]
    exact presentSize_norec _ _ hl hm b v
  | msg id p _ hx =>
    rw [descOf_msg]
    cases hx with
    | nil => rw [tree_ptr_none]; rfl
    | ptr a hp =>
      rw [tree_ptr]
      exact congrArg (fun r => (fun sz => b + (sizeVarint (wtag num .len) + sizeBytes sz)) <$> r) (hr.some id _ hp n (by omega))
    | inline _ hp =>
      obtain ⟨fs, rfl⟩ := typed_struct hP hp
      exact congrArg (fun r => (fun sz => b + (sizeVarint (wtag num .len) + sizeBytes sz)) <$> r) (hr.some id _ hp (n + 1) (by omega))
  | msgList id p a hx =>
    rw [tree_slice, descOf_msgList]
    simp only [sizePresentH, sizePresent, derefFieldH, derefField, sizeListFieldH, sizeListField, GoType.elem, HVal.asSlice, Val.asSlice, bind, Except.bind,
      elemStruct_msgType, if_true, Bool.false_eq_true, if_false, reduceCtorEq, false_and]
    cases he : h.array a with
    | nil => rfl
    | cons y ys =>
    rw [← he, if_neg (by simp [he]), if_neg (by simp [he])]
    refine congrArg _ (foldlM_map_congr _ _ _ _ _ fun y hy b => ?_)
    obtain ⟨m, t, e, e', he⟩ := elemS hr (hx y hy) (n := n) (by omega)
    simp only [e, e', he]
  | mapMsgNil kk id p =>
    rw [tree_map_none, descOf_mapMsg]
    cases kk <;> cases p <;> rfl
  | mapMsg kk id p a _ _ hx =>
    rw [tree_map, descOf_mapMsg]
    simp only [sizePresentH, sizePresent, derefFieldH, derefField, sizeMapFieldH, sizeMapField, HVal.asMap, Val.asMap, bind, Except.bind,
      elemStruct_msgType, if_true, Bool.false_eq_true, if_false, reduceCtorEq, false_and, Option.getD_some, true_and]
    have h1 : ∀ (f : FieldDesc) (wk : Val → Res Nat) (b : Nat),
        (h.table a).foldlM (sizeStructEntryH h recH f (msgType id p) id wk) b =
        ((h.table a).map fun e => (e.1, e.2.tree h n)).foldlM (sizeStructEntry recT f (msgType id p) id wk) b := fun f wk b =>
      foldlM_map_congr _ _ _ _ _ fun y hy b => by
        obtain ⟨m, t, e, e', he⟩ := elemS hr (hx y hy) (n := n) (by omega)
        simp only [sizeStructEntryH, sizeStructEntry, e, e', he, bind, Except.bind]
    have h2 : ∀ (f : FieldDesc) (_ : f.valSize = none) (b : Nat),
        (h.table a).foldlM (sizeEntryGenericH h recH f (msgType id p)) b =
        ((h.table a).map fun e => (e.1, e.2.tree h n)).foldlM (sizeEntryGeneric recT f (msgType id p)) b := fun f hv b =>
      foldlM_map_congr _ _ _ _ _ fun y hy b => by
        obtain ⟨m, t, e, e', he⟩ := elemS hr (hx y hy) (n := n) (by omega)
        simp only [sizeEntryGenericH, sizeEntryGeneric, hv, e, e', he, elemStruct_msgType, bind, Except.bind]
    congr 1
    split
    · exact h1 _ _ _
    split
    · exact h1 _ _ _
    split
    · exact h1 _ _ _
    · exact h2 _ rfl _

theorem oneofTarget_sim {f : Field} {x : HVal} (hx : FieldTypedH h S P f x) (n : Nat) :
    (oneofTargetH h (descOf f) x = .ok none ∧ oneofTarget (descOf f) (x.tree h (n + 1)) = .ok none) ∨
    ∃ y n', n ≤ n' ∧ ShapeTypedH h S P f.shape y ∧ oneofTargetH h (descOf f) x = .ok (some y) ∧
      oneofTarget (descOf f) (x.tree h (n + 1)) = .ok (some (y.tree h n')) := by
  have ho := descOf_oneof f
  cases hx with
  | plain _ hm hs =>
    refine .inr ⟨x, n + 1, by omega, hs, ?_, ?_⟩
    · rw [oneofTargetH, ho, hm]
    · rw [oneofTarget, ho, hm]
  | unset w hm =>
    rw [tree_iface_none]
    exact .inl ⟨by rw [oneofTargetH, ho, hm], by rw [oneofTarget, ho, hm]⟩
  | nilMember w w' hm =>
    rw [tree_iface_nil]
    exact .inl ⟨by rw [oneofTargetH, ho, hm], by rw [oneofTarget, ho, hm]⟩
  | member w a hm hs =>
    rw [tree_iface]
    refine .inr ⟨_, n, Nat.le_refl _, hs, ?_, ?_⟩
    · rw [oneofTargetH, ho, hm]; simp
    · rw [oneofTarget, ho, hm]; simp
  | otherMember w w' a hm hne =>
    rw [tree_iface]
    refine .inl ⟨?_, ?_⟩
    · rw [oneofTargetH, ho, hm]; simp [hne]
    · rw [oneofTarget, ho, hm]; simp [hne]

theorem field_sim (hP : ∀ id v, P id v → MsgTypedH h S P id v) {recH : EncRecH} {recT : EncRec} {k : Nat} (hr : SimE h P recH recT k)
    {f : Field} (hl : f.shape.legal = true) {slots : List HVal} (hx : ∀ x, slots[f.slot]? = some x → FieldTypedH h S P f x) {n : Nat} (hn : k + 3 ≤ n)
    (ssize : Nat → Nat) (b : Bytes) :
    appendFieldH h ssize recH slots b (descOf f) = appendField ssize recT (slots.map fun v => v.tree h n) b (descOf f) := by
  obtain ⟨n, rfl⟩ : ∃ j, n = j + 1 := ⟨n - 1, by omega⟩
  unfold appendFieldH appendField
  rw [descOf_slot, List.getElem?_map]
  cases hy : slots[f.slot]? with
  | none => rfl
  | some y =>
    dsimp only [Option.map_some]
    rcases oneofTarget_sim (hx y hy) n with ⟨e, e'⟩ | ⟨z, n', hn', hs, e, e'⟩
    · rw [e, e']; rfl
    · rw [e, e']
      obtain ⟨m, rfl⟩ : ∃ j, n' = j + 1 := ⟨n' - 1, by omega⟩
      simp only [bind, Except.bind, ← skipZero_tree, present_sim hP hr hl hs (n := m + 1) (by omega) b]

theorem fieldSize_sim (hP : ∀ id v, P id v → MsgTypedH h S P id v) {recH : SizeRecH} {recT : SizeRec} {k : Nat} (hr : SimS h P recH recT k)
    {f : Field} (hl : f.shape.legal = true) {slots : List HVal} (hx : ∀ x, slots[f.slot]? = some x → FieldTypedH h S P f x) {n : Nat} (hn : k + 3 ≤ n)
    (ssize : Nat → Nat) (b : Nat) :
    sizeFieldH h ssize recH slots b (descOf f) = sizeField ssize recT (slots.map fun v => v.tree h n) b (descOf f) := by
  obtain ⟨n, rfl⟩ : ∃ j, n = j + 1 := ⟨n - 1, by omega⟩
  unfold sizeFieldH sizeField
  rw [descOf_slot, List.getElem?_map]
  cases hy : slots[f.slot]? with
  | none => rfl
  | some y =>
    dsimp only [Option.map_some]
    rcases oneofTarget_sim (hx y hy) n with ⟨e, e'⟩ | ⟨z, n', hn', hs, e, e'⟩
    · rw [e, e']; rfl
    · rw [e, e']
      obtain ⟨m, rfl⟩ : ∃ j, n' = j + 1 := ⟨n' - 1, by omega⟩
      simp only [bind, Except.bind, ← skipZero_tree, presentSize_sim hP hr hl hs (n := m + 1) (by omega) b]

theorem unknown_sim {D : Descs} (hD : DescOK D S) {id : Nat} {slots : List HVal}
    (hu : ∀ s p x, (S id).unknown = some (s, p) → slots[s]? = some x → ∃ d, x = .data d ∧ UnknownTyped p d) (n : Nat) :
    unknownBytesH (D id) slots = unknownBytes (D id) (slots.map fun v => v.tree h n) := by
  unfold unknownBytesH unknownBytes
  rw [hD.unknown]
  cases hs : (S id).unknown with
  | none => rfl
  | some sp =>
    obtain ⟨s, p⟩ := sp
    dsimp only
    rw [List.getElem?_map]
    cases hy : slots[s]? with
    | none => cases p <;> rfl
    | some y =>
      obtain ⟨d, rfl, hd⟩ := hu s p y hs hy
      simp only [Option.map_some, tree_data]
      cases p with
      | false => obtain ⟨u, rfl⟩ := hd; rfl
      | true => rcases hd with rfl | ⟨u, rfl⟩ <;> rfl

theorem foldlM_map_same {α γ : Type} {F G : γ → α → Res γ} : ∀ (xs : List α) (b : γ), (∀ x ∈ xs, ∀ b, F b x = G b x) → xs.foldlM F b = xs.foldlM G b
  | [], _, _ => rfl
  | x :: xs, b, hx => by
    rw [List.foldlM_cons, List.foldlM_cons, hx x (by simp) b]
    congr 1
    funext c
    exact foldlM_map_same xs c fun y hy => hx y (by simp [hy])

theorem appendStruct_sim (hW : S.WF) {D : Descs} (hD : DescOK D S) (hP : ∀ id v, P id v → MsgTypedH h S P id v) : ∀ d,
    ∀ (len : Bool), SimE h P (fun b base sid => appendStructH h D d b base sid len) (fun b base sid => appendStruct D d b base sid len) (3 * d)
  | 0, _ => ⟨fun _ _ _ _ _ _ => rfl, fun _ _ => rfl⟩
  | d + 1, len => by
    refine ⟨fun id v hv n hn b => ?_, fun _ _ => rfl⟩
    obtain ⟨slots, rfl, _, hf, hu⟩ := hP id v hv
    rw [tree_struct]
    simp only [appendStructH, appendStruct, Option.getD_some, unknown_sim (h := h) hD hu n, hD.fields]
    congr 1
    refine foldlM_map_same _ _ fun g hg b => ?_
    obtain ⟨f, hfm, rfl⟩ := List.mem_map.1 hg
    exact field_sim hP (appendStruct_sim hW hD hP d true) ((hW id).legal f hfm) (fun x hx => hf f hfm x hx) (by omega) _ b

theorem sizeStruct_sim (hW : S.WF) {D : Descs} (hD : DescOK D S) (hP : ∀ id v, P id v → MsgTypedH h S P id v) : ∀ d,
    SimS h P (sizeStructH h D d) (sizeStruct D d) (3 * d)
  | 0 => ⟨fun _ _ _ _ _ => rfl, fun _ => rfl⟩
  | d + 1 => by
    refine ⟨fun id v hv n hn => ?_, fun _ => rfl⟩
    obtain ⟨slots, rfl, _, hf, hu⟩ := hP id v hv
    rw [tree_struct]
    simp only [sizeStructH, sizeStruct, Option.getD_some, unknown_sim (h := h) hD hu n, hD.fields]
    congr 1
    refine foldlM_map_same _ _ fun g hg b => ?_
    obtain ⟨f, hfm, rfl⟩ := List.mem_map.1 hg
    exact fieldSize_sim hP (sizeStruct_sim hW hD hP d) ((hW id).legal f hfm) (fun x hx => hf f hfm x hx) (by omega) _ b

end Verif.Lemmas
