import Verif.Spec.Heap
import Verif.Lemmas.Output
/-! Helper lemmas: unfoldings of a memory with sharing and cycles. -/
namespace Verif.Lemmas
open Verif.Model Verif.Spec

variable {h : Heap} {S : Schema} {P : Nat → HVal → Prop}

theorem treesWith_eq (o : Nat → Option Val) (a : Nat → List Val) (t : Nat → Option (List (Key × Val))) :
    ∀ fs : List HVal, treesWith o a t fs = fs.map fun v => v.treeWith o a t
  | [] => by rw [treesWith]; rfl
  | v :: vs => by rw [treesWith, treesWith_eq o a t vs]; rfl

theorem tree_data (n : Nat) (v : Val) : (HVal.data v).tree h n = v := by
  cases n <;> rw [HVal.tree, HVal.treeWith]

theorem tree_struct (n : Nat) (fs : List HVal) : (HVal.struct fs).tree h n = .struct (fs.map fun v => v.tree h n) := by
  cases n <;> rw [HVal.tree, HVal.treeWith, treesWith_eq] <;> simp only [HVal.tree]

theorem tree_ptr_none (n : Nat) : (HVal.ptr none).tree h n = .ptr none := by cases n <;> rw [HVal.tree, HVal.treeWith]
theorem tree_ptr (n a : Nat) : (HVal.ptr (some a)).tree h (n + 1) = .ptr (some ((h.object a).tree h n)) := by rw [HVal.tree, HVal.treeWith]
theorem tree_ptr_zero (a : Nat) : (HVal.ptr (some a)).tree h 0 = .ptr none := by rw [HVal.tree, HVal.treeWith]
theorem tree_slice (n a : Nat) : (HVal.slice a).tree h (n + 1) = .slice ((h.array a).map fun x => x.tree h n) := by rw [HVal.tree, HVal.treeWith]
theorem tree_slice_zero (a : Nat) : (HVal.slice a).tree h 0 = .slice [] := by rw [HVal.tree, HVal.treeWith]
theorem tree_map_none (n : Nat) : (HVal.map none).tree h n = .map none := by cases n <;> rw [HVal.tree, HVal.treeWith]
theorem tree_map (n a : Nat) : (HVal.map (some a)).tree h (n + 1) = .map (some ((h.table a).map fun e => (e.1, e.2.tree h n))) := by
  rw [HVal.tree, HVal.treeWith]
theorem tree_map_zero (a : Nat) : (HVal.map (some a)).tree h 0 = .map none := by rw [HVal.tree, HVal.treeWith]
theorem tree_iface_none (n : Nat) : (HVal.iface none).tree h n = .iface none := by cases n <;> rw [HVal.tree, HVal.treeWith]
theorem tree_iface_nil (n w : Nat) : (HVal.iface (some (w, none))).tree h n = .iface (some (w, none)) := by
  cases n <;> rw [HVal.tree, HVal.treeWith]
theorem tree_iface (n w a : Nat) : (HVal.iface (some (w, some a))).tree h (n + 1) = .iface (some (w, some ((h.object a).tree h n))) := by
  rw [HVal.tree, HVal.treeWith]
theorem tree_iface_zero (w a : Nat) : (HVal.iface (some (w, some a))).tree h 0 = .iface (some (w, none)) := by rw [HVal.tree, HVal.treeWith]

/-! ## Unfoldings are typed -/

theorem ref_tree_typed {n id : Nat} {p : Bool} {x : HVal} (hlow : ∀ m, m < n → ∀ id v, P id v → Typed S id (v.tree h m))
    (hin : ∀ id, P id x → Typed S id (x.tree h n)) (hx : RefTypedH h P id p x) : RefTyped S id p (x.tree h n) := by
  cases hx with
  | nil => rw [tree_ptr_none]; exact .nil _
  | ptr a hp =>
    cases n with
    | zero => rw [tree_ptr_zero]; exact .nil _
    | succ n => rw [tree_ptr]; exact .ptr _ _ (hlow n (by omega) _ _ hp)
  | inline _ hp => exact .inline _ _ (hin _ hp)

theorem shape_tree_typed {n : Nat} {s : Shape} {x : HVal} (hlow : ∀ m, m < n → ∀ id v, P id v → Typed S id (v.tree h m))
    (hin : ∀ id, P id x → Typed S id (x.tree h n)) (hx : ShapeTypedH h S P s x) : ShapeTyped S s (x.tree h n) := by
  cases hx with
  | data _ v _ hv => rw [tree_data]; exact hv
  | msg id p _ hr => exact .msg _ _ _ (ref_tree_typed hlow hin hr)
  | msgList id p a hr =>
    cases n with
    | zero => rw [tree_slice_zero]; exact .msgList _ _ _ (fun v hv => by cases hv)
    | succ n =>
      rw [tree_slice]
      refine .msgList _ _ _ (fun v hv => ?_)
      obtain ⟨y, hy, rfl⟩ := List.mem_map.1 hv
      exact ref_tree_typed (fun m hm => hlow m (by omega)) (fun id => hlow n (by omega) id y) (hr y hy)
  | mapMsgNil k id p => rw [tree_map_none]; exact .mapMsgNil _ _ _
  | mapMsg k id p a hd hk hr =>
    cases n with
    | zero => rw [tree_map_zero]; exact .mapMsgNil _ _ _
    | succ n =>
      rw [tree_map]
      refine .mapMsg _ _ _ _ ?_ (fun e he => ?_) (fun e he => ?_)
      · rw [List.map_map]; exact hd
      · obtain ⟨y, hy, rfl⟩ := List.mem_map.1 he
        exact hk y hy
      · obtain ⟨y, hy, rfl⟩ := List.mem_map.1 he
        exact ref_tree_typed (fun m hm => hlow m (by omega)) (fun id => hlow n (by omega) id y.2) (hr y hy)

theorem field_tree_typed {n : Nat} {f : Field} {x : HVal} (hlow : ∀ m, m < n → ∀ id v, P id v → Typed S id (v.tree h m))
    (hin : ∀ id, P id x → Typed S id (x.tree h n)) (hx : FieldTypedH h S P f x) : FieldTyped S f (x.tree h n) := by
  cases hx with
  | plain _ hm hs => exact .plain _ _ hm (shape_tree_typed hlow hin hs)
  | unset w hm => rw [tree_iface_none]; exact .unset _ w hm
  | nilMember w w' hm => rw [tree_iface_nil]; exact .nilMember _ w w' hm
  | member w a hm hs =>
    cases n with
    | zero => rw [tree_iface_zero]; exact .nilMember _ w w hm
    | succ n =>
      rw [tree_iface]
      exact .member _ w _ hm (shape_tree_typed (fun m hmn => hlow m (by omega)) (fun id => hlow n (by omega) id _) hs)
  | otherMember w w' a hm hne =>
    cases n with
    | zero => rw [tree_iface_zero]; exact .nilMember _ w w' hm
    | succ n => rw [tree_iface]; exact .otherMember _ w w' _ hm hne

theorem hval_sizeOf_getElem? {xs : List HVal} {i : Nat} {x : HVal} (hx : xs[i]? = some x) : sizeOf x < sizeOf (HVal.struct xs) := by
  have := List.sizeOf_lt_of_mem (List.mem_of_getElem? hx)
  simp only [HVal.struct.sizeOf_spec]
  omega

theorem tree_typed_at (hP : ∀ id v, P id v → MsgTypedH h S P id v) {n : Nat} (hlow : ∀ m, m < n → ∀ id v, P id v → Typed S id (v.tree h m)) :
    ∀ (k id : Nat) (v : HVal), sizeOf v ≤ k → P id v → Typed S id (v.tree h n)
  | 0, id, v, hk, hp => by
    obtain ⟨slots, rfl, _⟩ := hP id v hp
    simp only [HVal.struct.sizeOf_spec] at hk
    omega
  | k + 1, id, v, hk, hp => by
    obtain ⟨slots, rfl, hl, hf, hu⟩ := hP id v hp
    rw [tree_struct]
    refine .mk _ _ (by rw [List.length_map]; exact hl) (fun f hfm x hx => ?_) (fun s p x hs hx => ?_)
    · rw [List.getElem?_map] at hx
      cases hy : slots[f.slot]? with
      | none => rw [hy] at hx; cases hx
      | some y =>
        rw [hy] at hx
        injection hx with hx
        subst hx
        have := hval_sizeOf_getElem? hy
        exact field_tree_typed hlow (fun id' hp' => tree_typed_at hP hlow k id' y (by omega) hp') (hf f hfm y hy)
    · rw [List.getElem?_map] at hx
      cases hy : slots[s]? with
      | none => rw [hy] at hx; cases hx
      | some y =>
        rw [hy] at hx
        injection hx with hx
        subst hx
        obtain ⟨d, rfl, hd⟩ := hu s p y hs hy
        dsimp only
        rw [tree_data]
        exact hd

theorem tree_typed (hP : ∀ id v, P id v → MsgTypedH h S P id v) (n : Nat) : ∀ id v, P id v → Typed S id (v.tree h n) := by
  induction n using Nat.strongRecOn with
  | ind n ih => exact fun id v hp => tree_typed_at hP ih (sizeOf v) id v (Nat.le_refl _) hp

/-! ## The encoding of a deep enough unfolding -/

mutual
theorem memZero_tree (n : Nat) : ∀ v : HVal, (v.tree h (n + 1)).memZero = v.memZero
  | .data v => by rw [tree_data, HVal.memZero]
  | .ptr none => by rw [tree_ptr_none, HVal.memZero]; rfl
  | .ptr (some a) => by rw [tree_ptr, HVal.memZero]; rfl
  | .struct fs => by rw [tree_struct, HVal.memZero, Val.memZero, memZeros_tree n fs]
  | .slice a => by rw [tree_slice]; rfl
  | .map none => by rw [tree_map_none, HVal.memZero]; rfl
  | .map (some a) => by rw [tree_map, HVal.memZero]; rfl
  | .iface none => by rw [tree_iface_none]; rfl
  | .iface (some (w, none)) => by rw [tree_iface_nil]; rfl
  | .iface (some (w, some a)) => by rw [tree_iface]; rfl
theorem memZeros_tree (n : Nat) : ∀ fs : List HVal, memZeros (fs.map fun v => v.tree h (n + 1)) = memZerosH fs
  | [] => rfl
  | v :: vs => by rw [List.map_cons, memZeros, memZerosH, memZero_tree n v, memZeros_tree n vs]
end

theorem memZero_tree_of {n : Nat} (hn : 1 ≤ n) (v : HVal) : (v.tree h n).memZero = v.memZero := by
  obtain ⟨m, rfl⟩ : ∃ m, n = m + 1 := ⟨n - 1, by omega⟩
  exact memZero_tree m v

/-- Sub-messages have the same encoding in all unfoldings of depth `k` or more. -/
def SameEnc (h : Heap) (P : Nat → HVal → Prop) (enc : Nat → Val → Option Bytes) (k : Nat) : Prop :=
  ∀ id v, P id v → ∀ n n', k ≤ n → k ≤ n' → enc id (v.tree h n) = enc id (v.tree h n')

theorem ref_unfold {enc : Nat → Val → Option Bytes} {k : Nat} (he : SameEnc h P enc k) {id : Nat} {p : Bool} {x : HVal} (hx : RefTypedH h P id p x)
    {n n' : Nat} (hn : k + 1 ≤ n) (hn' : k + 1 ≤ n') : enc id (deref S id p (x.tree h n)) = enc id (deref S id p (x.tree h n')) := by
  obtain ⟨m, rfl⟩ : ∃ m, n = m + 1 := ⟨n - 1, by omega⟩
  obtain ⟨m', rfl⟩ : ∃ m, n' = m + 1 := ⟨n' - 1, by omega⟩
  cases hx with
  | nil => rw [tree_ptr_none, tree_ptr_none]
  | ptr a hp =>
    rw [tree_ptr, tree_ptr]
    exact he _ _ hp m m' (by omega) (by omega)
  | inline _ hp => exact he _ _ hp _ _ (by omega) (by omega)

theorem shape_unfold {enc : Nat → Val → Option Bytes} {k : Nat} (he : SameEnc h P enc k) {s : Shape} {x : HVal} (hx : ShapeTypedH h S P s x)
    (num : Nat) (keep : Bool) {n n' : Nat} (hn : k + 2 ≤ n) (hn' : k + 2 ≤ n') :
    encodeShape S enc num keep s (x.tree h n) = encodeShape S enc num keep s (x.tree h n') := by
  obtain ⟨m, rfl⟩ : ∃ m, n = m + 1 := ⟨n - 1, by omega⟩
  obtain ⟨m', rfl⟩ : ∃ m, n' = m + 1 := ⟨n' - 1, by omega⟩
  cases hx with
  | data _ v _ hv => rw [tree_data, tree_data]
  | msg id p _ hr =>
    cases hr with
    | nil => rw [tree_ptr_none, tree_ptr_none]
    | ptr a hp =>
      rw [tree_ptr, tree_ptr]
      simp only [encodeShape]
      rw [he _ _ hp m m' (by omega) (by omega)]
    | inline _ hp =>
      simp only [encodeShape]
      rw [memZero_tree, memZero_tree, he _ _ hp (m + 1) (m' + 1) (by omega) (by omega)]
  | msgList id p a hr =>
    rw [tree_slice, tree_slice]
    simp only [encodeShape]
    rw [concatM_map, concatM_map]
    exact concatM_congr fun y hy => by rw [ref_unfold (S := S) he (hr y hy) (n := m) (n' := m') (by omega) (by omega)]
  | mapMsgNil kk id p => rw [tree_map_none, tree_map_none]
  | mapMsg kk id p a hd hk hr =>
    rw [tree_map, tree_map]
    simp only [encodeShape, Option.getD_some]
    rw [concatM_map, concatM_map]
    exact concatM_congr fun y hy => by
      dsimp only
      rw [ref_unfold (S := S) he (hr y hy) (n := m) (n' := m') (by omega) (by omega)]

theorem field_unfold {enc : Nat → Val → Option Bytes} {k : Nat} (he : SameEnc h P enc k) {f : Field} {x : HVal} (hx : FieldTypedH h S P f x)
    (keep : Bool) {n n' : Nat} (hn : k + 3 ≤ n) (hn' : k + 3 ≤ n') :
    (match f.content (x.tree h n) with
      | none => some []
      | some d => encodeShape S enc f.num keep f.shape d) =
    (match f.content (x.tree h n') with
      | none => some []
      | some d => encodeShape S enc f.num keep f.shape d) := by
  obtain ⟨m, rfl⟩ : ∃ m, n = m + 1 := ⟨n - 1, by omega⟩
  obtain ⟨m', rfl⟩ : ∃ m, n' = m + 1 := ⟨n' - 1, by omega⟩
  cases hx with
  | plain _ hm hs =>
    simp only [Field.content, hm]
    exact shape_unfold he hs _ _ (by omega) (by omega)
  | unset w hm => rw [tree_iface_none, tree_iface_none]
  | nilMember w w' hm => rw [tree_iface_nil, tree_iface_nil]
  | member w a hm hs =>
    rw [tree_iface, tree_iface]
    simp only [Field.content, hm, if_true]
    exact shape_unfold he hs _ _ (by omega) (by omega)
  | otherMember w w' a hm hne =>
    rw [tree_iface, tree_iface]
    simp only [Field.content, hm, if_neg hne]

theorem encode_unfold (hP : ∀ id v, P id v → MsgTypedH h S P id v) (keep : Bool) : ∀ d, SameEnc h P (encode S keep d) (3 * d)
  | 0 => fun _ _ _ _ _ _ _ => rfl
  | d + 1 => fun id v hp n n' hn hn' => by
    obtain ⟨slots, rfl, hl, hf, hu⟩ := hP id v hp
    rw [tree_struct, tree_struct, encode, encode]
    have h1 : concatM (encodeField S keep (encode S keep d) (slots.map fun v => v.tree h n)) (S id).fields =
        concatM (encodeField S keep (encode S keep d) (slots.map fun v => v.tree h n')) (S id).fields := by
      refine concatM_congr fun f hfm => ?_
      simp only [encodeField, List.getElem?_map]
      cases hy : slots[f.slot]? with
      | none => rfl
      | some y =>
        exact field_unfold (encode_unfold hP keep d) (hf f hfm y hy) (f.member.isSome && keep) (by omega) (by omega)
    have h2 : unknownOf (S id) (slots.map fun v => v.tree h n) = unknownOf (S id) (slots.map fun v => v.tree h n') := by
      simp only [unknownOf, List.getElem?_map]
      cases hs : (S id).unknown with
      | none => rfl
      | some sp =>
        obtain ⟨s, p⟩ := sp
        dsimp only
        cases hy : slots[s]? with
        | none => rfl
        | some y =>
          obtain ⟨dd, rfl, _⟩ := hu s p y hs hy
          simp only [Option.map_some, tree_data]
    rw [h1, h2]

/-! ## Nesting -/

/-- The tree of a sub-message. -/
def subTree (h : Heap) (S : Schema) (id n : Nat) : Option HVal → Val
  | some v => v.tree h n
  | none => (S id).zero

theorem denotes_ref {id : Nat} {p : Bool} {x : HVal} (hx : RefTypedH h P id p x) :
    ∃ m, Denotes h p x m ∧ (∀ v, m = some v → P id v) ∧ ∀ n, ∃ n', n ≤ n' ∧ deref S id p (x.tree h (n + 1)) = subTree h S id n' m := by
  cases hx with
  | nil => exact ⟨none, .nil, fun v hv => (by cases hv), fun n => ⟨n, Nat.le_refl _, by rw [tree_ptr_none]; rfl⟩⟩
  | ptr a hp => exact ⟨_, .ptr a, fun v hv => (by injection hv with hv; subst hv; exact hp), fun n => ⟨n, Nat.le_refl _, by rw [tree_ptr]; rfl⟩⟩
  | inline _ hp => exact ⟨_, .inline x, fun v hv => (by injection hv with hv; subst hv; exact hp), fun n => ⟨n + 1, by omega, rfl⟩⟩

theorem denotes_unique {p : Bool} {x : HVal} {m m' : Option HVal} (h1 : Denotes h p x m) (h2 : Denotes h p x m') : m = m' := by
  cases h1 <;> cases h2 <;> rfl

theorem shape_sub_iff {s : Shape} {x : HVal} (hx : ShapeTypedH h S P s x) (n id' : Nat) :
    (∀ m, ShapeSubH h S s x id' m → (∀ v, m = some v → P id' v) ∧ ∃ n', n ≤ n' ∧ ShapeSub S s (x.tree h (n + 2)) id' (subTree h S id' n' m)) ∧
    (∀ t, ShapeSub S s (x.tree h (n + 2)) id' t → ∃ m n', ShapeSubH h S s x id' m ∧ n ≤ n' ∧ t = subTree h S id' n' m) := by
  cases hx with
  | data _ v hs hv =>
    rw [tree_data]
    refine ⟨fun m hm => ?_, fun t ht => ?_⟩
    · cases hm <;> simp [Shape.isMsg] at hs
    · cases ht <;> simp [Shape.isMsg] at hs
  | msg id p _ hr =>
    cases hr with
    | nil =>
      rw [tree_ptr_none]
      exact ⟨fun m hm => (by cases hm), fun t ht => (by cases ht)⟩
    | ptr a hp =>
      rw [tree_ptr]
      refine ⟨fun m hm => ?_, fun t ht => ?_⟩
      · cases hm
        exact ⟨fun v hv => by injection hv with hv; subst hv; exact hp, n + 1, by omega, .ptr _ _⟩
      · cases ht
        exact ⟨_, n + 1, .ptr _ a, by omega, rfl⟩
    | inline _ hp =>
      refine ⟨fun m hm => ?_, fun t ht => ?_⟩
      · cases hm with
        | inline _ _ hz =>
          exact ⟨fun v hv => by injection hv with hv; subst hv; exact hp, n + 2, by omega, .inline _ _ (by rw [memZero_tree]; exact hz)⟩
      · cases ht with
        | inline _ _ hz => exact ⟨some x, n + 2, .inline _ _ (by rw [memZero_tree] at hz; exact hz), by omega, rfl⟩
  | msgList id p a hr =>
    rw [tree_slice]
    refine ⟨fun m hm => ?_, fun t ht => ?_⟩
    · cases hm with
      | list _ _ _ y _ hy hd =>
        obtain ⟨m', hd', hp, ht⟩ := denotes_ref (S := S) (hr y hy)
        cases denotes_unique hd hd'
        obtain ⟨n', hn', e⟩ := ht n
        refine ⟨hp, n', hn', ?_⟩
        rw [← e]
        exact .list _ _ _ _ (List.mem_map.2 ⟨y, hy, rfl⟩)
    · cases ht with
      | list _ _ _ z hz =>
        obtain ⟨y, hy, rfl⟩ := List.mem_map.1 hz
        obtain ⟨m', hd', hp, ht⟩ := denotes_ref (S := S) (hr y hy)
        obtain ⟨n', hn', e⟩ := ht n
        exact ⟨m', n', .list _ _ _ y _ hy hd', hn', e⟩
  | mapMsgNil k id p =>
    rw [tree_map_none]
    exact ⟨fun m hm => (by cases hm), fun t ht => (by cases ht)⟩
  | mapMsg k id p a _ _ hr =>
    rw [tree_map]
    refine ⟨fun m hm => ?_, fun t ht => ?_⟩
    · cases hm with
      | map _ _ _ _ y _ hy hd =>
        obtain ⟨m', hd', hp, ht⟩ := denotes_ref (S := S) (hr y hy)
        cases denotes_unique hd hd'
        obtain ⟨n', hn', e⟩ := ht n
        refine ⟨hp, n', hn', ?_⟩
        rw [← e]
        exact .map _ _ _ _ (y.1, y.2.tree h (n + 1)) (List.mem_map.2 ⟨y, hy, rfl⟩)
    · cases ht with
      | map _ _ _ _ z hz =>
        obtain ⟨y, hy, rfl⟩ := List.mem_map.1 hz
        obtain ⟨m', hd', hp, ht⟩ := denotes_ref (S := S) (hr y hy)
        obtain ⟨n', hn', e⟩ := ht n
        exact ⟨m', n', .map _ _ _ _ y _ hy hd', hn', e⟩

/-- Stepping into a sub-message in the memory and in its unfolding. -/
theorem sub_iff (hP : ∀ id v, P id v → MsgTypedH h S P id v) {id : Nat} {v : HVal} (hp : P id v) (n id' : Nat) :
    (∀ m, SubMsgH h S id v id' m → (∀ v, m = some v → P id' v) ∧ ∃ n', n ≤ n' ∧ SubMsg S id (v.tree h (n + 3)) id' (subTree h S id' n' m)) ∧
    (∀ t, SubMsg S id (v.tree h (n + 3)) id' t → ∃ m n', SubMsgH h S id v id' m ∧ n ≤ n' ∧ t = subTree h S id' n' m) := by
  obtain ⟨slots, rfl, hl, hf, hu⟩ := hP id v hp
  rw [tree_struct]
  refine ⟨fun m hm => ?_, fun t ht => ?_⟩
  · cases hm with
    | mk _ f _ x d _ hfm hx hc hs =>
      have hft := hf f hfm x hx
      cases hc with
      | plain _ hm =>
        cases hft with
        | plain _ _ hsh =>
          obtain ⟨h1, n', h2, h3⟩ := (shape_sub_iff hsh (n + 1) id').1 m hs
          exact ⟨h1, n', by omega, .mk _ _ f _ _ hfm ⟨_, _, by rw [List.getElem?_map, hx]; rfl, by simp only [Field.content, hm], h3⟩⟩
        | unset w h' => rw [hm] at h'; cases h'
        | nilMember w w' h' => rw [hm] at h'; cases h'
        | member w a h' _ => rw [hm] at h'; cases h'
        | otherMember w w' a h' _ => rw [hm] at h'; cases h'
      | member w a hm =>
        cases hft with
        | plain _ h' _ => rw [hm] at h'; cases h'
        | member w a h' hsh =>
          obtain ⟨h1, n', h2, h3⟩ := (shape_sub_iff hsh n id').1 m hs
          refine ⟨h1, n', h2, .mk _ _ f _ _ hfm ⟨_, _, by rw [List.getElem?_map, hx]; rfl, ?_, h3⟩⟩
          simp only [tree_iface, Field.content, hm, if_true]
        | otherMember w w' a h' hne => rw [hm] at h'; injection h' with h'; exact absurd h'.symm hne
  · cases ht with
    | mk _ f _ _ hfm hs =>
      obtain ⟨x, d, hx, hc, hs⟩ := hs
      rw [List.getElem?_map] at hx
      cases hy : slots[f.slot]? with
      | none => rw [hy] at hx; cases hx
      | some y =>
        rw [hy] at hx
        injection hx with hx
        subst hx
        cases hf f hfm y hy with
        | plain _ hm hsh =>
          simp only [Field.content, hm, Option.some.injEq] at hc
          subst hc
          obtain ⟨m, n', h1, h2, h3⟩ := (shape_sub_iff hsh (n + 1) id').2 t hs
          exact ⟨m, n', .mk _ _ f _ y y m hfm hy (.plain _ _ hm) h1, by omega, h3⟩
        | unset w hm => simp [tree_iface_none, Field.content, hm] at hc
        | nilMember w w' hm => simp [tree_iface_nil, Field.content, hm] at hc
        | member w a hm hsh =>
          simp only [tree_iface, Field.content, hm, if_true, Option.some.injEq] at hc
          subst hc
          obtain ⟨m, n', h1, h2, h3⟩ := (shape_sub_iff hsh n id').2 t hs
          exact ⟨m, n', .mk _ _ f _ _ _ m hfm hy (.member _ w a hm) h1, h2, h3⟩
        | otherMember w w' a hm hne => simp [tree_iface, Field.content, hm, hne] at hc

theorem nested_iff (hP : ∀ id v, P id v → MsgTypedH h S P id v) : ∀ (k id : Nat) (v : HVal) (n : Nat), P id v → 3 * k ≤ n →
    (NestedH h S k id v ↔ Nested S k id (v.tree h n))
  | 0, id, v, n, _, _ => ⟨fun _ => .zero _ _, fun _ => .zero _ _⟩
  | k + 1, id, v, n, hp, hn => by
    obtain ⟨m, rfl⟩ : ∃ m, n = m + 3 := ⟨n - 3, by omega⟩
    constructor
    · intro hk
      cases hk with
      | step _ _ _ id' v' hs hk =>
        obtain ⟨hp', n', hn', hs'⟩ := (sub_iff hP hp m id').1 _ hs
        exact .step _ _ _ id' _ hs' ((nested_iff hP k id' v' n' (hp' v' rfl) (by omega)).1 hk)
      | nil _ _ _ id' hs hk =>
        obtain ⟨_, n', hn', hs'⟩ := (sub_iff hP hp m id').1 _ hs
        exact .step _ _ _ id' _ hs' hk
    · intro hk
      cases hk with
      | step _ _ _ id' t hs hk =>
        obtain ⟨w, n', hs', hn', rfl⟩ := (sub_iff hP hp m id').2 _ hs
        cases w with
        | none => exact .nil _ _ _ id' hs' hk
        | some v' =>
          have hp' := ((sub_iff hP hp m id').1 _ hs').1 v' rfl
          exact .step _ _ _ id' v' hs' ((nested_iff hP k id' v' n' hp' (by omega)).2 hk)

theorem nested_shorter : ∀ (n id : Nat) (v : Val), Nested S (n + 1) id v → Nested S n id v
  | 0, _, _, _ => .zero _ _
  | n + 1, _, _, hn => by
    cases hn with
    | step _ _ _ id' v' h1 h2 => exact .step _ _ _ id' v' h1 (nested_shorter n id' v' h2)

theorem nestedH_cut : ∀ (n id : Nat) (v : HVal), NestedH h S (n + 1) id v → NestedH h S n id v
  | 0, _, _, _ => .zero _ _
  | n + 1, _, _, hn => by
    cases hn with
    | step _ _ _ id' v' h1 h2 => exact .step _ _ _ id' v' h1 (nestedH_cut n id' v' h2)
    | nil _ _ _ id' h1 h2 => exact .nil _ _ _ id' h1 (nested_shorter n id' _ h2)

theorem reachH_nested {id id' : Nat} {v v' : HVal} (hr : ReachH h S id v id' v') : ∀ n, NestedH h S n id' v' → NestedH h S (n + 1) id v := by
  induction hr with
  | one id v id' v' h1 => exact fun n hn => .step _ _ _ _ _ h1 hn
  | step id v id' v' id'' v'' h1 _ ih => exact fun n hn => nestedH_cut _ _ _ (.step _ _ _ _ _ h1 (ih n hn))

theorem cycle_nested {id : Nat} {v : HVal} (hr : ReachH h S id v id v) : ∀ n, NestedH h S n id v
  | 0 => .zero _ _
  | n + 1 => reachH_nested hr n (cycle_nested hr n)

/-- Any message from which a cycle can be reached. -/
theorem reach_cycle_nested {id id' : Nat} {v v' : HVal} (h1 : ReachH h S id v id' v') (h2 : ReachH h S id' v' id' v') (n : Nat) : NestedH h S n id v :=
  nestedH_cut _ _ _ (reachH_nested h1 n (cycle_nested h2 n))

end Verif.Lemmas
