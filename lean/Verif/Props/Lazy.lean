import Verif.Lemmas.Lazy
import Verif.Props.Depth
import Verif.Props.Narrowed
import Verif.Props.SampleRaw
/-!
# C101: messages that are read as bytes, and unmarshaled later
-/
namespace Verif.Props
open Verif.Spec Verif.Model Verif.Lemmas Verif.Lemmas.Narrow Verif.Lemmas.Lazy

variable {env env' : GoEnv} {S T : Schema}

/-- A field that is a message in one program and bytes in the other: what the first program has in the field after reading
an input is what it gets from unmarshaling the bytes that the second program has in the field.  Missing: types with maps of
messages (whose values may be nested more deeply, see C21, than the same messages in fields). -/
theorem C101_field_partial (hI : Implements env T) (hI' : Implements env' S) (hT : T.WF) (hS : S.WF) (hN : Narrowed T S)
    (id i : Nat) (f g : Field) (hfg : (f, g) ∈ (T id).fields.zip (S id).fields) (hm : f.member = none) (hm₂ : g.member = none) (hf : f.shape = .msg i true)
    (hg : g.shape = .single .bytes) (b : Bytes) (w : Val) (h : unmarshal env b (.ptr id (some (T id).zero)) = .ok w) :
    ∃ xs ys, w = .struct xs ∧ unmarshal env' b (.ptr id (some (S id).zero)) = .ok (.struct ys) ∧
      ((xs[f.slot]? = some (.ptr none) ∧ ys[g.slot]? = some (.bytes none)) ∨
        ∃ x p, xs[f.slot]? = some (.ptr (some x)) ∧ ys[g.slot]? = some (.bytes (some p)) ∧
          unmarshal env p (.ptr i (some (T i).zero)) = .ok x) := by
  obtain ⟨w', h1, h2⟩ := C99_fresh_partial hI hI' hT hS hN id b w h
  obtain ⟨_, xs, ys, l1, l2, h2⟩ := h2
  refine ⟨xs, ys, rfl, h1, ?_⟩
  have s1 : f.slot < xs.length := l1 ▸ (hT id).slots f (List.of_mem_zip hfg).1
  have s2 : g.slot < ys.length := l2 ▸ (hS id).slots g (List.of_mem_zip hfg).2
  have e1 := List.getElem?_eq_getElem s1
  have e2 := List.getElem?_eq_getElem s2
  have hk := h2 f g hfg _ _ e1 e2
  rw [e1, e2]
  generalize xs[f.slot] = x at hk
  generalize ys[g.slot] = y at hk
  cases hk with
  | plain _ _ _ _ _ _ hk =>
    rw [hf, hg] at hk
    cases hk with
    | rawNone => exact .inl ⟨rfl, rfl⟩
    | raw _ x p hd => exact .inr ⟨x, p, rfl, rfl, (C50_exact hI hT i _ (typed_zero hT i) p x).2 hd⟩
  | moveUnset _ _ _ h => exact absurd hm₂ h
  | moveSet _ _ _ _ _ _ h => rw [hm₂] at h; cases h
  | unset _ _ hm' => exact absurd hm hm'
  | nilCase _ _ _ hm' => exact absurd hm hm'
  | set _ _ _ _ _ hm' => rw [hm] at hm'; cases hm'
  | other _ _ _ _ _ _ hm' => rw [hm] at hm'; cases hm'

/-- The same for lists of messages: there are as many elements, and each message is what the program gets from unmarshaling
the bytes at the same place. -/
theorem C101_list_partial (hI : Implements env T) (hI' : Implements env' S) (hT : T.WF) (hS : S.WF) (hN : Narrowed T S)
    (id i : Nat) (f g : Field) (hfg : (f, g) ∈ (T id).fields.zip (S id).fields) (hm : f.member = none) (hm₂ : g.member = none) (hf : f.shape = .msgList i true)
    (hg : g.shape = .list .bytes false) (b : Bytes) (w : Val) (h : unmarshal env b (.ptr id (some (T id).zero)) = .ok w) :
    ∃ (xs ys ms ps : List Val), w = .struct xs ∧ unmarshal env' b (.ptr id (some (S id).zero)) = .ok (.struct ys) ∧
      xs[f.slot]? = some (.slice ms) ∧ ys[g.slot]? = some (.slice ps) ∧ ms.length = ps.length ∧
      ∀ (n : Nat) (x : Val), ms[n]? = some x → ∃ m p, x = .ptr (some m) ∧ ps[n]? = some (.bytes (some p)) ∧
        unmarshal env p (.ptr i (some (T i).zero)) = .ok m := by
  obtain ⟨w', h1, h2⟩ := C99_fresh_partial hI hI' hT hS hN id b w h
  obtain ⟨_, xs, ys, l1, l2, h2⟩ := h2
  have s1 : f.slot < xs.length := l1 ▸ (hT id).slots f (List.of_mem_zip hfg).1
  have s2 : g.slot < ys.length := l2 ▸ (hS id).slots g (List.of_mem_zip hfg).2
  have e1 := List.getElem?_eq_getElem s1
  have e2 := List.getElem?_eq_getElem s2
  have hk := h2 f g hfg _ _ e1 e2
  generalize xs[f.slot] = x at hk e1
  generalize ys[g.slot] = y at hk e2
  cases hk with
  | plain _ _ _ _ _ _ hk =>
    rw [hf, hg] at hk
    cases hk with
    | rawList _ zs hz =>
      refine ⟨xs, ys, _, _, rfl, h1, e1, e2, by simp, fun n x hx => ?_⟩
      rw [List.getElem?_map, Option.map_eq_some_iff] at hx
      obtain ⟨z, hz1, rfl⟩ := hx
      refine ⟨z.1, z.2, rfl, by rw [List.getElem?_map, hz1]; rfl, ?_⟩
      exact (C50_exact hI hT i _ (typed_zero hT i) z.2 z.1).2 (hz z (List.mem_of_getElem? hz1))
  | moveUnset _ _ _ h => exact absurd hm₂ h
  | moveSet _ _ _ _ _ _ h => rw [hm₂] at h; cases h
  | unset _ _ hm' => exact absurd hm hm'
  | nilCase _ _ _ hm' => exact absurd hm hm'
  | set _ _ _ _ _ hm' => rw [hm] at hm'; cases hm'
  | other _ _ _ _ _ _ hm' => rw [hm] at hm'; cases hm'

/-- The same for members of oneofs: both programs have the same member set, and if it is the field in question, the message is
what the first program gets from unmarshaling the bytes. -/
theorem C101_oneof_partial (hI : Implements env T) (hI' : Implements env' S) (hT : T.WF) (hS : S.WF) (hN : Narrowed T S)
    (id i c : Nat) (f g : Field) (hfg : (f, g) ∈ (T id).fields.zip (S id).fields) (hm : f.member = some c) (hf : f.shape = .msg i true)
    (hg : g.shape = .single .bytes) (b : Bytes) (w : Val) (h : unmarshal env b (.ptr id (some (T id).zero)) = .ok w) :
    ∃ xs ys, w = .struct xs ∧ unmarshal env' b (.ptr id (some (S id).zero)) = .ok (.struct ys) ∧
      ((xs[f.slot]? = some (.iface none) ∧ ys[g.slot]? = some (.iface none)) ∨
        (∃ c', xs[f.slot]? = some (.iface (some (c', none))) ∧ ys[g.slot]? = some (.iface (some (c', none)))) ∨
        (∃ c' x y, c' ≠ c ∧ xs[f.slot]? = some (.iface (some (c', some x))) ∧ ys[g.slot]? = some (.iface (some (c', some y)))) ∨
        (xs[f.slot]? = some (.iface (some (c, some (.ptr none)))) ∧ ys[g.slot]? = some (.iface (some (c, some (.bytes none))))) ∨
        ∃ x p, xs[f.slot]? = some (.iface (some (c, some (.ptr (some x))))) ∧ ys[g.slot]? = some (.iface (some (c, some (.bytes (some p))))) ∧
          unmarshal env p (.ptr i (some (T i).zero)) = .ok x) := by
  obtain ⟨w', h1, h2⟩ := C99_fresh_partial hI hI' hT hS hN id b w h
  obtain ⟨_, xs, ys, l1, l2, h2⟩ := h2
  refine ⟨xs, ys, rfl, h1, ?_⟩
  have s1 : f.slot < xs.length := l1 ▸ (hT id).slots f (List.of_mem_zip hfg).1
  have s2 : g.slot < ys.length := l2 ▸ (hS id).slots g (List.of_mem_zip hfg).2
  have e1 := List.getElem?_eq_getElem s1
  have e2 := List.getElem?_eq_getElem s2
  have hk := h2 f g hfg _ _ e1 e2
  rw [e1, e2]
  generalize xs[f.slot] = x at hk
  generalize ys[g.slot] = y at hk
  cases hk with
  | plain _ _ _ _ hm' => rw [hm] at hm'; cases hm'
  | moveUnset _ _ hm' => rw [hm] at hm'; cases hm'
  | moveSet _ _ _ _ _ hm' => rw [hm] at hm'; cases hm'
  | unset => exact .inl ⟨rfl, rfl⟩
  | nilCase _ _ c' => exact .inr (.inl ⟨c', rfl, rfl⟩)
  | other _ _ c₁ c' x y hm' hne =>
    rw [hm] at hm'
    cases hm'
    exact .inr (.inr (.inl ⟨c', x, y, hne, rfl, rfl⟩))
  | set _ _ c₁ d e hm' hk =>
    rw [hm] at hm'
    cases hm'
    rw [hf, hg] at hk
    cases hk with
    | rawNone => exact .inr (.inr (.inr (.inl ⟨rfl, rfl⟩)))
    | raw _ x p hd => exact .inr (.inr (.inr (.inr ⟨x, p, rfl, rfl, (C50_exact hI hT i _ (typed_zero hT i) p x).2 hd⟩)))

/-- Conversely, a message that holds the bytes of other messages (as Marshal gives them) instead of the messages themselves, in
fields, lists and maps, has the same bytes as a message that holds the messages.  The bytes in a field must not be empty:
empty bytes are left out, whereas an empty message is not (`C101_empty_violated`); in lists and maps they may. -/
theorem C101_write_partial (hI : Implements env T) (hI' : Implements env' S) (hT : T.WF) (hS : S.WF) (id : Nat) (xs ys : List Val)
    (hv : Typed T id (.struct xs)) (hv' : Typed S id (.struct ys))
    (hr : RawMsg (fun i m p => Typed T i m ∧ marshal env (.ptr i (some m)) = .ok p) T S id xs ys)
    (hl : ∀ bs, encode T false 1000 id (.struct xs) = some bs → bs.length < 2 ^ 64) (r : Bytes)
    (h : marshal env (.ptr id (some (.struct xs))) = .ok r) : marshal env' (.ptr id (some (.struct ys))) = .ok r := by
  obtain ⟨b, he, hb⟩ := encode_of_marshal hI hT hv h
  have hlen := hl b he
  rw [hb hlen]
  have hr' : RawMsg (Enc T (999 + 1)) T S id xs ys := rawMsg_imp (fun i m p hp => encode_of_marshal hI hT hp.1 hp.2) hr
  have hx : ∀ f ∈ (T id).fields, f.slot < xs.length := by
    cases hv with | mk _ _ l _ _ => exact fun f hf => l ▸ (hT id).slots f hf
  have hy : ∀ f ∈ (S id).fields, f.slot < ys.length := by
    cases hv' with | mk _ _ l _ _ => exact fun f hf => l ▸ (hS id).slots f hf
  exact (marshal_of_encode hI' hS hv' (raw_encode (n := 999) (N := 999) hr' hx hy he hlen) hlen []).1

/-! ## examples -/

namespace RawNode

theorem no_maps : NoMapMsg Node.schema := by
  intro id f hf
  cases id with
  | zero =>
    simp only [Node.schema, Node.msg, List.mem_cons, List.not_mem_nil, or_false] at hf
    rcases hf with rfl | rfl | rfl <;> exact nofun
  | succ => cases hf

theorem narrowed : Narrowed Node.schema schema := by
  refine ⟨fun id => ?_, fun id => ?_, fun id => ?_⟩ <;> cases id
  · rfl
  · rfl
  · intro p hp
    simp only [Node.schema, Node.msg, schema, msg, List.zip_cons_cons, List.zip_nil_right, List.mem_cons, List.not_mem_nil, or_false] at hp
    rcases hp with rfl | rfl | rfl
    · exact ⟨rfl, .inl rfl, .single _ _ rfl⟩
    · exact ⟨rfl, .inl rfl, .raw _ no_maps⟩
    · exact ⟨rfl, .inl rfl, .rawList _ no_maps⟩
  · intro p hp; cases hp
  · decide
  · intro p hp; cases hp

/-- Any input that is accepted as a `Node` is accepted as a `RawNode`, and the elements of `Kids` unmarshal to the same nodes. -/
example (b : Bytes) (w : Val) (h : unmarshal Node.env b (.ptr 0 (some (Node.schema 0).zero)) = .ok w) :
    ∃ (xs ys ms ps : List Val), w = .struct xs ∧ unmarshal RawNode.env b (.ptr 0 (some (schema 0).zero)) = .ok (.struct ys) ∧
      xs[2]? = some (.slice ms) ∧ ys[2]? = some (.slice ps) ∧ ms.length = ps.length ∧
      ∀ (n : Nat) (x : Val), ms[n]? = some x → ∃ m p, x = .ptr (some m) ∧ ps[n]? = some (.bytes (some p)) ∧
        unmarshal Node.env p (.ptr 0 (some (Node.schema 0).zero)) = .ok m :=
  C101_list_partial Node.env_implements RawNode.env_implements Node.schema_wf schema_wf narrowed 0 0 ⟨3, 2, none, .msgList 0 true⟩
    ⟨3, 2, none, .list .bytes false⟩ (.tail _ (.tail _ (.head _))) rfl rfl rfl rfl b w h

/-- The hypotheses of `C101_field_partial` hold: `next` has `v = 1` and a `next` with `v = 2`. -/
example : ∃ xs ys, Val.struct [.w32 0, .ptr (some (.struct [.w32 1, .ptr (some (.struct [.w32 2, .ptr none, .slice [], .bytes none])),
      .slice [], .bytes none])), .slice [], .bytes none] = .struct xs ∧
    unmarshal RawNode.env [18, 6, 8, 1, 18, 2, 8, 2] (.ptr 0 (some (schema 0).zero)) = .ok (.struct ys) ∧
      ((xs[1]? = some (.ptr none) ∧ ys[1]? = some (.bytes none)) ∨
        ∃ x p, xs[1]? = some (.ptr (some x)) ∧ ys[1]? = some (.bytes (some p)) ∧
          unmarshal Node.env p (.ptr 0 (some (Node.schema 0).zero)) = .ok x) :=
  C101_field_partial Node.env_implements RawNode.env_implements Node.schema_wf schema_wf narrowed 0 0 ⟨2, 1, none, .msg 0 true⟩
    ⟨2, 1, none, .single .bytes⟩ (.tail _ (.head _)) rfl rfl rfl rfl [18, 6, 8, 1, 18, 2, 8, 2] _ (by rfl)

example : unmarshal RawNode.env [18, 6, 8, 1, 18, 2, 8, 2] (.ptr 0 (some (schema 0).zero)) =
    .ok (.struct [.w32 0, .bytes (some [8, 1, 18, 2, 8, 2]), .slice [], .bytes none]) := by rfl

/-- `v = 1`, a `next` with `v = 2`, and two elements of `kids`, one of them nil. -/
def whole : List Val := [.w32 1, .ptr (some (.struct [.w32 2, .ptr none, .slice [], .bytes none])),
  .slice [.ptr none, .ptr (some (.struct [.w32 3, .ptr none, .slice [], .bytes none]))], .bytes (some [48, 1])]

/-- The same with the bytes of the messages. -/
def parts : List Val := [.w32 1, .bytes (some [8, 2]), .slice [.bytes (some []), .bytes (some [8, 3])], .bytes (some [48, 1])]

theorem leaf_typed (n : BitVec 32) : Typed Node.schema 0 (.struct [.w32 n, .ptr none, .slice [], .bytes none]) := by
  refine .mk 0 _ rfl (fun f hf x hx => ?_) (fun s p x hs hx => ?_)
  · simp only [Node.schema, Node.msg, List.mem_cons, List.not_mem_nil, or_false] at hf
    rcases hf with rfl | rfl | rfl <;> cases hx
    · exact .plain _ _ rfl (.single _ _ rfl)
    · exact .plain _ _ rfl (.msg _ _ _ (.nil _))
    · exact .plain _ _ rfl (.msgList _ _ _ nofun)
  · simp only [Node.schema, Node.msg, Option.some.injEq, Prod.mk.injEq] at hs
    obtain ⟨rfl, rfl⟩ := hs
    cases hx
    exact ⟨_, rfl⟩

theorem whole_typed : Typed Node.schema 0 (.struct whole) := by
  refine .mk 0 _ rfl (fun f hf x hx => ?_) (fun s p x hs hx => ?_)
  · simp only [Node.schema, Node.msg, List.mem_cons, List.not_mem_nil, or_false] at hf
    rcases hf with rfl | rfl | rfl <;> cases hx
    · exact .plain _ _ rfl (.single _ _ rfl)
    · exact .plain _ _ rfl (.msg _ _ _ (.ptr _ _ (leaf_typed 2)))
    · refine .plain _ _ rfl (.msgList _ _ _ (fun v hv => ?_))
      simp only [List.mem_cons, List.not_mem_nil, or_false] at hv
      rcases hv with rfl | rfl
      · exact .nil _
      · exact .ptr _ _ (leaf_typed 3)
  · simp only [Node.schema, Node.msg, Option.some.injEq, Prod.mk.injEq] at hs
    obtain ⟨rfl, rfl⟩ := hs
    cases hx
    exact ⟨_, rfl⟩

theorem parts_typed : Typed schema 0 (.struct parts) := by
  refine .mk 0 _ rfl (fun f hf x hx => ?_) (fun s p x hs hx => ?_)
  · simp only [schema, msg, List.mem_cons, List.not_mem_nil, or_false] at hf
    rcases hf with rfl | rfl | rfl <;> cases hx
    · exact .plain _ _ rfl (.single _ _ rfl)
    · exact .plain _ _ rfl (.single _ _ rfl)
    · refine .plain _ _ rfl (.list _ _ _ (fun v hv => ?_))
      simp only [List.mem_cons, List.not_mem_nil, or_false] at hv
      rcases hv with rfl | rfl <;> rfl
  · simp only [schema, msg, Option.some.injEq, Prod.mk.injEq] at hs
    obtain ⟨rfl, rfl⟩ := hs
    cases hx
    exact ⟨_, rfl⟩

theorem parts_raw : RawMsg (fun i m p => Typed Node.schema i m ∧ marshal Node.env (.ptr i (some m)) = .ok p) Node.schema schema 0 whole parts := by
  refine ⟨rfl, fun f g hfg => ?_, rfl⟩
  simp only [Node.schema, Node.msg, schema, msg, List.zip_cons_cons, List.zip_nil_right, List.mem_cons, List.not_mem_nil, or_false, Prod.mk.injEq] at hfg
  rcases hfg with ⟨rfl, rfl⟩ | ⟨rfl, rfl⟩ | ⟨rfl, rfl⟩ <;> refine ⟨rfl, fun x y hx hy => ?_⟩ <;> cases hx <;> cases hy <;>
    refine .inr ⟨_, _, rfl, rfl, ?_⟩
  · exact .scalar _ _ rfl
  · exact .msg _ _ _ ⟨leaf_typed 2, by rfl⟩ (by decide)
  · refine .list 0 true [(.ptr none, []), (.ptr (some (.struct [.w32 3, .ptr none, .slice [], .bytes none])), [8, 3])] (fun z hz => ?_)
    simp only [List.mem_cons, List.not_mem_nil, or_false] at hz
    rcases hz with rfl | rfl
    · exact ⟨leaf_typed 0, by rfl⟩
    · exact ⟨leaf_typed 3, by rfl⟩

/-- The hypotheses of `C101_write_partial` hold for these messages. -/
example : marshal RawNode.env (.ptr 0 (some (.struct parts))) = .ok [8, 1, 18, 2, 8, 2, 26, 0, 26, 2, 8, 3, 48, 1] :=
  C101_write_partial Node.env_implements RawNode.env_implements Node.schema_wf schema_wf 0 whole parts whole_typed parts_typed parts_raw
    (fun bs h => by
      have e : encode Node.schema false 1000 0 (.struct whole) = some [8, 1, 18, 2, 8, 2, 26, 0, 26, 2, 8, 3, 48, 1] := by decide +kernel
      rw [e] at h
      cases h
      decide) _ (by rfl)

end RawNode

namespace RawCase

theorem no_maps : NoMapMsg CaseNode.schema := by
  intro id f hf
  cases id with
  | zero =>
    simp only [CaseNode.schema, CaseNode.msg, List.mem_cons, List.not_mem_nil, or_false] at hf
    rcases hf with rfl | rfl <;> exact nofun
  | succ => cases hf

theorem narrowed : Narrowed CaseNode.schema schema := by
  refine ⟨fun id => ?_, fun id => ?_, fun id => ?_⟩ <;> cases id
  · rfl
  · rfl
  · intro p hp
    simp only [CaseNode.schema, CaseNode.msg, schema, msg, List.zip_cons_cons, List.zip_nil_right, List.mem_cons, List.not_mem_nil, or_false] at hp
    rcases hp with rfl | rfl
    · exact ⟨rfl, .inl rfl, .single _ _ rfl⟩
    · exact ⟨rfl, .inl rfl, .raw _ no_maps⟩
  · intro p hp; cases hp
  · decide
  · intro p hp; cases hp

/-- The hypotheses of `C101_oneof_partial` hold for an input with both members, the message last. -/
example := C101_oneof_partial CaseNode.env_implements RawCase.env_implements CaseNode.schema_wf schema_wf narrowed 0 0 101
  ⟨2, 0, some 101, .msg 0 true⟩ ⟨2, 0, some 101, .single .bytes⟩ (.tail _ (.head _)) rfl rfl rfl [8, 5, 18, 2, 8, 1]
  (.struct [.iface (some (101, some (.ptr (some (.struct [.iface (some (100, some (.w32 1))), .bytes none]))))), .bytes none]) (by rfl)

example : unmarshal RawCase.env [8, 5, 18, 2, 8, 1] (.ptr 0 (some (schema 0).zero)) =
    .ok (.struct [.iface (some (101, some (.bytes (some [8, 1])))), .bytes none]) := by rfl

end RawCase

/-- With maps of messages it is false: a message that has 500 levels of maps in a field is accepted, but the bytes of that field
alone are rejected, by the same program. -/
theorem C101_maps_violated :
    unmarshal Sample.env (tag 4 .len ++ lenDelim (mapDeepIn 500)) (.ptr 0 (some (.struct Sample.msgZero))) =
      .ok (.struct (Sample.msgZero.set 3 (.ptr (some (mapDeep 500))))) ∧
    ∃ e, unmarshal Sample.env (mapDeepIn 500) (.ptr 0 (some (.struct Sample.msgZero))) = .error e :=
  ⟨(C21_bypass_violated 500 (by decide)).2, C22_symmetry_violated.2⟩

/-- Empty messages: a pointer to an empty message is written, empty bytes are not. -/
theorem C101_empty_violated : marshal Node.env (.ptr 0 (some (.struct Node.zero))) = .ok [] ∧
    marshal Node.env (.ptr 0 (some (.struct [.w32 0, .ptr (some (.struct Node.zero)), .slice [], .bytes none]))) = .ok [18, 0] ∧
    marshal RawNode.env (.ptr 0 (some (.struct [.w32 0, .bytes (some []), .slice [], .bytes none]))) = .ok [] :=
  ⟨by rfl, by rfl, by rfl⟩

end Verif.Props
