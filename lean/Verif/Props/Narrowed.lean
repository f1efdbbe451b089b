import Verif.Lemmas.Narrowed
import Verif.Props.Round
import Verif.Props.Older
import Verif.Props.SampleNode
import Verif.Props.SampleNarrow
import Verif.Props.SampleWide
import Verif.Props.SampleMove
/-!
# C99, second part: reading any input with other types of fields
-/
namespace Verif.Props
open Verif.Spec Verif.Model Verif.Lemmas Verif.Lemmas.Narrow

variable {env env' : GoEnv} {S T : Schema}

/-- What it means that two values are read from the same data: numbers are the same modulo 2^32 if one of the types has 32
bits, and equal otherwise; strings and bytes have the same bytes. -/
theorem C99_cut :
    (∀ (v : BitVec 64) (u : BitVec 32), (Cut .int64 .int32 (.w64 v) (.w32 u) ↔ u.toNat = v.toNat % 2 ^ 32) ∧
      (Cut .int32 .int64 (.w32 u) (.w64 v) ↔ u.toNat = v.toNat % 2 ^ 32) ∧
      (Cut .int64 .uint32 (.w64 v) (.w32 u) ↔ u.toNat = v.toNat % 2 ^ 32) ∧ (Cut .uint32 .int64 (.w32 u) (.w64 v) ↔ u.toNat = v.toNat % 2 ^ 32) ∧
      (Cut .uint64 .int32 (.w64 v) (.w32 u) ↔ u.toNat = v.toNat % 2 ^ 32) ∧ (Cut .int32 .uint64 (.w32 u) (.w64 v) ↔ u.toNat = v.toNat % 2 ^ 32) ∧
      (Cut .uint64 .uint32 (.w64 v) (.w32 u) ↔ u.toNat = v.toNat % 2 ^ 32) ∧ (Cut .uint32 .uint64 (.w32 u) (.w64 v) ↔ u.toNat = v.toNat % 2 ^ 32) ∧
      (Cut .sint64 .sint32 (.w64 v) (.w32 u) ↔ u.toNat = v.toNat % 2 ^ 32) ∧ (Cut .sint32 .sint64 (.w32 u) (.w64 v) ↔ u.toNat = v.toNat % 2 ^ 32)) ∧
    (∀ v u : BitVec 64, (Cut .int64 .uint64 (.w64 v) (.w64 u) ↔ v = u) ∧ (Cut .fixed64 .sfixed64 (.w64 v) (.w64 u) ↔ v = u)) ∧
    (∀ v u : BitVec 32, (Cut .int32 .uint32 (.w32 v) (.w32 u) ↔ v = u) ∧ (Cut .fixed32 .sfixed32 (.w32 v) (.w32 u) ↔ v = u)) ∧
    (∀ (s : Bytes) (o : Option Bytes), (Cut .string .bytes (.str s) (.bytes o) ↔ o.getD [] = s) ∧ (Cut .bytes .string (.bytes o) (.str s) ↔ o.getD [] = s)) ∧
    (∀ (s : Scalar) (x y : Val), Cut s s x y ↔ SameScalar x y) := by
  have key : ∀ (v : BitVec 64) (u : BitVec 32), SameScalar (.w32 (v.setWidth 32)) (.w32 u) ↔ u.toNat = v.toNat % 2 ^ 32 := by
    intro v u
    refine ⟨fun h => ?_, fun h => ?_⟩
    · injection (h : Val.w32 _ = Val.w32 _) with h
      rw [← h]
      exact BitVec.toNat_setWidth _ _
    · exact congrArg Val.w32 (BitVec.eq_of_toNat_eq ((BitVec.toNat_setWidth _ _).trans h.symm))
  refine ⟨fun v u => ⟨key v u, key v u, key v u, key v u, key v u, key v u, key v u, key v u, key v u, key v u⟩, fun v u => ⟨?_, ?_⟩, fun v u => ⟨?_, ?_⟩,
    fun s o => ⟨eq_comm, ?_⟩, fun s x y => ?_⟩
  · exact ⟨fun h => by injection (h : Val.w64 _ = Val.w64 _), fun h => congrArg Val.w64 h⟩
  · exact ⟨fun h => by injection (h : Val.w64 _ = Val.w64 _), fun h => congrArg Val.w64 h⟩
  · exact ⟨fun h => by injection (h : Val.w32 _ = Val.w32 _), fun h => congrArg Val.w32 h⟩
  · exact ⟨fun h => by injection (h : Val.w32 _ = Val.w32 _), fun h => congrArg Val.w32 h⟩
  · exact ⟨fun h => by injection (h : Val.str _ = Val.str _), fun h => congrArg Val.str h⟩
  · cases s <;> exact Iff.rfl

/-- Whatever input a program accepts, a program in which types of fields have been changed to compatible ones accepts too, and
reads the same content, as far as the narrower of the types can hold it, and the same unknown fields where both keep them, in
nested messages, lists and maps too.  Missing:
`bool` instead of a number, for which it is not true (`C99_bool_violated`). -/
theorem C99_input_partial (hI : Implements env T) (hI' : Implements env' S) (hT : T.WF) (hS : S.WF) (hN : Narrowed T S)
    (id : Nat) (v v' : Val) (hv : Typed T id v) (hv' : Typed S id v') (hk : CutMsg T S id v v') (b : Bytes) (w : Val)
    (h : unmarshal env b (.ptr id (some v)) = .ok w) :
    ∃ w', unmarshal env' b (.ptr id (some v')) = .ok w' ∧ CutMsg T S id w w' := by
  obtain ⟨w', h1, h2⟩ := decodes_cut hT hS hN ((C50_exact hI hT id v hv b w).1 h) (fun _ => by decide) (by decide) v' hk
  exact ⟨w', (C50_exact hI' hS id v' hv' b w').2 h1, h2⟩

/-- In particular, reading into new variables. -/
theorem C99_fresh_partial (hI : Implements env T) (hI' : Implements env' S) (hT : T.WF) (hS : S.WF) (hN : Narrowed T S)
    (id : Nat) (b : Bytes) (w : Val) (h : unmarshal env b (.ptr id (some (T id).zero)) = .ok w) :
    ∃ w', unmarshal env' b (.ptr id (some (S id).zero)) = .ok w' ∧ CutMsg T S id w w' :=
  C99_input_partial hI hI' hT hS hN id _ _ (typed_zero hT id) (typed_zero hS id) (cut_zero hT hS hN id) b w h

/-- If the change is compatible both ways, the two programs accept the same inputs. -/
theorem C99_accept_partial (hI : Implements env T) (hI' : Implements env' S) (hT : T.WF) (hS : S.WF) (hN : Narrowed T S) (hN' : Narrowed S T)
    (id : Nat) (b : Bytes) : (∃ w, unmarshal env b (.ptr id (some (T id).zero)) = .ok w) ↔ ∃ w, unmarshal env' b (.ptr id (some (S id).zero)) = .ok w :=
  ⟨fun ⟨w, h⟩ => (C99_fresh_partial hI hI' hT hS hN id b w h).imp fun _ h => h.1,
    fun ⟨w, h⟩ => (C99_fresh_partial hI' hI hS hT hN' id b w h).imp fun _ h => h.1⟩

/-- A single field that has been moved into a oneof of its own: whatever the input, the oneof is set to the value that the other
program has in the field, or unset, and then that program has the zero value. -/
theorem C99_moved (hI : Implements env T) (hI' : Implements env' S) (hT : T.WF) (hS : S.WF) (hN : Narrowed T S)
    (id c : Nat) (s : Scalar) (f g : Field) (hfg : (f, g) ∈ (T id).fields.zip (S id).fields) (hm : f.member = none) (hg : g.member = some c)
    (hf : f.shape = .single s) (hs : g.shape = .single s) (b : Bytes) (w : Val) (h : unmarshal env b (.ptr id (some (T id).zero)) = .ok w) :
    ∃ xs ys, w = .struct xs ∧ unmarshal env' b (.ptr id (some (S id).zero)) = .ok (.struct ys) ∧
      ((xs[f.slot]? = some s.zero ∧ ys[g.slot]? = some (.iface none)) ∨
        ∃ x y, xs[f.slot]? = some x ∧ ys[g.slot]? = some (.iface (some (c, some y))) ∧ Cut s s x y) := by
  obtain ⟨w', h1, h2⟩ := C99_fresh_partial hI hI' hT hS hN id b w h
  obtain ⟨_, xs, ys, l1, l2, h2⟩ := h2
  refine ⟨xs, ys, rfl, h1, ?_⟩
  have s1 : f.slot < xs.length := l1 ▸ (hT id).slots f (List.of_mem_zip hfg).1
  have s2 : g.slot < ys.length := l2 ▸ (hS id).slots g (List.of_mem_zip hfg).2
  have e1 := List.getElem?_eq_getElem s1
  have e2 := List.getElem?_eq_getElem s2
  have hk := h2 f g hfg _ _ e1 e2
  rw [e1, e2]
  generalize xs[f.slot] = x at hk
  generalize ys[g.slot] = y at hk
  cases hk with
  | plain _ _ _ _ _ h => rw [hg] at h; cases h
  | moveUnset => rw [hf]; exact .inl ⟨rfl, rfl⟩
  | moveSet _ _ c' x y _ h hk =>
    rw [hg] at h
    cases h
    rw [hf, hs] at hk
    cases hk with
    | single _ _ _ _ hk => exact .inr ⟨x, y, rfl, rfl, hk⟩
  | unset _ _ hm' => exact absurd hm hm'
  | nilCase _ _ _ hm' => exact absurd hm hm'
  | set _ _ _ _ _ hm' => rw [hm] at hm'; cases hm'
  | other _ _ _ _ _ _ hm' => rw [hm] at hm'; cases hm'

/-! ## examples -/

namespace MoveNode

theorem narrowed : Narrowed Node.schema schema := by
  refine ⟨fun id => ?_, fun id => ?_, fun id => ?_⟩ <;> cases id
  · rfl
  · rfl
  · intro p hp
    simp only [Node.schema, Node.msg, schema, msg, List.zip_cons_cons, List.zip_nil_right, List.mem_cons, List.not_mem_nil, or_false] at hp
    rcases hp with rfl | rfl | rfl
    · exact ⟨rfl, .inr ⟨rfl, nofun, .inl ⟨_, rfl⟩⟩, .single _ _ rfl⟩
    · exact ⟨rfl, .inr ⟨rfl, nofun, .inr ⟨_, rfl⟩⟩, .msg _ _⟩
    · exact ⟨rfl, .inl rfl, .msgList _ _⟩
  · intro p hp; cases hp
  · decide
  · intro p hp; cases hp

/-- The hypotheses of `C99_moved` hold for an input with `v` twice, the second time 0, and a `next` without `v`. -/
example := C99_moved Node.env_implements MoveNode.env_implements Node.schema_wf schema_wf narrowed 0 100 .int32 ⟨1, 0, none, .single .int32⟩
  ⟨1, 0, some 100, .single .int32⟩ (.head _) rfl rfl rfl rfl [8, 5, 18, 0, 8, 0] (.struct [.w32 0, .ptr (some (.struct Node.zero)), .slice [], .bytes none]) (by rfl)

example : unmarshal MoveNode.env [8, 5, 18, 0, 8, 0] (.ptr 0 (some (schema 0).zero)) =
    .ok (.struct [.iface (some (100, some (.w32 0))), .iface (some (101, some (.ptr (some (.struct zero))))), .slice [], .bytes none]) := by rfl

end MoveNode

namespace LongNode

theorem narrowed : Narrowed schema Node.schema := by
  refine ⟨fun id => ?_, fun id => ?_, fun id => ?_⟩ <;> cases id
  · rfl
  · rfl
  · intro p hp
    simp only [Node.schema, Node.msg, schema, msg, List.zip_cons_cons, List.zip_nil_right, List.mem_cons, List.not_mem_nil, or_false] at hp
    rcases hp with rfl | rfl | rfl
    · exact ⟨rfl, .inl rfl, .single _ _ rfl⟩
    · exact ⟨rfl, .inl rfl, .msg _ _⟩
    · exact ⟨rfl, .inl rfl, .msgList _ _⟩
  · intro p hp; cases hp
  · decide
  · intro p hp; cases hp

theorem widened : Narrowed Node.schema schema := by
  refine ⟨fun id => ?_, fun id => ?_, fun id => ?_⟩ <;> cases id
  · rfl
  · rfl
  · intro p hp
    simp only [Node.schema, Node.msg, schema, msg, List.zip_cons_cons, List.zip_nil_right, List.mem_cons, List.not_mem_nil, or_false] at hp
    rcases hp with rfl | rfl | rfl
    · exact ⟨rfl, .inl rfl, .single _ _ rfl⟩
    · exact ⟨rfl, .inl rfl, .msg _ _⟩
    · exact ⟨rfl, .inl rfl, .msgList _ _⟩
  · intro p hp; cases hp
  · decide
  · intro p hp; cases hp

/-- `Node` and `LongNode` accept the same inputs. -/
example (b : Bytes) : (∃ w, unmarshal LongNode.env b (.ptr 0 (some (schema 0).zero)) = .ok w) ↔
    ∃ w, unmarshal Node.env b (.ptr 0 (some (Node.schema 0).zero)) = .ok w :=
  C99_accept_partial LongNode.env_implements Node.env_implements schema_wf Node.schema_wf narrowed widened 0 b

/-- `v = 2^32 + 5`, and a `next` with `v = -1`, the records of `next` first, and an unknown field. -/
def input : Bytes := [18, 11, 8, 255, 255, 255, 255, 255, 255, 255, 255, 255, 1, 8, 133, 128, 128, 128, 16, 48, 1]

/-- The hypotheses of `C99_fresh_partial` hold for this input. -/
example : ∃ w', unmarshal Node.env input (.ptr 0 (some (Node.schema 0).zero)) = .ok w' ∧ CutMsg schema Node.schema 0
    (.struct [.w64 (2 ^ 32 + 5), .ptr (some (.struct [.w64 (-1), .ptr none, .slice [], .bytes none])), .slice [], .bytes (some [48, 1])]) w' :=
  C99_fresh_partial LongNode.env_implements Node.env_implements schema_wf Node.schema_wf narrowed 0 input _ (by rfl)

example : unmarshal Node.env input (.ptr 0 (some (Node.schema 0).zero)) =
    .ok (.struct [.w32 5, .ptr (some (.struct [.w32 (-1), .ptr none, .slice [], .bytes none])), .slice [], .bytes (some [48, 1])]) := by rfl

end LongNode

namespace WideNode

/-- A number with presence is read as one without, and a list of messages as a message. -/
theorem narrowed : Narrowed schema Node.schema := by
  refine ⟨fun id => ?_, fun id => ?_, fun id => ?_⟩ <;> cases id
  · rfl
  · rfl
  · intro p hp
    simp only [Node.schema, Node.msg, schema, msg, List.zip_cons_cons, List.zip_nil_right, List.mem_cons, List.not_mem_nil, or_false] at hp
    rcases hp with rfl | rfl | rfl
    · exact ⟨rfl, .inl rfl, .noPresence _ _ rfl⟩
    · exact ⟨rfl, .inl rfl, .lastMsg _⟩
    · exact ⟨rfl, .inl rfl, .msgList _ _⟩
  · intro p hp; cases hp
  · decide
  · intro p hp; cases hp

/-- Two elements of the list `next`. -/
example : ∃ w', unmarshal Node.env [18, 2, 8, 1, 18, 2, 8, 2] (.ptr 0 (some (Node.schema 0).zero)) = .ok w' ∧ CutMsg schema Node.schema 0
    (.struct [.ptr none, .slice [.ptr (some (.struct [.ptr (some (.w64 1)), .slice [], .slice [], .bytes none])),
      .ptr (some (.struct [.ptr (some (.w64 2)), .slice [], .slice [], .bytes none]))], .slice [], .bytes none]) w' :=
  C99_fresh_partial WideNode.env_implements Node.env_implements schema_wf Node.schema_wf narrowed 0 _ _ (by rfl)

example : unmarshal Node.env [18, 2, 8, 1, 18, 2, 8, 2] (.ptr 0 (some (Node.schema 0).zero)) =
    .ok (.struct [.w32 0, .ptr (some (.struct [.w32 2, .ptr none, .slice [], .bytes none])), .slice [], .bytes none]) := by rfl

end WideNode

/-- `bool` is not compatible with the integer types, in contrast to protobuf, where a number other than 0 is read as `true`:
a field of type `int32` that is 2 is read as `false` by a program in which the field is a `bool`. -/
theorem C99_bool_violated : ∃ b, marshal Node.env (.ptr 0 (some (.struct [.w32 2, .ptr none, .slice [], .bytes none]))) = .ok b ∧
    unmarshal BoolNode.env b (.ptr 0 (some (BoolNode.schema 0).zero)) = .ok (.struct [.bool false, .ptr none, .slice [], .bytes none]) :=
  ⟨[8, 2], by rfl, by rfl⟩

end Verif.Props
