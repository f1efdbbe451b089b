import Verif.Lemmas.Left
import Verif.Props.Unmarshal
import Verif.Props.SampleNode
/-!
# The message after an Unmarshal that failed
-/
namespace Verif.Props
open Verif.Spec Verif.Model Verif.Lemmas

variable {env : GoEnv} {S : Schema} {J J' : Junk}

/-! ## C92: what a failing Unmarshal leaves -/

theorem unmarshalLeft_eq (hI : Implements env S) (hW : S.WF) (J : Junk) (b : Bytes) (id : Nat) (v : Val) :
    ∃ D, DescOK D S ∧ unmarshal env b (.ptr id (some v)) = decodeStruct D (b.length + 1) 1000 b v id ∧
      unmarshalLeft env J b id v = leftStruct D J (b.length + 1) 1000 b v id := by
  obtain ⟨D, h1, h2⟩ := parseDescs_ok hI hW
  refine ⟨D, h2, ?_, ?_⟩
  · simp only [unmarshal, h1, bind, Except.bind]; rfl
  · simp only [unmarshalLeft, h1]; rfl

/-- If Unmarshal fails then the message is as `LeftMsg` says: the records in front of the first bad one have been decoded,
and only the field of the first bad one may have been changed, in a way that depends on the kind of field. -/
theorem C92_left (hI : Implements env S) (hW : S.WF) (hJ : JunkTyped J) (id : Nat) (v : Val) (hv : Typed S id v) (b : Bytes) (e : Fault)
    (h : unmarshal env b (.ptr id (some v)) = .error e) : LeftMsg S 1000 id b v (unmarshalLeft env J b id v) := by
  obtain ⟨D, h1, h2, h3⟩ := unmarshalLeft_eq hI hW J b id v
  rw [h2] at h
  rw [h3]
  exact (leftStruct_ok h1 hW hJ _ 1000 b v id e (by omega) hv h).1

/-- It is still a message of its type: Marshal, Size and Unmarshal work on it as on any other. -/
theorem C92_typed (hI : Implements env S) (hW : S.WF) (hJ : JunkTyped J) (id : Nat) (v : Val) (hv : Typed S id v) (b : Bytes) (e : Fault)
    (h : unmarshal env b (.ptr id (some v)) = .error e) : Typed S id (unmarshalLeft env J b id v) := by
  obtain ⟨D, h1, h2, h3⟩ := unmarshalLeft_eq hI hW J b id v
  rw [h2] at h
  rw [h3]
  exact (leftStruct_ok h1 hW hJ _ 1000 b v id e (by omega) hv h).2

/-- The model of the message after the call agrees with the result when the call succeeds. -/
theorem C92_success (hI : Implements env S) (hW : S.WF) (id : Nat) (v w : Val) (b : Bytes)
    (h : unmarshal env b (.ptr id (some v)) = .ok w) : unmarshalLeft env J b id v = w := by
  obtain ⟨D, h1, h2, h3⟩ := unmarshalLeft_eq hI hW J b id v
  rw [h2] at h
  rw [h3]
  exact leftStruct_of_ok h

/-- In terms of Unmarshal alone: there is a longest prefix of the input that Unmarshal accepts, and the message left is the
one Unmarshal makes of it, except for the Go struct field of the one declared field whose number is in the key at which that
prefix ends; if there is no key there, or it is not that of a declared field, there is no exception. -/
theorem C92_prefix (hI : Implements env S) (hW : S.WF) (hJ : JunkTyped J) (id : Nat) (xs : List Val) (hv : Typed S id (.struct xs))
    (b : Bytes) (e : Fault) (h : unmarshal env b (.ptr id (some (.struct xs))) = .error e) :
    ∃ pre rest ys zs, b = pre ++ rest ∧ rest ≠ [] ∧
      unmarshal env pre (.ptr id (some (.struct xs))) = .ok (.struct ys) ∧
      (∀ pre' suf w, b = pre' ++ suf → unmarshal env pre' (.ptr id (some (.struct xs))) = .ok w → pre'.length ≤ pre.length) ∧
      unmarshalLeft env J b id (.struct xs) = .struct zs ∧ zs.length = ys.length ∧
      ∀ i : Nat, zs[i]? = ys[i]? ∨
        ∃ f ∈ (S id).fields, f.slot = i ∧ ∃ k post typ, rest = k ++ post ∧ StartsField k f.num typ := by
  have h1 := C92_left hI hW hJ id _ hv b e h
  generalize hz : unmarshalLeft env J b id (.struct xs) = z at h1
  generalize hd : (1000 : Int) = d at h1
  generalize hx : Val.struct xs = x at h1
  cases h1 with
  | tooDeep => cases hd
  | stops _ _ pre rest xs' ys zs h2 h3 h4 h5 h6 =>
    cases hx
    subst hd
    refine ⟨pre, rest, ys, zs, rfl, h3, ?_, ?_, rfl, ?_, ?_⟩
    · exact (C50_exact hI hW id _ hv pre _).2 (.mk _ _ _ _ _ h2 h4)
    · intro pre' suf w h7 h8
      have h9 := (C50_exact hI hW id _ hv pre' _).1 h8
      cases h9 with
      | mk _ _ _ _ ws _ h10 => exact h5 pre' suf ws h7 h10
    · cases h6 with
      | undeclared => rfl
      | field => simp
    · intro i
      cases h6 with
      | undeclared => exact .inl rfl
      | field _ _ f k post typ _ x y h7 h8 h9 h10 =>
        by_cases hi : f.slot = i
        · exact .inr ⟨f, h7, hi, k, post, typ, rfl, h8⟩
        · exact .inl (List.getElem?_set_ne hi)

/-- What a bad record keeps, by kind of field. -/
theorem leftShape_keeps {d : Int} {typ : Nat} {b : Bytes} {x y : Val} {sh : Shape} (h : LeftShape S d sh typ b x y) :
    (∀ s, sh = .single s → y = x) ∧
    (∀ xs, x = .slice xs → (∃ s p, sh = .list s p) ∨ (∃ id p, sh = .msgList id p) → y = .slice xs ∨ ∃ z, y = .slice (xs ++ [z])) ∧
    (∀ m, x = .map (some m) → (∃ k v, sh = .map k v) ∨ (∃ k id p, sh = .mapMsg k id p) → y = x) := by
  have hmap : ∀ {x y : Val}, MapKept x y → ∀ m, x = .map (some m) → y = x := by
    rintro x y (h | ⟨rfl, _⟩) m hm
    · exact h
    · cases hm
  refine ⟨?_, ?_, ?_⟩
  · rintro s rfl
    cases h with
    | single => rfl
  · rintro xs rfl (⟨s, p, rfl⟩ | ⟨id, p, rfl⟩)
    · cases h with
      | packed => exact .inl rfl
      | elem => exact .inr ⟨_, rfl⟩
    · cases h with
      | msgElem => exact .inr ⟨_, rfl⟩
  · rintro m rfl (⟨k, v, rfl⟩ | ⟨k, id, p, rfl⟩)
    · cases h with
      | mapFast => rfl
      | map _ _ _ _ _ _ _ _ hk => exact hmap hk m rfl
    · cases h with
      | mapMsg _ _ _ _ _ _ _ _ hk => exact hmap hk m rfl

/-- Nothing decoded so far is lost from lists, maps and plain scalars, not even from the field of the bad record: the list
keeps its elements and gets at most one more, the map keeps exactly its entries, the scalar keeps its value. -/
theorem C92_keeps (hI : Implements env S) (hW : S.WF) (hJ : JunkTyped J) (id : Nat) (xs : List Val) (hv : Typed S id (.struct xs))
    (b : Bytes) (e : Fault) (h : unmarshal env b (.ptr id (some (.struct xs))) = .error e) :
    ∃ pre rest ys zs, b = pre ++ rest ∧ unmarshal env pre (.ptr id (some (.struct xs))) = .ok (.struct ys) ∧
      (∀ pre' suf w, b = pre' ++ suf → unmarshal env pre' (.ptr id (some (.struct xs))) = .ok w → pre'.length ≤ pre.length) ∧
      unmarshalLeft env J b id (.struct xs) = .struct zs ∧
      ∀ f ∈ (S id).fields, f.member = none → ∀ x, ys[f.slot]? = some x → ∃ y, zs[f.slot]? = some y ∧
        (∀ s, f.shape = .single s → y = x) ∧
        (∀ l, x = .slice l → (∃ s p, f.shape = .list s p) ∨ (∃ id p, f.shape = .msgList id p) →
          y = .slice l ∨ ∃ z, y = .slice (l ++ [z])) ∧
        (∀ m, x = .map (some m) → (∃ k v, f.shape = .map k v) ∨ (∃ k id p, f.shape = .mapMsg k id p) → y = x) := by
  have h1 := C92_left hI hW hJ id _ hv b e h
  generalize hz : unmarshalLeft env J b id (.struct xs) = z at h1
  generalize hd : (1000 : Int) = d at h1
  generalize hx : Val.struct xs = x at h1
  cases h1 with
  | tooDeep => cases hd
  | stops _ _ pre rest xs' ys zs h2 h3 h4 h5 h6 =>
    cases hx
    subst hd
    refine ⟨pre, rest, ys, zs, rfl, (C50_exact hI hW id _ hv pre _).2 (.mk _ _ _ _ _ h2 h4), ?_, rfl, ?_⟩
    · intro pre' suf w h7 h8
      have h9 := (C50_exact hI hW id _ hv pre' _).1 h8
      cases h9 with
      | mk _ _ _ _ ws _ h10 => exact h5 pre' suf ws h7 h10
    · intro f hf hm x hx
      have same : ∃ y, some x = some y ∧ (∀ s, f.shape = .single s → y = x) ∧
          (∀ l, x = .slice l → (∃ s p, f.shape = .list s p) ∨ (∃ id p, f.shape = .msgList id p) →
            y = .slice l ∨ ∃ z, y = .slice (l ++ [z])) ∧
          (∀ m, x = .map (some m) → (∃ k v, f.shape = .map k v) ∨ (∃ k id p, f.shape = .mapMsg k id p) → y = x) :=
        ⟨x, rfl, fun _ _ => rfl, fun l hl _ => .inl hl, fun _ _ _ => rfl⟩
      cases h6 with
      | undeclared => rw [hx]; exact same
      | field _ _ g k post typ _ x' y h7 h8 h9 h10 =>
        by_cases hi : g.slot = f.slot
        · by_cases hn : f.num = g.num
          · have := field_inj (hW id) hf h7 hn
            subst this
            rw [h9] at hx
            cases hx
            rw [List.getElem?_set_self (by have := List.getElem?_eq_some_iff.1 h9; exact this.1)]
            cases h10 with
            | plain _ _ _ _ _ _ _ h11 => exact ⟨y, rfl, leftShape_keeps h11⟩
            | member _ _ _ _ w _ _ _ h11 => rw [hm] at h11; cases h11
          · obtain ⟨w, _, h11, _⟩ := (hW id).disjoint f hf g h7 hn hi.symm
            rw [hm] at h11; cases h11
        · rw [List.getElem?_set_ne hi, hx]; exact same

/-- Message types without lists of scalars, optional numbers and numbers in oneofs: the message left does not depend on what
uninitialised memory held. -/
theorem C92_initialised_partial (hI : Implements env S) (hW : S.WF) (hs : ∀ id, ∀ f ∈ (S id).fields, Settled f) (id : Nat) (v : Val)
    (b : Bytes) : unmarshalLeft env J b id v = unmarshalLeft env J' b id v := by
  obtain ⟨D, h1, h2⟩ := parseDescs_ok hI hW
  simp only [unmarshalLeft, h1]
  rw [leftStruct_settled (J := J) (J' := J') h2 hW hs]

/-- All uninitialised numbers are this one. -/
def junkOf (n : BitVec 64) : Junk := fun _ t =>
  match t with
  | .int32 | .uint32 | .float32 => .w32 (n.setWidth 32)
  | .int64 | .uint64 | .float64 => .w64 n
  | .bool => .bool (n.getLsbD 0)
  | .string => .str []
  | _ => .bytes none

theorem junkOf_typed (n : BitVec 64) : JunkTyped (junkOf n) := by
  intro b s
  cases s <;> rfl

/-- The input ends inside an element of the list `C`. -/
def cutInput : Bytes := [0x08, 0x05, 0x18, 0x80]

theorem cut_fails : unmarshal Sample.env cutInput (.ptr 0 (some (.struct Sample.msgZero))) = .error (.parse .truncated) :=
  rfl

theorem cut_left (n : BitVec 64) (hn : n = 0 ∨ n = 0xdeadbeef) :
    unmarshalLeft Sample.env (junkOf n) cutInput 0 (.struct Sample.msgZero) =
      .struct ([.w32 5, .ptr none, .slice [.w64 n]] ++ Sample.msgZero.drop 3) := by
  rcases hn with rfl | rfl <;> rfl

example : ∃ pre rest ys zs, cutInput = pre ++ rest ∧ rest ≠ [] ∧
      unmarshal Sample.env pre (.ptr 0 (some (.struct Sample.msgZero))) = .ok (.struct ys) ∧
      (∀ pre' suf w, cutInput = pre' ++ suf → unmarshal Sample.env pre' (.ptr 0 (some (.struct Sample.msgZero))) = .ok w →
        pre'.length ≤ pre.length) ∧
      unmarshalLeft Sample.env (junkOf 0) cutInput 0 (.struct Sample.msgZero) = .struct zs ∧ zs.length = ys.length ∧
      ∀ i : Nat, zs[i]? = ys[i]? ∨
        ∃ f ∈ (Sample.schema 0).fields, f.slot = i ∧ ∃ k post typ, rest = k ++ post ∧ StartsField k f.num typ :=
  C92_prefix Sample.env_implements Sample.schema_wf (junkOf_typed 0) 0 _ Sample.zero_typed _ _ cut_fails

theorem node_settled : ∀ id, ∀ f ∈ (Node.schema id).fields, Settled f
  | 0, f, hf => by
    simp only [Node.schema, Node.msg, List.mem_cons, List.not_mem_nil, or_false] at hf
    rcases hf with rfl | rfl | rfl
    · exact .inl rfl
    · trivial
    · trivial
  | _ + 1, _, hf => by cases hf

/-- The input ends inside the second field of an element of `Kids`: the list has the element, with its first field. -/
example : unmarshal Node.env [0x08, 0x01, 0x1a, 0x03, 0x08, 0x07, 0x08] (.ptr 0 (some (.struct Node.zero))) = .error (.parse .truncated) ∧
    unmarshalLeft Node.env (junkOf 9) [0x08, 0x01, 0x1a, 0x03, 0x08, 0x07, 0x08] 0 (.struct Node.zero) =
      .struct [.w32 1, .ptr none, .slice [.ptr (some (.struct [.w32 7, .ptr none, .slice [], .bytes none]))], .bytes none] ∧
    ∀ J, unmarshalLeft Node.env J [0x08, 0x01, 0x1a, 0x03, 0x08, 0x07, 0x08] 0 (.struct Node.zero) =
      unmarshalLeft Node.env (junkOf 9) [0x08, 0x01, 0x1a, 0x03, 0x08, 0x07, 0x08] 0 (.struct Node.zero) :=
  ⟨rfl, rfl, fun _ => C92_initialised_partial Node.env_implements Node.schema_wf node_settled 0 _ _⟩

/-- After a failing Unmarshal the message can show memory that nothing has written: the same call on the same bytes leaves
different messages depending on what that memory held before. -/
theorem C92_initialised_violated : ∃ (env : GoEnv) (S : Schema) (v : Val) (b : Bytes) (e : Fault) (J J' : Junk),
    Implements env S ∧ S.WF ∧ Typed S 0 v ∧ JunkTyped J ∧ JunkTyped J' ∧ unmarshal env b (.ptr 0 (some v)) = .error e ∧
    unmarshalLeft env J b 0 v ≠ unmarshalLeft env J' b 0 v := by
  refine ⟨Sample.env, Sample.schema, _, cutInput, _, junkOf 0, junkOf 0xdeadbeef, Sample.env_implements, Sample.schema_wf,
    Sample.zero_typed, junkOf_typed _, junkOf_typed _, cut_fails, ?_⟩
  rw [cut_left 0 (.inl rfl), cut_left _ (.inr rfl)]
  intro h
  injection h with h
  injection h with _ h
  injection h with _ h
  injection h with h _
  injection h with h
  injection h with h _
  injection h with h
  exact absurd h (by decide)

end Verif.Props
