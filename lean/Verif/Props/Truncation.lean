import Verif.Lemmas.Extend
import Verif.Lemmas.Whole
import Verif.Model.GoErrors
import Verif.Props.Unmarshal
/-!
# Input that has not arrived completely

A caller that reads a message piece by piece may call Unmarshal on what has arrived so far.
-/
namespace Verif.Props
open Verif.Spec Verif.Model Verif.Lemmas

variable {env : GoEnv} {S : Schema}

/-! ## C86: truncated input -/

/-- Whatever the argument and its type: if Unmarshal fails on some bytes with an error that is not
`io.ErrUnexpectedEOF` then it fails with the same error whatever follows. -/
theorem C86_final (env : GoEnv) (a : Arg) (p q : Bytes) (e : Fault) (h : unmarshal env p a = .error e)
    (he : e.goError ≠ some .unexpectedEOF) : unmarshal env (p ++ q) a = .error e := by
  rcases Trunc.unmarshal_ext env p q a with ⟨w, h1⟩ | ⟨e', h1, h2⟩ | h1
  · rw [h1] at h; cases h
  · rw [h1] at h; cases h; exact h2
  · rw [h1] at h; cases h; exact absurd rfl he

/-- A prefix of an input that is accepted is accepted, or fails with `io.ErrUnexpectedEOF`. -/
theorem C86_prefix (env : GoEnv) (a : Arg) (p q : Bytes) (w : Val) (h : unmarshal env (p ++ q) a = .ok w) :
    (∃ w', unmarshal env p a = .ok w') ∨
      ∃ e, unmarshal env p a = .error e ∧ e.goError = some .unexpectedEOF := by
  cases hp : unmarshal env p a with
  | ok w' => exact .inl ⟨w', rfl⟩
  | error e =>
    refine .inr ⟨e, rfl, ?_⟩
    by_cases he : e.goError = some .unexpectedEOF
    · exact he
    · rw [C86_final env a p q e hp he] at h
      cases h

/-- Which of the two it is: the prefix is accepted exactly if it ends between two records. -/
theorem C86_boundary (hI : Implements env S) (hW : S.WF) (id : Nat) (xs : List Val) (hv : Typed S id (.struct xs))
    (p q : Bytes) (w : Val) (h : unmarshal env (p ++ q) (.ptr id (some (.struct xs))) = .ok w) :
    ((∃ rs, Splits p rs) → ∃ w', unmarshal env p (.ptr id (some (.struct xs))) = .ok w') ∧
    ((¬ ∃ rs, Splits p rs) → ∃ e, unmarshal env p (.ptr id (some (.struct xs))) = .error e ∧
      e.goError = some .unexpectedEOF) := by
  constructor
  · rintro ⟨rs, hs⟩
    obtain ⟨rs', hs'⟩ := unmarshal_splits hI hW hv h
    obtain ⟨rs2, rfl, _⟩ := splits_prefix hs hs'
    obtain ⟨ys, _, h2⟩ := (unmarshal_steps hI hW hv hs' w).1 h
    obtain ⟨zs, h3, _⟩ := steps_append.1 h2
    exact ⟨_, (unmarshal_steps hI hW hv hs _).2 ⟨zs, rfl, h3⟩⟩
  · intro hn
    rcases C86_prefix env _ p q w h with ⟨w', h1⟩ | h1
    · exact absurd (unmarshal_splits hI hW hv h1) hn
    · exact h1

/-- Input that is whole, at every depth, does not fail with `io.ErrUnexpectedEOF`: this error says that
something ends too early.

Missing: entries of maps with booleans that lack the key or the value (see `C86_entry_violated`). -/
theorem C86_whole_partial (hI : Implements env S) (hW : S.WF) (id : Nat) (v : Val) (hv : Typed S id v) (b : Bytes)
    (hb : Spec.Whole S id b) (e : Fault) (h : unmarshal env b (.ptr id (some v)) = .error e) :
    e.goError ≠ some .unexpectedEOF := by
  obtain ⟨D, h1, h2⟩ := parseDescs_ok hI hW
  rw [Trunc.unmarshal_some h1] at h
  exact Lemmas.Whole.decodeStruct_noEof h2 hW (b.length + 1) _ b v id (by omega) hv hb e h

/-- Violation of C86: `io.ErrUnexpectedEOF` is also the error of input that no continuation makes valid: a
message inside the input that ends in the middle of a record, although the record that holds it is
complete.  Here `D` holds the one byte `08`. -/
theorem C86_hopeless_violated (q : Bytes) :
    unmarshal Sample.env ([0x22#8, 1#8, 0x08#8] ++ q) (.ptr 0 (some (.struct Sample.msgZero))) = .error (.parse .truncated) ∧
    (Fault.parse .truncated).goError = some .unexpectedEOF := by
  refine ⟨?_, rfl⟩
  rfl

/-- Violation of C86: the error is also reported for an entry of a map that is a sequence of records but lacks the
value, if the value is a boolean.  Here `I` holds the entry `08 05`, which is the key 5. -/
theorem C86_entry_violated (q : Bytes) :
    Splits [0x82#8, 0x7d#8, 2#8, 8#8, 5#8] [⟨2000, .len, [0x82#8, 0x7d#8], [2#8, 8#8, 5#8]⟩] ∧
    IsLen [2#8, 8#8, 5#8] [8#8, 5#8] ∧ Splits [8#8, 5#8] [⟨1, .varint, [8#8], [5#8]⟩] ∧
    unmarshal Sample.env ([0x82#8, 0x7d#8, 2#8, 8#8, 5#8] ++ q) (.ptr 0 (some (.struct Sample.msgZero))) = .error .eof ∧
    Fault.eof.goError = some .unexpectedEOF := by
  have hl : IsLen [2#8, 8#8, 5#8] [8#8, 5#8] := ⟨[2#8], ⟨.last _ (by decide), by decide, by decide⟩, rfl⟩
  refine ⟨⟨rfl, fun r hr => ?_⟩, hl, ⟨rfl, fun r hr => ?_⟩, rfl, rfl⟩
  · cases List.mem_singleton.1 hr
    exact ⟨⟨⟨.more _ _ 125 (by decide) (.last _ (by decide)), by decide, by decide⟩, by decide, by decide⟩, 0, .len _ _ _ _ hl⟩
  · cases List.mem_singleton.1 hr
    exact ⟨⟨⟨.last _ (by decide), by decide, by decide⟩, by decide, by decide⟩, 0, .varint _ _ _ _ ⟨.last _ (by decide), by decide, by decide⟩⟩

/-- The number `A` in four bytes, in the message `D`: the wrong wire type, but whole. -/
example (e : Fault) (h : unmarshal Sample.env [0x22#8, 5#8, 0x0d#8, 1#8, 2#8, 3#8, 4#8] (.ptr 0 (some (.struct Sample.msgZero))) = .error e) :
    e.goError ≠ some .unexpectedEOF := by
  have hin : Spec.Whole Sample.schema 0 [0x0d#8, 1#8, 2#8, 3#8, 4#8] := by
    refine .mk _ _ [⟨1, .i32, [0x0d#8], [1#8, 2#8, 3#8, 4#8]⟩] ⟨rfl, fun r hr => ?_⟩ fun r hr f _ _ ht => ?_
    · cases List.mem_singleton.1 hr
      exact ⟨⟨⟨.last _ (by decide), by decide, by decide⟩, by decide, by decide⟩, 0, .i32 _ _ _ rfl⟩
    · cases List.mem_singleton.1 hr
      cases ht
  have hl : IsLen [5#8, 0x0d#8, 1#8, 2#8, 3#8, 4#8] [0x0d#8, 1#8, 2#8, 3#8, 4#8] := ⟨[5#8], ⟨.last _ (by decide), by decide, by decide⟩, rfl⟩
  refine C86_whole_partial Sample.env_implements Sample.schema_wf 0 _ Sample.zero_typed _ ?_ e h
  refine .mk _ _ [⟨4, .len, [0x22#8], [5#8, 0x0d#8, 1#8, 2#8, 3#8, 4#8]⟩] ⟨rfl, fun r hr => ?_⟩ fun r hr f hf hn _ p hp => ?_
  · cases List.mem_singleton.1 hr
    exact ⟨⟨⟨.last _ (by decide), by decide, by decide⟩, by decide, by decide⟩, 0, .len _ _ _ _ hl⟩
  · cases List.mem_singleton.1 hr
    have hf : f = ⟨4, 3, none, .msg 0 true⟩ := by
      have : ∀ f ∈ (Sample.schema 0).fields, f.num = 4 → f = ⟨4, 3, none, .msg 0 true⟩ := by decide
      exact this f hf hn
    subst hf
    have e : p = [0x0d#8, 1#8, 2#8, 3#8, 4#8] := by
      have h1 := consumeBytes_isLen hp []
      rw [consumeBytes_isLen hl []] at h1
      cases h1
      rfl
    subst e
    exact .msg _ _ _ hin

/-- `A = 5`, then the first half of `B = "x"`. -/
example : ∃ e, unmarshal Sample.env [0x08#8, 5#8, 0x78#8, 9#8, 0x12#8] (.ptr 0 (some (.struct Sample.msgZero))) = .error e ∧
    e.goError = some .unexpectedEOF := by
  rcases C86_prefix Sample.env _ [0x08#8, 5#8, 0x78#8, 9#8, 0x12#8] [1#8, 0x78#8, 0x08#8, 7#8] _ Sample.unmarshal_input with ⟨w, h⟩ | h
  · have : unmarshal Sample.env [0x08#8, 5#8, 0x78#8, 9#8, 0x12#8] (.ptr 0 (some (.struct Sample.msgZero))) =
      .error (.parse .truncated) := by rfl
    rw [this] at h
    cases h
  · exact h

/-- A field number 0, and anything after it. -/
example (q : Bytes) : unmarshal Sample.env ([0#8] ++ q) (.ptr 0 (some (.struct Sample.msgZero))) =
    .error (.parse .fieldNumber) :=
  C86_final Sample.env _ [0#8] q _ (by rfl) (by decide)

/-- The input of the sample, cut after its first record. -/
example : ∃ w, unmarshal Sample.env [0x08#8, 5#8] (.ptr 0 (some (.struct Sample.msgZero))) = .ok w :=
  (C86_boundary Sample.env_implements Sample.schema_wf 0 _ Sample.zero_typed [0x08#8, 5#8]
    [0x78#8, 9#8, 0x12#8, 1#8, 0x78#8, 0x08#8, 7#8] _ Sample.unmarshal_input).1
    ⟨[Sample.recV 1 5], by decide +kernel, by
      simp only [List.mem_cons, List.not_mem_nil, or_false]
      rintro r rfl
      exact Sample.recV_ok (by decide) (by decide) (by decide)⟩

end Verif.Props
