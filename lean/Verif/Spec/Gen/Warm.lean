import Verif.Model.Gen.Antlr.Predict
/-!
# Specification: what earlier predictions leave behind
-/
namespace Verif.Spec.Gen
open Verif.Model.Gen.Antlr Verif.Model.Gen.Antlr.Pred

/-- Token types that the lexer makes for the parser. -/
def Types (w : List PTok) : Prop := ∀ x ∈ w, 0 < x.typ ∧ x.typ ≤ 61

/-- The automata of the decisions at some time: none has a state yet, or there was a prediction, for any decision of the parser and in front of any tokens (of
a file that is accepted, or before or after an error in a file that is not). -/
inductive Warm (N : PNet) (steps : Nat) : PCache → Prop
  | cold : Warm N steps fun _ => {}
  | learned {σ : PCache} {d : Nat} {w : List PTok} {A : PDfa} {r : Sim} : Warm N steps σ → altsCode d ≠ [] → Types w → learn N steps d (σ d) w = some (A, r) →
      Warm N steps (σ.set d A)

/-- The cache of the lexer at some time: it is empty, or a file was read. -/
inductive Filled (A : Net) : Dfa → Prop
  | empty : Filled A Dfa.empty
  | read {D E : Dfa} {s : Verif.Model.Gen.Str} {ts : List AToken} : Filled A D → A.lexFile D s = some (E, ts) → Filled A E

end Verif.Spec.Gen
