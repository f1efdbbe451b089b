import Verif.Model.Gen.Antlr.Parser
/-!
# Specification: what the rules of a parser derive

The rule functions of a generated parser, read as rules of a grammar: without looking at the next token, any branch may be taken.
-/
namespace Verif.Spec.Gen
open Verif.Model.Gen Verif.Model.Gen.Antlr

/-- A list of trees and the tokens at its leaves that the statement derives. -/
inductive Derives (G : Gram) : Code → List PTree → List PTok → Prop
  | done : Derives G .done [] []
  | sync (s : Nat) : Derives G (.sync s) [] []
  | tok (x : PTok) : Derives G (.tok x.typ) [.leaf x] [x]
  | eof : Derives G .eof [] []
  | set (l : List Nat) (x : PTok) : x.typ ∈ l → Derives G (.set l) [.leaf x] [x]
  | call (s r : Nat) {ts : List PTree} {w : List PTok} : Derives G (G.rule r) ts w → Derives G (.call s r) [.node r ts] w
  | seq {a b : Code} {ts us : List PTree} {u v : List PTok} : Derives G a ts u → Derives G b us v → Derives G (.seq a b) (ts ++ us) (u ++ v)
  | ifThen (l : List Nat) {a : Code} (b : Code) {ts : List PTree} {w : List PTok} : Derives G a ts w → Derives G (.ifLa l a b) ts w
  | ifElse (l : List Nat) (a : Code) {b : Code} {ts : List PTree} {w : List PTok} : Derives G b ts w → Derives G (.ifLa l a b) ts w
  | stop (l : List Nat) (a : Code) : Derives G (.whileLa l a) [] []
  | again {l : List Nat} {a : Code} {ts us : List PTree} {u v : List PTok} : Derives G a ts u → Derives G (.whileLa l a) us v →
      Derives G (.whileLa l a) (ts ++ us) (u ++ v)
  | choose (d i : Nat) {a : Code} {ts : List PTree} {w : List PTok} : (G.alts d)[i]? = some a → Derives G a ts w → Derives G (.choose d) ts w

/-- The tokens that the statements derive one after the other. -/
inductive Accepts (G : Gram) : List Code → List PTok → Prop
  | nil : Accepts G [] []
  | cons {c : Code} {K : List Code} {ts : List PTree} {u v : List PTok} : Derives G c ts u → Accepts G K v → Accepts G (c :: K) (u ++ v)

/-- The statements that can be executed: after calls from the states `ctx`, and before the statements `K`. -/
inductive At (G : Gram) (start : Code) : List Nat → Code → List Code → Prop
  | start : At G start [] start []
  | fst {ctx a b K} : At G start ctx (.seq a b) K → At G start ctx a (b :: K)
  | snd {ctx a b K} : At G start ctx (.seq a b) K → At G start ctx b K
  | ifThen {ctx l a b K} : At G start ctx (.ifLa l a b) K → At G start ctx a K
  | ifElse {ctx l a b K} : At G start ctx (.ifLa l a b) K → At G start ctx b K
  | body {ctx l a K} : At G start ctx (.whileLa l a) K → At G start ctx a (.whileLa l a :: K)
  | call {ctx s r K} : At G start ctx (.call s r) K → At G start (s :: ctx) (G.rule r) K
  | choose {ctx d K} (i : Nat) {a : Code} : At G start ctx (.choose d) K → (G.alts d)[i]? = some a → At G start ctx a K

/-- Predictions are right if, whenever the rest of the input can be derived in some way, it can be derived in the way that is predicted. -/
def Right (G : Gram) (start : Code) (predict : Predict) : Prop :=
  ∀ ctx d K w, At G start ctx (.choose d) K → Accepts G (.choose d :: K) w →
    ∃ i a, predict d ctx K w = i + 1 ∧ (G.alts d)[i]? = some a ∧ Accepts G (a :: K) w

/-- Of several ways in which the rest of the input can be derived, the first is predicted. -/
def First (G : Gram) (start : Code) (predict : Predict) : Prop :=
  ∀ ctx d K w, At G start ctx (.choose d) K → ∀ j a, (G.alts d)[j]? = some a → Accepts G (a :: K) w → predict d ctx K w ≤ j + 1

end Verif.Spec.Gen
