import Verif.Model.Gen.Ast
/-!
# Specification: which declarations are good

Only the structure of the declarations (`Ast`) is shared with the model.
-/
namespace Verif.Spec.Gen
open Verif.Model.Gen

/-- The messages of a list and the messages nested in them, at any depth. -/
inductive Within : List MsgDecl → MsgDecl → Prop
  | here {ms : List MsgDecl} {m : MsgDecl} : m ∈ ms → Within ms m
  | deeper {ms : List MsgDecl} {m n : MsgDecl} : m ∈ ms → Within m.messages n → Within ms n

/-- `n` is one of the numbers the declaration or the protobuf implementation reserves. -/
def Reserved (rr : List (Int × Int)) (n : Int) : Prop := (19000 ≤ n ∧ n ≤ 19999) ∨ ∃ r ∈ rr, r.1 ≤ n ∧ n ≤ r.2

/-- No two elements at different positions are equal. -/
def Distinct {α : Type} (l : List α) : Prop := ∀ (i j : Nat) (x : α), l[i]? = some x → l[j]? = some x → i = j

/-- The numbers of a message are good. -/
def GoodFields (m : MsgDecl) : Prop :=
  (∀ f ∈ m.fields, ¬ Reserved m.reserved f.number) ∧ Distinct (m.fields.map FieldDecl.number)

/-- The last setting of `allow_alias` is true. -/
def Aliases (e : EnumDecl) : Prop :=
  ∃ a b, e.options = a ++ ("allow_alias".toList, "true".toList) :: b ∧ ∀ o ∈ b, o.1 ≠ "allow_alias".toList

/-- The values of an enum are good. -/
def GoodEnum (e : EnumDecl) : Prop :=
  (∀ f ∈ e.fields, ¬ Reserved e.reserved f.value) ∧ (Aliases e ∨ Distinct (e.fields.map EnumField.value))

/-- Everything declared in a file is good. -/
def GoodFile (p : FileDecl) : Prop :=
  (∀ e ∈ p.enums, GoodEnum e) ∧ ∀ m, Within p.messages m → GoodFields m ∧ ∀ e ∈ m.enums, GoodEnum e

end Verif.Spec.Gen
