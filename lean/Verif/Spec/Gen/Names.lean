/-!
# Specification of generated names

Protobuf identifiers, Go identifiers, and which protobuf identifiers share a Go name.
-/
namespace Verif.Spec.Gen

/-- ASCII classes of characters. -/
def Lower (c : Char) : Prop := 'a' ≤ c ∧ c ≤ 'z'
def Upper (c : Char) : Prop := 'A' ≤ c ∧ c ≤ 'Z'
def Digit (c : Char) : Prop := '0' ≤ c ∧ c ≤ '9'

instance (c : Char) : Decidable (Lower c) := inferInstanceAs (Decidable (_ ∧ _))
instance (c : Char) : Decidable (Upper c) := inferInstanceAs (Decidable (_ ∧ _))
instance (c : Char) : Decidable (Digit c) := inferInstanceAs (Decidable (_ ∧ _))

/-- The characters of identifiers. -/
def IdentChar (c : Char) : Prop := Lower c ∨ Upper c ∨ Digit c ∨ c = '_'
instance (c : Char) : Decidable (IdentChar c) := inferInstanceAs (Decidable (_ ∨ _))

/-- A protobuf identifier: `letter { letter | digit | "_" }`, where `_` counts as a letter. -/
def ProtoIdent (s : List Char) : Prop := ∃ c r, s = c :: r ∧ ¬ Digit c ∧ ∀ x ∈ s, IdentChar x

/-- An exported Go identifier (in ASCII). -/
def ExportedIdent (s : List Char) : Prop := ∃ c r, s = c :: r ∧ Upper c ∧ ∀ x ∈ s, IdentChar x

/-- `l` is a lower case letter and `u` the same letter in upper case. -/
def CasePair (l u : Char) : Prop := Lower l ∧ l.toNat = u.toNat + 32

/-- Differences between identifiers that the Go name does not show. -/
inductive SameGoName : List Char → List Char → Prop
  /-- the first letter in lower or upper case -/
  | first (l u : Char) (s : List Char) : CasePair l u → SameGoName (l :: s) (u :: s)
  /-- `_` before a lower case letter, or that letter in upper case -/
  | word (a : List Char) (l u : Char) (s : List Char) : CasePair l u → a ≠ [] → SameGoName (a ++ '_' :: l :: s) (a ++ u :: s)
  /-- after a digit, a letter in lower or upper case -/
  | digit (a : List Char) (d l u : Char) (s : List Char) : CasePair l u → Digit d → SameGoName (a ++ d :: l :: s) (a ++ d :: u :: s)
  /-- an initial `_` is as good as an `X`, unless a lower case letter follows -/
  | under (s : List Char) : (∀ l r, s = l :: r → ¬ Lower l) → SameGoName ('_' :: s) ('X' :: s)
  /-- an initial `_` before a lower case letter is as good as an `X` before the upper case letter -/
  | underWord (l u : Char) (s : List Char) : CasePair l u → SameGoName ('_' :: l :: s) ('X' :: u :: s)
  | refl (s : List Char) : SameGoName s s
  | symm (s t : List Char) : SameGoName s t → SameGoName t s
  | trans (s t u : List Char) : SameGoName s t → SameGoName t u → SameGoName s u

/-- Names in the recommended style for types: `CamelCase`, without underscores, and no lower case letter after a digit. -/
def TypeStyle (s : List Char) : Prop :=
  (∃ c r, s = c :: r ∧ Upper c) ∧ (∀ x ∈ s, Lower x ∨ Upper x ∨ Digit x) ∧ ∀ a d l b, s = a ++ d :: l :: b → Digit d → ¬ Lower l

end Verif.Spec.Gen
