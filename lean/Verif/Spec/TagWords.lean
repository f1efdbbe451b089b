import Verif.Spec.Types
/-!
# What a struct tag says, for every string

A tag is a list of words between commas; white space around a word is ignored.
-/
namespace Verif.Spec

/-- `w` is the text `s` without the white space around it. -/
def TrimmedWord (s w : List Char) : Prop :=
  ∃ a b, s = a ++ w ++ b ∧ (∀ c ∈ a, isBlank c = true) ∧ (∀ c ∈ b, isBlank c = true) ∧
    (∀ c ∈ w.head?, isBlank c = false) ∧ (∀ c ∈ w.getLast?, isBlank c = false)

/-- `ws` are the words of the tag `t`. -/
def TagWords (t : List Char) (ws : List (List Char)) : Prop :=
  ∃ ps : List (List Char × List Char), ps ≠ [] ∧ t = joinComma (ps.map (·.1)) ∧ ws = ps.map (·.2) ∧
    ∀ p ∈ ps, ',' ∉ p.1 ∧ TrimmedWord p.1 p.2

/-- `a` belongs to the last word of `ws` that means anything under `R`. -/
def LastOf (R : List Char → α → Prop) (ws : List (List Char)) (a : α) : Prop :=
  ∃ before w after, ws = before ++ w :: after ∧ R w a ∧ ∀ x ∈ after, ∀ b, ¬ R x b

/-- `a` belongs to the first word of `ws` that means anything under `R`. -/
def FirstOf (R : List Char → α → Prop) (ws : List (List Char)) (a : α) : Prop :=
  ∃ before w after, ws = before ++ w :: after ∧ R w a ∧ ∀ x ∈ before, ∀ b, ¬ R x b

end Verif.Spec
