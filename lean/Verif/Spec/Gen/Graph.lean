/-!
# Specification: import graphs
-/
namespace Verif.Spec.Gen

/-- `y` can be reached from `x` by one or more import statements. -/
inductive Imports {F : Type} (imports : F → List F) : F → F → Prop
  | one {x y : F} : y ∈ imports x → Imports imports x y
  | more {x y z : F} : y ∈ imports x → Imports imports y z → Imports imports x z

/-- `x` comes before `y` in a list. -/
def Before {F : Type} (l : List F) (x y : F) : Prop := ∃ a b c, l = a ++ x :: (b ++ y :: c)

end Verif.Spec.Gen
