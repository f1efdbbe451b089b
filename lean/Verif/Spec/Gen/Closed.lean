import Verif.Model.Gen.Code
import Verif.Spec.Gen.Scope
/-!
# Specification: generated code that declares what it uses
-/
namespace Verif.Spec.Gen
open Verif.Model.Gen

/-- A type expression names the type `n` of package `pkg`. -/
inductive Names : GoExpr → Str → Str → Prop
  | here (pkg n : Str) : Names (.named pkg n) pkg n
  | ptr {t pkg n} : Names t pkg n → Names (.ptr t) pkg n
  | slice {t pkg n} : Names t pkg n → Names (.slice t) pkg n
  | key {k v pkg n} : Names k pkg n → Names (.map k v) pkg n
  | value {k v pkg n} : Names v pkg n → Names (.map k v) pkg n

/-- A field of a generated struct, or of one of the wrapper structs of its oneofs, has a type made with the type `n` of package `pkg`. -/
def Mentioned (gs : List GenStruct) (pkg n : Str) : Prop :=
  ∃ g ∈ gs, ∃ t, ((∃ f ∈ g.fields, f.type = t) ∨ ∃ w ∈ g.wrappers, w.field.type = t) ∧ Names t pkg n

/-- The generated code declares the type: as a struct or as an enum. -/
def DeclaredIn (gs : List GenStruct) (enums : List (Str × Str)) (pkg n : Str) : Prop :=
  (∃ g ∈ gs, g.pkg = pkg ∧ g.name = n) ∨ (pkg, n) ∈ enums

/-- The generator stops at a type name that it cannot find; otherwise it goes on. -/
def AllFound (W : World) : Prop :=
  ∀ (f : Nat) (c : Chain), Around (W.file f).messages c → ∀ fd ∈ c.msg.fields, (typeResolve W f c true fd.typ).isSome = true

end Verif.Spec.Gen
