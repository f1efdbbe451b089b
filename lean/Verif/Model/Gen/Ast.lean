import Verif.Model.Gen.Num
/-!
# Model of the declarations prutalgen reads

The structures that the parse tree listeners of prutalgen/pkg/prutalgen build.  Simplifications: comments are left out except for
the directives in them; the pointers to the enclosing message and file are replaced by parameters of the functions that
use them; services, which have no generated code (they are for programs that use the generator as a library), are in Listener.lean.
-/
namespace Verif.Model.Gen

/-- prutalgen/pkg/prutalgen/consts.go:19-23. -/
inductive Edition where
  | proto2
  | proto3
  | ed2023
  deriving DecidableEq, Repr

/-- prutalgen/pkg/prutalgen/reserved.go:31-34 (`reservedRange`): from, to. -/
abbrev Range := Int × Int

/-- prutalgen/pkg/prutalgen/enum.go:133-145 (`EnumField`). -/
structure EnumField where
  name : Str
  value : Int
  directives : List Str := []
  options : List Opt := []

/-- prutalgen/pkg/prutalgen/enum.go:29-43 (`Enum`). -/
structure EnumDecl where
  name : Str
  fields : List EnumField
  directives : List Str := []
  options : List Opt := []
  reserved : List Range := []

/-- prutalgen/pkg/prutalgen/field.go:31-60 (`Field`): `key` is the key type of a map field; `oneof` is the index of the oneof in the
message (`Oneofs`). -/
structure FieldDecl where
  name : Str
  key : Option Str := none
  typ : Str
  number : Int
  repeated : Bool := false
  required : Bool := false
  optional : Bool := false
  directives : List Str := []
  options : List Opt := []
  oneof : Option Nat := none

/-- prutalgen/pkg/prutalgen/message.go:28-49 (`Message`). -/
inductive MsgDecl where
  | mk (name : Str) (enums : List EnumDecl) (messages : List MsgDecl) (fields : List FieldDecl) (oneofs : List Str)
      (directives : List Str) (options : List Opt) (reserved : List Range)

namespace MsgDecl
def name : MsgDecl → Str | mk n _ _ _ _ _ _ _ => n
def enums : MsgDecl → List EnumDecl | mk _ e _ _ _ _ _ _ => e
def messages : MsgDecl → List MsgDecl | mk _ _ m _ _ _ _ _ => m
def fields : MsgDecl → List FieldDecl | mk _ _ _ f _ _ _ _ => f
def oneofs : MsgDecl → List Str | mk _ _ _ _ o _ _ _ => o
def directives : MsgDecl → List Str | mk _ _ _ _ _ d _ _ => d
def options : MsgDecl → List Opt | mk _ _ _ _ _ _ o _ => o
def reserved : MsgDecl → List Range | mk _ _ _ _ _ _ _ r => r
end MsgDecl

/-- prutalgen/pkg/prutalgen/proto.go:36-55 (`Proto`), without the imports. -/
structure FileDecl where
  edition : Edition
  package : Str := []
  goImport : Str := []
  goPackage : Str := []
  directives : List Str := []
  options : List Opt := []
  enums : List EnumDecl := []
  messages : List MsgDecl := []

end Verif.Model.Gen
