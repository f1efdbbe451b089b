import Verif.Model.Gen.GoNames
/-!
# Model of the code generated for enums: prutalgen/pkg/prutalgen/enum.go and code.go:133-180

The generated Go declarations are represented by their content instead of their text.
-/
namespace Verif.Model.Gen

/-- prutalgen/pkg/prutalgen/enum.go:76-87 (`Enum.genNoPrefix`) and 147-152 (`EnumField.genNoPrefix`); `p` is the file. -/
def enumNoPrefix (p : FileDecl) (e : EnumDecl) (f : EnumField) : Bool :=
  if dirHas f.directives "no_enum_prefix".toList then true
  else if dirHas e.directives "no_enum_prefix".toList then true
  else if dirHas p.directives "no_enum_prefix".toList then true
  else
    match optGet e.options "(gogoproto.goproto_enum_prefix)".toList with
    | some v => isFalse v
    | none =>
      match optGet p.options "(gogoproto.goproto_enum_prefix_all)".toList with
      | some v => isFalse v
      | none => false

/-- prutalgen/pkg/prutalgen/enum.go:94-102 (`genMapping`). -/
def enumMapping (p : FileDecl) (e : EnumDecl) : Bool :=
  if dirHas e.directives "no_enum_mapping".toList then false
  else if dirHas p.directives "no_enum_mapping".toList then false
  else true

/-- prutalgen/pkg/prutalgen/enum.go:104-117 (`Enum.resolve`): the Go name of a value; `parent` is the path of the message around the enum
(empty for none). -/
def enumConst (p : FileDecl) (parent : List Str) (e : EnumDecl) (f : EnumField) : Str :=
  if enumNoPrefix p e f then goCamelCase f.name
  else if parent ≠ [] then goTypeName parent ++ '_' :: f.name
  else goTypeName [e.name] ++ '_' :: f.name

/-- What is generated for an enum: the type, the constants, and the two tables, unless they are switched off. -/
structure GoEnum where
  name : Str
  consts : List (Str × Int)
  tables : Option (List (Int × Str) × List (Str × Int))
  deriving DecidableEq

/-- prutalgen/pkg/prutalgen/code.go:154-161: the loop that writes the table of names; `seen` are the numbers written. -/
def nameTable : List Int → List EnumField → List (Int × Str)
  | _, [] => []
  | seen, f :: fs => if seen.contains f.value then nameTable seen fs else (f.value, f.name) :: nameTable (f.value :: seen) fs

/-- prutalgen/pkg/prutalgen/code.go:133-180 (`EnumGen`), without comments. -/
def enumGen (p : FileDecl) (parent : List Str) (e : EnumDecl) : GoEnum where
  name := goTypeName (parent ++ [e.name])
  consts := e.fields.map fun f => (enumConst p parent e f, f.value)
  tables := if enumMapping p e then some (nameTable [] e.fields, e.fields.map fun f => (f.name, f.value)) else none

/-- Go's `strconv.Itoa`. -/
def itoa (x : Int) : Str := if x < 0 then '-' :: Nat.toDigits 10 x.natAbs else Nat.toDigits 10 x.natAbs

/-- A Go map literal `m`, indexed. -/
def mapIndex {α β : Type} [DecidableEq α] (m : List (α × β)) (k : α) : Option β := (m.find? fun e => e.1 = k).map Prod.snd

/-- prutalgen/pkg/prutalgen/code.go:171-178: the generated method `String`. -/
def enumString (names : List (Int × Str)) (x : Int) : Str :=
  match mapIndex names x with
  | some s => s
  | none => itoa x

end Verif.Model.Gen
