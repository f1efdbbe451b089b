import Verif.Model.Gen.Ast
import Verif.Model.Gen.Strs
/-!
# Model of the names of generated declarations

prutalgen/pkg/prutalgen/message.go:118-200, enum.go:104-117, oneof.go:34-43 and field.go:264-269.
-/
namespace Verif.Model.Gen

/-- Names joined by dots. -/
def joinDots : List Str → Str
  | [] => []
  | [s] => s
  | s :: t :: rest => s ++ '.' :: joinDots (t :: rest)

/-- prutalgen/pkg/prutalgen/message.go:120-121 and enum.go:106-107: the Go name of a message or enum, from the names of the messages around
it and its own.  (`FullName`, message.go:69-78, puts the package before; `TrimPrefix` removes it again.) -/
def goTypeName (path : List Str) : Str := goCamelCase (joinDots path)

/-- `for bad(s) { s += "_" }`, with a bound on the number of iterations. -/
def dodge (bad : Str → Bool) : Nat → Str → Str
  | 0, s => s
  | n + 1, s => if bad s then dodge bad n (s ++ ['_']) else s

/-- A bound that suffices: a name longer than all the names it must avoid is free. -/
def longest (used : List Str) : Nat := used.foldl (fun n s => max n s.length) 0

/-- prutalgen/pkg/prutalgen/message.go:176-185: the names in use at the start. -/
def methodNames : List Str :=
  ["Reset", "String", "ProtoMessage", "Marshal", "Unmarshal", "ExtensionRangeArray", "ExtensionMap", "Descriptor"].map String.toList

/-- The name of the getter: `"Get" + name`. -/
def getterName (s : Str) : Str := "Get".toList ++ s

/-- The names chosen so far: for fields in order, and for the oneofs that have been met. -/
structure Names where
  used : List Str
  fields : List Str
  oneofs : List (Nat × Str)

/-- prutalgen/pkg/prutalgen/message.go:186-199, one iteration.  The first field of a oneof is the one for which the oneof has not been
met. -/
def nameField (oneofName : Nat → Str) (σ : Names) (f : FieldDecl) : Names :=
  let n := dodge (fun s => σ.used.contains s || σ.used.contains (getterName s)) (longest σ.used + 1) (goCamelCase f.name)
  let used := getterName n :: n :: σ.used
  match f.oneof with
  | some k =>
    if σ.oneofs.any (fun p => p.1 == k) then ⟨used, σ.fields ++ [n], σ.oneofs⟩
    else
      let o := dodge (fun s => used.contains s) (longest used + 1) (oneofName k)
      ⟨o :: used, σ.fields ++ [n], σ.oneofs ++ [(k, o)]⟩
  | none => ⟨used, σ.fields ++ [n], σ.oneofs⟩

/-- prutalgen/pkg/prutalgen/message.go:175-200 (`resolveFieldConflicts`), after 134-139: the Go names of fields and oneofs. -/
def resolveFieldConflicts (m : MsgDecl) : Names :=
  m.fields.foldl (nameField fun k => goCamelCase (m.oneofs.getD k [])) ⟨methodNames, [], []⟩

/-- prutalgen/pkg/prutalgen/message.go:150-166 (`resolveOneofTypeConflicts`) and field.go:264-269 (`OneofStructName`): the name of the wrapper struct of
a oneof field whose Go name is `n`, in a message whose Go name is `msg` and in which types with the names `nested` are
declared. -/
def oneofStructName (msg : Str) (nested : List Str) (n : Str) : Str :=
  dodge (fun s => nested.contains s) (longest nested + 1) (msg ++ '_' :: n)

/-- The Go names of the types declared in a message (message.go:151-157). -/
def nestedNames (path : List Str) (m : MsgDecl) : List Str :=
  m.messages.map (fun x => goTypeName (path ++ [x.name])) ++ m.enums.map (fun e => goTypeName (path ++ [e.name]))

/-- The wrapper structs of the oneof fields of a message, whose path is `path` (which ends with its own name). -/
def wrapperNames (path : List Str) (m : MsgDecl) : List Str :=
  (m.fields.zip (resolveFieldConflicts m).fields).filterMap fun p =>
    if p.1.oneof.isSome then some (oneofStructName (goTypeName path) (nestedNames path m) p.2) else none

end Verif.Model.Gen
