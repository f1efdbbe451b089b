import Verif.Model.Gen.GoNames
/-!
# Model of the resolution of type names

prutalgen/pkg/prutalgen/type.go:121-201, message.go:99-116 and proto.go:84-107.  Pointers to declarations are replaced by the number of the
file and the path of names that leads to the declaration.
-/
namespace Verif.Model.Gen

/-- What `Type.typ` points to: `*Enum` or `*Message`. -/
structure Ref where
  isEnum : Bool
  file : Nat
  path : List Str
  deriving DecidableEq

/-- All files that were loaded, and for each file its imports in order, with `true` for `import public` (proto.go:57-61 and 193-211). -/
structure World where
  files : List FileDecl
  imports : Nat → List (Nat × Bool)

/-- A file by its number. -/
def World.file (W : World) (f : Nat) : FileDecl := W.files.getD f { edition := .proto3 }

/-- prutalgen/pkg/prutalgen/utils.go:80-91 (`hasPathPrefix`, `trimPathPrefix`): `none` when there is no such prefix. -/
def trimPathPrefix : Str → Str → Option Str
  | '.' :: a, [] => some a
  | _, [] => none
  | [], _ :: _ => none
  | x :: a, y :: b => if x = y then trimPathPrefix a b else none

def hasPathPrefix (a b : Str) : Bool := (trimPathPrefix a b).isSome

mutual
/-- prutalgen/pkg/prutalgen/message.go:99-116 (`Message.getType`); `outer` are the names of the messages around it. -/
def msgGetType (f : Nat) : List Str → MsgDecl → Str → Option Ref
  | outer, .mk n enums messages _ _ _ _ _, name =>
    if n = name then some ⟨false, f, outer ++ [n]⟩
    else
      match trimPathPrefix name n with
      | none => none
      | some rest =>
        if enums.any (fun e => e.name = rest) then some ⟨true, f, outer ++ [n, rest]⟩
        else msgsGetType f (outer ++ [n]) messages rest
/-- `for _, x := range messages { if v := x.getType(name); v != nil { return v } }`. -/
def msgsGetType (f : Nat) : List Str → List MsgDecl → Str → Option Ref
  | _, [], _ => none
  | outer, m :: ms, name =>
    match msgGetType f outer m name with
    | some r => some r
    | none => msgsGetType f outer ms name
end

/-- `for _, x := range ... { if t := get(x); t != nil { return t } }`. -/
def firstRef {α β : Type} (get : α → Option β) : List α → Option β
  | [] => none
  | x :: xs =>
    match get x with
    | some r => some r
    | none => firstRef get xs

/-- prutalgen/pkg/prutalgen/proto.go:84-107 (`Proto.getType`).  The first argument bounds the depth of the recursion. -/
def fileGetType (W : World) : Nat → Nat → Str → Option Ref
  | 0, _, _ => none
  | n + 1, f, name =>
    match msgsGetType f [] (W.file f).messages name with
    | some r => some r
    | none =>
      if (W.file f).enums.any (fun e => e.name = name) then some ⟨true, f, [name]⟩
      else
        match firstRef (fun x : Nat × Bool => if x.2 then fileGetType W n x.1 name else none) (W.imports f) with
        | some r => some r
        | none =>
          match trimPathPrefix name (W.file f).package with
          | some name1 => fileGetType W n f name1
          | none => none

/-- prutalgen/pkg/prutalgen/consts.go:56-72 (`scalar2GoTypes`). -/
def scalarTypes : List (Str × Str) :=
  [("double", "float64"), ("float", "float32"), ("int32", "int32"), ("int64", "int64"), ("uint32", "uint32"), ("uint64", "uint64"),
   ("sint32", "int32"), ("sint64", "int64"), ("fixed32", "uint32"), ("fixed64", "uint64"), ("sfixed32", "int32"), ("sfixed64", "int64"),
   ("bool", "bool"), ("string", "string"), ("bytes", "[]byte")].map fun p => (p.1.toList, p.2.toList)

/-- prutalgen/pkg/prutalgen/type.go:151-169: the search in the messages around the field, from the inside out; each comes with the names around
it. -/
def searchMessages (f : Nat) : List (List Str × MsgDecl) → Str → Option Ref
  | [], _ => none
  | (outer, x) :: rest, name =>
    match msgGetType f outer x name with
    | some r => some r
    | none =>
      if x.enums.any (fun e => e.name = name) then some ⟨true, f, outer ++ [x.name, name]⟩
      else
        match msgsGetType f (outer ++ [x.name]) x.messages name with
        | some r => some r
        | none => searchMessages f rest name

/-- The result of resolution: the scalar type (`t.typ == nil`), or the declaration and `t.p`. -/
inductive Resolved where
  | scalar (goType : Str)
  | decl (r : Ref) (p : Option Nat)
  deriving DecidableEq

/-- prutalgen/pkg/prutalgen/type.go:171-187: the files to search, and the name to search for. -/
def searchFiles (W : World) (p : Nat) (name : Str) : List Nat × Str :=
  let same := (W.imports p).filter fun x => (W.file p).package = (W.file x.1).package
  match name with
  | '.' :: _ => (p :: same.map Prod.fst, name.dropWhile (· = '.'))
  | _ => (p :: same.map Prod.fst ++ ((W.imports p).filter fun x => hasPathPrefix name (W.file x.1).package).map Prod.fst, name)

/-- prutalgen/pkg/prutalgen/type.go:121-201 (`Type.resolve`) for the type of a field; `none` is the fatal error "not found".  `chain` are the messages
around the field, from the inside out, each with the names around it. -/
def typeResolve (W : World) (p : Nat) (chain : List (List Str × MsgDecl)) (allowScalar : Bool) (name : Str) : Option Resolved :=
  match if allowScalar then scalarTypes.lookup name else none with
  | some g => some (.scalar g)
  | none =>
    match (match chain with
      | (outer, m) :: _ => msgGetType p outer m name
      | [] => none) with
    | some r => some (.decl r none)
    | none =>
      match searchMessages p chain name with
      | some r => some (.decl r none)
      | none =>
        let fn := searchFiles W p name
        firstRef (fun x =>
          match fileGetType W (W.files.length + fn.2.length + 1) x fn.2 with
          | some r => some (.decl r (if (W.file x).goImport ≠ (W.file p).goImport then some x else none))
          | none => none) fn.1

/-- prutalgen/pkg/prutalgen/type.go:69-79 (`GoImport`), for a declaration: the Go package by which the generated code refers to it. -/
def resolvedImport (W : World) (p : Nat) : Option Nat → Str
  | some x => (W.file x).goImport
  | none => (W.file p).goImport

end Verif.Model.Gen
