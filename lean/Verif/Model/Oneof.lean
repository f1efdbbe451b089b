import Verif.Model.Desc
/-!
# Model of the search for the cases of oneofs (internal/desc/utils.go:97-150)

The search looks through arbitrary Go values with `reflect`.  `RVal` is what it sees of a value.
-/
namespace Verif.Model.Oneof

/-- A Go value as internal/desc/utils.go:120-150 looks at it.  `nil` is a nil pointer or interface, `ref` a pointer or
interface that is not nil; `anys` is a value of type `[]any` (`none` is the nil slice) whose elements are pointers to wrapper structs; `sized n`
is a value of another type that has both an address and a length `n` (another slice, a map, a channel); `other` is any other value.
Simplifications: a value is a tree (the search looks at five levels of structs only, so that cycles through structs do not matter; a pointer that
points to itself would make it loop); `sized` is not nil; elements of `anys` are what generated code puts there. -/
inductive RVal
  | nil
  | ref (v : RVal)
  | struct (fs : List (List Char × RVal))
  | anys (ws : Option (List Wrapper))
  | sized (n : Nat)
  | other

/-- internal/desc/utils.go:124-128: through pointers and interfaces; `nil` gives the zero `reflect.Value`, which is no struct. -/
def RVal.deref : RVal → RVal
  | .ref v => v.deref
  | v => v

/-- internal/desc/utils.go:143-148: the first field in which something is found; `find` is the search in a field. -/
def firstFound (find : RVal → Res (Option (List Wrapper))) : List (List Char × RVal) → Res (Option (List Wrapper))
  | [] => .ok none
  | f :: fs =>
    match find f.2 with
    | .error e => .error e
    | .ok (some ws) => .ok (some ws)
    | .ok none => firstFound find fs

/-- internal/desc/utils.go:132-142: the field `OneofWrappers` is taken as a `[]any` whatever its type; a value without address or length
panics, another slice, map or channel is read as `[]any` unless it is empty.  A nil slice gives nil. -/
def takeAnys : RVal → Res (Option (List Wrapper))
  | .anys ws => .ok ws
  | .sized 0 => .ok (some [])
  | .sized _ => .error .ub
  | _ => .error .panic

/-- internal/desc/utils.go:120-150 (`searchFieldOneofWrappers`); `none` is a nil result.  Simplification: `FieldByName` finds fields of the struct itself only,
not those of embedded structs (they are found when the search goes into the embedded field, with one level less). -/
def searchField : Nat → RVal → Res (Option (List Wrapper))
  | 0, _ => .ok none
  | d + 1, v =>
    match v.deref with
    | .struct fs =>
      match fs.find? (fun f => f.1 == "OneofWrappers".toList) with
      | some f => takeAnys f.2
      | none => firstFound (searchField d) fs
    | _ => .ok none

/-- The methods of a Go struct type the search looks for, with what they return when called with a nil receiver (internal/desc/utils.go:107-116):
`ProtoReflect` and `XXX_OneofWrappers`; `none` if the type has no such method. -/
structure Methods where
  protoReflect : Option RVal := none
  oneofWrappers : Option RVal := none

/-- internal/desc/utils.go:97-118 (`searchOneofWrappers`).  `parseStruct` calls it with a struct type, so that lines 98-105 do nothing.  Simplification: the methods do not panic. -/
def searchWrappers (m : Methods) : Res (List Wrapper) :=
  match m.protoReflect with
  | some v =>
    match searchField 5 v with
    | .error e => .error e
    | .ok ws => .ok (ws.getD [])
  | none =>
    match m.oneofWrappers with
    | some (.anys ws) => .ok (ws.getD [])
    | some _ => .error .panic
    | none => .ok []

/-- A Go struct type with the methods that describe its oneofs. -/
structure GoStruct where
  fields : List GoField
  methods : Methods
  size : Nat
  zero : Val

/-- internal/desc/desc.go:346-347: the search is done if a field has a `protobuf_oneof` tag; the result is what `parseStruct` works with. -/
def GoStruct.decl (g : GoStruct) : Res StructDecl :=
  if oneofSlots 0 g.fields = [] then .ok { fields := g.fields, wrappers := [], size := g.size, zero := g.zero }
  else
    match searchWrappers g.methods with
    | .error e => .error e
    | .ok ws => .ok { fields := g.fields, wrappers := ws, size := g.size, zero := g.zero }

/-- internal/desc/desc.go:316-427 (`parseStruct`) with the search. -/
def GoStruct.parse (g : GoStruct) : Res StructDesc :=
  match g.decl with
  | .error e => .error e
  | .ok s => parseStruct s

end Verif.Model.Oneof
