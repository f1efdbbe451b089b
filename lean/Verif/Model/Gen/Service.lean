import Verif.Model.Gen.Listener
import Verif.Model.Gen.Resolve
import Verif.Model.Gen.Verify
/-!
# Model of services

prutalgen/pkg/prutalgen/service.go.  No code is generated for services; they are part of what `LoadProto` returns, for programs (such as kitex) that
generate code for them.
-/
namespace Verif.Model.Gen

/-- prutalgen/pkg/prutalgen/service.go:69-73 (`Method.resolve`): the types of request and response; `none` is the fatal error "not found". -/
def methodResolve (W : World) (f : Nat) (m : MethodRec) : Option (Resolved × Resolved) :=
  match typeResolve W f [] false m.request with
  | none => none
  | some q =>
    match typeResolve W f [] false m.ret with
    | none => none
    | some r => some (q, r)

/-- prutalgen/pkg/prutalgen/service.go:70: the name for Go. -/
def methodGoName (m : MethodRec) : Str := goCamelCase m.name

/-- Go's `strings.TrimPrefix`. -/
def trimPrefix (s t : Str) : Str := if t.isPrefixOf s then s.drop t.length else s

/-- prutalgen/pkg/prutalgen/service.go:40-46 (`Service.resolve`): the name for Go. -/
def serviceGoName (package : Str) (s : ServiceRec) : Str := goCamelCase (trimPrefix s.name (package ++ ['.']))

/-- prutalgen/pkg/prutalgen/service.go:40-46 (`Service.resolve`): the types of all methods. -/
def serviceResolve (W : World) (f : Nat) (s : ServiceRec) : Option (List (Resolved × Resolved)) := s.methods.mapM (methodResolve W f)

/-- prutalgen/pkg/prutalgen/service.go:48 (`Service.verify`). -/
def serviceVerify (_ : ServiceRec) : List VErr := []

end Verif.Model.Gen
