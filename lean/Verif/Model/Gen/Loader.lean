/-!
# Model of loading and sorting files: prutalgen/pkg/prutalgen/prutalgen.go and utils.go:105-142

`F` are the names of files (absolute paths).  A file system gives for each file the files that it imports, in order, or
`none` when it cannot be read.  Simplifications: an import path is taken to be looked up already (`searchProtoFile`, prutalgen.go:78-91, finds the
same file for the same path); the files compiled into the generator (`loadEmbeddedProto`) are not told apart from others (both are in `Model/Gen/Search.lean`); a call of
`Fatalf` ends the program.
-/
namespace Verif.Model.Gen

/-- What loading ends with. -/
inductive Loaded (F : Type) where
  | ok (protos : List F)
  | cyclic
  | missing
  | fuel
  deriving DecidableEq

section
variable {F : Type} [DecidableEq F]

/-- The walk over the import statements of a file (prutalgen/pkg/prutalgen/proto.go:193-211, `ExitImportStatement`); `load` is
`loadProto`. -/
def loadImports (load : List F → F → Loaded F) : List F → List F → Loaded F
  | protos, [] => .ok protos
  | protos, i :: is =>
    match load protos i with
    | .ok protos' => loadImports load protos' is
    | e => e

/-- prutalgen/pkg/prutalgen/prutalgen.go:178-214 (`loadProto`): `stack` is `x.protostack` and `protos` is `x.protos`.  The first argument
bounds the depth of the recursion. -/
def loadProto (imports : F → Option (List F)) : Nat → List F → List F → F → Loaded F
  | 0, _, _, _ => .fuel
  | n + 1, stack, protos, f =>
    if f ∈ stack then .cyclic
    else if f ∈ protos then .ok protos
    else
      match imports f with
      | none => .missing
      | some is => loadImports (loadProto imports n (stack ++ [f])) (protos ++ [f]) is

/-- prutalgen/pkg/prutalgen/utils.go:108-115: how many import statements of the files name `x` (`inDegree[x]`). -/
def inDegree (imports : F → List F) (pp : List F) (x : F) : Int := (pp.flatMap imports).count x

/-- prutalgen/pkg/prutalgen/utils.go:128-133: the loop over the imports of a file: the counters and what is appended to the queue. -/
def relax (deg : F → Int) (queue : List F) : List F → (F → Int) × List F
  | [] => (deg, queue)
  | d :: ds =>
    let deg' := fun x => if x = d then deg x - 1 else deg x
    relax deg' (if deg' d = 0 then queue ++ [d] else queue) ds

/-- prutalgen/pkg/prutalgen/utils.go:124-134: the loop of Kahn's algorithm, with a bound on the number of iterations. -/
def kahn (imports : F → List F) : Nat → (F → Int) → List F → List F → List F
  | 0, _, _, ret => ret
  | _ + 1, _, [], ret => ret
  | n + 1, deg, p :: queue, ret =>
    let r := relax deg queue (imports p)
    kahn imports n r.1 r.2 (ret ++ [p])

/-- prutalgen/pkg/prutalgen/utils.go:106-142 (`sortProtoFiles`). -/
def sortProtoFiles (imports : F → List F) (pp : List F) : List F :=
  let ret := kahn imports (pp.length + 1) (inDegree imports pp) (pp.filter fun p => inDegree imports pp p == 0) []
  if ret.length = pp.length then ret else pp

/-- prutalgen/pkg/prutalgen/prutalgen.go:93-105 (`LoadProto`): the files it returns.  They are resolved and verified from the last to the
first. -/
def loadAll (imports : F → Option (List F)) (fuel : Nat) (f : F) : Loaded F :=
  match loadProto imports fuel [] [] f with
  | .ok protos => .ok (sortProtoFiles (fun x => (imports x).getD []) protos)
  | e => e

end
end Verif.Model.Gen
