import Verif.Model.Desc
/-!
# Model of the caches of internal/desc: `cachedTypes`, `finalized` flags and the cache of accepted types

`*Type` objects are addresses of a heap, so that a type object that has been dropped from
`cachedTypes` can still be referred to by others.  Simplifications:

* `StructDesc` is part of the `Type` object of the struct type.  `cachedStructs` is not represented: an entry
  is added and removed together with the one of `cachedTypes` (parseStruct is only called by parseType on a miss).
* `K`, `V` and `S` of an object are assigned together when parsing it has succeeded; before that nobody reads them.
* Recursion is bounded by fuel; running out is a separate outcome.
* A type is used either as `T` or as `*T`: the cache of accepted types is keyed by the struct type.
-/
namespace Verif.Model.TypeCache

/-- What a call comes to.  After an error clean-up code runs, after a panic it does not (type.go:158-161
is not deferred; desc.go:322-326 is, but looks at `err`, which is nil). -/
inductive Out (α : Type)
  | ok (a : α) | err | panic | fuel
  deriving DecidableEq, Repr

/-- `Res` as an outcome. -/
def Out.ofRes {α : Type} : Res α → Out α
  | .ok a => .ok a
  | .error .panic => .panic
  | .error _ => .err

/-- What `FieldDesc.parse` (internal/desc/desc.go:210-220) takes from the struct: the field, its position, the oneof
wrapper and the result of `parseStructTag`. -/
structure FieldInit where
  gf : GoField
  slot : Nat
  oneof : Option Nat
  p : TagInfo
  tt : TagType
  deriving DecidableEq

/-- internal/desc/desc.go:222-260 (`finalizeField`). -/
def FieldInit.final (f : FieldInit) : Res FieldDesc := do
  let kv ← kvTags f.gf
  if checkTypeMatch f.gf.type f.tt f.p.repeated f.p.packed kv then .ok (mkField f.gf.type f.slot f.oneof f.p f.tt kv)
  else .error .badType

/-- internal/desc/desc.go:152-199 (`FieldDesc`): `t` is the address of `T`; `desc` is what `finalizeField` has assigned. -/
structure FieldObj where
  init : FieldInit
  t : Nat
  desc : Option FieldDesc

/-- internal/desc/desc.go:84-100 (`StructDesc`), the fields and the flag. -/
structure StructObj where
  fields : List FieldObj
  finalized : Bool

/-- internal/desc/type.go:41-68 (`Type`). -/
structure TypeObj where
  rt : GoType
  k : Option Nat
  v : Option Nat
  s : Option StructObj
  finalized : Bool

/-- The global variables: the heap of type objects, `cachedTypes` (type.go:105-107) and `cache` (desc.go:32). -/
structure CState where
  heap : Nat → TypeObj
  next : Nat
  cache : GoType → Option Nat
  final : Nat → Option Nat

/-- At program start. -/
def CState.init : CState := { heap := fun _ => ⟨.iface, none, none, none, false⟩, next := 0, cache := fun _ => none, final := fun _ => none }

/-- Writing to an object. -/
def CState.upd (σ : CState) (a : Nat) (o : TypeObj) : CState := { σ with heap := fun b => if b = a then o else σ.heap b }

/-- internal/desc/type.go:116-117: a new object, in the cache at once. -/
def CState.alloc (σ : CState) (rt : GoType) : CState :=
  { heap := fun b => if b = σ.next then ⟨rt, none, none, none, false⟩ else σ.heap b
    next := σ.next + 1
    cache := fun t => if t = rt then some σ.next else σ.cache t
    final := σ.final }

/-- internal/desc/type.go:159: `delete(cachedTypes, rt)`. -/
def CState.uncache (σ : CState) (rt : GoType) : CState := { σ with cache := fun t => if t = rt then none else σ.cache t }

/-- Continuing after success. -/
def andThen {α β : Type} (r : Out α × CState) (f : α → CState → Out β × CState) : Out β × CState :=
  match r with
  | (.ok a, σ) => f a σ
  | (.err, σ) => (.err, σ)
  | (.panic, σ) => (.panic, σ)
  | (.fuel, σ) => (.fuel, σ)

/-- Clean-up after an error. -/
def onErr {α : Type} (clean : CState → CState) (r : Out α × CState) : Out α × CState :=
  match r with
  | (.err, σ) => (.err, clean σ)
  | r => r

/-- Insertion by key. -/
def insertOn {α : Type} (key : α → Int) (a : α) : List α → List α
  | [] => [a]
  | b :: l => if key a ≤ key b then a :: b :: l else b :: insertOn key a l

/-- internal/desc/desc.go:374-377: sorting by ID. -/
def sortOn {α : Type} (key : α → Int) : List α → List α
  | [] => []
  | a :: l => insertOn key a (sortOn key l)

/-- The fields `parseStruct` turns to, in its order: internal/desc/desc.go:329-348 and 351-371.  `.bad` is a wrapper
without exactly one field, `.noTag` one whose field has no tag (`parse` panics). -/
inductive Todo
  | field (gf : GoField) (slot : Nat) (oneof : Option Nat)
  | bad
  | noTag

/-- internal/desc/desc.go:329-348. -/
def todoFields : Nat → List GoField → List Todo
  | _, [] => []
  | i, gf :: gfs => if gf.tag = [] then todoFields (i + 1) gfs else .field gf i none :: todoFields (i + 1) gfs

/-- internal/desc/desc.go:351-371. -/
def todoWrappers (slots : List Nat) : List Wrapper → List Todo
  | [] => []
  | w :: ws =>
    match slots.find? (fun i => w.implements.contains i) with
    | none => todoWrappers slots ws
    | some i =>
      match w.fields with
      | [gf] => (if gf.tag = [] then .noTag else .field gf i (some w.id)) :: todoWrappers slots ws
      | _ => .bad :: todoWrappers slots ws

/-- internal/desc/desc.go:328-371. -/
def todo (s : StructDecl) : List Todo :=
  todoFields 0 s.fields ++ (if oneofSlots 0 s.fields = [] then [] else todoWrappers (oneofSlots 0 s.fields) s.wrappers)

/-- internal/desc/desc.go:379-402: the tables, as far as they can fail. -/
def tablesOk (fs : List FieldInit) : Out Unit :=
  let raw := fs.map (fun f => mkField f.gf.type f.slot f.oneof f.p f.tt none)
  let maxn := maxDirect 0 raw
  if maxn + 1 < 0 then .panic
  else match fillTables (List.replicate (maxn + 1).toNat none) [] none raw with
    | .ok _ => .ok ()
    | .error .panic => .panic
    | .error _ => .err

/-- The declaration of struct type `i`. -/
def decl (env : GoEnv) (i : Nat) : StructDecl := env.structs.getD i default

/-- internal/desc/desc.go:329-371 with 210-220: parsing the fields; `rec` is `parseType`. -/
def parseTodo (rec : CState → GoType → Out Nat × CState) : CState → List Todo → Out (List FieldObj) × CState
  | σ, [] => (.ok [], σ)
  | σ, .bad :: _ => (.err, σ)
  | σ, .noTag :: _ => (.panic, σ)
  | σ, .field gf slot oneof :: ts =>
    match parseStructTag gf.tag with
    | .error _ => (.err, σ)
    | .ok (p, tt) =>
      andThen (rec σ gf.type) fun a σ =>
      andThen (parseTodo rec σ ts) fun fs σ => (.ok (⟨⟨gf, slot, oneof, p, tt⟩, a, none⟩ :: fs), σ)

/-- internal/desc/desc.go:316-427 (`parseStruct`). -/
def parseStructS (env : GoEnv) (rec : CState → GoType → Out Nat × CState) (σ : CState) (i : Nat) : Out StructObj × CState :=
  andThen (parseTodo rec σ (todo (decl env i))) fun fs σ =>
    let fs := sortOn (fun f : FieldObj => f.init.p.id.toInt) fs
    match tablesOk (fs.map (·.init)) with
    | .ok _ => (.ok ⟨fs, false⟩, σ)
    | .err => (.err, σ)
    | .panic => (.panic, σ)
    | .fuel => (.fuel, σ)

/-- internal/desc/type.go:112-168 (`parseType`). -/
def parseType (env : GoEnv) : Nat → CState → GoType → Out Nat × CState
  | 0, σ, _ => (.fuel, σ)
  | n + 1, σ, rt =>
    match σ.cache rt with
    | some a => (.ok a, σ)
    | none =>
      let a := σ.next
      onErr (·.uncache rt) (
        match rt with
        | .map k v =>
          andThen (parseType env n (σ.alloc rt) k) fun ka σ =>
          andThen (parseType env n σ v) fun va σ => (.ok a, σ.upd a ⟨rt, some ka, some va, none, false⟩)
        | .struct i =>
          andThen (parseStructS env (parseType env n) (σ.alloc rt) i) fun s σ => (.ok a, σ.upd a ⟨rt, none, none, some s, false⟩)
        | .slice el =>
          andThen (parseType env n (σ.alloc rt) el) fun va σ => (.ok a, σ.upd a ⟨rt, none, some va, none, false⟩)
        | .ptr el =>
          andThen (parseType env n (σ.alloc rt) el) fun va σ =>
            if el.isPointer then (.err, σ) else (.ok a, σ.upd a ⟨rt, none, some va, none, false⟩)
        | _ => (.ok a, σ.alloc rt))

/-- `t.RealKind()`, and `t.V.IsPointer` etc. in internal/desc/desc.go:262-312 and type.go:70-75, do not meet nil:
the objects below a pointer or slice are there, and the key and value of a map. -/
def chainOk (σ : CState) : GoType → Nat → Bool
  | .ptr t, a => match (σ.heap a).v with
    | some b => chainOk σ t b
    | none => false
  | .slice t, a => match (σ.heap a).v with
    | some b => chainOk σ t b
    | none => false
  | .map k v, a => match (σ.heap a).k, (σ.heap a).v with
    | some b, some c => chainOk σ k b && chainOk σ v c
    | _, _ => false
  | _, _ => true

/-- What has a `finalized` flag: a `Type` or the `StructDesc` in it. -/
inductive Node
  | type (a : Nat)
  | struct (a : Nat)
  deriving DecidableEq

/-- The flag. -/
def CState.flag (σ : CState) : Node → Bool
  | .type a => (σ.heap a).finalized
  | .struct a => match (σ.heap a).s with
    | some s => s.finalized
    | none => false

/-- Setting or clearing the flag. -/
def CState.setFlag (σ : CState) (x : Node) (b : Bool) : CState :=
  match x with
  | .type a => σ.upd a { σ.heap a with finalized := b }
  | .struct a => σ.upd a { σ.heap a with s := (σ.heap a).s.map (fun s => { s with finalized := b }) }

/-- What is done for a node: finalize field number `j` of the struct at `a`, or go on to another node. -/
inductive Work
  | field (a : Nat) (j : Nat)
  | node (x : Node)

/-- internal/desc/desc.go:130-138: `f.T`, `f.T.K` and `f.T.V` if they are not nil. -/
def fieldWork (σ : CState) (a : Nat) (j : Nat) (f : FieldObj) : List Work :=
  .field a j :: .node (.type f.t) ::
    ((σ.heap f.t).k.toList.map (fun b => .node (.type b)) ++ (σ.heap f.t).v.toList.map (fun b => .node (.type b)))

/-- The loop of internal/desc/desc.go:125-139. -/
def fieldsWork (σ : CState) (a : Nat) : Nat → List FieldObj → List Work
  | _, [] => []
  | j, f :: fs => fieldWork σ a j f ++ fieldsWork σ a (j + 1) fs

/-- internal/desc/type.go:82-93 (`finalizeType`) and desc.go:125-139 (`FinalizeFields`). -/
def work (σ : CState) : Node → List Work
  | .type a => (match (σ.heap a).s with
      | some _ => [.node (.struct a)]
      | none => []) ++ (σ.heap a).v.toList.map (fun b => .node (.type b))
  | .struct a => match (σ.heap a).s with
    | some s => fieldsWork σ a 0 s.fields
    | none => []

/-- internal/desc/desc.go:222-260 (`finalizeField`).  Simplification: what it assigns before it fails is not represented. -/
def finalizeField (σ : CState) (a : Nat) (j : Nat) : Out Unit × CState :=
  match (σ.heap a).s with
  | none => (.panic, σ)
  | some s => match s.fields[j]? with
    | none => (.panic, σ)
    | some f =>
      if chainOk σ f.init.gf.type f.t then
        match f.init.final with
        | .ok d => (.ok (), σ.upd a { σ.heap a with s := some { s with fields := s.fields.set j { f with desc := some d } } })
        | .error _ => (.err, σ)
      else (.panic, σ)

/-- One thing after the other. -/
def doWork (rec : CState → Node → Out Unit × CState) : CState → List Work → Out Unit × CState
  | σ, [] => (.ok (), σ)
  | σ, .field a j :: ws => andThen (finalizeField σ a j) fun _ σ => doWork rec σ ws
  | σ, .node x :: ws => andThen (rec σ x) fun _ σ => doWork rec σ ws

/-- internal/desc/type.go:77-95 (`finalizeType`) and desc.go:120-141 (`FinalizeFields`). -/
def finalize : Nat → CState → Node → Out Unit × CState
  | 0, σ, _ => (.fuel, σ)
  | n + 1, σ, x =>
    if σ.flag x then (.ok (), σ)
    else onErr (·.setFlag x false) (doWork (finalize n) (σ.setFlag x true) (work σ x))

/-- internal/desc/desc.go:45-80 (`GetOrParse`) for a value of struct type `i` or of its pointer type. -/
def getOrParse (env : GoEnv) (fuel : Nat) (σ : CState) (i : Nat) : Out Nat × CState :=
  match σ.final i with
  | some a => (.ok a, σ)
  | none =>
    andThen (parseType env fuel σ (.struct i)) fun a σ =>
      match (σ.heap a).s with
      | none => (.panic, σ)
      | some _ =>
        andThen (finalize fuel σ (.struct a)) fun _ σ =>
          (.ok a, { σ with final := fun j => if j = i then some a else σ.final j })

/-- A history of uses: the state after it. -/
def run (env : GoEnv) (fuel : Nat) : CState → List Nat → CState
  | σ, [] => σ
  | σ, i :: is => run env fuel (getOrParse env fuel σ i).2 is

end Verif.Model.TypeCache
