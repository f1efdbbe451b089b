/-!
# Model of internal/desc/map.go and of `GetOrParse` under concurrency

`D` is the type of descriptors (`*StructDesc`, not nil).  A published bucket slice is never written
again (map.go:66-76 works on a copy), so a lookup is one atomic load followed by local computation.
-/
namespace Verif.Model.DescMap

/-- An `abiType`, the address of the runtime's type descriptor. -/
abbrev TypeKey := BitVec 64

/-- internal/desc/map.go:35-38 (`mapStructDescItem`): the content of a bucket. -/
abbrev Bucket (D : Type) := List (TypeKey × D)

/-- internal/desc/map.go:26-28 (`mapStructDesc`): `none` is a nil pointer. -/
abbrev Buckets (D : Type) := BitVec 64 → Option (Bucket D)

/-- internal/desc/map.go:32, 41, 60: the bucket of a type. -/
def bucketOf (k : TypeKey) : BitVec 64 := k &&& 0xffff#64

/-- internal/desc/map.go:45-51: the scan of a bucket. -/
def scan {D : Type} (k : TypeKey) : Bucket D → Option D
  | [] => none
  | (k', d) :: es => if k' = k then some d else scan k es

/-- internal/desc/map.go:40-52 (`Get`). -/
def get {D : Type} (m : Buckets D) (k : TypeKey) : Option D :=
  match m (bucketOf k) with
  | none => none
  | some es => scan k es

/-- internal/desc/map.go:67-74: the copy with the entry replaced, if there is one. -/
def replace {D : Type} (k : TypeKey) (d : D) : Bucket D → Option (Bucket D)
  | [] => none
  | (k', d') :: es => if k' = k then some ((k', d) :: es) else (replace k d es).map ((k', d') :: ·)

/-- internal/desc/map.go:61-75: the slice to be stored. -/
def newBucket {D : Type} (old : Option (Bucket D)) (k : TypeKey) (d : D) : Bucket D :=
  match replace k d (old.getD []) with
  | some es => es
  | none => old.getD [] ++ [(k, d)]

/-- The `Store` of internal/desc/map.go:71, 76. -/
def store {D : Type} (m : Buckets D) (i : BitVec 64) (es : Bucket D) : Buckets D :=
  fun j => if j = i then some es else m j

/-- internal/desc/map.go:56-77 (`Set`), run without interruption. -/
def set {D : Type} [DecidableEq D] (m : Buckets D) (k : TypeKey) (d : D) : Buckets D :=
  if get m k = some d then m
  else store m (bucketOf k) (newBucket (m (bucketOf k)) k d)

/-! ## concurrent executions -/

/-- The two entry points, internal/desc/desc.go:39-42 (`CacheGet`) and 45-80 (`GetOrParse`). -/
inductive Op | cacheGet | getOrParse
  deriving DecidableEq

/-- Where a call is; `none` as a result is nil or an error. -/
inductive Pc (D : Type)
  /-- not called yet -/
  | idle
  /-- desc.go:41, 47: about to load the bucket -/
  | get1 (op : Op) (k : TypeKey)
  /-- desc.go:59: waiting for the lock -/
  | lock (k : TypeKey)
  /-- desc.go:62: with the lock, about to load the bucket -/
  | get2 (k : TypeKey)
  /-- desc.go:67-77: parsing -/
  | parse (k : TypeKey)
  /-- map.go:57: `Set` looks whether the entry is there -/
  | setGet (k : TypeKey) (d : D)
  /-- map.go:62 -/
  | setLoad (k : TypeKey) (d : D)
  /-- map.go:71, 76 -/
  | setStore (k : TypeKey) (d : D) (es : Bucket D)
  /-- desc.go:60: about to release the lock and return -/
  | unlock (k : TypeKey) (r : Option D)
  /-- returned -/
  | done (k : TypeKey) (r : Option D)

/-- What is observed. -/
inductive Event (D : Type)
  | start (t : Nat) (k : TypeKey)
  | parsed (k : TypeKey) (d : D)
  | ret (t : Nat) (k : TypeKey) (r : Option D)

/-- Memory, lock and program counters of the calls (each call has its own number). -/
structure State (D : Type) where
  mem : Buckets D
  lock : Option Nat
  pc : Nat → Pc D

/-- Everything nil, unlocked, nothing called. -/
def init {D : Type} : State D := { mem := fun _ => none, lock := none, pc := fun _ => .idle }

/-- Call `t` moves to `p`. -/
def State.goto {D : Type} (s : State D) (t : Nat) (p : Pc D) : State D :=
  { s with pc := fun t' => if t' = t then p else s.pc t' }

/-- One step of one call; internal/desc/desc.go:39-80, map.go:40-77.  What parsing returns is not determined here. -/
inductive Step {D : Type} [DecidableEq D] : State D → List (Event D) → State D → Prop
  | start (s : State D) (t : Nat) (op : Op) (k : TypeKey) : s.pc t = .idle → Step s [.start t k] (s.goto t (.get1 op k))
  | hit1 (s : State D) (t : Nat) (op : Op) (k : TypeKey) (d : D) : s.pc t = .get1 op k → get s.mem k = some d →
      Step s [.ret t k (some d)] (s.goto t (.done k (some d)))
  | missGet (s : State D) (t : Nat) (k : TypeKey) : s.pc t = .get1 .cacheGet k → get s.mem k = none →
      Step s [.ret t k none] (s.goto t (.done k none))
  | missParse (s : State D) (t : Nat) (k : TypeKey) : s.pc t = .get1 .getOrParse k → get s.mem k = none →
      Step s [] (s.goto t (.lock k))
  | lock (s : State D) (t : Nat) (k : TypeKey) : s.pc t = .lock k → s.lock = none →
      Step s [] ({ s with lock := some t }.goto t (.get2 k))
  | hit2 (s : State D) (t : Nat) (k : TypeKey) (d : D) : s.pc t = .get2 k → get s.mem k = some d →
      Step s [] (s.goto t (.unlock k (some d)))
  | miss2 (s : State D) (t : Nat) (k : TypeKey) : s.pc t = .get2 k → get s.mem k = none → Step s [] (s.goto t (.parse k))
  | parseErr (s : State D) (t : Nat) (k : TypeKey) : s.pc t = .parse k → Step s [] (s.goto t (.unlock k none))
  | parseOk (s : State D) (t : Nat) (k : TypeKey) (d : D) : s.pc t = .parse k → Step s [.parsed k d] (s.goto t (.setGet k d))
  | setSame (s : State D) (t : Nat) (k : TypeKey) (d : D) : s.pc t = .setGet k d → get s.mem k = some d →
      Step s [] (s.goto t (.unlock k (some d)))
  | setGo (s : State D) (t : Nat) (k : TypeKey) (d : D) : s.pc t = .setGet k d → get s.mem k ≠ some d →
      Step s [] (s.goto t (.setLoad k d))
  | setLoad (s : State D) (t : Nat) (k : TypeKey) (d : D) : s.pc t = .setLoad k d →
      Step s [] (s.goto t (.setStore k d (newBucket (s.mem (bucketOf k)) k d)))
  | setStore (s : State D) (t : Nat) (k : TypeKey) (d : D) (es : Bucket D) : s.pc t = .setStore k d es →
      Step s [] ({ s with mem := store s.mem (bucketOf k) es }.goto t (.unlock k (some d)))
  | unlock (s : State D) (t : Nat) (k : TypeKey) (r : Option D) : s.pc t = .unlock k r →
      Step s [.ret t k r] ({ s with lock := none }.goto t (.done k r))

/-- Executions: the state reached and the events so far, oldest first. -/
inductive Exec {D : Type} [DecidableEq D] : List (Event D) → State D → Prop
  | init : Exec [] init
  | step (h : List (Event D)) (s : State D) (es : List (Event D)) (s' : State D) : Exec h s → Step s es s' → Exec (h ++ es) s'

end Verif.Model.DescMap
