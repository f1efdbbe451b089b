import Verif.Model.Api
/-!
# Unmarshal with the pools of temporary map variables

Entries of maps that have no specialised decoder are decoded into a pair of variables that is taken from a pool of the
map type (internal/desc/type.go:168-258), kept while records of the same field follow each other, and given back without
being cleared.  `Model/Decoder.lean` leaves this out; here the decoder is modelled again with the pools as a state.  The
parts in which no temporary variable occurs are those of `Model/Decoder.lean`.

What `sync.Pool` and other goroutines do is left open: before each `Get` other goroutines may have taken variables out of
the pools, changed their contents, given them back or put in new ones (`PoolEnv.adv`), and a parameter decides which of the
variables present is returned, or that a new one is made.  (A variable that is never chosen is as good as dropped.)
Interference at other times is not needed: between two `Get`s the decoder looks only at variables it has taken.  The pool
of decoders (internal/prutal/decoder.go:32-38) holds only the arena, see `Model/Span.lean`.
-/
namespace Verif.Model

/-- internal/desc/type.go:170-186 (`TmpMapVars`): the type of the map and the contents of the key and value variables. -/
structure Tmp where
  type : GoType
  key : Val
  val : Val

/-- internal/desc/type.go:60 (`MapTmpVarsPool`): the variables by address; the addresses in the pool of each map type; the
next new address; the number of `Get`s so far; and, not part of the program, the variables taken and not given back. -/
structure Pools where
  vars : Nat → Tmp
  cells : GoType → List Nat
  next : Nat
  clock : Nat
  owned : List Nat

/-- What is not determined by the program: which variable the `n`-th `Get` returns, and what other goroutines have done
before it. -/
structure PoolEnv where
  pick : Nat → Option Nat
  adv : Nat → Pools → Pools

/-- Computations that use the pools. -/
def PM (α : Type) : Type := PoolEnv → Pools → Res α × Pools

/-- A computation that does not use the pools. -/
def PM.lift {α : Type} (r : Res α) : PM α := fun _ p => (r, p)

instance : Monad PM where
  pure a := fun _ p => (.ok a, p)
  bind x k := fun E p => match x E p with
    | (.ok a, p) => k a E p
    | (.error e, p) => (.error e, p)

/-- The pool of one type gets another content. -/
def Pools.setCells (p : Pools) (t : GoType) (cs : List Nat) : Pools :=
  { p with cells := fun t' => if t' = t then cs else p.cells t' }

/-- A variable gets another content. -/
def Pools.setVar (p : Pools) (a : Nat) (c : Tmp) : Pools :=
  { p with vars := fun a' => if a' = a then c else p.vars a' }

/-- Reading a pair of variables. -/
def readTmp (a : Nat) : PM Tmp := fun _ p => (.ok (p.vars a), p)

/-- Writing a pair of variables. -/
def writeTmp (a : Nat) (c : Tmp) : PM Unit := fun _ p => (.ok (), p.setVar a c)

/-- internal/desc/type.go:243-257: new variables. -/
def newTmp (D : Descs) : GoType → Tmp
  | .map kt vt => ⟨.map kt vt, zeroVal D kt, zeroVal D vt⟩
  | t => ⟨t, .undef, .undef⟩

/-- `sync.Pool.New` (internal/desc/type.go:243-257). -/
def Pools.fresh (D : Descs) (t : GoType) (p : Pools) : Nat × Pools :=
  (p.next, { p.setVar p.next (newTmp D t) with next := p.next + 1, owned := p.next :: p.owned })

/-- `f.T.MapTmpVarsPool.Get()` (internal/prutal/decoder.go:279). -/
def poolGet (D : Descs) (t : GoType) : PM Nat := fun E p =>
  let p := { E.adv p.clock p with clock := p.clock + 1 }
  match (E.pick p.clock).bind (fun i => (p.cells t)[i]?) with
  | none => (.ok (p.fresh D t).1, (p.fresh D t).2)
  | some a => (.ok a, { p.setCells t ((p.cells t).erase a) with owned := a :: p.owned })

/-- `f.T.MapTmpVarsPool.Put(tmv)` (internal/prutal/decoder.go:116, 305). -/
def poolPut (t : GoType) (a : Nat) : PM Unit := fun _ p =>
  (.ok (), { p.setCells t (a :: p.cells t) with owned := p.owned.erase a })

/-- internal/desc/type.go:195-199 (`TmpMapVars.Reset`), with 253-255: only values that are structs are cleared. -/
def Tmp.reset (D : Descs) (c : Tmp) : Tmp :=
  match c.type with
  | .map _ (.struct id) => { c with val := (D id).empty }
  | _ => c

/-- A nested `DecodeStruct(b, base, s, maxdepth)`. -/
abbrev DecRecP := Int → Bytes → Val → Nat → PM Val

/-- internal/prutal/decoder.go:323-407: the switch of `DecodeMapKey`, storing into the key variable, which holds `cur`. -/
def poolKeyAt (f : FieldDesc) (kt : GoType) (typ : WType) (b : Bytes) (cur : Val) : Res (Val × Nat) :=
  match typ with
  | 0 => decodeVarintAt f.keyType kt.kind b cur
  | 5 => decodeFixed32At f.keyType kt.kind b cur
  | 1 => decodeFixed64At f.keyType kt.kind b cur
  | 2 =>
    if kt.kind ≠ .string then .error .wireType
    else (fun r => (Val.str r.1, r.2)) <$> liftP (consumeBytes b)
  | _ => .error .wireType

/-- internal/prutal/decoder.go:313-410 (`DecodeMapKey`). -/
def poolKey (f : FieldDesc) (kt : GoType) (b : Bytes) (cur : Val) : Res (Val × Nat) :=
  match consumeKVTag b with
  | none => .error .mapKV
  | some (num, typ) =>
    if num ≠ 1 then .error .mapKV
    else do
      let (v, n) ← poolKeyAt f kt typ (b.drop 1) cur
      return (v, n + 1)

/-- internal/prutal/decoder.go:491-521: the LEN case of `DecodeMapValue`. -/
def poolValueLen (rec : DecRecP) (t : GoType) (fb : Bytes) (cur : Val) (depth : Int) : PM Val :=
  match t with
  | .bytes => pure (.bytes (some fb))
  | .string => pure (.str fb)
  | .struct id => rec (depth - 1) fb cur id
  | _ => .lift (.error .wireType)

/-- internal/prutal/decoder.go:431-525: the switch of `DecodeMapValue` on a target of type `t`. -/
def poolValueAt (rec : DecRecP) (f : FieldDesc) (t : GoType) (typ : WType) (b : Bytes) (cur : Val) (depth : Int) :
    PM (Val × Nat) :=
  match typ with
  | 0 => .lift (decodeVarintAt f.valType t.kind b cur)
  | 5 => .lift (decodeFixed32At f.valType t.kind b cur)
  | 1 => .lift (decodeFixed64At f.valType t.kind b cur)
  | 2 => do
    let (fb, n) ← PM.lift (liftP (consumeBytes b))
    let v ← poolValueLen rec t fb cur depth
    return (v, n)
  | _ => .lift (.error .wireType)

/-- internal/prutal/decoder.go:424-428: a pointer gets a new target, anything else is stored into the value variable,
which holds `cur`. -/
def poolValueRef (D : Descs) (rec : DecRecP) (f : FieldDesc) (vt : GoType) (typ : WType) (b : Bytes) (cur : Val)
    (depth : Int) : PM (Val × Nat) :=
  match vt with
  | .ptr t => do
    let (v, n) ← poolValueAt rec f t typ b (alloc D t) depth
    return (.ptr (some v), n)
  | t => poolValueAt rec f t typ b cur depth

/-- internal/prutal/decoder.go:414-530 (`DecodeMapValue`). -/
def poolValue (D : Descs) (rec : DecRecP) (f : FieldDesc) (vt : GoType) (b : Bytes) (cur : Val) (depth : Int) :
    PM (Val × Nat) :=
  match consumeKVTag b with
  | none => .lift (.error .mapKV)
  | some (num, typ) =>
    if num ≠ 2 then .lift (.error .mapKV)
    else do
      let (v, n) ← poolValueRef D rec f vt typ (b.drop 1) cur depth
      return (v, n + 1)

/-- internal/prutal/decoder.go:532-559 (`DecodeMapPair`) with the variables at `a`; using variables of another type is an
invalid memory access.  The entry that is stored (internal/desc/type.go:261-309) is what the variables hold at the end.
Simplification: the value variable is written when the value has been decoded. -/
def poolPair (D : Descs) (rec : DecRecP) (f : FieldDesc) (kt vt : GoType) (b : Bytes) (cur : Val) (depth : Int) (a : Nat) :
    PM Val := do
  let c ← readTmp a
  if c.type ≠ .map kt vt then PM.lift (.error .ub)
  else do
    writeTmp a (c.reset D)
    let m ← PM.lift cur.asMap
    let c ← readTmp a
    let (k, n) ← PM.lift (poolKey f kt b c.key)
    writeTmp a { c with key := k }
    let c ← readTmp a
    let (v, _) ← poolValue D rec f vt (b.drop n) c.val depth
    let c ← readTmp a
    writeTmp a { c with val := v }
    let c ← readTmp a
    let k ← PM.lift c.key.toKey
    return .map (some (mapInsert m k c.val))

/-- internal/prutal/decoder.go:278-280: variables are taken from the pool unless there are some already. -/
def poolTmv (D : Descs) (t : GoType) : Option Nat → PM Nat
  | some a => pure a
  | none => poolGet D t

/-- internal/prutal/decoder.go:243-293: the LEN case, on a target of type `t`, with the variables in use. -/
def poolLenAt (D : Descs) (rec : DecRecP) (f : FieldDesc) (t : GoType) (fb : Bytes) (cur : Val) (depth : Int)
    (tmv : Option Nat) : PM (Val × Option Nat) :=
  match t with
  | .bytes => pure (.bytes (some fb), tmv)
  | .string => pure (.str fb, tmv)
  | .map kt vt =>
    match f.decodeMap with
    | some (kc, vc) => do
      let v ← PM.lift (decodeMapFast kc vc kt vt fb cur)
      return (v, tmv)
    | none => match f.t with
      | .map kt vt => do
        let a ← poolTmv D (.map kt vt) tmv
        let v ← poolPair D rec f kt vt fb cur (depth - 1) a
        return (v, some a)
      | _ => .lift (.error .panic)
  | .struct id => do
    let v ← rec (depth - 1) fb cur id
    return (v, tmv)
  | _ => .lift (.error .wireType)

/-- internal/prutal/decoder.go:178-298: the switch on the wire type. -/
def poolValueOf (D : Descs) (rec : DecRecP) (f : FieldDesc) (t : GoType) (typ : WType) (b : Bytes) (cur : Val) (depth : Int)
    (tmv : Option Nat) : PM (Val × Nat × Option Nat) :=
  match typ with
  | 2 => do
    let (fb, n) ← PM.lift (liftP (consumeBytes b))
    let (v, tmv) ← poolLenAt D rec f t fb cur depth tmv
    return (v, n, tmv)
  | _ => do
    let (v, n) ← PM.lift (match typ with
      | 0 => decodeVarintAt f.tagType t.kind b cur
      | 5 => decodeFixed32At f.tagType t.kind b cur
      | 1 => decodeFixed64At f.tagType t.kind b cur
      | _ => .error .wireType)
    return (v, n, tmv)

/-- internal/prutal/decoder.go:170-176: a new list element of type `te`. -/
def poolElem (D : Descs) (rec : DecRecP) (f : FieldDesc) (te : GoType) (typ : WType) (b : Bytes) (depth : Int)
    (tmv : Option Nat) : PM (Val × Nat × Option Nat) :=
  match te with
  | .ptr te' => do
    let (v, n, tmv) ← poolValueOf D rec f te' typ b (alloc D te') depth tmv
    return (.ptr (some v), n, tmv)
  | _ => poolValueOf D rec f te typ b (alloc D te) depth tmv

/-- internal/prutal/decoder.go:144-177: repeated fields (packed block, or one more element), else a single value. -/
def poolRep (D : Descs) (rec : DecRecP) (f : FieldDesc) (t : GoType) (typ : WType) (b : Bytes) (cur : Val) (depth : Int)
    (tmv : Option Nat) : PM (Val × Nat × Option Nat) :=
  match f.repeated, t with
  | true, .slice te =>
    if typ = tBytes ∧ f.packed = true then
      match f.decodePacked with
      | none => .lift (.error .panic)
      | some c => do
        let (fb, n) ← PM.lift (liftP (consumeBytes b))
        let v ← PM.lift (decodePackedCoder c te fb)
        return (v, n, tmv)
    else do
      let xs ← PM.lift cur.asSlice
      let (v, n, tmv) ← poolElem D rec f te typ b depth tmv
      return (.slice (xs ++ [v]), n, tmv)
  | _, _ => poolValueOf D rec f t typ b cur depth tmv

/-- internal/prutal/decoder.go:139-142: a pointer field gets a new target. -/
def poolPtr (D : Descs) (rec : DecRecP) (f : FieldDesc) (typ : WType) (b : Bytes) (cur : Val) (depth : Int)
    (tmv : Option Nat) : PM (Val × Nat × Option Nat) :=
  match f.t with
  | .ptr t => do
    let (v, n, tmv) ← poolRep D rec f t typ b (alloc D t) depth tmv
    return (.ptr (some v), n, tmv)
  | t => poolRep D rec f t typ b cur depth tmv

/-- internal/prutal/decoder.go:130-298: decoding a record of a declared field into its slot. -/
def poolField (D : Descs) (rec : DecRecP) (f : FieldDesc) (typ : WType) (b : Bytes) (cur : Val) (depth : Int)
    (tmv : Option Nat) : PM (Val × Nat × Option Nat) :=
  match f.oneof with
  | some w => match cur with
    | .iface _ => do
      let (v, n, tmv) ← poolPtr D rec f typ b (alloc D f.t) depth tmv
      return (.iface (some (w, some v)), n, tmv)
    | _ => .lift (.error .ub)
  | none => poolPtr D rec f typ b cur depth tmv

/-- internal/prutal/decoder.go:114-118: when another field follows, the variables go back to the pool of the type of the
last field. -/
def poolRelease (last : Option FieldDesc) (num : Int) : Option Nat → PM (Option Nat)
  | none => pure none
  | some a => match last with
    | none => .lift (.error .panic)
    | some g =>
      if g.id.toInt = num then pure (some a)
      else do
        poolPut g.t a
        return none

/-- internal/prutal/decoder.go:304-306: at the end of the message the variables go back to the pool. -/
def poolFinish (last : Option FieldDesc) : Option Nat → PM Unit
  | none => pure ()
  | some a => match last with
    | none => .lift (.error .panic)
    | some g => poolPut g.t a

/-- internal/prutal/decoder.go:105-300: one iteration of the loop. -/
def poolRecord (D : Descs) (rec : DecRecP) (s : StructDesc) (depth : Int) (b : Bytes) (fs : List Val)
    (last : Option FieldDesc) (tmv : Option Nat) : PM (List Val × Nat × Option FieldDesc × Option Nat) := do
  let (num, typ, n) ← PM.lift (liftP (consumeTag b))
  let tmv ← poolRelease last num tmv
  match lookupField s last num with
  | none =>
    let m ← PM.lift (liftP (consumeFieldValue num typ (b.drop n)))
    let fs ← PM.lift (appendUnknown s fs (b.take (n + m)))
    return (fs, n + m, none, tmv)
  | some f =>
    match fs[f.slot]? with
    | none => .lift (.error .ub)
    | some cur =>
      let (v, m, tmv) ← poolField D rec f typ (b.drop n) cur depth tmv
      return (fs.set f.slot v, n + m, some f, tmv)

/-- internal/prutal/decoder.go:105-306: the loop over the records.  If a record fails the variables in use are dropped. -/
def poolLoop (D : Descs) (rec : DecRecP) (s : StructDesc) (depth : Int) :
    Nat → Bytes → List Val → Option FieldDesc → Option Nat → PM (List Val)
  | _, [], fs, last, tmv => do
    poolFinish last tmv
    return fs
  | 0, _ :: _, _, _, _ => .lift (.error .panic)
  | fuel + 1, b@(_ :: _), fs, last, tmv => do
    let (fs, n, last, tmv) ← poolRecord D rec s depth b fs last tmv
    poolLoop D rec s depth fuel (b.drop n) fs last tmv

/-- internal/prutal/decoder.go:90-308 (`DecodeStruct`). -/
def poolStruct (D : Descs) : Nat → Int → Bytes → Val → Nat → PM Val
  | 0, _, _, _, _ => .lift (.error .panic)
  | fuel + 1, depth, b, v, sid =>
    if depth = 0 then .lift (.error .maxDepth)
    else match v with
      | .struct fs => do
        let fs ← PM.lift (resetUnknown (D sid) fs)
        let fs ← poolLoop D (poolStruct D fuel) (D sid) depth b.length b fs none none
        return .struct fs
      | _ => .lift (.error .ub)

/-- internal/prutal/prutal.go:73-87 (`Unmarshal`). -/
def unmarshalP (env : GoEnv) (b : Bytes) : Arg → PM Val
  | .nil => .lift (.error .notPointer)
  | .nonPtr => .lift (.error .notPointer)
  | .ptrOther _ => .lift (.error .badType)
  | .ptr sid v => do
    let D ← PM.lift (parseDescs env)
    match v with
    | none => .lift (.error .panic)
    | some v => poolStruct D (b.length + 1) defaultRecursionMaxDepth b v sid

/-- Calls of `Unmarshal`, one after the other (internal/prutal/prutal.go:73-87), successful or not. -/
def callsP (env : GoEnv) (E : PoolEnv) : List (Bytes × Arg) → Pools → List (Res Val) × Pools
  | [], p => ([], p)
  | (b, a) :: cs, p =>
    let (r, p) := unmarshalP env b a E p
    let (rs, p) := callsP env E cs p
    (r :: rs, p)

end Verif.Model
