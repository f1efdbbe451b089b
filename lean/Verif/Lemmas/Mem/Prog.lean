import Verif.Model.Goroutines
import Verif.Lemmas.Mem.Sim
/-!
# The decoder as a program does what the decoder on memory does
-/
namespace Verif.Lemmas.Mem
open Verif.Model Verif.Model.Mem Verif.Spec

variable {α β : Type}

theorem run_andThen (p : Prog α) (f : Res α → Prog β) (h : Store) :
    (p.andThen f).run h = (f (p.run h).1).run (p.run h).2 := by
  induction p generalizing h with
  | done r => rfl
  | read a k ih => exact ih _ _
  | write a b k ih => exact ih _
  | alloc b k ih => exact ih _ _
  | slack n k ih => exact ih _ _

theorem run_bind {p : Prog α} {f : α → Prog β} {c : M α} {g : α → M β} (hp : p.run = c)
    (hf : ∀ a, (f a).run = g a) : (p >>= f).run = c >>= g := by
  funext h
  refine (run_andThen p (Prog.next f) h).trans ?_
  subst hp
  show _ = M.bind p.run g h
  unfold M.bind
  cases hr : p.run h with
  | mk r h' =>
    cases r with
    | ok a => exact congrFun (hf a) h'
    | error e => rfl

theorem run_pure (a : α) : (pure a : Prog α).run = pure a := rfl

theorem run_fail (e : Fault) : (failP e : Prog α).run = fail e := rfl

theorem run_map {p : Prog α} {c : M α} {f : α → β} (hp : p.run = c) : (f <$> p).run = f <$> c :=
  run_bind (f := fun a => pure (f a)) (g := fun a => pure (f a)) hp (fun a => run_pure (f a))

theorem run_new (b : Block) : (newP b).run = new b := rfl

theorem run_put (a : Nat) (b : Block) : (putP a b).run = put a b := rfl

theorem view_eq (h : Store) (v : View) : (h.mem v.addr).view v = h.read v := rfl

theorem run_parse (v : View) (p : Bytes → Res α) : (parseP v p).run = parse v p := rfl

theorem run_key (k : MVal) (h : Store) : (keyP k).run h = (.ok (keyContent h k), h) := by
  unfold keyP
  split <;> first | rfl | skip
  unfold keyContent
  split <;> first | rfl | (exfalso; simp_all)

theorem run_ok {p : Prog α} {f : α → Prog β} {h h' : Store} {a : α} (hp : p.run h = (.ok a, h')) :
    (p >>= f).run h = (f a).run h' := by
  refine (run_andThen p (Prog.next f) h).trans ?_
  rw [hp]
  rfl

theorem run_tableInsert (h : Store) (k v : MVal) : ∀ es : List (MVal × MVal),
    (tableInsertP (keyContent h k) k v es).run h = (.ok (tableInsert h k v es), h)
  | [] => rfl
  | (k', v') :: es => by
    unfold tableInsertP tableInsert
    rw [run_ok (run_key k' h)]
    by_cases hk : keyContent h k' = keyContent h k
    · rw [if_pos hk, if_pos hk]; rfl
    · rw [if_neg hk, if_neg hk, run_ok (run_tableInsert h k v es)]; rfl

theorem run_mapAssign (a : Nat) (k v : MVal) : (mapAssignP a k v).run = mapAssign a k v := by
  funext h
  unfold mapAssignP mapAssign
  show Prog.run (match h.mem a with
    | .table es => _
    | _ => _) h = _
  cases hm : h.mem a with
  | table es =>
    dsimp only
    rw [run_ok (run_key k h)]
    cases hk : keyContent h k with
    | ok c =>
      dsimp only
      have := run_tableInsert h k v es
      rw [hk] at this
      rw [run_ok this]
      rfl
    | error e => rfl
  | bytes b => rfl
  | object v => rfl
  | array xs => rfl

theorem run_appendBytes (x : Option View) (raw : View) : (appendBytesP x raw).run = appendBytes x raw := by
  funext h
  unfold appendBytesP appendBytes
  show Prog.run (match (h.mem raw.addr).view raw, x with
    | .ok r, none => _
    | .ok r, some v => _
    | .error e, _ => _) h = _
  rw [view_eq]
  cases hr : h.read raw with
  | error e => rfl
  | ok r =>
    cases x with
    | none => rfl
    | some v =>
      show Prog.run (match h.mem v.addr with
        | .bytes blk => _
        | _ => _) h = _
      dsimp only
      cases hm : h.mem v.addr with
      | bytes blk =>
        dsimp only
        split <;> rfl
      | object v => rfl
      | array xs => rfl
      | table es => rfl

theorem run_loadBytes (a : Nat) : (loadBytesP a).run = loadBytes a := by
  funext h
  unfold loadBytesP loadBytes
  show Prog.run (match h.mem a with
    | .object (.bytes x) => _
    | _ => _) h = _
  cases h.mem a with
  | object v => cases v <;> rfl
  | bytes b => rfl
  | array xs => rfl
  | table es => rfl

theorem run_grow (D : Descs) (te : GoType) (a : Option Nat) (len : Nat) :
    (growP D te a len).run = growM D te a len := by
  cases a with
  | none => rfl
  | some a =>
    funext h
    unfold growP growM
    show Prog.run (match h.mem a with
      | .array xs => _
      | _ => _) h = _
    dsimp only
    cases hm : h.mem a with
    | array xs =>
      dsimp only
      split
      · rfl
      · split <;> rfl
    | bytes b => rfl
    | object v => rfl
    | table es => rfl

theorem run_spare (D : Descs) (te : GoType) (a len : Nat) : (spareP D te a len).run = spareM D te a len := by
  funext h
  unfold spareP spareM
  show Prog.run (match h.mem a with
    | .array xs => _
    | _ => _) h = _
  cases hm : h.mem a with
  | array xs => dsimp only; cases xs[len]? <;> cases te <;> rfl
  | bytes b => rfl
  | object v => rfl
  | table es => rfl

theorem run_putElem (a i : Nat) (v : MVal) : (putElemP a i v).run = putElem a i v := by
  funext h
  unfold putElemP putElem
  show Prog.run (match h.mem a with
    | .array xs => _
    | _ => _) h = _
  cases hm : h.mem a with
  | array xs => rfl
  | bytes b => rfl
  | object v => rfl
  | table es => rfl

theorem run_newTarget {D : Descs} {t : GoType} {k : MVal → Prog (MVal × Nat)} {c : MVal → M (MVal × Nat)}
    (hk : ∀ v, (k v).run = c v) : (newTargetP D t k).run = newTarget D t c :=
  run_bind (run_new _) fun _ => run_bind (hk _) fun ⟨_, _⟩ => run_bind (run_put _ _) fun _ => rfl

theorem run_resetUnknown (s : StructDesc) (fs : List MVal) : (resetUnknownP s fs).run = resetUnknownM s fs := by
  unfold resetUnknownP resetUnknownM
  cases s.unknown with
  | none => rfl
  | some p =>
    obtain ⟨slot, isPtr⟩ := p
    dsimp only
    rcases fs[slot]? with _ | v
    · cases isPtr <;> rfl
    cases isPtr <;> cases v <;> first | rfl | skip
    next a =>
      cases a with
      | none => rfl
      | some a => exact run_bind (run_loadBytes _) fun _ => run_bind (run_put _ _) fun _ => rfl

theorem run_appendUnknown (s : StructDesc) (fs : List MVal) (raw : View) :
    (appendUnknownP s fs raw).run = appendUnknownM s fs raw := by
  unfold appendUnknownP appendUnknownM
  cases s.unknown with
  | none => rfl
  | some p =>
    obtain ⟨slot, isPtr⟩ := p
    dsimp only
    rcases fs[slot]? with _ | v
    · cases isPtr <;> rfl
    cases isPtr <;> cases v <;> first | rfl | skip
    · exact run_bind (run_appendBytes _ _) fun _ => rfl
    next a =>
      cases a with
      | none =>
        exact run_bind (run_new _) fun _ => run_bind (run_appendBytes _ _) fun _ =>
          run_bind (run_put _ _) fun _ => rfl
      | some a =>
        exact run_bind (run_loadBytes _) fun _ => run_bind (run_appendBytes _ _) fun _ =>
          run_bind (run_put _ _) fun _ => rfl

theorem run_scalar (p : Bytes → Res (Val × Nat)) (b : View) (cur : MVal) :
    (decodeScalarP p b cur).run = decodeScalarM p b cur :=
  run_bind (run_parse _ _) fun ⟨_, _⟩ => rfl

theorem run_consumeBytes (b : View) : (consumeBytesP b).run = consumeBytesM b :=
  run_bind (run_parse _ _) fun ⟨_, _⟩ => rfl

theorem run_copyString (b : View) : (copyStringP b).run = copyString b := by
  refine run_bind (run_parse _ _) fun r => ?_
  split
  · rfl
  · exact run_bind (run_new _) fun _ => rfl

theorem run_copyBytes (b : View) : (copyBytesP b).run = copyBytes b :=
  run_bind (run_parse _ _) fun _ => run_bind (run_new _) fun _ => rfl

/-- Nested calls. -/
def RecRun (rp : DecRecP) (rm : DecRecM) : Prop := ∀ d b v id, (rp d b v id).run = rm d b v id

theorem run_mapKeyAt (f : FieldDesc) (kt : GoType) (typ : WType) (b : View) :
    (decodeMapKeyAtP f kt typ b).run = decodeMapKeyAtM f kt typ b := by
  unfold decodeMapKeyAtP decodeMapKeyAtM
  split
  · exact run_scalar _ _ _
  · exact run_scalar _ _ _
  · exact run_scalar _ _ _
  · split
    · rfl
    · exact run_bind (run_consumeBytes _) fun ⟨_, _⟩ => run_bind (run_copyString _) fun _ => rfl
  · split <;> first | rfl | (exfalso; simp_all; done)

theorem run_mapKey (f : FieldDesc) (kt : GoType) (b : View) : (decodeMapKeyP f kt b).run = decodeMapKeyM f kt b :=
  run_bind (run_parse _ _) fun _ => run_bind (run_mapKeyAt _ _ _ _) fun ⟨_, _⟩ => rfl

section
variable {D : Descs} {rp : DecRecP} {rm : DecRecM} (hr : RecRun rp rm)
include hr

theorem run_mapValueLen (t : GoType) (fb : View) (cur : MVal) (d : Int) :
    (decodeMapValueLenP rp t fb cur d).run = decodeMapValueLenM rm t fb cur d := by
  unfold decodeMapValueLenP decodeMapValueLenM
  cases t with
  | bytes => exact run_map (run_copyBytes _)
  | string => exact run_map (run_copyString _)
  | struct id => exact hr _ _ _ _
  | _ => rfl

theorem run_mapValueAt (f : FieldDesc) (t : GoType) (typ : WType) (b : View) (cur : MVal) (d : Int) :
    (decodeMapValueAtP rp f t typ b cur d).run = decodeMapValueAtM rm f t typ b cur d := by
  unfold decodeMapValueAtP decodeMapValueAtM
  split
  · exact run_scalar _ _ _
  · exact run_scalar _ _ _
  · exact run_scalar _ _ _
  · exact run_bind (run_consumeBytes _) fun ⟨_, _⟩ => run_bind (run_mapValueLen hr _ _ _ _) fun _ => rfl
  · split <;> first | rfl | (exfalso; simp_all; done)

theorem run_mapValueRef (f : FieldDesc) (vt : GoType) (typ : WType) (b : View) (d : Int) :
    (decodeMapValueRefP D rp f vt typ b d).run = decodeMapValueRefM D rm f vt typ b d := by
  unfold decodeMapValueRefP decodeMapValueRefM
  cases vt with
  | ptr t => exact run_bind (run_newTarget fun _ => run_mapValueAt hr _ _ _ _ _ _) fun ⟨_, _⟩ => rfl
  | _ => exact run_mapValueAt hr _ _ _ _ _ _

theorem run_mapValue (f : FieldDesc) (vt : GoType) (b : View) (d : Int) :
    (decodeMapValueP D rp f vt b d).run = decodeMapValueM D rm f vt b d :=
  run_bind (run_parse _ _) fun _ => run_bind (run_mapValueRef hr _ _ _ _ _) fun ⟨_, _⟩ => rfl

omit hr in
theorem run_ensureMap (v : MVal) : (ensureMapP v).run = ensureMap v := by
  unfold ensureMapP ensureMap
  cases v with
  | map a => cases a <;> rfl
  | _ => rfl

theorem run_mapPair (f : FieldDesc) (kt vt : GoType) (b : View) (cur : MVal) (d : Int) :
    (decodeMapPairP D rp f kt vt b cur d).run = decodeMapPairM D rm f kt vt b cur d :=
  run_bind (run_ensureMap _) fun _ => run_bind (run_mapKey _ _ _) fun ⟨_, _⟩ =>
    run_bind (run_mapValue hr _ _ _ _) fun ⟨_, _⟩ => run_bind (run_mapAssign _ _ _) fun _ => rfl

omit hr in
theorem run_mapFast (kc vc : Coder) (kt vt : GoType) (b : View) (cur : MVal) :
    (decodeMapFastP kc vc kt vt b cur).run = decodeMapFastM kc vc kt vt b cur := by
  refine run_bind (run_parse _ _) fun ⟨_, _⟩ => run_bind (run_ensureMap _) fun _ => ?_
  split
  · exact run_bind (run_mapAssign _ _ _) fun _ => rfl
  · rfl

theorem run_lenAt (f : FieldDesc) (t : GoType) (fb : View) (cur : MVal) (d : Int) :
    (decodeLenAtP D rp f t fb cur d).run = decodeLenAtM D rm f t fb cur d := by
  unfold decodeLenAtP decodeLenAtM
  cases t with
  | bytes => exact run_map (run_copyBytes _)
  | string => exact run_map (run_copyString _)
  | map kt vt =>
    dsimp only
    cases f.decodeMap with
    | some p => exact run_mapFast _ _ _ _ _ _
    | none =>
      dsimp only
      cases f.t with
      | map k v => exact run_mapPair hr _ _ _ _ _ _
      | _ => rfl
  | struct id => exact hr _ _ _ _
  | _ => rfl

theorem run_valueAt (f : FieldDesc) (t : GoType) (typ : WType) (b : View) (cur : MVal) (d : Int) :
    (decodeValueAtP D rp f t typ b cur d).run = decodeValueAtM D rm f t typ b cur d := by
  unfold decodeValueAtP decodeValueAtM
  split
  · exact run_scalar _ _ _
  · exact run_scalar _ _ _
  · exact run_scalar _ _ _
  · exact run_bind (run_consumeBytes _) fun ⟨_, _⟩ => run_bind (run_lenAt hr _ _ _ _ _) fun _ => rfl
  · split <;> first | rfl | (exfalso; simp_all; done)

theorem run_elem (f : FieldDesc) (te : GoType) (typ : WType) (b : View) (cur : MVal) (d : Int) :
    (decodeElemP D rp f te typ b cur d).run = decodeElemM D rm f te typ b cur d := by
  unfold decodeElemP decodeElemM
  cases te with
  | ptr t => exact run_bind (run_newTarget fun _ => run_valueAt hr _ _ _ _ _ _) fun ⟨_, _⟩ => rfl
  | _ => exact run_valueAt hr _ _ _ _ _ _

omit hr in
theorem run_packed (c : Coder) (te : GoType) (b : View) : (decodePackedP c te b).run = decodePackedM c te b := by
  refine run_bind (run_parse _ _) fun x => ?_
  cases x with
  | slice xs => exact run_bind (run_new _) fun _ => rfl
  | _ => rfl

theorem run_rep (f : FieldDesc) (t : GoType) (typ : WType) (b : View) (cur : MVal) (d : Int) :
    (decodeRepP D rp f t typ b cur d).run = decodeRepM D rm f t typ b cur d := by
  unfold decodeRepP decodeRepM
  cases f.repeated with
  | false => exact run_valueAt hr _ _ _ _ _ _
  | true =>
    cases t with
    | slice te =>
      dsimp only
      split
      · cases f.decodePacked with
        | none => rfl
        | some c => exact run_bind (run_consumeBytes _) fun ⟨_, _⟩ => run_bind (run_packed _ _ _) fun _ => rfl
      · cases cur with
        | slice a len =>
          exact run_bind (run_grow _ _ _ _) fun _ => run_bind (run_spare _ _ _ _) fun _ =>
            run_bind (run_elem hr _ _ _ _ _ _) fun ⟨_, _⟩ => run_bind (run_putElem _ _ _) fun _ => rfl
        | _ => rfl
    | _ => exact run_valueAt hr _ _ _ _ _ _

theorem run_ptr (f : FieldDesc) (typ : WType) (b : View) (cur : MVal) (d : Int) :
    (decodePtrP D rp f typ b cur d).run = decodePtrM D rm f typ b cur d := by
  unfold decodePtrP decodePtrM
  cases f.t with
  | ptr t => exact run_bind (run_newTarget fun _ => run_rep hr _ _ _ _ _ _) fun ⟨_, _⟩ => rfl
  | _ => exact run_rep hr _ _ _ _ _ _

theorem run_field (f : FieldDesc) (typ : WType) (b : View) (cur : MVal) (d : Int) :
    (decodeFieldP D rp f typ b cur d).run = decodeFieldM D rm f typ b cur d := by
  unfold decodeFieldP decodeFieldM
  cases f.oneof with
  | none => exact run_ptr hr _ _ _ _ _
  | some w =>
    cases cur with
    | iface x => exact run_bind (run_newTarget fun _ => run_ptr hr _ _ _ _ _) fun ⟨_, _⟩ => rfl
    | _ => rfl

theorem run_record (s : StructDesc) (d : Int) (b : View) (fs : List MVal) (last : Option FieldDesc) :
    (decodeRecordP D rp s d b fs last).run = decodeRecordM D rm s d b fs last := by
  refine run_bind (run_parse _ _) fun ⟨num, typ, n⟩ => ?_
  dsimp only
  cases lookupField s last num with
  | none => exact run_bind (run_parse _ _) fun _ => run_bind (run_appendUnknown _ _ _) fun _ => rfl
  | some f =>
    dsimp only
    cases fs[f.slot]? with
    | none => rfl
    | some cur => exact run_bind (run_field hr _ _ _ _ _) fun ⟨_, _⟩ => rfl

theorem run_loop (s : StructDesc) (d : Int) : ∀ (fuel : Nat) (b : View) (fs : List MVal) (last : Option FieldDesc),
    (decodeLoopP D rp s d fuel b fs last).run = decodeLoopM D rm s d fuel b fs last
  | 0, b, fs, last => by
    unfold decodeLoopP decodeLoopM
    split <;> rfl
  | fuel + 1, b, fs, last => by
    unfold decodeLoopP decodeLoopM
    split
    · rfl
    · exact run_bind (run_record hr _ _ _ _ _) fun ⟨_, _, _⟩ => run_loop s d fuel _ _ _

end

theorem run_struct (D : Descs) : ∀ fuel, RecRun (decodeStructP D fuel) (decodeStructM D fuel)
  | 0 => fun _ _ _ _ => rfl
  | fuel + 1 => fun d b v id => by
    unfold decodeStructP decodeStructM
    split
    · rfl
    · cases v with
      | struct fs =>
        exact run_bind (run_resetUnknown _ _) fun _ => run_bind (run_loop (run_struct D fuel) _ _ _ _ _ _) fun _ => rfl
      | _ => rfl

theorem run_into (D : Descs) (b : View) (id a : Nat) : (decodeIntoP D b id a).run = decodeInto D b id a := by
  funext h
  unfold decodeIntoP decodeInto
  show Prog.run (match h.mem a with
    | .object v => _
    | _ => _) h = _
  cases hm : h.mem a with
  | object v =>
    dsimp only
    rw [run_andThen, run_struct]
    cases decodeStructM D (b.len + 1) defaultRecursionMaxDepth b v id h with
    | mk r h' => cases r <;> rfl
  | bytes b => rfl
  | array xs => rfl
  | table es => rfl

/-- A call by itself does what `unmarshalM` says. -/
theorem run_unmarshal (env : GoEnv) (b : View) (arg : MArg) : (unmarshalP env b arg).run = unmarshalM env b arg := by
  cases arg with
  | nil => rfl
  | nonPtr => rfl
  | ptrOther _ => rfl
  | ptr id a =>
    refine run_bind (c := lift (parseDescs env)) rfl fun D => ?_
    cases a with
    | none => rfl
    | some a => exact run_into D b id a

end Verif.Lemmas.Mem
