import Verif.Lemmas.Mem.EncRead
/-!
# The encoder on memory does what the encoder on trees does
-/
namespace Verif.Lemmas.Mem
open Verif.Model Verif.Model.Mem Verif.Spec

variable {s : Site} {π : Order}

theorem enc_bind {p q : Out → Prog Out} {r t : Bytes → Res Bytes} (hp : s.Enc p r) (hq : s.Enc q t) :
    s.Enc (fun d => p d >>= q) (fun b => r b >>= t) :=
  ⟨fun b hb => encAt_bind (hp.at_ b hb) fun b' hr => hq.at_ b' (hb.trans (hp.grows b b' hr)),
    hp.grows.bind hq.grows⟩

theorem enc_read {α γ : Type} {p : Prog α} {r : Res γ} {rel : α → γ → Prop} {q : α → Out → Prog Out}
    {t : γ → Bytes → Res Bytes} (hp : s.Rd p r rel) (hq : ∀ a c, r = .ok c → rel a c → s.Enc (q a) (t c)) :
    s.Enc (fun d => p >>= fun a => q a d) (fun b => r >>= fun c => t c b) := by
  have hx : ∀ c, r = .ok c → ∃ a, rel a c := by
    rintro c rfl
    obtain ⟨-, a, -, ha⟩ := wp_run _ _ (hp s.mem frame_start)
    exact ⟨a, ha⟩
  refine ⟨fun b hb => encAt_read hp fun a c hc ha => (hq a c hc ha).at_ b hb, fun b b' hb => ?_⟩
  cases r with
  | error e => cases hb
  | ok c =>
    obtain ⟨a, ha⟩ := hx c rfl
    exact (hq a c rfl ha).grows b b' hb

theorem enc_fail (e : Fault) : s.Enc (fun _ => failP e) (fun _ => .error e) :=
  ⟨fun b _ => encAt_fail e b, growsR_error e⟩

theorem enc_pure : s.Enc (fun d => pure d) (fun b => .ok b) := ⟨fun b _ => encAt_pure b, grows_id.ok⟩

theorem enc_congr {p p' : Out → Prog Out} {r r' : Bytes → Res Bytes} (h : s.Enc p r) (hp : ∀ d, p' d = p d)
    (hr : ∀ b, r' b = r b) : s.Enc p' r' := by
  have h1 : p' = p := funext hp
  have h2 : r' = r := funext hr
  rw [h1, h2]
  exact h

/-- A length is reserved, something is written, the length is filled in. -/
theorem enc_framed {g : Bytes → Bytes} {p : Out → Prog Out} {r : Bytes → Res Bytes} (hg : Grows g) (hp : s.Enc p r) :
    s.Enc (fun d => editP (fun b => .ok (lenReserve (g b))) d >>= fun d =>
        p d >>= fun d' => editP (fun b => .ok (lenPack b (b.length - Out.length d))) d')
      (fun b => r (lenReserve (g b)) >>= fun b' => .ok (lenPack b' (b'.length - (lenReserve (g b)).length))) := by
  have hl : Grows (fun b => lenReserve (g b)) := fun b => (hg b).trans (List.prefix_append _ _)
  refine ⟨fun b hb => ?_, growsR_framed hp.grows hg⟩
  refine encAt_bind (rb := .ok (lenReserve (g b)))
    (t := fun b1 => r b1 >>= fun b' => .ok (lenPack b' (b'.length - b1.length))) (encAt_append hl.ok hb) ?_
  rintro b1 ⟨⟩
  refine encAt_length (p := fun n d => p d >>= fun d' => editP (fun b => .ok (lenPack b (b.length - n))) d') ?_
  refine encAt_bind (hp.at_ _ (hb.trans (hl b))) ?_
  intro b' hr
  obtain ⟨e, rfl⟩ := hp.grows _ _ hr
  exact encAt_pack (hb.trans (hg b))

theorem andThen_assoc {α β γ : Type} (p : Prog α) (f : Res α → Prog β) (g : Res β → Prog γ) :
    (p.andThen f).andThen g = p.andThen (fun r => (f r).andThen g) := by
  induction p with
  | done r => rfl
  | read a k ih => exact congrArg (Prog.read a) (funext fun b => ih b)
  | write a b k ih => exact congrArg (Prog.write a b) ih
  | alloc b k ih => exact congrArg (Prog.alloc b) (funext fun a => ih a)
  | slack n k ih => exact congrArg (Prog.slack n) (funext fun m => ih m)

theorem prog_assoc {α β γ : Type} (p : Prog α) (f : α → Prog β) (g : β → Prog γ) :
    ((p >>= f) >>= g) = p >>= fun a => f a >>= g := by
  refine (andThen_assoc p (Prog.next f) (Prog.next g)).trans ?_
  refine congrArg p.andThen (funext fun r => ?_)
  cases r <;> rfl

theorem prog_pure {α : Type} (p : Prog α) : (p >>= fun a => pure a) = p := by
  show p.andThen (Prog.next pure) = p
  induction p with
  | done r => cases r <;> rfl
  | read a k ih => exact congrArg (Prog.read a) (funext fun b => ih b)
  | write a b k ih => exact congrArg (Prog.write a b) ih
  | alloc b k ih => exact congrArg (Prog.alloc b) (funext fun a => ih a)
  | slack n k ih => exact congrArg (Prog.slack n) (funext fun m => ih m)

theorem enc_callAppend (f : Option AppendFn) {v : MVal} {t : Val} (h : s.Sh π v t) :
    s.Enc (fun d => callAppendP f d v) (fun b => callAppend f b t) := by
  unfold callAppendP callAppend
  cases f with
  | none => exact enc_fail _
  | some fn =>
    cases fn with
    | plain c =>
      refine enc_congr (enc_read (t := fun x b => appendCoder c b x) (rd_flat h) (fun a c' _ he => ?_)) (fun _ => rfl)
        (fun b => (appendCoder_flat c b t).symm)
      subst he
      exact enc_edit (growsR_appendCoder c a)
    | packed c =>
      refine enc_congr (enc_read (t := fun x b => appendPackedCoder c b x) (rd_flatList h) (fun a c' _ he => ?_))
        (fun _ => rfl) (fun b => (appendPackedCoder_flat c b t).symm)
      subst he
      exact enc_edit (growsR_appendPackedCoder c a)

theorem enc_listCoder (c : Coder) (tag : BitVec 64) {v : MVal} {t : Val} (h : s.Sh π v t) :
    s.Enc (fun d => appendListCoderP c tag d v) (fun b => appendListCoder c b tag t) := by
  refine enc_congr (enc_read (t := fun x b => appendListCoder c b tag x) (rd_flatList h) (fun a c' _ he => ?_))
    (fun _ => rfl) (fun b => (appendListCoder_flat c b tag t).symm)
  subst he
  exact enc_edit (growsR_appendListCoder c tag a)

theorem enc_mapEntry (kc vc : Coder) (tag : BitVec 64) {e : MVal × MVal} {c : Key × Val} (h : s.ShE π e c) :
    s.Enc (fun d => appendMapEntryP kc vc tag d e) (fun b => appendMapEntry kc vc tag b c) := by
  refine enc_congr (enc_read (t := fun k b => appendMapEntry kc vc tag b (k, flatOf c.2)) (rd_key h.1)
    (fun a c' _ he => ?_)) (fun _ => rfl) (fun b => (appendMapEntry_flat kc vc tag b c.1 c.2).symm)
  subst he
  refine enc_congr (enc_read (t := fun x b => appendMapEntry kc vc tag b (a, x)) (rd_flat h.2) (fun x c' _ he => ?_))
    (fun _ => rfl) (fun b => rfl)
  subst he
  exact enc_edit (growsR_appendMapEntry kc vc tag (a, x))

theorem enc_mapFast (kc vc : Coder) (tag : BitVec 64) {v : MVal} {t : Val} (h : s.Sh π v t) :
    s.Enc (fun d => appendMapFastP π kc vc tag d v) (fun b => appendMapFast kc vc b tag t) := by
  unfold appendMapFastP appendMapFast
  exact enc_read (t := fun m b => m.foldlM (appendMapEntry kc vc tag) b) (rd_entries h)
    fun _ _ _ hb => enc_foldlM hb fun _ _ he => enc_mapEntry kc vc tag he

/-- The recursive calls agree. -/
def Site.RecEnc (s : Site) (π : Order) (rec : EncRecP) (rec' : EncRec) : Prop :=
  ∀ v t sid, OptRel (s.Sh π) v t → s.Enc (fun d => rec d v sid) (fun b => rec' b t sid)

variable {rec : EncRecP} {rec' : EncRec}

theorem enc_listField (hrec : s.RecEnc π rec rec') (f : FieldDesc) {v : MVal} {t : Val} (h : s.Sh π v t) :
    s.Enc (fun d => appendListFieldP rec f d v) (fun b => appendListField rec' f b t) := by
  unfold appendListFieldP appendListField
  cases f.t.elem with
  | none => exact enc_fail _
  | some vt =>
    refine enc_read (t := fun sid b => t.asSlice >>= fun xs => xs.foldlM _ b) (rd_res (elemStruct vt)) ?_
    rintro sid _ _ rfl
    refine enc_read (t := fun xs b => xs.foldlM (fun b v => do
      let base ← elemBase vt v
      rec' (appendVarintSmall b f.wireTag) base sid) b) (rd_elems h) ?_
    intro vs ts _ hb
    refine enc_foldlM hb fun a c hac => ?_
    refine enc_read (t := fun base b => rec' (appendVarintSmall b f.wireTag) base sid) (rd_elemBase vt hac) ?_
    intro base base' _ ho
    exact enc_bind (r := fun b => .ok (appendVarintSmall b f.wireTag)) (t := fun b => rec' b base' sid)
      (enc_edit (grows_small _).ok) (hrec _ _ sid ho)

theorem enc_structEntry (hrec : s.RecEnc π rec rec') (f : FieldDesc) (vt : GoType) (sid : Nat)
    {writeKey : Bytes → Val → Res Bytes} (hw : ∀ k, GrowsR (fun b => writeKey b k)) {e : MVal × MVal} {c : Key × Val}
    (h : s.ShE π e c) : s.Enc (fun d => appendStructEntryP rec f vt sid writeKey d e)
      (fun b => appendStructEntry rec' f vt sid writeKey b c) := by
  have hb : s.Enc
      (fun d => keyValP e.1 >>= fun k => editP (fun b => writeKey (appendKeyTag b f.keyType.wire) k.toVal) d >>= fun d =>
        elemBaseP vt e.2 >>= fun base => editP (fun b => .ok (appendValTag b f.valType.wire)) d >>= fun d =>
        rec d base sid)
      (fun b => writeKey (appendKeyTag b f.keyType.wire) c.1.toVal >>= fun b => elemBase vt c.2 >>= fun base =>
        rec' (appendValTag b f.valType.wire) base sid) := by
    refine enc_congr (enc_read (t := fun k b => writeKey (appendKeyTag b f.keyType.wire) k.toVal >>= fun b =>
      elemBase vt c.2 >>= fun base => rec' (appendValTag b f.valType.wire) base sid) (rd_key h.1) ?_) (fun _ => rfl) (fun _ => rfl)
    rintro k _ _ rfl
    refine enc_bind (enc_edit ((hw k.toVal).comp (grows_append _))) ?_
    refine enc_read (t := fun base b => rec' (appendValTag b f.valType.wire) base sid) (rd_elemBase vt h.2) ?_
    intro base base' _ ho
    exact enc_bind (r := fun b => .ok (appendValTag b f.valType.wire)) (t := fun b => rec' b base' sid)
      (enc_edit (grows_append _).ok) (hrec _ _ sid ho)
  refine enc_congr (enc_framed (grows_small f.wireTag) hb) (fun d => ?_) (fun b => ?_)
  · unfold appendStructEntryP
    simp only [prog_assoc]
  · unfold appendStructEntry
    simp only [bind_assoc]
    rfl

theorem enc_entryGeneric (hrec : s.RecEnc π rec rec') (f : FieldDesc) (vt : GoType) {e : MVal × MVal} {c : Key × Val}
    (h : s.ShE π e c) : s.Enc (fun d => appendEntryGenericP rec f vt d e)
      (fun b => appendEntryGeneric rec' f vt b c) := by
  have hv : s.Enc
      (fun d => match f.valAppend with
        | some fn => callAppendP (some fn) d e.2
        | none => Prog.done (elemStruct vt) >>= fun sid => elemBaseP vt e.2 >>= fun base => rec d base sid)
      (fun b => match f.valAppend with
        | some fn => callAppend (some fn) b c.2
        | none => elemStruct vt >>= fun sid => elemBase vt c.2 >>= fun base => rec' b base sid) := by
    cases f.valAppend with
    | some fn => exact enc_callAppend (some fn) h.2
    | none =>
      refine enc_read (t := fun sid b => elemBase vt c.2 >>= fun base => rec' b base sid) (rd_res (elemStruct vt)) ?_
      rintro sid _ _ rfl
      exact enc_read (t := fun base b => rec' b base sid) (rd_elemBase vt h.2) fun _ _ _ ho => hrec _ _ sid ho
  have hb : s.Enc
      (fun d => keyValP e.1 >>= fun k =>
        editP (fun b => callAppend f.keyAppend (appendKeyTag b f.keyType.wire) k.toVal) d >>= fun d =>
        editP (fun b => .ok (appendValTag b f.valType.wire)) d >>= fun d =>
        match f.valAppend with
        | some fn => callAppendP (some fn) d e.2
        | none => Prog.done (elemStruct vt) >>= fun sid => elemBaseP vt e.2 >>= fun base => rec d base sid)
      (fun b => callAppend f.keyAppend (appendKeyTag b f.keyType.wire) c.1.toVal >>= fun b =>
        (.ok (appendValTag b f.valType.wire) : Res Bytes) >>= fun b =>
        match f.valAppend with
        | some fn => callAppend (some fn) b c.2
        | none => elemStruct vt >>= fun sid => elemBase vt c.2 >>= fun base => rec' b base sid) := by
    refine enc_congr (enc_read (t := fun k b => callAppend f.keyAppend (appendKeyTag b f.keyType.wire) k.toVal >>= fun b =>
      (.ok (appendValTag b f.valType.wire) : Res Bytes) >>= fun b =>
        match f.valAppend with
        | some fn => callAppend (some fn) b c.2
        | none => elemStruct vt >>= fun sid => elemBase vt c.2 >>= fun base => rec' b base sid) (rd_key h.1) ?_)
      (fun _ => rfl) (fun _ => rfl)
    rintro k _ _ rfl
    exact enc_bind (enc_edit ((growsR_callAppend _ k.toVal).comp (grows_append _)))
      (enc_bind (enc_edit (grows_append _).ok) hv)
  refine enc_congr (enc_framed (grows_small f.wireTag) hb) (fun d => ?_) (fun b => ?_)
  · unfold appendEntryGenericP
    cases f.valAppend <;> simp only [prog_assoc]
  · unfold appendEntryGeneric
    cases f.valAppend <;> simp only [bind_assoc] <;> rfl

theorem enc_mapField (hrec : s.RecEnc π rec rec') (f : FieldDesc) {v : MVal} {t : Val} (h : s.Sh π v t) :
    s.Enc (fun d => appendMapFieldP π rec f d v) (fun b => appendMapField rec' f b t) := by
  unfold appendMapFieldP appendMapField
  cases f.t with
  | map kt vt =>
    dsimp only
    refine enc_read (t := fun m b => if f.valAppend = none ∧ vt.isPointer = true ∧
        (kt.kind = .int64 ∨ kt.kind = .uint64 ∨ kt.kind = .int32 ∨ kt.kind = .uint32) then do
      let sid ← elemStruct vt
      m.foldlM (appendStructEntry rec' f vt sid (callAppend f.keyAppend)) b
    else if f.valAppend = none ∧ vt.isPointer = true ∧ kt.kind = .string then do
      let sid ← elemStruct vt
      m.foldlM (appendStructEntry rec' f vt sid (fun b k => (appendString b) <$> k.asStr)) b
    else
      m.foldlM (appendEntryGeneric rec' f vt) b) (rd_entries h) ?_
    intro es ts _ hb
    by_cases h1 : f.valAppend = none ∧ vt.isPointer = true ∧
        (kt.kind = .int64 ∨ kt.kind = .uint64 ∨ kt.kind = .int32 ∨ kt.kind = .uint32)
    · simp only [if_pos h1]
      refine enc_read (t := fun sid b => ts.foldlM (appendStructEntry rec' f vt sid (callAppend f.keyAppend)) b)
        (rd_res (elemStruct vt)) ?_
      rintro sid _ _ rfl
      exact enc_foldlM hb fun _ _ he => enc_structEntry hrec f vt sid (fun k => growsR_callAppend _ k) he
    · simp only [if_neg h1]
      by_cases h2 : f.valAppend = none ∧ vt.isPointer = true ∧ kt.kind = .string
      · simp only [if_pos h2]
        refine enc_read (t := fun sid b => ts.foldlM (appendStructEntry rec' f vt sid
          (fun b k => (appendString b) <$> k.asStr)) b) (rd_res (elemStruct vt)) ?_
        rintro sid _ _ rfl
        exact enc_foldlM hb fun _ _ he => enc_structEntry hrec f vt sid (fun k => growsR_map grows_string) he
      · simp only [if_neg h2]
        exact enc_foldlM hb fun _ _ he => enc_entryGeneric hrec f vt he
  | _ => exact enc_fail _

theorem enc_tagged (tag : BitVec 64) {p : Out → Prog Out} {r : Bytes → Res Bytes} (h : s.Enc p r) :
    s.Enc (fun d => editP (fun b => .ok (appendVarintSmall b tag)) d >>= p) (fun b => r (appendVarintSmall b tag)) :=
  enc_bind (r := fun b => .ok (appendVarintSmall b tag)) (enc_edit (grows_small tag).ok) h

theorem enc_present (hrec : s.RecEnc π rec rec') (f : FieldDesc) {v : MVal} {t : Val} (h : s.Sh π v t) :
    s.Enc (fun d => appendPresentP π rec f d v) (fun b => appendPresent rec' f b t) := by
  unfold appendPresentP appendPresent
  refine enc_read (rd_deref f.t h) ?_
  rintro ⟨ty, p⟩ ⟨_, x⟩ _ ⟨rfl, hp⟩
  dsimp only at hp ⊢
  by_cases h1 : f.repeated = false ∧ f.appendFunc.isSome = true
  · simp only [if_pos h1]
    exact enc_tagged _ (enc_callAppend _ hp)
  · simp only [if_neg h1]
    by_cases h2 : f.isList = true
    · simp only [if_pos h2]
      by_cases h3 : f.packed = true
      · simp only [if_pos h3]
        exact enc_tagged _ (enc_callAppend _ hp)
      · simp only [if_neg h3]
        cases f.appendList with
        | some c => exact enc_listCoder c _ hp
        | none => exact enc_listField hrec f hp
    · simp only [if_neg h2]
      by_cases h3 : f.isMap = true
      · simp only [if_pos h3]
        cases f.appendMap with
        | some c => exact enc_mapFast c.1 c.2 _ hp
        | none => exact enc_mapField hrec f hp
      · simp only [if_neg h3]
        cases ty.structId with
        | some sid => exact enc_tagged _ (hrec _ _ sid (.some hp))
        | none => exact enc_fail _

theorem enc_field (ssize : Nat → Nat) (hrec : s.RecEnc π rec rec') {fs : List MVal} {ts : List Val}
    (h : Both (s.Sh π) fs ts) (f : FieldDesc) :
    s.Enc (fun d => appendFieldP π ssize rec fs d f) (fun b => appendField ssize rec' ts b f) := by
  unfold appendFieldP appendField
  rcases both_get h f.slot with ⟨h1, h2⟩ | ⟨v, t, h1, h2, h3⟩
  · rw [h1, h2]
    exact enc_fail _
  · rw [h1, h2]
    dsimp only
    refine enc_read (rd_oneof f h3) ?_
    intro o o' _ ho
    cases ho with
    | none => exact enc_pure
    | some hx =>
      dsimp only
      rw [skipZero_eq ssize f.t hx]
      refine enc_read (rd_res _) ?_
      rintro z _ _ rfl
      cases z with
      | true => exact enc_pure
      | false => exact enc_present hrec f hx

mutual
theorem shows_flat (h : Store) (π : Order) (K : Blocks) : ∀ t : Val, flat t = true → MemShows h π K (ofFlat t) t
  | .w32 _, _ => .w32 _
  | .w64 _, _ => .w64 _
  | .bool _, _ => .bool _
  | .str [], _ => .strNil
  | .bytes none, _ => .bytesNil
  | .ptr none, _ => .ptrNil
  | .slice [], _ => .sliceNil
  | .map none, _ => .mapNil
  | .struct fs, hf => .struct _ _ (shows_flats h π K fs hf)
  | .iface none, _ => .ifaceNil
  | .opaque _, _ => .opaque _
  | .undef, _ => .undef
  | .str (_ :: _), hf => by cases hf
  | .bytes (some _), hf => by cases hf
  | .ptr (some _), hf => by cases hf
  | .slice (_ :: _), hf => by cases hf
  | .map (some _), hf => by cases hf
  | .iface (some _), hf => by cases hf
theorem shows_flats (h : Store) (π : Order) (K : Blocks) : ∀ ts : List Val, flats ts = true →
    MemShowsList h π K (ofFlats ts) ts
  | [], _ => .nil
  | t :: ts, hf => by
    simp only [flats, Bool.and_eq_true] at hf
    exact .cons _ _ _ _ (shows_flat h π K t hf.1) (shows_flats h π K ts hf.2)
end

/-- internal/prutal/encoder.go:42-155 on memory. -/
theorem enc_struct {D : Descs} (hD : ∀ id, flat (D id).empty = true) : ∀ (depth : Nat) (l : Bool) (v : Option MVal)
    (t : Option Val) (sid : Nat), OptRel (s.Sh π) v t →
      s.Enc (fun d => appendStructP D π depth d v sid l) (fun b => appendStruct D depth b t sid l)
  | 0, _, _, _, _, _ => enc_fail _
  | depth + 1, l, v, t, sid, ho => by
    have hb : s.Sh π (v.getD (ofFlat (D sid).empty)) (t.getD (D sid).empty) := by
      cases ho with
      | none => exact shows_flat _ _ _ _ (hD sid)
      | some h => exact h
    unfold appendStructP appendStruct
    generalize v.getD (ofFlat (D sid).empty) = v' at hb ⊢
    generalize t.getD (D sid).empty = t' at hb ⊢
    cases hb with
    | struct fs ts hl =>
      have hb := both_of_list hl
      have hrec : s.RecEnc π (fun d base sid => appendStructP D π depth d base sid true)
          (fun b base sid => appendStruct D depth b base sid true) :=
        fun v t sid ho => enc_struct hD depth true v t sid ho
      have hbody : s.Enc
          (fun d => (D sid).fields.foldlM (appendFieldP π (fun i => (D i).size)
            (fun dst base sid => appendStructP D π depth dst base sid true) fs) d >>= fun d =>
            unknownBytesP (D sid) fs >>= fun u => editP (fun b => .ok (b ++ u)) d)
          (fun b => (D sid).fields.foldlM (appendField (fun i => (D i).size)
            (fun b base sid => appendStruct D depth b base sid true) ts) b >>= fun b =>
            unknownBytes (D sid) ts >>= fun u => .ok (b ++ u)) := by
        have heq : ∀ {l : List FieldDesc}, Both Eq l l := by
          intro l
          induction l with
          | nil => exact .nil
          | cons a l ih => exact .cons rfl ih
        refine enc_bind (enc_foldlM heq ?_) ?_
        · rintro f _ rfl
          exact enc_field _ hrec hb f
        · refine enc_read (t := fun u b => .ok (b ++ u)) (rd_unknown _ hb) ?_
          rintro u _ _ rfl
          exact enc_edit (grows_append _).ok
      cases l with
      | true =>
        refine enc_congr (enc_framed (g := id) grows_id hbody) (fun d => ?_) (fun b => ?_)
        · simp only [prog_assoc, if_true]
          rfl
        · simp only [bind_assoc, if_true]
          rfl
      | false =>
        refine enc_congr hbody (fun d => ?_) (fun b => ?_)
        · simp only [Bool.false_eq_true, if_false, prog_pure]
          rfl
        · simp only [Bool.false_eq_true, if_false]
          rfl
    | _ => exact enc_fail _

end Verif.Lemmas.Mem
