import Verif.Model.MemSizer
import Verif.Model.Sizer
import Verif.Lemmas.Mem.EncStruct
/-!
# The sizer on memory computes what the sizer on trees computes
-/
namespace Verif.Lemmas.Mem
open Verif.Model Verif.Model.Mem Verif.Spec

variable {α γ δ ε : Type} {h : Store} {π : Order} {K : Blocks}

/-- The program changes nothing, reads only headers, and its result is related to `r`. -/
def Get (h : Store) (K : Blocks) (p : Prog α) (r : Res γ) (rel : α → γ → Prop) : Prop :=
  Wp (fun _ => False) (Headers h K) (fun res h' => h' = h ∧
    match r with
    | .ok t => ∃ a, res = .ok a ∧ rel a t
    | .error e => res = .error e) p h

theorem get_done {a : α} {c : γ} {rel : α → γ → Prop} (hr : rel a c) : Get h K (.done (.ok a)) (.ok c) rel :=
  ⟨rfl, a, rfl, hr⟩

theorem get_fail (e : Fault) {rel : α → γ → Prop} : Get h K (failP e) (.error e) rel := ⟨rfl, rfl⟩

theorem get_res (r : Res α) : Get h K (.done r) r Eq := by
  cases r with
  | ok a => exact ⟨rfl, a, rfl, rfl⟩
  | error e => exact ⟨rfl, rfl⟩

theorem get_resOf {r r' : Res α} (he : r = r') : Get h K (.done r) r' Eq := he ▸ get_res r

theorem get_bind {p : Prog α} {r : Res γ} {rel : α → γ → Prop} {q : α → Prog δ} {t : γ → Res ε}
    {rel' : δ → ε → Prop} (hp : Get h K p r rel) (hq : ∀ a c, r = .ok c → rel a c → Get h K (q a) (t c) rel') :
    Get h K (p >>= q) (r >>= t) rel' := by
  refine wp_andThen _ _ (wp_mono ?_ _ _ hp)
  rintro res h' ⟨rfl, hr⟩
  cases r with
  | error e =>
    dsimp only at hr
    subst hr
    exact ⟨rfl, rfl⟩
  | ok c =>
    obtain ⟨a, rfl, ha⟩ := hr
    exact hq a c rfl ha

theorem get_read {x : Nat} {k : Block → Prog α} {r : Res γ} {rel : α → γ → Prop} {b : Block} (hb : h.mem x = b)
    (hn : ∀ y, b ≠ .bytes y) (hx : K x) (hk : Get h K (k b) r rel) : Get h K (.read x k) r rel := by
  refine ⟨⟨hx, fun y => hb ▸ hn y⟩, ?_⟩
  rw [hb]
  exact hk

theorem get_map {p : Prog Nat} {r : Res Nat} {f : Nat → Nat} (hp : Get h K p r Eq) :
    Get h K (p >>= fun k => pure (f k)) (f <$> r) Eq :=
  get_bind (t := fun k => .ok (f k)) hp (fun _ _ _ he => get_done (congrArg f he))

theorem get_object {a : Nat} {v : MVal} {t : Val} (hm : h.mem a = .object v) (hk : K a)
    (hs : MemShows h π K v t) : Get h K (objectP a) (.ok t) (MemShows h π K) :=
  get_read hm nofun hk (get_done hs)

theorem get_some {p : Prog α} {c : γ} {rel : α → γ → Prop} (hp : Get h K p (.ok c) rel) :
    Get h K (some <$> p) (.ok (some c)) (OptRel rel) :=
  get_bind (q := fun a => pure (some a)) (t := fun c => .ok (some c)) hp (fun _ _ _ hr => get_done (.some hr))

theorem shows_list {vs : List MVal} {ts : List Val} (hs : MemShowsList h π K vs ts) :
    Both (MemShows h π K) vs ts := by
  induction vs generalizing ts with
  | nil => cases hs; exact .nil
  | cons v vs ih =>
    cases hs with
    | cons _ _ _ _ h1 h2 => exact .cons h1 (ih h2)

/-- The entries of two maps are related. -/
abbrev EntryShows (h : Store) (π : Order) (K : Blocks) (e : MVal × MVal) (c : Key × Val) : Prop :=
  MemShows h π K e.1 c.1.toVal ∧ MemShows h π K e.2 c.2

theorem shows_table {es : List (MVal × MVal)} {ts : List (Key × Val)} (hs : MemShowsTable h π K es ts) :
    Both (EntryShows h π K) es ts := by
  induction es generalizing ts with
  | nil => cases hs; exact .nil
  | cons v vs ih =>
    cases hs with
    | cons _ _ _ _ _ _ h1 h2 h3 => exact .cons ⟨h1, h2⟩ (ih h3)

theorem get_elems {v : MVal} {t : Val} (hs : MemShows h π K v t) :
    Get h K (elemsP v) t.asSlice (Both (MemShows h π K)) := by
  cases hs with
  | sliceNil => exact get_done .nil
  | slice a len xs ts hm hk hl hs =>
    refine get_read hm nofun hk ?_
    dsimp only
    rw [if_pos hl]
    exact get_done (shows_list hs)
  | _ => exact get_fail _

theorem get_entries {v : MVal} {t : Val} (hs : MemShows h π K v t) :
    Get h K (entriesP π v) t.asMap (Both (EntryShows h π K)) := by
  cases hs with
  | mapNil => exact get_done .nil
  | map a es ts hm hk hs => exact get_read hm nofun hk (get_done (shows_table hs))
  | _ => exact get_fail _

theorem get_oneof (f : FieldDesc) {p : MVal} {t : Val} (hs : MemShows h π K p t) :
    Get h K (oneofTargetP f p) (oneofTarget f t) (OptRel (MemShows h π K)) := by
  unfold oneofTargetP oneofTarget
  cases f.oneof with
  | none => exact get_done (.some hs)
  | some w =>
    cases hs with
    | ifaceNil => exact get_done .none
    | ifaceNilPtr w' => exact get_done .none
    | iface w' a v t hm hk hs =>
      dsimp only
      split
      · exact get_some (get_object hm hk hs)
      · exact get_done .none
    | _ => exact get_fail _

theorem get_deref (t : GoType) {p : MVal} {x : Val} (hs : MemShows h π K p x) :
    Get h K (derefFieldP t p) (derefField t x) (fun a c => a.1 = c.1 ∧ MemShows h π K a.2 c.2) := by
  unfold derefFieldP derefField
  cases t with
  | ptr t' =>
    cases hs with
    | ptrNil => exact get_fail _
    | ptr a v y hm hk hs =>
      exact get_bind (q := fun v => pure (t', v)) (t := fun y => .ok (t', y)) (get_object hm hk hs)
        (fun _ _ _ hr => get_done ⟨rfl, hr⟩)
    | _ => exact get_fail _
  | _ => exact get_done ⟨rfl, hs⟩

theorem get_elemBase (vt : GoType) {p : MVal} {x : Val} (hs : MemShows h π K p x) :
    Get h K (elemBaseP vt p) (elemBase vt x) (OptRel (MemShows h π K)) := by
  unfold elemBaseP elemBase
  cases vt with
  | ptr t' =>
    cases hs with
    | ptrNil => exact get_done .none
    | ptr a v y hm hk hs => exact get_some (get_object hm hk hs)
    | _ => exact get_fail _
  | _ => exact get_done (.some hs)

theorem get_foldlM {p : Nat → α → Prog Nat} {r : Nat → γ → Res Nat} {rel : α → γ → Prop} :
    ∀ {as : List α} {cs : List γ}, Both rel as cs →
      (∀ n a c, rel a c → Get h K (p n a) (r n c) Eq) → ∀ n, Get h K (as.foldlM p n) (cs.foldlM r n) Eq := by
  intro as cs hb hp
  induction hb with
  | nil => exact fun n => get_done rfl
  | cons h1 _ ih =>
    intro n
    rw [List.foldlM_cons, List.foldlM_cons]
    refine get_bind (hp n _ _ h1) ?_
    rintro a _ _ rfl
    exact ih a

theorem view_length {v : View} {x : Bytes} (hr : h.read v = .ok x) : v.len = x.length :=
  holds_length (dst := some v) hr

theorem asW32_eq {v : MVal} {t : Val} (hs : MemShows h π K v t) : v.asW32 = t.asW32 := by cases hs <;> rfl
theorem asW64_eq {v : MVal} {t : Val} (hs : MemShows h π K v t) : v.asW64 = t.asW64 := by cases hs <;> rfl

theorem strLen_eq {v : MVal} {t : Val} (hs : MemShows h π K v t) : v.strLen = List.length <$> t.asStr := by
  cases hs with
  | str v x hr _ => exact congrArg Except.ok (view_length hr)
  | bytes v x hr _ => exact congrArg Except.ok (view_length hr)
  | _ => rfl

theorem strSize_eq {v : MVal} {t : Val} (hs : MemShows h π K v t) :
    ((fun n => sizeBytes n) <$> v.strLen) = (fun s => sizeBytes s.length) <$> t.asStr := by
  rw [strLen_eq hs]
  cases t.asStr <;> rfl

theorem sizeCoder_eq (c : Coder) {v : MVal} {t : Val} (hs : MemShows h π K v t) :
    sizeCoderM c v = sizeCoder c t := by
  unfold sizeCoderM sizeCoder
  cases c <;> simp only [asW32_eq hs, asW64_eq hs, strSize_eq hs]

theorem callSize_eq (f : Option Coder) {v : MVal} {t : Val} (hs : MemShows h π K v t) :
    callSizeM f v = callSize f t := by
  cases f with
  | none => rfl
  | some c => exact sizeCoder_eq c hs

theorem lenWord_eq {v : MVal} {t : Val} (hs : MemShows h π K v t) : v.len = t.len := by
  cases hs with
  | str v x hr hk => exact congrArg Except.ok (view_length hr)
  | bytes v x hr hk => exact congrArg Except.ok (view_length hr)
  | slice a len xs ts hm hk hl hs =>
    have : ∀ {vs : List MVal} {ts : List Val}, Both (MemShows h π K) vs ts → vs.length = ts.length := by
      intro vs ts hb
      induction hb with
      | nil => rfl
      | cons _ _ ih => rw [List.length_cons, List.length_cons, ih]
    have h1 := this (shows_list hs)
    rw [List.length_take, Nat.min_eq_left hl] at h1
    exact congrArg Except.ok h1
  | _ => rfl

theorem skip_eq (ssize : Nat → Nat) (ty : GoType) {v : MVal} {t : Val} (hs : MemShows h π K v t) :
    v.skipZero ssize ty = skipZero ssize ty t := by
  unfold MVal.skipZero skipZero
  rw [memZero_eq hs, lenWord_eq hs]

theorem get_mapFast (kc vc : Coder) (n : Nat) {v : MVal} {t : Val} (hs : MemShows h π K v t) :
    Get h K (sizeMapFastP π kc vc v n) (sizeMapFast kc vc t n) Eq := by
  unfold sizeMapFastP sizeMapFast
  refine get_bind (get_entries hs) (fun es ts _ hb => get_foldlM hb (fun m e c hec => ?_) 0)
  refine get_bind (get_resOf (sizeCoder_eq kc hec.1)) ?_
  rintro k _ _ rfl
  refine get_bind (get_resOf (sizeCoder_eq vc hec.2)) ?_
  rintro x _ _ rfl
  exact get_done rfl

/-- The recursive calls agree. -/
def RecGet (h : Store) (π : Order) (K : Blocks) (rec : SizeRecP) (rec' : SizeRec) : Prop :=
  ∀ v t sid, OptRel (MemShows h π K) v t → Get h K (rec v sid) (rec' t sid) Eq

variable {rec : SizeRecP} {rec' : SizeRec}

theorem get_listField (hrec : RecGet h π K rec rec') (f : FieldDesc) (ty : GoType) {v : MVal} {t : Val}
    (hs : MemShows h π K v t) : Get h K (sizeListFieldP rec f ty v) (sizeListField rec' f ty t) Eq := by
  unfold sizeListFieldP sizeListField
  refine get_bind (get_elems hs) (fun vs ts _ hb => ?_)
  cases hb with
  | nil => exact get_done rfl
  | cons h1 h2 =>
    have hb := Both.cons h1 h2
    rw [if_neg (by simp), if_neg (by simp)]
    cases ty.elem with
    | none => exact get_fail _
    | some vt =>
      dsimp only
      by_cases hp : f.packed = true
      · rw [if_pos hp, if_pos hp]
        refine get_bind (get_foldlM hb (fun n a c hac => ?_) 0) ?_
        · exact get_map (f := fun k => n + k) (get_resOf (callSize_eq f.sizeFunc hac))
        · rintro n _ _ rfl
          exact get_done rfl
      · rw [if_neg hp, if_neg hp]
        cases f.sizeFunc with
        | some c =>
          exact get_foldlM hb (fun n a x hax => get_map (f := fun k => n + (f.wireTagSize + k)) (get_resOf (sizeCoder_eq c hax))) 0
        | none =>
          refine get_bind (get_res (elemStruct vt)) ?_
          rintro sid _ _ rfl
          refine get_foldlM hb (fun n a c hac => ?_) 0
          refine get_bind (get_elemBase vt hac) (fun base base' _ ho => ?_)
          refine get_bind (hrec _ _ sid ho) ?_
          rintro sz _ _ rfl
          exact get_done rfl

theorem get_structEntry (hrec : RecGet h π K rec rec') (f : FieldDesc) (vt : GoType) (sid n : Nat)
    {keySize : MVal → Res Nat} {keySize' : Val → Res Nat} {e : MVal × MVal} {c : Key × Val}
    (hk : keySize e.1 = keySize' c.1.toVal) (hec : EntryShows h π K e c) :
    Get h K (sizeStructEntryP rec f vt sid keySize n e) (sizeStructEntry rec' f vt sid keySize' n c) Eq := by
  unfold sizeStructEntryP sizeStructEntry
  refine get_bind (get_resOf hk) ?_
  rintro k _ _ rfl
  refine get_bind (get_elemBase vt hec.2) (fun base base' _ ho => ?_)
  refine get_bind (hrec _ _ sid ho) ?_
  rintro sz _ _ rfl
  exact get_done rfl

theorem get_entryGeneric (hrec : RecGet h π K rec rec') (f : FieldDesc) (vt : GoType) (n : Nat)
    {e : MVal × MVal} {c : Key × Val} (hec : EntryShows h π K e c) :
    Get h K (sizeEntryGenericP rec f vt n e) (sizeEntryGeneric rec' f vt n c) Eq := by
  unfold sizeEntryGenericP sizeEntryGeneric
  refine get_bind (get_resOf (callSize_eq f.keySize hec.1)) ?_
  rintro k _ _ rfl
  cases f.valSize with
  | some c' =>
    refine get_bind (get_resOf (sizeCoder_eq c' hec.2)) ?_
    rintro x _ _ rfl
    exact get_done rfl
  | none =>
    dsimp only
    have hv : Get h K (Prog.done (elemStruct vt) >>= fun sid => elemBaseP vt e.2 >>= fun base =>
        rec base sid >>= fun sz => pure (sizeBytes sz))
        (elemStruct vt >>= fun sid => elemBase vt c.2 >>= fun base => rec' base sid >>= fun sz =>
          pure (sizeBytes sz)) Eq := by
      refine get_bind (get_res (elemStruct vt)) ?_
      rintro sid _ _ rfl
      refine get_bind (get_elemBase vt hec.2) (fun base base' _ ho => ?_)
      refine get_bind (hrec _ _ sid ho) ?_
      rintro sz _ _ rfl
      exact get_done rfl
    have := get_bind (q := fun x => pure (n + (f.wireTagSize + sizeBytes (1 + k + (1 + x)))))
      (t := fun x => pure (n + (f.wireTagSize + sizeBytes (1 + k + (1 + x))))) (rel' := Eq) hv (by
        rintro x _ _ rfl
        exact get_done rfl)
    simp only [prog_assoc, bind_assoc] at this ⊢
    exact this

theorem get_mapField (hrec : RecGet h π K rec rec') (f : FieldDesc) {v : MVal} {t : Val}
    (hs : MemShows h π K v t) : Get h K (sizeMapFieldP π rec f v) (sizeMapField rec' f t) Eq := by
  unfold sizeMapFieldP sizeMapField
  cases f.sizeMap with
  | some c => exact get_mapFast c.1 c.2 _ hs
  | none =>
    cases f.t with
    | map kt vt =>
      dsimp only
      refine get_bind (get_entries hs) (fun es ts _ hb => ?_)
      split
      · refine get_bind (get_res (elemStruct vt)) ?_
        rintro sid _ _ rfl
        exact get_foldlM hb (fun n e c hec => get_structEntry hrec f vt sid n (by rw [asW64_eq hec.1]) hec) 0
      · split
        · refine get_bind (get_res (elemStruct vt)) ?_
          rintro sid _ _ rfl
          exact get_foldlM hb (fun n e c hec => get_structEntry hrec f vt sid n (by rw [asW32_eq hec.1]) hec) 0
        · split
          · refine get_bind (get_res (elemStruct vt)) ?_
            rintro sid _ _ rfl
            exact get_foldlM hb (fun n e c hec => get_structEntry hrec f vt sid n (strSize_eq hec.1) hec) 0
          · exact get_foldlM hb (fun n e c hec => get_entryGeneric hrec f vt n hec) 0
    | _ => exact get_fail _

theorem get_present (hrec : RecGet h π K rec rec') (f : FieldDesc) (n : Nat) {v : MVal} {t : Val}
    (hs : MemShows h π K v t) : Get h K (sizePresentP π rec f n v) (sizePresent rec' f n t) Eq := by
  unfold sizePresentP sizePresent
  refine get_bind (get_deref f.t hs) ?_
  rintro ⟨ty, p⟩ ⟨_, x⟩ _ ⟨rfl, hp⟩
  dsimp only at hp ⊢
  split
  · exact get_map (f := fun k => n + (f.wireTagSize + k)) (get_resOf (callSize_eq _ hp))
  · split
    · exact get_map (f := fun k => n + k) (get_listField hrec f ty hp)
    · split
      · exact get_map (f := fun k => n + k) (get_mapField hrec f hp)
      · cases ty.structId with
        | some sid => exact get_map (f := fun sz => n + (f.wireTagSize + sizeBytes sz)) (hrec _ _ sid (.some hp))
        | none => exact get_fail _

theorem get_field (ssize : Nat → Nat) (hrec : RecGet h π K rec rec') {fs : List MVal} {ts : List Val}
    (hb : Both (MemShows h π K) fs ts) (n : Nat) (f : FieldDesc) :
    Get h K (sizeFieldP π ssize rec fs n f) (sizeField ssize rec' ts n f) Eq := by
  unfold sizeFieldP sizeField
  rcases both_get hb f.slot with ⟨h1, h2⟩ | ⟨v, t, h1, h2, h3⟩
  · rw [h1, h2]
    exact get_fail _
  · rw [h1, h2]
    dsimp only
    refine get_bind (get_oneof f h3) (fun o o' _ ho => ?_)
    cases ho with
    | none => exact get_done rfl
    | some hx =>
      dsimp only
      refine get_bind (get_resOf (skip_eq ssize f.t hx)) ?_
      rintro z _ _ rfl
      cases z with
      | true => exact get_done rfl
      | false => exact get_present hrec f n hx

theorem get_unknown (sd : StructDesc) {fs : List MVal} {ts : List Val} (hb : Both (MemShows h π K) fs ts) :
    Get h K (unknownLenP sd fs) (unknownBytes sd ts) (fun n u => n = u.length) := by
  unfold unknownLenP unknownBytes
  cases sd.unknown with
  | none => exact get_done rfl
  | some p =>
    obtain ⟨slot, isPtr⟩ := p
    dsimp only
    rcases both_get hb slot with ⟨h1, h2⟩ | ⟨v, t, h1, h2, h3⟩
    · rw [h1, h2]
      cases isPtr <;> exact get_fail _
    · rw [h1, h2]
      cases isPtr
      · cases h3 with
        | bytesNil => exact get_done rfl
        | bytes v x hr hk => exact get_done (view_length hr)
        | _ => exact get_fail _
      · cases h3 with
        | ptrNil => exact get_done rfl
        | ptr a v t hm hk hs =>
          dsimp only
          cases hs with
          | bytesNil => exact get_read hm nofun hk (get_done rfl)
          | bytes v x hr hk' => exact get_read hm nofun hk (get_done (view_length hr))
          | _ => exact get_read hm nofun hk (get_fail _)
        | _ => exact get_fail _

theorem get_struct {D : Descs} (hD : ∀ id, flat (D id).empty = true) : ∀ (depth : Nat), RecGet h π K (sizeStructP D π depth)
    (sizeStruct D depth)
  | 0, _, _, _, _ => get_fail _
  | depth + 1, v, t, sid, ho => by
    have hb : MemShows h π K (v.getD (ofFlat (D sid).empty)) (t.getD (D sid).empty) := by
      cases ho with
      | none => exact shows_flat _ _ _ _ (hD sid)
      | some hx => exact hx
    unfold sizeStructP sizeStruct
    generalize v.getD (ofFlat (D sid).empty) = v' at hb
    generalize t.getD (D sid).empty = t' at hb
    cases hb with
    | struct fs ts hl =>
      dsimp only
      have hf := shows_list hl
      refine get_bind (get_foldlM (rel := Eq) ?_ (fun n f _ he => he ▸ get_field _ (get_struct hD depth) hf n f) 0) ?_
      · generalize (D sid).fields = l
        induction l with
        | nil => exact .nil
        | cons a l ih => exact .cons rfl ih
      · rintro n _ _ rfl
        exact get_bind (get_unknown _ hf) (fun u x _ he => get_done (congrArg (n + ·) he))
    | _ => exact get_fail _

end Verif.Lemmas.Mem
