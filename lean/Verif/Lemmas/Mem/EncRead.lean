import Verif.Lemmas.Mem.Enc
/-!
# What the encoder reads of a message in memory
-/
namespace Verif.Lemmas.Mem
open Verif.Model Verif.Model.Mem Verif.Spec

variable {s : Site} {π : Order}

/-- The value in memory is the tree. -/
abbrev Site.Sh (s : Site) (π : Order) : MVal → Val → Prop := MemShows s.mem π s.msg

/-- What a coder sees of a value. -/
def flatOf : Val → Val
  | .w32 v => .w32 v
  | .w64 v => .w64 v
  | .bool b => .bool b
  | .str x => .str x
  | .bytes x => .bytes x
  | _ => .undef

theorem flatOf_asW32 (t : Val) : (flatOf t).asW32 = t.asW32 := by cases t <;> rfl
theorem flatOf_asW64 (t : Val) : (flatOf t).asW64 = t.asW64 := by cases t <;> rfl
theorem flatOf_asBool (t : Val) : (flatOf t).asBool = t.asBool := by cases t <;> rfl
theorem flatOf_asStr (t : Val) : (flatOf t).asStr = t.asStr := by cases t <;> rfl

theorem appendCoder_flat (c : Coder) (b : Bytes) (t : Val) : appendCoder c b (flatOf t) = appendCoder c b t := by
  unfold appendCoder
  cases c <;> simp only [flatOf_asW32, flatOf_asW64, flatOf_asBool, flatOf_asStr]

theorem sizeCoder_flat (c : Coder) (t : Val) : sizeCoder c (flatOf t) = sizeCoder c t := by
  unfold sizeCoder
  cases c <;> simp only [flatOf_asW32, flatOf_asW64, flatOf_asStr]

theorem appendMapValue_flat (c : Coder) (b : Bytes) (t : Val) :
    appendMapValue c b (flatOf t) = appendMapValue c b t := by
  unfold appendMapValue
  cases c <;> simp only [flatOf_asW32, flatOf_asW64, flatOf_asBool, flatOf_asStr]

theorem mapM_flat {α : Type} {f : Val → Res α} (hf : ∀ t, f (flatOf t) = f t) :
    ∀ ts : List Val, (ts.map flatOf).mapM f = ts.mapM f
  | [] => rfl
  | t :: ts => by rw [List.map_cons, List.mapM_cons, List.mapM_cons, hf, mapM_flat hf ts]

/-- What a coder sees of a list. -/
def flatListOf (t : Val) : Res Val := (fun ts => .slice (ts.map flatOf)) <$> t.asSlice

theorem appendPackedCoder_flat (c : Coder) (b : Bytes) (t : Val) :
    (flatListOf t >>= fun x => appendPackedCoder c b x) = appendPackedCoder c b t := by
  unfold flatListOf appendPackedCoder
  cases ht : t.asSlice with
  | error e => rfl
  | ok ts =>
    cases c <;> first
      | rfl
      | exact congrArg (Functor.map _) (mapM_flat flatOf_asW32 ts)
      | exact congrArg (Functor.map _) (mapM_flat flatOf_asW64 ts)
      | exact congrArg (Functor.map _) (mapM_flat flatOf_asBool ts)
      | exact congrArg (Functor.map _) (mapM_flat flatOf_asStr ts)

theorem appendListCoder_flat (c : Coder) (b : Bytes) (tag : BitVec 64) (t : Val) :
    (flatListOf t >>= fun x => appendListCoder c b tag x) = appendListCoder c b tag t := by
  unfold flatListOf appendListCoder
  cases ht : t.asSlice with
  | error e => rfl
  | ok ts =>
    cases c <;> first
      | rfl
      | exact congrArg (Functor.map _) (mapM_flat flatOf_asW32 ts)
      | exact congrArg (Functor.map _) (mapM_flat flatOf_asW64 ts)
      | exact congrArg (Functor.map _) (mapM_flat flatOf_asBool ts)
      | exact congrArg (Functor.map _) (mapM_flat flatOf_asStr ts)

theorem appendMapEntry_flat (kc vc : Coder) (tag : BitVec 64) (b : Bytes) (k : Key) (t : Val) :
    appendMapEntry kc vc tag b (k, flatOf t) = appendMapEntry kc vc tag b (k, t) := by
  unfold appendMapEntry
  simp only [appendMapValue_flat]

/-! ## reading -/

theorem rd_view {v : View} {x : Bytes} {f : Bytes → Res γ} (hr : s.mem.read v = .ok x) (hm : s.msg v.addr) :
    s.Rd (.read v.addr (fun b => .done (b.view v >>= f))) (f x) Eq := by
  refine rd_read hm ?_
  rw [view_eq, hr]
  exact rd_res (f x)

theorem rd_view_map {v : View} {x : Bytes} {f : Bytes → γ} (hr : s.mem.read v = .ok x) (hm : s.msg v.addr) :
    s.Rd (.read v.addr (fun b => .done (f <$> b.view v))) (.ok (f x)) Eq := by
  refine rd_read hm ?_
  rw [view_eq, hr]
  exact rd_done rfl

theorem rd_flat {v : MVal} {t : Val} (h : s.Sh π v t) : s.Rd (flatP v) (.ok (flatOf t)) Eq := by
  cases h with
  | str v x hr hk => exact rd_view_map hr hk
  | bytes v x hr hk => exact rd_view_map hr hk
  | _ => exact rd_done rfl

theorem both_of_list {vs : List MVal} {ts : List Val} (h : MemShowsList s.mem π s.msg vs ts) :
    Both (s.Sh π) vs ts := by
  induction vs generalizing ts with
  | nil => cases h; exact .nil
  | cons v vs ih =>
    cases h with
    | cons _ _ _ _ h1 h2 => exact .cons h1 (ih h2)

/-- The entries of two maps are related. -/
def Site.ShE (s : Site) (π : Order) (e : MVal × MVal) (c : Key × Val) : Prop :=
  s.Sh π e.1 c.1.toVal ∧ s.Sh π e.2 c.2

theorem both_of_table {es : List (MVal × MVal)} {ts : List (Key × Val)}
    (h : MemShowsTable s.mem π s.msg es ts) : Both (s.ShE π) es ts := by
  induction es generalizing ts with
  | nil => cases h; exact .nil
  | cons e es ih =>
    cases h with
    | cons _ _ _ _ _ _ h1 h2 h3 => exact .cons ⟨h1, h2⟩ (ih h3)

theorem rd_elems {v : MVal} {t : Val} (h : s.Sh π v t) : s.Rd (elemsP v) t.asSlice (Both (s.Sh π)) := by
  cases h with
  | sliceNil => exact rd_done .nil
  | slice a len xs ts hm hk hl hs =>
    refine rd_read hk ?_
    rw [hm]
    dsimp only
    rw [if_pos hl]
    exact rd_done (both_of_list hs)
  | _ => exact rd_fail _

theorem rd_entries {v : MVal} {t : Val} (h : s.Sh π v t) : s.Rd (entriesP π v) t.asMap (Both (s.ShE π)) := by
  cases h with
  | mapNil => exact rd_done .nil
  | map a es ts hm hk hs =>
    refine rd_read hk ?_
    rw [hm]
    exact rd_done (both_of_table hs)
  | _ => exact rd_fail _

theorem rd_object {a : Nat} {v : MVal} (hm : s.mem.mem a = .object v) (hk : s.msg a) :
    s.Rd (objectP a) (.ok v) Eq := by
  refine rd_read hk ?_
  rw [hm]
  exact rd_done rfl

theorem rd_rel {α γ : Type} {p : Prog α} {r : Res γ} {rel rel' : α → γ → Prop} (h : s.Rd p r rel)
    (hr : ∀ a c, r = .ok c → rel a c → rel' a c) : s.Rd p r rel' := by
  intro g hf
  refine wp_mono ?_ _ _ (h g hf)
  rintro res h' ⟨rfl, hq⟩
  refine ⟨rfl, ?_⟩
  cases r with
  | error e => exact hq
  | ok c =>
    obtain ⟨a, h1, h2⟩ := hq
    exact ⟨a, h1, hr a c rfl h2⟩

theorem rd_objectOf {a : Nat} {v : MVal} {t : Val} (hm : s.mem.mem a = .object v) (hk : s.msg a)
    (h : s.Sh π v t) : s.Rd (objectP a) (.ok t) (s.Sh π) := by
  refine rd_read hk ?_
  rw [hm]
  exact rd_done h

/-- Both are nothing, or related. -/
inductive OptRel {α γ : Type} (rel : α → γ → Prop) : Option α → Option γ → Prop
  | none : OptRel rel none none
  | some {a : α} {c : γ} : rel a c → OptRel rel (some a) (some c)

theorem rd_some {α γ : Type} {p : Prog α} {c : γ} {rel : α → γ → Prop} (h : s.Rd p (.ok c) rel) :
    s.Rd (some <$> p) (.ok (some c)) (OptRel rel) :=
  rd_bind (q := fun a => pure (some a)) (t := fun c => .ok (some c)) h (fun _ _ _ hr => rd_done (.some hr))

theorem rd_oneof (f : FieldDesc) {p : MVal} {t : Val} (h : s.Sh π p t) :
    s.Rd (oneofTargetP f p) (oneofTarget f t) (OptRel (s.Sh π)) := by
  unfold oneofTargetP oneofTarget
  cases f.oneof with
  | none => exact rd_done (.some h)
  | some w =>
    cases h with
    | ifaceNil => exact rd_done .none
    | ifaceNilPtr w' => exact rd_done .none
    | iface w' a v t hm hk hs =>
      dsimp only
      split
      · exact rd_some (rd_objectOf hm hk hs)
      · exact rd_done .none
    | _ => exact rd_fail _

theorem rd_deref (t : GoType) {p : MVal} {x : Val} (h : s.Sh π p x) :
    s.Rd (derefFieldP t p) (derefField t x) (fun a c => a.1 = c.1 ∧ s.Sh π a.2 c.2) := by
  unfold derefFieldP derefField
  cases t with
  | ptr t' =>
    cases h with
    | ptrNil => exact rd_fail _
    | ptr a v y hm hk hs =>
      exact rd_bind (q := fun v => pure (t', v)) (t := fun y => .ok (t', y)) (rd_objectOf hm hk hs)
        (fun _ _ _ hr => rd_done ⟨rfl, hr⟩)
    | _ => exact rd_fail _
  | _ => exact rd_done ⟨rfl, h⟩

theorem rd_elemBase (vt : GoType) {p : MVal} {x : Val} (h : s.Sh π p x) :
    s.Rd (elemBaseP vt p) (elemBase vt x) (OptRel (s.Sh π)) := by
  unfold elemBaseP elemBase
  cases vt with
  | ptr t' =>
    cases h with
    | ptrNil => exact rd_done .none
    | ptr a v y hm hk hs => exact rd_some (rd_objectOf hm hk hs)
    | _ => exact rd_fail _
  | _ => exact rd_done (.some h)

theorem rd_key {k : MVal} {c : Key} (h : s.Sh π k c.toVal) : s.Rd (keyValP k) (.ok c) Eq := by
  cases c with
  | w32 v => cases h; exact rd_done rfl
  | w64 v => cases h; exact rd_done rfl
  | bool v => cases h; exact rd_done rfl
  | str x =>
    cases h with
    | strNil => exact rd_done rfl
    | str v _ hr hk =>
      unfold keyValP keyP
      refine rd_bind (rel := Eq) (r := .ok (.ok (Key.str x))) (t := fun c => c) (rd_read hk ?_) (fun a c _ he => ?_)
      · rw [view_eq, hr]
        exact rd_done rfl
      · subst he
        exact rd_res a

theorem rd_each {α γ : Type} {p : MVal → Prog α} {f : Val → γ} {rel : α → γ → Prop}
    (hp : ∀ v t, s.Sh π v t → s.Rd (p v) (.ok (f t)) rel) :
    ∀ {vs : List MVal} {ts : List Val}, Both (s.Sh π) vs ts → s.Rd (eachP p vs) (.ok (ts.map f)) (Both rel) := by
  intro vs ts hb
  induction hb with
  | nil => exact rd_done .nil
  | cons h1 _ ih =>
    exact rd_bind (t := fun x => .ok (x :: List.map f _)) (hp _ _ h1) fun a c _ hr =>
      rd_bind (t := fun xs => .ok (c :: xs)) ih fun as cs _ hrs => rd_done (.cons hr hrs)

theorem both_eq {α : Type} : ∀ {as cs : List α}, Both Eq as cs → as = cs
  | [], _, h => by cases h; rfl
  | a :: as, _, h => by
    cases h with
    | cons h1 h2 => rw [h1, both_eq h2]

theorem rd_flatList {v : MVal} {t : Val} (h : s.Sh π v t) : s.Rd (flatListP v) (flatListOf t) Eq := by
  refine rd_bind (t := fun ts => .ok (Val.slice (ts.map flatOf))) (rd_elems h) fun vs ts _ hb => ?_
  refine rd_bind (r := .ok (ts.map flatOf)) (t := fun xs => .ok (Val.slice xs)) (rd_each (fun v t h => rd_flat h) hb)
    fun as cs _ hr => ?_
  rw [both_eq hr]
  exact rd_done rfl

theorem both_get {α γ : Type} {rel : α → γ → Prop} {as : List α} {cs : List γ} (hb : Both rel as cs) :
    ∀ i : Nat, (as[i]? = none ∧ cs[i]? = none) ∨ ∃ a c, as[i]? = some a ∧ cs[i]? = some c ∧ rel a c := by
  induction hb with
  | nil => intro i; exact .inl ⟨rfl, rfl⟩
  | cons h1 _ ih =>
    intro i
    cases i with
    | zero => exact .inr ⟨_, _, rfl, rfl, h1⟩
    | succ i => exact ih i

theorem rd_unknown (sd : StructDesc) {fs : List MVal} {ts : List Val} (h : Both (s.Sh π) fs ts) :
    s.Rd (unknownBytesP sd fs) (unknownBytes sd ts) Eq := by
  unfold unknownBytesP unknownBytes
  cases sd.unknown with
  | none => exact rd_done rfl
  | some p =>
    obtain ⟨slot, isPtr⟩ := p
    dsimp only
    rcases both_get h slot with ⟨h1, h2⟩ | ⟨v, t, h1, h2, h3⟩
    · rw [h1, h2]
      cases isPtr <;> exact rd_fail _
    · rw [h1, h2]
      cases isPtr
      · cases h3 with
        | bytesNil => exact rd_done rfl
        | bytes v x hr hk => exact rd_view (f := fun x => .ok x) hr hk
        | _ => exact rd_fail _
      · cases h3 with
        | ptrNil => exact rd_done rfl
        | ptr a v t hm hk hs =>
          dsimp only
          cases hs with
          | bytesNil => exact rd_read hk (by rw [hm]; exact rd_done rfl)
          | bytes v x hr hk' =>
            refine rd_read hk ?_
            rw [hm]
            exact rd_view (f := fun x => .ok x) hr hk'
          | _ => exact rd_read hk (by rw [hm]; exact rd_fail _)
        | _ => exact rd_fail _

/-! ## what is seen without reading -/

theorem len_eq {v : MVal} {t : Val} (h : s.Sh π v t) : v.len = t.len := by
  cases h with
  | str v x hr hk => exact congrArg Except.ok (holds_length (h := s.mem) (dst := some v) hr)
  | bytes v x hr hk => exact congrArg Except.ok (holds_length (h := s.mem) (dst := some v) hr)
  | slice a len xs ts hm hk hl hs =>
    have : ∀ {vs : List MVal} {ts : List Val}, Both (s.Sh π) vs ts → vs.length = ts.length := by
      intro vs ts hb
      induction hb with
      | nil => rfl
      | cons _ _ ih => rw [List.length_cons, List.length_cons, ih]
    have h1 := this (both_of_list hs)
    rw [List.length_take, Nat.min_eq_left hl] at h1
    exact congrArg Except.ok h1
  | _ => rfl

mutual
theorem memZero_eq {h : Store} {K : Blocks} : ∀ {v : MVal} {t : Val}, MemShows h π K v t →
    v.memZero = t.memZero
  | _, _, .struct fs ts hl => by
    show Model.Mem.memZeros fs = Model.memZeros ts
    exact memZeros_eq hl
  | _, _, .w32 _ => rfl
  | _, _, .w64 _ => rfl
  | _, _, .bool _ => rfl
  | _, _, .opaque _ => rfl
  | _, _, .undef => rfl
  | _, _, .strNil => rfl
  | _, _, .str _ _ _ _ => rfl
  | _, _, .bytesNil => rfl
  | _, _, .bytes _ _ _ _ => rfl
  | _, _, .ptrNil => rfl
  | _, _, .ptr _ _ _ _ _ _ => rfl
  | _, _, .sliceNil => rfl
  | _, _, .slice _ _ _ _ _ _ _ _ => rfl
  | _, _, .mapNil => rfl
  | _, _, .map _ _ _ _ _ _ => rfl
  | _, _, .ifaceNil => rfl
  | _, _, .ifaceNilPtr _ => rfl
  | _, _, .iface _ _ _ _ _ _ _ => rfl
theorem memZeros_eq {h : Store} {K : Blocks} : ∀ {vs : List MVal} {ts : List Val}, MemShowsList h π K vs ts →
    Model.Mem.memZeros vs = Model.memZeros ts
  | _, _, .nil => rfl
  | _, _, .cons v t vs ts h1 h2 => by
    show (v.memZero && Model.Mem.memZeros vs) = (t.memZero && Model.memZeros ts)
    rw [memZero_eq h1, memZeros_eq h2]
end

theorem skipZero_eq (ssize : Nat → Nat) (ty : GoType) {v : MVal} {t : Val} (h : s.Sh π v t) :
    v.skipZero ssize ty = skipZero ssize ty t := by
  unfold MVal.skipZero skipZero
  rw [memZero_eq h, len_eq h]

end Verif.Lemmas.Mem
