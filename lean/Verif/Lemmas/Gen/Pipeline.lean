import Verif.Spec.Gen.Texts
import Verif.Props.Gen.Listener
import Verif.Props.Gen.Options
import Verif.Props.Gen.Search
import Verif.Props.Gen.Verify
/-!
# Lemmas on `LoadProto` as a whole
-/
namespace Verif.Props
open Verif.Model.Gen Verif.Spec.Gen

namespace Gen

/-! ## Messages by pointers -/

theorem all2_of_get {α β : Type} {R : α → β → Prop} : ∀ {xs : List α} {ys : List β}, ys.length = xs.length →
    (∀ (k : Nat) (x : α) (y : β), xs[k]? = some x → ys[k]? = some y → R x y) → All2 R xs ys
  | [], [], _, _ => .nil
  | x :: xs, y :: ys, hl, h => .cons (h 0 x y rfl rfl) (all2_of_get (by simpa using hl) fun k a b ha hb => h (k + 1) a b (by simpa using ha) (by simpa using hb))
  | [], _ :: _, hl, _ => by simp at hl
  | _ :: _, [], hl, _ => by simp at hl

theorem all2_map_right {α β γ : Type} {R : α → β → Prop} {g : β → γ} {f : α → γ} (h : ∀ x y, R x y → g y = f x) {xs : List α} {ys : List β} (ha : All2 R xs ys) :
    ys.map g = xs.map f := by
  induction ha with
  | nil => rfl
  | cons h1 _ ih => rw [List.map_cons, List.map_cons, h _ _ h1, ih]

theorem all2_get {α β : Type} {R : α → β → Prop} {xs : List α} {ys : List β} (h : All2 R xs ys) : ∀ {k : Nat} {x : α} {y : β}, xs[k]? = some x → ys[k]? = some y → R x y := by
  induction h with
  | nil => intro k x y h1; simp at h1
  | cons h1 _ ih =>
    intro k x y hx hy
    cases k with
    | zero =>
      simp only [List.getElem?_cons_zero, Option.some.injEq] at hx hy
      subst hx hy
      exact h1
    | succ k =>
      simp only [List.getElem?_cons_succ] at hx hy
      exact ih hx hy

theorem map_get {α β : Type} {g : α → β} {xs : List α} {ys : List β} (hl : xs.length = ys.length)
    (h : ∀ (k : Nat) (x : α) (y : β), xs[k]? = some x → ys[k]? = some y → g x = y) : xs.map g = ys := by
  apply List.ext_getElem?
  intro k
  rw [List.getElem?_map]
  cases hx : xs[k]? with
  | none =>
    rw [List.getElem?_eq_none_iff] at hx
    rw [Option.map_none, eq_comm, List.getElem?_eq_none_iff]
    omega
  | some x =>
    have hk := (List.getElem?_eq_some_iff.1 hx).1
    have hy : ys[k]? = some (ys[k]'(by omega)) := List.getElem?_eq_getElem _
    rw [Option.map_some, hy, h k x _ hx hy]

theorem get_some {α : Type} {xs : List α} {k : Nat} (h : k < xs.length) : ∃ x, xs[k]? = some x := ⟨_, List.getElem?_eq_getElem h⟩

theorem loaded_is {s : LState} {parent : Option Nat} {n : Str} {d : List Str} {es : List MsgElem} {i : Nat} {m : MsgDecl} (h : Loaded s parent n d es i m) :
    MessageIs (n, d, es) m := by
  induction h with
  | mk h1 h2 h3 h4 h5 h6 h7 h8 h9 h10 h11 h12 h13 h14 h15 ih =>
    rename_i parent name directives elems i r enums messages
    have ho : r.oneofs.map OneofRec.name = (oneofsOf 0 elems).map Prod.fst := all2_map_right (fun x y h => h.1) h6
    rw [ho]
    refine .mk (all2_of_get h10 fun k x y hx hy => ?_) h13 (fun k x y hx hy => ?_) h5 h7 h8
    · obtain ⟨j, hj⟩ := get_some (xs := r.enums) (k := k) (by have := (List.getElem?_eq_some_iff.1 hx).1; omega)
      exact (h11 k x j y hx hj hy).2
    · obtain ⟨j, hj⟩ := get_some (xs := r.messages) (k := k) (by have := (List.getElem?_eq_some_iff.1 hx).1; omega)
      exact ih k x.1 x.2.1 x.2.2 j y hx hj hy

theorem loaded_at {s : LState} {parent : Option Nat} {n : Str} {d : List Str} {es : List MsgElem} {i : Nat} {m : MsgDecl} (h : Loaded s parent n d es i m) :
    ∀ fuel, s.msgStore.length - i ≤ fuel → messageAt s fuel i = m := by
  induction h with
  | mk h1 h2 h3 h4 h5 h6 h7 h8 h9 h10 h11 h12 h13 h14 h15 ih =>
    rename_i parent name directives elems i r enums messages
    intro fuel hf
    have hi := (List.getElem?_eq_some_iff.1 h1).1
    cases fuel with
    | zero => omega
    | succ fuel =>
      have he : r.enums.map (enumAt s) = enums := map_get (by omega) fun k j e hj hk => by
        obtain ⟨x, hx⟩ := get_some (xs := enumsOf elems) (k := k) (by have := (List.getElem?_eq_some_iff.1 hk).1; omega)
        rw [enumAt, (h11 k x j e hx hj hk).1]
      have hm : r.messages.map (messageAt s fuel) = messages := map_get (by omega) fun k j m hj hk => by
        obtain ⟨x, hx⟩ := get_some (xs := messagesOf elems) (k := k) (by have := (List.getElem?_eq_some_iff.1 hk).1; omega)
        have hlt := h15 j (List.mem_of_getElem? hj)
        exact ih k x.1 x.2.1 x.2.2 j m hx hj hk fuel (by omega)
      rw [messageAt, h1]
      dsimp only
      rw [he, hm, h2, h3]

theorem fileDecl_is {p : LoadedProto} {t : Text} {s : LState} {enums : List EnumDecl} {messages : List MsgDecl} (h : LoadedFile t.tree s enums messages) :
    FileIs t (fileDecl p t s) := by
  have he : s.enums.map (enumAt s) = enums := map_get (by rw [h.enumIds, h.enumDecls]) fun k j e hj hk => by
    obtain ⟨x, hx⟩ := get_some (xs := topEnums t.tree.elems) (k := k) (by have := (List.getElem?_eq_some_iff.1 hk).1; rw [← h.enumDecls]; omega)
    rw [enumAt, (h.enumsAre k x j e hx hj hk).1]
  have hm : s.messages.map (messageAt s s.msgStore.length) = messages := map_get (by rw [h.messageIds, h.messageDecls]) fun k j m hj hk => by
    obtain ⟨x, hx⟩ := get_some (xs := topMessages t.tree.elems) (k := k) (by have := (List.getElem?_eq_some_iff.1 hk).1; rw [← h.messageDecls]; omega)
    exact loaded_at (h.messagesAre k x.1 x.2.1 x.2.2 j m hx hj hk) _ (by omega)
  refine ⟨h.edition, h.package, rfl, h.options, ?_, ?_⟩
  · show All2 EnumIs _ (s.enums.map (enumAt s))
    rw [he]
    refine all2_of_get h.enumDecls fun k x y hx hy => ?_
    obtain ⟨j, hj⟩ := get_some (xs := s.enums) (k := k) (by have := (List.getElem?_eq_some_iff.1 hx).1; rw [h.enumIds]; omega)
    exact (h.enumsAre k x j y hx hj hy).2
  · show All2 MessageIs _ (s.messages.map (messageAt s s.msgStore.length))
    rw [hm]
    refine all2_of_get h.messageDecls fun k x y hx hy => ?_
    obtain ⟨j, hj⟩ := get_some (xs := s.messages) (k := k) (by have := (List.getElem?_eq_some_iff.1 hx).1; rw [h.messageIds]; omega)
    exact loaded_is (h.messagesAre k x.1 x.2.1 x.2.2 j y hx hj hy)

/-! ## Texts and sources -/

theorem setsLast_get {t : Text} {oo : List Opt} (h : OptionsAre (topOptions t.tree.elems) oo) (name : Str) : SetsLast t name (optGet oo name) := by
  unfold OptionsAre at h
  cases hv : optGet oo name with
  | none =>
    intro o ho e
    have : (o.name, o.value) ∈ oo.map (fun o => (o.1, some o.2)) := by rw [h]; exact List.mem_map.2 ⟨o, ho, rfl⟩
    obtain ⟨x, hx, ex⟩ := List.mem_map.1 this
    injection ex with e1 _
    exact (C47_absent oo name).1 hv x.2 (by rw [← e, ← e1]; exact hx)
  | some v =>
    obtain ⟨a, b, rfl, hb⟩ := (C47_last oo name v).1 hv
    rw [List.map_append, List.map_cons] at h
    obtain ⟨a', b', e, ea, eb⟩ := List.map_eq_append_iff.1 h.symm
    obtain ⟨o, b'', rfl, eo, eb'⟩ := List.map_eq_cons_iff.1 eb
    injection eo with e1 e2
    obtain ⟨on, ov⟩ := o
    dsimp only at e1 e2
    subst e1 e2
    refine ⟨a', b'', e, fun x hx ex => ?_⟩
    have : (x.name, x.value) ∈ b.map (fun o => (o.1, some o.2)) := by rw [← eb']; exact List.mem_map.2 ⟨x, hx, rfl⟩
    obtain ⟨y, hy, ey⟩ := List.mem_map.1 this
    injection ey with e3 _
    exact hb y hy (by rw [e3, ex])

/-- What is known of a text that is accepted. -/
def GoodText (t : Text) (s : LState) : Prop := Verif.Model.Gen.walk t.tree = .ok s ∧ ∃ enums messages, LoadedFile t.tree s enums messages

theorem source_some {t : Text} (hp : Parsed t.tree) {src : Source} (h : textSource t = some src) :
    ∃ s, GoodText t s ∧ Acceptable t.tree ∧ src = ⟨s.imports.map Prod.fst, optGet s.options "go_package".toList⟩ := by
  unfold textSource at h
  by_cases ha : Acceptable t.tree
  · obtain ⟨s, e, ms, hs, hl⟩ := (C64_load t.tree hp).1 ha
    rw [hs] at h
    exact ⟨s, ⟨hs, e, ms, hl⟩, ha, (Option.some.inj h).symm⟩
  · rw [(C64_load t.tree hp).2 ha] at h
    cases h

theorem source_acceptable {t : Text} (hp : Parsed t.tree) (h : Acceptable t.tree) : ∃ src, textSource t = some src := by
  obtain ⟨s, e, ms, hs, hl⟩ := (C64_load t.tree hp).1 h
  unfold textSource
  rw [hs]
  exact ⟨_, rfl⟩

theorem goodText_import {t : Text} {s : LState} (h : GoodText t s) {q : Str} : (∃ b, (some q, b) ∈ topImports t.tree.elems) ↔ q ∈ s.imports.map Prod.fst := by
  obtain ⟨_, e, ms, hl⟩ := h
  rw [← hl.imports, List.mem_map]
  constructor
  · rintro ⟨b, hb⟩
    obtain ⟨x, hx, ex⟩ := List.mem_map.1 hb
    injection ex with e1 e2
    exact ⟨x, hx, Option.some.inj e1⟩
  · rintro ⟨x, hx, rfl⟩
    exact ⟨x.2, List.mem_map.2 ⟨x, hx, rfl⟩⟩

section
variable {D : Texts} {cwd includes : List Str} {root : Str} {m : Str → Option Str}

theorem text_holds {f : Str} {t : Text} : D.text f = some t ↔ Holds D f t := by
  unfold Texts.text Holds
  cases h : D.embedded f with
  | none => simp
  | some x => simp

theorem holds_unique {f : Str} {t t' : Text} (h : Holds D f t) (h' : Holds D f t') : t = t' := by
  rw [← text_holds] at h h'
  rw [h] at h'
  exact Option.some.inj h'

theorem contains_iff {f : Str} {src : Source} : Contains D.files f src ↔ ∃ t, Holds D f t ∧ textSource t = some src := by
  unfold Contains Holds Texts.files
  dsimp only
  cases h : D.embedded f with
  | none => simp only [Option.map_none, reduceCtorEq, false_or, true_and, Option.bind_eq_some_iff]
  | some x => simp only [Option.map_some, Option.some.injEq, reduceCtorEq, false_and, or_false, Option.bind_eq_some_iff]

theorem asked_text (hP : ∀ f t, Holds D f t → Parsed t.tree) {q : Str} (h : Asked D.files cwd includes root q) : AskedText D cwd includes root q := by
  induction h with
  | root => exact .root
  | «import» q f q' src _ h2 h3 h4 ih =>
    obtain ⟨t, ht, hs⟩ := contains_iff.1 h3
    obtain ⟨s, hg, _, rfl⟩ := source_some (hP f t ht) hs
    obtain ⟨b, hb⟩ := (goodText_import hg).2 h4
    exact .import q f q' b t ih h2 ht hb

/-- All texts that are needed are accepted. -/
def AllAccepted (D : Texts) (cwd includes : List Str) (root : Str) : Prop :=
  ∀ f, Needed D.files cwd includes root f → ∃ src, Contains D.files f src

theorem asked_of_text (hP : ∀ f t, Holds D f t → Parsed t.tree) (hA : AllAccepted D cwd includes root) {q : Str} (h : AskedText D cwd includes root q) :
    Asked D.files cwd includes root q := by
  induction h with
  | root => exact .root
  | «import» q f q' b t _ h2 h3 h4 ih =>
    obtain ⟨src, hs⟩ := hA f ⟨q, ih, h2⟩
    obtain ⟨t', ht, hs'⟩ := contains_iff.1 hs
    cases holds_unique ht h3
    obtain ⟨s, hg, _, rfl⟩ := source_some (hP f t ht) hs'
    exact .import q f q' _ ih h2 hs ((goodText_import hg).1 ⟨b, h4⟩)

theorem needed_text (hP : ∀ f t, Holds D f t → Parsed t.tree) {f : Str} (h : Needed D.files cwd includes root f) : NeededText D cwd includes root f := by
  obtain ⟨q, h1, h2⟩ := h
  exact ⟨q, asked_text hP h1, h2⟩

theorem needed_of_text (hP : ∀ f t, Holds D f t → Parsed t.tree) (hA : AllAccepted D cwd includes root) {f : Str} (h : NeededText D cwd includes root f) :
    Needed D.files cwd includes root f := by
  obtain ⟨q, h1, h2⟩ := h
  exact ⟨q, asked_of_text hP hA h1, h2⟩

theorem direct_text (hP : ∀ f t, Holds D f t → Parsed t.tree) {f g : Str} (h : DirectImport D.files cwd includes f g) : ImportsText D cwd includes f g := by
  obtain ⟨src, q, h1, h2, h3⟩ := h
  obtain ⟨t, ht, hs⟩ := contains_iff.1 h1
  obtain ⟨s, hg, _, rfl⟩ := source_some (hP f t ht) hs
  obtain ⟨b, hb⟩ := (goodText_import hg).2 h2
  exact ⟨t, q, b, ht, hb, h3⟩

theorem direct_of_text (hP : ∀ f t, Holds D f t → Parsed t.tree) {f g : Str} {src : Source} (hs : Contains D.files f src) (h : ImportsText D cwd includes f g) :
    DirectImport D.files cwd includes f g := by
  obtain ⟨t, q, b, h1, h2, h3⟩ := h
  obtain ⟨t', ht, hs'⟩ := contains_iff.1 hs
  cases holds_unique ht h1
  obtain ⟨s, hg, _, rfl⟩ := source_some (hP f t ht) hs'
  exact ⟨_, q, hs, (goodText_import hg).1 ⟨b, h2⟩, h3⟩

theorem reaches_text (hP : ∀ f t, Holds D f t → Parsed t.tree) {f g : Str} (h : Reaches D.files cwd includes f g) : ReachesText D cwd includes f g := by
  induction h with
  | one f g h => exact .one f g (direct_text hP h)
  | more f g h h1 _ ih => exact .more f g h (direct_text hP h1) ih

theorem needed_import {f g : Str} (hf : Needed D.files cwd includes root f) (h : DirectImport D.files cwd includes f g) : Needed D.files cwd includes root g := by
  obtain ⟨q, h1, h2⟩ := hf
  obtain ⟨src, q', h3, h4, h5⟩ := h
  exact ⟨q', .import q f q' src h1 h2 h3 h4, h5⟩

theorem reaches_of_text (hP : ∀ f t, Holds D f t → Parsed t.tree) (hA : AllAccepted D cwd includes root) {f g : Str} (h : ReachesText D cwd includes f g) :
    Needed D.files cwd includes root f → Reaches D.files cwd includes f g := by
  induction h with
  | one f g h =>
    intro hf
    obtain ⟨src, hs⟩ := hA f hf
    exact .one f g (direct_of_text hP hs h)
  | more f g h h1 _ ih =>
    intro hf
    obtain ⟨src, hs⟩ := hA f hf
    have hd := direct_of_text hP hs h1
    exact .more f g h hd (ih (needed_import hf hd))

/-! ## The loaded files -/

theorem findIdx_file {ps : List LoadedProto} {g : Str} (h : g ∈ ps.map (·.file)) : (ps.map (·.file))[ps.findIdx (·.file = g)]? = some g := by
  obtain ⟨p, hp, rfl⟩ := List.mem_map.1 h
  have hl : ps.findIdx (fun x => decide (x.file = p.file)) < ps.length := List.findIdx_lt_length_of_exists ⟨p, hp, by simp⟩
  have he := List.findIdx_getElem (w := hl)
  rw [List.getElem?_map, List.getElem?_eq_getElem hl, Option.map_some]
  rw [of_decide_eq_true he]

theorem checkFiles_iff (x : LoadedSet) : ∀ ks : List Nat, checkFiles x ks = true ↔ ∀ k ∈ ks, fileResolves x k = true ∧ fileErrors x k = []
  | [] => by simp [checkFiles]
  | k :: ks => by
    rw [checkFiles, Bool.and_eq_true, Bool.and_eq_true, checkFiles_iff x ks, List.isEmpty_iff]
    simp

theorem serviceErrors (ss : List ServiceRec) : ss.flatMap serviceVerify = [] := by
  induction ss with
  | nil => rfl
  | cons s ss ih => rw [List.flatMap_cons, ih]; rfl

theorem fileErrors_iff (x : LoadedSet) (k : Nat) : fileErrors x k = [] ↔ GoodFile (x.world.file k) := by
  rw [fileErrors, serviceErrors, List.append_nil, C43_partial]

theorem all2_filterMap {α β : Type} {R : α → β → Prop} {g : α → Option β} : ∀ {xs : List α}, (∀ x ∈ xs, ∃ y, g x = some y ∧ R x y) → All2 R xs (xs.filterMap g)
  | [], _ => .nil
  | x :: xs, h => by
    obtain ⟨y, hy, hr⟩ := h x (List.mem_cons_self ..)
    rw [List.filterMap_cons, hy]
    exact .cons hr (all2_filterMap fun z hz => h z (List.mem_cons_of_mem _ hz))

theorem all2_map_left {α β γ : Type} {R : γ → β → Prop} {f : α → γ} {xs : List α} {ys : List β} (h : All2 (fun x y => R (f x) y) xs ys) : All2 R (xs.map f) ys := by
  induction h with
  | nil => exact .nil
  | cons h1 _ ih => exact .cons h1 ih

theorem fuel_enough (hP : ∀ f t, Holds D f t → Parsed t.tree) {U : List Str} (hU : ∀ f, NeededText D cwd includes root f → f ∈ U) :
    ∀ f, Needed D.files cwd includes root f → f ∈ U := fun f hf => hU f (needed_text hP hf)

/-- What was loaded is what the texts say. -/
theorem loaded_world (hc : Cwd D.files cwd) (hP : ∀ f t, Holds D f t → Parsed t.tree) (U : List Str) (hU : ∀ f, NeededText D cwd includes root f → f ∈ U) {fuel : Nat}
    (hfuel : U.length < fuel) {st st' : LoaderState} {ps : List LoadedProto} (h : loadRoot D.files includes m fuel st root = .ok (ps, st')) :
    AllAccepted D cwd includes root ∧
      WorldIs D cwd includes m root (ps.map (·.file)) (loadedSet D includes ps).world (loadedSet D includes ps).services := by
  have hU' := fuel_enough hP hU
  obtain ⟨protos, r, h1, h2, h3, h4, h5, h6, h7, h8, h9, h10⟩ := root_facts hc U hU' hfuel h
  have hA : AllAccepted D cwd includes root := by
    intro f hf
    obtain ⟨p, hp, rfl⟩ := List.mem_map.1 ((h9 f).2 hf)
    obtain ⟨q, src, _, _, h3, _⟩ := h7 p hp
    exact ⟨src, (sourceOf_contains _ _).1 h3⟩
  refine ⟨hA, h5.nodup_iff.2 h4, fun f => ?_, ⟨r, h2, h6⟩, by simp [loadedSet], fun k f hf => ?_, fun k hk => ?_⟩
  · rw [h5.mem_iff, h9 f]
    exact ⟨needed_text hP, needed_of_text hP hA⟩
  · rw [List.getElem?_map] at hf
    cases hpk : ps[k]? with
    | none => rw [hpk] at hf; cases hf
    | some p =>
      rw [hpk, Option.map_some] at hf
      cases hf
      have hp := List.mem_of_getElem? hpk
      obtain ⟨q, src, k1, k2, k3, k4, k5⟩ := h7 p (h8 p hp)
      obtain ⟨t, ht, hs⟩ := contains_iff.1 ((sourceOf_contains _ _).1 k3)
      obtain ⟨s, hg, _, rfl⟩ := source_some (hP _ t ht) hs
      obtain ⟨hw, en, ms, hl⟩ := hg
      have hst : stateOf D p.file = some (t, s) := by
        unfold stateOf
        rw [text_holds.2 ht]
        dsimp only
        rw [hw]
      have hfile : (loadedSet D includes ps).world.file k = fileDecl p t s := by
        unfold World.file loadedSet
        dsimp only
        rw [List.getD_eq_getElem?_getD, List.getElem?_map, hpk, Option.map_some, Option.getD_some, declAt, hst]
      refine ⟨t, ht, ?_, ?_, ?_, ?_⟩
      · rw [hfile]
        exact fileDecl_is hl
      · show ImportsAre D cwd includes _ t (importsAt D includes ps k)
        rw [importsAt, hpk]
        dsimp only
        rw [hst]
        dsimp only
        unfold ImportsAre
        rw [← hl.imports]
        refine all2_map_left (all2_filterMap fun x hx => ?_)
        obtain ⟨g, e, hg⟩ := k5 x.1 (List.mem_map.2 ⟨x, hx, rfl⟩)
        refine ⟨_, by rw [e]; rfl, x.1, g, rfl, (fileOf_means hc _ _).1 e, ?_, rfl⟩
        exact findIdx_file (h5.mem_iff.2 hg)
      · show All2 ServiceIs _ (servicesAt D ps k)
        rw [servicesAt, hpk]
        dsimp only
        rw [hst]
        exact hl.services
      · rw [hfile]
        exact ⟨q, _, asked_text hP k1, (fileOf_means hc _ _).1 k2, setsLast_get hl.options _, k4⟩
  · have : ps[k]? = none := by rw [List.getElem?_eq_none_iff]; simpa using hk
    constructor
    · show importsAt D includes ps k = []
      rw [importsAt, this]
    · show servicesAt D ps k = []
      rw [servicesAt, this]

end

end Gen
end Verif.Props
