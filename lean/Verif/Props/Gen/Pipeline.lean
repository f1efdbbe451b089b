import Verif.Lemmas.Gen.TextUnique
import Verif.Props.Gen.Service
import Verif.Props.Gen.Code
/-!
# C74, C75: from the texts of files to the generated code and the wire
-/
namespace Verif.Props
open Verif.Model Verif.Spec Verif.Model.Gen Verif.Spec.Gen Gen

namespace Gen

theorem before_places {l : List Str} (hn : l.Nodup) {x y : Str} (h : Before l x y) {i j : Nat} (hi : l[i]? = some x) (hj : l[j]? = some y) : i < j := by
  obtain ⟨a, b, c, rfl⟩ := h
  have h1 : (a ++ x :: (b ++ y :: c))[a.length]? = some x := by simp
  have h2 : (a ++ x :: (b ++ y :: c))[a.length + 1 + b.length]? = some y := by
    rw [List.getElem?_append_right (by omega), show a.length + 1 + b.length - a.length = b.length + 1 by omega, List.getElem?_cons_succ,
      List.getElem?_append_right (by omega)]
    simp
  have u : ∀ {p q : Nat} {z : Str}, (a ++ x :: (b ++ y :: c))[p]? = some z → (a ++ x :: (b ++ y :: c))[q]? = some z → p = q := by
    intro p q z hp hq
    obtain ⟨hp, e1⟩ := List.getElem?_eq_some_iff.1 hp
    obtain ⟨hq, e2⟩ := List.getElem?_eq_some_iff.1 hq
    exact (List.getElem_inj hn).1 (e1.trans e2.symm)
  have := u h1 hi
  have := u h2 hj
  omega

theorem all2_right {α β : Type} {R : α → β → Prop} {xs : List α} {ys : List β} (h : All2 R xs ys) : ∀ y ∈ ys, ∃ x ∈ xs, R x y := by
  induction h with
  | nil => intro y hy; cases hy
  | cons h1 _ ih =>
    intro y hy
    rcases List.mem_cons.1 hy with rfl | hy
    · exact ⟨_, List.mem_cons_self .., h1⟩
    · obtain ⟨x, hx, hr⟩ := ih y hy
      exact ⟨x, List.mem_cons_of_mem _ hx, hr⟩

theorem supported_handled {W : World} {pkg : Nat → List Str} (hS : Supported W pkg) (hs : SortedWorld W) (hg : ∀ f, f < W.files.length → GoodFile (W.file f)) :
    Handled W pkg where
  packages := hS.packages
  tidy := fun f hf => ⟨hs, hS.idents, hS.unique f hf, hS.twins f hf, hS.publics, hS.heads f hf⟩
  good := hg
  enums := hS.enums
  fields := hS.fields
  oneofs := hS.oneofs

section
variable {D : Texts} {cwd includes : List Str} {root : Str} {m : Str → Option Str} {fuel : Nat} {st : LoaderState} {x : LoadedSet}

theorem whole_some (h : loadWhole D includes m fuel st root = some x) : ∃ ps st', loadRoot D.files includes m fuel st root = .ok (ps, st') ∧ x = loadedSet D includes ps ∧
    ∀ k < ps.length, fileResolves x k = true ∧ GoodFile (x.world.file k) := by
  unfold loadWhole at h
  split at h
  · rename_i ps st' hl
    dsimp only at h
    split at h
    · rename_i hk
      cases h
      refine ⟨ps, st', hl, rfl, fun k hk' => ?_⟩
      obtain ⟨h1, h2⟩ := (checkFiles_iff _ _).1 hk k (List.mem_reverse.2 (List.mem_range.2 hk'))
      exact ⟨h1, (fileErrors_iff _ _).1 h2⟩
    · cases h
  · cases h

/-- The loaded files are sorted. -/
theorem root_sorted (hc : Cwd D.files cwd) (hP : ∀ f t, Holds D f t → Parsed t.tree) (U : List Str) (hU : ∀ f, NeededText D cwd includes root f → f ∈ U)
    (hfuel : U.length < fuel) (hE : ∀ e, NeededText D cwd includes root e → D.embedded e ≠ none → ¬ ReachesText D cwd includes e e)
    {ps : List LoadedProto} {st' : LoaderState} (hl : loadRoot D.files includes m fuel st root = .ok (ps, st')) :
    SortedWorld (loadedSet D includes ps).world ∧ ∀ f, NeededText D cwd includes root f → ¬ ReachesText D cwd includes f f := by
  obtain ⟨hA, hW⟩ := loaded_world hc hP U hU hfuel hl
  have hE' : ∀ e, Needed D.files cwd includes root e → D.files.embedded e ≠ none → ¬ Reaches D.files cwd includes e e := by
    intro e he hne hr
    refine hE e (needed_text hP he) (fun e0 => hne ?_) (reaches_text hP hr)
    show (D.embedded e).map _ = none
    rw [e0]
    rfl
  obtain ⟨h1, h2⟩ := C72_order_partial hc U (fuel_enough hP hU) hfuel hE' hl
  refine ⟨fun g i hi => ?_, fun f hf hr => ?_⟩
  · by_cases hg : g < ps.length
    · obtain ⟨f, hf⟩ := get_some (xs := ps.map (·.file)) (k := g) (by simpa using hg)
      obtain ⟨t, ht, _, hI, _, _⟩ := hW.files g f hf
      obtain ⟨y, hy, q, g', e1, e2, e3, e4⟩ := all2_right hI i hi
      have hlt := (List.getElem?_eq_some_iff.1 e3).1
      refine ⟨?_, by rw [hW.length]; exact hlt⟩
      have hn := needed_of_text hP hA ((hW.needed f).1 (List.mem_of_getElem? hf))
      obtain ⟨src, hs⟩ := hA f hn
      have hd : DirectImport D.files cwd includes f g' := direct_of_text hP hs ⟨t, q, y.2, ht, by rw [← e1]; exact hy, e2⟩
      exact before_places hW.once (h2 f g' hn hd) hf e3
    · rw [(hW.beyond g (by simpa using hg)).1] at hi
      cases hi
  · have hn := needed_of_text hP hA hf
    exact h1 f hn (reaches_of_text hP hA hr hn)

theorem means_unique (hc : Cwd D.files cwd) {q f g : Str} (h : MeansFile D.files cwd includes q f) (h' : MeansFile D.files cwd includes q g) : f = g := by
  rw [← fileOf_means hc] at h h'
  rw [h] at h'
  exact Option.some.inj h'

theorem setsLast_unique {t : Text} {name : Str} {v w : Option Str} (h : SetsLast t name v) (h' : SetsLast t name w) : v = w := by
  have key : ∀ {a b a' b' : List OptionNode} {y z : OptionNode}, y.name = name → z.name = name → (∀ o ∈ b, o.name ≠ name) → (∀ o ∈ b', o.name ≠ name) →
      a ++ y :: b = a' ++ z :: b' → y = z := by
    intro a b a' b' y z hy hz hb hb' e
    rcases List.append_eq_append_iff.1 e with ⟨c, e1, e2⟩ | ⟨c, e1, e2⟩
    · cases c with
      | nil =>
        rw [List.nil_append] at e2
        injection e2
      | cons u c =>
        rw [List.cons_append] at e2
        injection e2 with e3 e4
        exact absurd hz (hb z (by rw [e4]; simp))
    · cases c with
      | nil =>
        rw [List.nil_append] at e2
        injection e2 with e3
        exact e3.symm
      | cons u c =>
        rw [List.cons_append] at e2
        injection e2 with e3 e4
        exact absurd hy (hb' y (by rw [e4]; simp))
  cases v with
  | none =>
    cases w with
    | none => rfl
    | some w =>
      obtain ⟨a, b, e, _⟩ := h'
      exact absurd rfl (h ⟨name, some w⟩ (by rw [e]; simp))
  | some v =>
    obtain ⟨a, b, e, hb⟩ := h
    cases w with
    | none => exact absurd rfl (h' ⟨name, some v⟩ (by rw [e]; simp))
    | some w =>
      obtain ⟨a', b', e', hb'⟩ := h'
      have := key (y := ⟨name, some v⟩) (z := ⟨name, some w⟩) rfl rfl hb hb' (e.symm.trans e')
      injection this

theorem field_found {W : World} {pkg : Nat → List Str} {k : Nat} (hp : Packages W pkg) (ht : Tidy W pkg k) {c : Chain} (ha : Around (W.file k).messages c) {fd : FieldDecl}
    (h : HandledField W pkg k c fd) : (typeResolve W k c true fd.typ).isSome = true := by
  rcases h.type with ⟨s, e⟩ | ⟨name, r, i, hr⟩
  · obtain ⟨g, hg⟩ := keyword_scalar s
    rw [e, resolve_scalar W k c hg]
    rfl
  · have hsc : scalarTypes.lookup (joinDots name) = none := by
      cases hl : scalarTypes.lookup (joinDots name) with
      | none => rfl
      | some g =>
        obtain ⟨s, hs⟩ := scalar_keyword hl
        exact absurd (hr.spelled.trans hs) (hr.scalar s)
    obtain ⟨p, e, _⟩ := C55_resolves_partial W pkg k c name r i hp ht ha hr.nonempty hr.idents hsc hr.self hr.doubled hr.means hr.scope
    rw [hr.spelled, e]
    rfl

theorem method_type {W : World} {pkg : Nat → List Str} {k : Nat} (hp : Packages W pkg) (ht : Tidy W pkg k) {typ : Str}
    (h : ∃ name r i, Refers W pkg k [] typ name r i) : ∃ y, typeResolve W k [] false typ = some y := by
  obtain ⟨name, r, i, hr⟩ := h
  obtain ⟨p, e, _⟩ := resolves_any W pkg k [] false name r i hp ht (.inl rfl) hr.nonempty hr.idents (fun h => by cases h) (fun c h => by cases h) hr.doubled hr.means hr.scope
  exact ⟨_, by rw [hr.spelled]; exact e⟩

theorem mapM_found {α β : Type} {g : α → Option β} : ∀ {l : List α}, (∀ y ∈ l, (g y).isSome = true) → (l.mapM g).isSome = true
  | [], _ => rfl
  | y :: l, h => by
    obtain ⟨z, hz⟩ := Option.isSome_iff_exists.1 (h y (List.mem_cons_self ..))
    obtain ⟨zs, hzs⟩ := Option.isSome_iff_exists.1 (mapM_found fun y hy => h y (List.mem_cons_of_mem _ hy))
    rw [List.mapM_cons, hz, hzs]
    rfl

end

end Gen

section
variable {D : Texts} {cwd includes : List Str} {root : Str} {m : Str → Option Str} {fuel : Nat} {st : LoaderState} {x : LoadedSet}

/-- **C74**: what `LoadProto` returns is what the texts say: the file that was asked for, first, and all files needed for it, each once, with everything that is written in
them and nothing else. -/
theorem C74_world (hc : Cwd D.files cwd) (hP : ∀ f t, Holds D f t → Parsed t.tree) (U : List Str) (hU : ∀ f, NeededText D cwd includes root f → f ∈ U)
    (hfuel : U.length < fuel) (h : loadWhole D includes m fuel st root = some x) :
    WorldIs D cwd includes m root (x.protos.map (·.file)) x.world x.services := by
  obtain ⟨ps, st', hl, rfl, _⟩ := whole_some h
  exact (loaded_world hc hP U hU hfuel hl).2

/-- **C74**: what is accepted is well formed: every import path that is looked up means a file, whose text is acceptable, and the numbers of fields and enum values
are used once and not reserved. -/
theorem C74_accepted (hc : Cwd D.files cwd) (hP : ∀ f t, Holds D f t → Parsed t.tree) (U : List Str) (hU : ∀ f, NeededText D cwd includes root f → f ∈ U)
    (hfuel : U.length < fuel) (h : loadWhole D includes m fuel st root = some x) :
    (∀ q, AskedText D cwd includes root q → ∃ f t, MeansFile D.files cwd includes q f ∧ Holds D f t ∧ Acceptable t.tree) ∧
      ∀ k < x.world.files.length, GoodFile (x.world.file k) := by
  obtain ⟨ps, st', hl, rfl, hk⟩ := whole_some h
  obtain ⟨hA, hW⟩ := loaded_world hc hP U hU hfuel hl
  have hlen : (loadedSet D includes ps).world.files.length = ps.length := by simp [loadedSet]
  refine ⟨fun q hq => ?_, fun k hk' => (hk k (by omega)).2⟩
  obtain ⟨protos, r, h1, h2, h3, h4, h5, h6, h7, h8, h9, h10⟩ := root_facts hc U (fuel_enough hP hU) hfuel hl
  have key : ∃ f, MeansFile D.files cwd includes q f := by
    cases hq with
    | root => exact ⟨r, h2⟩
    | «import» q0 f q' b t a1 a2 a3 a4 =>
      have hn := needed_of_text hP hA ⟨q0, a1, a2⟩
      obtain ⟨p, hp, rfl⟩ := List.mem_map.1 ((h9 f).2 hn)
      obtain ⟨_, src, _, _, k3, _, k5⟩ := h7 p hp
      obtain ⟨t', ht, hs⟩ := contains_iff.1 ((sourceOf_contains _ _).1 k3)
      cases holds_unique ht a3
      obtain ⟨s, hg, _, rfl⟩ := source_some (hP _ t ht) hs
      obtain ⟨g, e, _⟩ := k5 q ((goodText_import hg).1 ⟨b, a4⟩)
      exact ⟨g, (fileOf_means hc _ _).1 e⟩
  obtain ⟨f, hf⟩ := key
  obtain ⟨src, hs⟩ := hA f ⟨q, asked_of_text hP hA hq, hf⟩
  obtain ⟨t, ht, hs'⟩ := contains_iff.1 hs
  obtain ⟨_, _, ha, _⟩ := source_some (hP f t ht) hs'
  exact ⟨f, t, hf, ht, ha⟩

/-- **C74**: files come before those that they import.  Missing: embedded files that import themselves (`C72_embedded_cycle_violated`). -/
theorem C74_sorted_partial (hc : Cwd D.files cwd) (hP : ∀ f t, Holds D f t → Parsed t.tree) (U : List Str) (hU : ∀ f, NeededText D cwd includes root f → f ∈ U)
    (hfuel : U.length < fuel) (hE : ∀ e, NeededText D cwd includes root e → D.embedded e ≠ none → ¬ ReachesText D cwd includes e e)
    (h : loadWhole D includes m fuel st root = some x) :
    SortedWorld x.world ∧ ∀ f, NeededText D cwd includes root f → ¬ ReachesText D cwd includes f f := by
  obtain ⟨ps, st', hl, rfl, hk⟩ := whole_some h
  exact root_sorted hc hP U hU hfuel hE hl

/-- **C74**: every type named by a field is declared: there is a declaration that can be seen from the file, whose full name is that of one of the scopes around the
field followed by the name.  Missing: names with a dot at the beginning, and files that are not `Supported` (see C55). -/
theorem C74_types_partial (hc : Cwd D.files cwd) (hP : ∀ f t, Holds D f t → Parsed t.tree) (U : List Str) (hU : ∀ f, NeededText D cwd includes root f → f ∈ U)
    (hfuel : U.length < fuel) (hE : ∀ e, NeededText D cwd includes root e → D.embedded e ≠ none → ¬ ReachesText D cwd includes e e)
    (h : loadWhole D includes m fuel st root = some x) (pkg : Nat → List Str) (hp : Packages x.world pkg) (k : Nat)
    (ht : SortedWorld x.world → Tidy x.world pkg k) (c : Chain) (ha : Around (x.world.file k).messages c) (fd : FieldDecl) (hf : fd ∈ c.msg.fields)
    (name : List Str) (hn : fd.typ = joinDots name) (hne : name ≠ []) (hi : ∀ s ∈ name, Ident s) (hs : ∀ s, fd.typ ≠ keyword s)
    (hd : ∀ y, Visible x.world k y → pkg y ≠ [] → ¬ pkg y ++ pkg y <+: name) :
    ∃ r i, Visible x.world k r.file ∧ Exists x.world r ∧ i ≤ (pkg k ++ scopeOf c).length ∧ FullName pkg r = (pkg k ++ scopeOf c).take i ++ name := by
  have hsort := (C74_sorted_partial hc hP U hU hfuel hE h).1
  obtain ⟨ps, st', hl, rfl, hk⟩ := whole_some h
  have hlt : k < ps.length := by
    by_cases hlt : k < ps.length
    · exact hlt
    · exfalso
      have : ((loadedSet D includes ps).world.file k).messages = [] := by
        unfold World.file loadedSet
        dsimp only
        rw [List.getD_eq_getElem?_getD, List.getElem?_eq_none_iff.2 (by simpa using hlt)]
        rfl
      rw [this] at ha
      exact around_nil ha
  have hres := (hk k hlt).1
  unfold fileResolves at hres
  rw [Bool.and_eq_true, List.all_eq_true] at hres
  have h1 := hres.1 c ((chains_iff _ _).2 ha)
  rw [List.all_eq_true] at h1
  have h2 := h1 fd hf
  rw [Option.isSome_iff_exists] at h2
  obtain ⟨res, hr⟩ := h2
  cases res with
  | scalar g =>
    exfalso
    cases hlk : scalarTypes.lookup fd.typ with
    | some g' =>
      obtain ⟨s, e⟩ := scalar_keyword hlk
      exact hs s e
    | none =>
      have hr' : typeResolve (loadedSet D includes ps).world k c false fd.typ = some (.scalar g) := by
        unfold typeResolve at hr ⊢
        rw [if_pos rfl, hlk] at hr
        rw [if_neg (by decide)]
        exact hr
      obtain ⟨_, _, e⟩ := resolve_noScalar hr'
      cases e
  | decl r p =>
    rw [hn] at hr
    obtain ⟨a, b, _, i, hi', hf'⟩ := C55_candidate_partial _ pkg k c name r p hp (ht hsort) ha hne hi hd hr
    exact ⟨r, i, a, b, hi', hf'⟩

/-- **C74**: files are accepted if every import path that is looked up means a file with an acceptable text and a Go package that does not import itself, and the files that
they describe have good numbers and are `Supported`.  Missing: other files (see C55 and C72). -/
theorem C74_accepts_partial (hc : Cwd D.files cwd) (hP : ∀ f t, Holds D f t → Parsed t.tree) (U : List Str) (hU : ∀ f, NeededText D cwd includes root f → f ∈ U)
    (hfuel : U.length < fuel)
    (hM : ∀ q q' f, AskedText D cwd includes root q → AskedText D cwd includes root q' → MeansFile D.files cwd includes q f → MeansFile D.files cwd includes q' f →
      userPackage D.files m q = userPackage D.files m q')
    (hG : ∀ q, AskedText D cwd includes root q → ∃ f t v, MeansFile D.files cwd includes q f ∧ Holds D f t ∧ Acceptable t.tree ∧ ¬ ReachesText D cwd includes f f ∧
      SetsLast t "go_package".toList v ∧ protoGoPackage (userPackage D.files m q) v ≠ none)
    (hW : ∀ order W services, WorldIs D cwd includes m root order W services → SortedWorld W →
      (∀ k < W.files.length, GoodFile (W.file k)) ∧ ∃ pkg, Supported W pkg ∧ SupportedServices W pkg services) :
    ∃ x, loadWhole D includes m fuel st root = some x := by
  have hA : AllAccepted D cwd includes root := by
    rintro f ⟨q, hq, hf⟩
    obtain ⟨f', t, v, h1, h2, h3, _⟩ := hG q (asked_text hP hq)
    cases means_unique hc hf h1
    obtain ⟨src, hs⟩ := source_acceptable (hP f t h2) h3
    exact ⟨src, contains_iff.2 ⟨t, h2, hs⟩⟩
  have hN : ∀ f, NeededText D cwd includes root f → ¬ ReachesText D cwd includes f f := by
    rintro f ⟨q, hq, hf⟩
    obtain ⟨f', t, v, h1, _, _, h4, _⟩ := hG q hq
    cases means_unique hc hf h1
    exact h4
  obtain ⟨ps, st', hl⟩ := (C72_load_iff_partial (st := st) hc U (fuel_enough hP hU) hfuel (fun e he _ hr => hN e (needed_text hP he) (reaches_text hP hr))
    (fun q q' f hq hq' hf hf' => hM q q' f (asked_text hP hq) (asked_text hP hq') hf hf')).2 (fun q hq => by
      obtain ⟨f, t, v, h1, h2, h3, h4, h5, h6⟩ := hG q (asked_text hP hq)
      obtain ⟨src, hs⟩ := source_acceptable (hP f t h2) h3
      obtain ⟨s, hg, _, rfl⟩ := source_some (hP f t h2) hs
      refine ⟨f, _, h1, contains_iff.2 ⟨t, h2, hs⟩, fun hr => h4 (reaches_text hP hr), ?_⟩
      obtain ⟨_, en, ms, hl⟩ := hg
      rw [setsLast_unique h5 (setsLast_get hl.options _)] at h6
      exact h6)
  obtain ⟨_, hWI⟩ := loaded_world hc hP U hU hfuel hl
  obtain ⟨hsort, _⟩ := root_sorted hc hP U hU hfuel (fun e he _ => hN e he) hl
  obtain ⟨hgood, pkg, hS, hSS⟩ := hW _ _ _ hWI hsort
  have hH := supported_handled hS hsort hgood
  have hlen : (loadedSet D includes ps).world.files.length = ps.length := by simp [loadedSet]
  refine ⟨loadedSet D includes ps, ?_⟩
  unfold loadWhole
  rw [hl]
  dsimp only
  rw [if_pos]
  refine (checkFiles_iff _ _).2 fun k hk => ?_
  have hk : k < (loadedSet D includes ps).world.files.length := by rw [hlen]; exact List.mem_range.1 (List.mem_reverse.1 hk)
  refine ⟨?_, (fileErrors_iff _ _).2 (hgood k hk)⟩
  unfold fileResolves
  rw [Bool.and_eq_true, List.all_eq_true, List.all_eq_true]
  refine ⟨fun c hc' => ?_, fun s hs => ?_⟩
  · rw [List.all_eq_true]
    have ha := (chains_iff _ _).1 hc'
    exact fun fd hf => field_found hH.packages (hH.tidy k hk) ha (hH.fields k c ha fd hf)
  · refine mapM_found fun me hme => ?_
    obtain ⟨h1, h2⟩ := hSS k s hs me hme
    obtain ⟨y, hy⟩ := method_type hH.packages (hH.tidy k hk) h1
    obtain ⟨z, hz⟩ := method_type hH.packages (hH.tidy k hk) h2
    unfold methodResolve
    rw [hy]
    dsimp only
    rw [hz]
    rfl

/-- **C74**: texts describe one set of files: when the order of the files is given, all the rest is.  Missing: options that give different Go packages for different
spellings of the path of a file (`C72_spelling_violated`). -/
theorem C74_unique_partial {W W' : World} {services services' : Nat → List ServiceRec} {order : List Str} (hc : Cwd D.files cwd)
    (hM : ∀ q q' f, AskedText D cwd includes root q → AskedText D cwd includes root q' → MeansFile D.files cwd includes q f → MeansFile D.files cwd includes q' f →
      userPackage D.files m q = userPackage D.files m q')
    (h : WorldIs D cwd includes m root order W services) (h' : WorldIs D cwd includes m root order W' services') : W = W' ∧ services = services' := by
  have key : ∀ k, W.files[k]? = W'.files[k]? ∧ W.imports k = W'.imports k ∧ services k = services' k := by
    intro k
    have l1 := h.length
    have l2 := h'.length
    by_cases hk : k < order.length
    · obtain ⟨f, hf⟩ := get_some hk
      obtain ⟨t, a1, a2, a3, a4, q, v, a5, a6, a7, a8⟩ := h.files k f hf
      obtain ⟨t', b1, b2, b3, b4, q', v', b5, b6, b7, b8⟩ := h'.files k f hf
      cases holds_unique a1 b1
      cases setsLast_unique a7 b7
      rw [hM q q' f a5 b5 a6 b6, b8] at a8
      have e := Option.some.inj a8
      injection e with e1 e2
      refine ⟨?_, ?_, all2_unique service_unique a4 b4⟩
      · have hu := file_unique a2 b2 e1.symm e2.symm
        unfold World.file at hu
        have g1 := List.getElem?_eq_getElem (l := W.files) (i := k) (by omega)
        have g2 := List.getElem?_eq_getElem (l := W'.files) (i := k) (by omega)
        rw [List.getD_eq_getElem?_getD, List.getD_eq_getElem?_getD, g1, g2] at hu
        rw [g1, g2]
        exact congrArg some hu
      · refine all2_unique (fun x y z hy hz => ?_) a3 b3
        obtain ⟨q, g, c1, c2, c3, c4⟩ := hy
        obtain ⟨q', g', d1, d2, d3, d4⟩ := hz
        cases Option.some.inj (c1.symm.trans d1)
        cases means_unique hc c2 d2
        obtain ⟨i1, i2⟩ := List.getElem?_eq_some_iff.1 c3
        obtain ⟨j1, j2⟩ := List.getElem?_eq_some_iff.1 d3
        exact Prod.ext ((List.getElem_inj h.once).1 (i2.trans j2.symm)) (c4.trans d4.symm)
    · obtain ⟨i1, i2⟩ := h.beyond k (by omega)
      obtain ⟨j1, j2⟩ := h'.beyond k (by omega)
      refine ⟨?_, by rw [i1, j1], by rw [i2, j2]⟩
      rw [List.getElem?_eq_none_iff.2 (by omega), List.getElem?_eq_none_iff.2 (by omega)]
  constructor
  · obtain ⟨files, imports⟩ := W
    obtain ⟨files', imports'⟩ := W'
    have e1 : files = files' := List.ext_getElem? fun k => (key k).1
    have e2 : imports = imports' := funext fun k => (key k).2.1
    rw [e1, e2]
  · exact funext fun k => (key k).2.2

/-- **C75**: from the texts of proto files to the wire.  If `LoadProto` accepts files that are `Supported`, then its result is what the texts say, and, when the code that is
generated from it compiles, the Go types of the code implement the messages that the texts describe: their values are written as protobuf prescribes for these messages (except for
zero members of oneofs, see C26), and read as it prescribes.  Missing: files that are not `Supported` (see C55, C56), and embedded files that import themselves (see C72). -/
theorem C75_wire_partial (hc : Cwd D.files cwd) (hP : ∀ f t, Holds D f t → Parsed t.tree) (U : List Str) (hU : ∀ f, NeededText D cwd includes root f → f ∈ U)
    (hfuel : U.length < fuel) (hE : ∀ e, NeededText D cwd includes root e → D.embedded e ≠ none → ¬ ReachesText D cwd includes e e)
    (h : loadWhole D includes m fuel st root = some x) (pkg : Nat → List Str) (hS : Supported x.world pkg) (env : GoEnv)
    (hC : Compiles (genStructs x.world) (genEnums x.world) env) :
    WorldIs D cwd includes m root (x.protos.map (·.file)) x.world x.services ∧
    ∃ S, Implements env S ∧ S.WF ∧ Describes x.world pkg (allMessages x.world) S ∧
      (∀ id v, Typed S id v →
        match encode S false 1000 id v with
        | some bs => bs.length < 2 ^ 64 → marshal env (.ptr id (some v)) = .ok bs
        | none => marshal env (.ptr id (some v)) = .error .maxDepth) ∧
      ∀ id v, Typed S id v → ∀ b w, unmarshal env b (.ptr id (some v)) = .ok w ↔ Decodes S 1000 id b v w := by
  have hH := supported_handled hS (C74_sorted_partial hc hP U hU hfuel hE h).1 (C74_accepted hc hP U hU hfuel h).2
  refine ⟨C74_world hc hP U hU hfuel h, ?_⟩
  obtain ⟨S, hI, hW, hD⟩ := C56_implements_partial x.world pkg env hC hH
  exact ⟨S, hI, hW, hD, fun id v hv => C37_encoding hI hW id v hv, fun id v hv b w => C50_exact hI hW id v hv b w⟩

end

/-! ## Examples -/

namespace PipelineSample

def fieldNode (n t k : String) : FieldNode := { typ := t.toList, name := n.toList, number := k.toList }

/-- The text of the file in `CodeSample`. -/
def tree : ProtoNode where
  edition := some (some "proto3".toList)
  elems := [
    .package "p".toList,
    .message "Node".toList ["unknown_fields".toList] [
      .enum { name := "Kind".toList, elems := [.value { name := "A".toList, minus := false, number := "0".toList },
        .value { name := "B".toList, minus := false, number := "0x1".toList }] },
      .field (fieldNode "id" "int32" "1"),
      .field { fieldNode "xs" "sint64" "2" with label := some .repeated },
      .field { fieldNode "note" "string" "3" with label := some .optional },
      .field (fieldNode "next" "Node" "4"),
      .mapField { fieldNode "kids" "Node" "5" with key := some "string".toList },
      .oneof "v".toList [.field (fieldNode "s" "string" "6"), .field (fieldNode "k" "Kind" "7")],
      .field (fieldNode "data" "bytes" "8"),
      .field { fieldNode "kinds" "Node.Kind" "9" with label := some .repeated }]]

/-- The file `/w/a.proto` in the working directory `/w`. -/
def texts : Texts where
  cwd := "/w".toList
  stat := fun f => f = "/w/a.proto".toList
  read := fun f => if f = "/w/a.proto".toList then some { tree := tree } else none
  embedded := fun _ => none

/-- `-go_opt=Ma.proto=x/p` -/
def flags (f : Str) : Option Str := if f = "a.proto".toList then some "x/p".toList else none

def loaded : LoadedSet := loadedSet texts [] [⟨"/w/a.proto".toList, "x/p".toList, "p".toList⟩]

deriving instance DecidableEq for EnumField, EnumDecl, FieldDecl

mutual
def sameMsg : (a b : MsgDecl) → Decidable (a = b)
  | .mk n e ms f o d p r, .mk n' e' ms' f' o' d' p' r' =>
    match sameMsgs ms ms' with
    | .isFalse h => .isFalse fun e => h (by cases e; rfl)
    | .isTrue h =>
      if hh : n = n' ∧ e = e' ∧ f = f' ∧ o = o' ∧ d = d' ∧ p = p' ∧ r = r' then
        .isTrue (by obtain ⟨rfl, rfl, rfl, rfl, rfl, rfl, rfl⟩ := hh; rw [h])
      else .isFalse fun e => hh (by cases e; exact ⟨rfl, rfl, rfl, rfl, rfl, rfl, rfl⟩)
def sameMsgs : (a b : List MsgDecl) → Decidable (a = b)
  | [], [] => .isTrue rfl
  | [], _ :: _ => .isFalse fun e => by cases e
  | _ :: _, [] => .isFalse fun e => by cases e
  | x :: a, y :: b =>
    match sameMsg x y, sameMsgs a b with
    | .isTrue h, .isTrue h' => .isTrue (by rw [h, h'])
    | .isFalse h, _ => .isFalse fun e => h (by cases e; rfl)
    | _, .isFalse h => .isFalse fun e => h (by cases e; rfl)
end

instance : DecidableEq MsgDecl := sameMsg

deriving instance DecidableEq for FileDecl

theorem root_loads : ∃ st', loadRoot texts.files [] flags 3 ⟨[], []⟩ "a.proto".toList = .ok ([⟨"/w/a.proto".toList, "x/p".toList, "p".toList⟩], st') := by
  have h : (match loadRoot texts.files [] flags 3 ⟨[], []⟩ "a.proto".toList with
      | .ok (ps, _) => decide (ps = [⟨"/w/a.proto".toList, "x/p".toList, "p".toList⟩])
      | _ => false) = true := by decide +kernel
  split at h
  · rename_i ps st' e
    rw [of_decide_eq_true h] at e
    exact ⟨st', e⟩
  · cases h

theorem world_files : loaded.world.files = CodeSample.world.files := by decide +kernel

theorem world_eq : loaded.world = CodeSample.world := by
  have hi : loaded.world.imports = CodeSample.world.imports := by
    funext k
    match k with
    | 0 =>
      show loaded.world.imports 0 = []
      decide +kernel
    | k + 1 => rfl
  have := world_files
  revert this hi
  generalize loaded.world = W
  intro h1 h2
  obtain ⟨a, b⟩ := W
  unfold CodeSample.world at h1 h2 ⊢
  dsimp only at h1 h2
  rw [h1, h2]

theorem loads : loadWhole texts [] flags 3 ⟨[], []⟩ "a.proto".toList = some loaded := by
  obtain ⟨st', h⟩ := root_loads
  unfold loadWhole
  rw [h]
  dsimp only
  have : checkFiles loaded [0] = true := by decide +kernel
  exact if_pos this

theorem holds_tree {f : Str} {t : Text} (h : Holds texts f t) : t.tree = tree := by
  rcases h with h | ⟨_, h⟩
  · cases h
  · unfold texts at h
    dsimp only at h
    split at h
    · cases h; rfl
    · cases h

theorem number_test {s : Str} {v : Nat} (h : IntLit s v) : IsNumber s := ⟨v, h⟩

theorem lit {c : Char} (hc : c ≠ '0') (h : (parseDigits 10 0 [c]).isSome) : IsNumber [c] := lit_decimal hc h

theorem parsed : Parsed tree := by
  refine ⟨?_, ?_, ?_, ?_⟩
  · intro n d es h
    simp only [tree, List.mem_cons, List.not_mem_nil, or_false, reduceCtorEq, false_or] at h
    cases h
    have other : ∀ {e : MsgElem} {es : List MsgElem}, (∀ n d ms, e ≠ .message n d ms) → NumbersElem e → (∀ x, Inside es x → NumbersElem x) →
        ∀ x, Inside (e :: es) x → NumbersElem x := fun hn h1 h2 => inside_cons.2 ⟨(inside_other hn).2 h1, h2⟩
    refine other (by intros; simp) ⟨?_, ?_⟩ (other (by intros; simp) (lit (c := '1') (by decide) (by decide +kernel)) (other (by intros; simp) (lit (c := '2') (by decide) (by decide +kernel))
      (other (by intros; simp) (lit (c := '3') (by decide) (by decide +kernel)) (other (by intros; simp) (lit (c := '4') (by decide) (by decide +kernel))
      (other (by intros; simp) (lit (c := '5') (by decide) (by decide +kernel)) (other (by intros; simp) ?_ (other (by intros; simp) (lit (c := '8') (by decide) (by decide +kernel))
      (other (by intros; simp) (lit (c := '9') (by decide) (by decide +kernel)) ?_))))))))
    · intro v hv
      simp only [enumValues, List.mem_cons, List.not_mem_nil, or_false] at hv
      rcases hv with rfl | rfl
      · exact lit_zero
      · exact lit_hex (s := ['1']) (by decide) (by decide +kernel)
    · intro r hr
      simp only [enumRanges, List.not_mem_nil] at hr
    · intro f hf
      simp only [oneofFields, List.mem_cons, List.not_mem_nil, or_false] at hf
      rcases hf with rfl | rfl
      · exact lit (c := '6') (by decide) (by decide +kernel)
      · exact lit (c := '7') (by decide) (by decide +kernel)
    · intro x hx
      cases hx with
      | here h => cases h
      | deeper h _ => cases h
  · intro e h
    simp [tree] at h
  · intro n hn
    simp only [tree, topPackages, List.mem_cons, List.not_mem_nil, or_false] at hn
    subst hn
    decide
  · intro n d es h
    simp [tree] at h

theorem cwd : Cwd texts.files ["w".toList] where
  path := by decide +kernel
  names := by
    intro w hw
    rw [List.mem_singleton] at hw
    subst hw
    unfold Plain
    decide +kernel
  embedded := fun q h => absurd rfl h

theorem asked {q : Str} (h : AskedText texts ["w".toList] [] "a.proto".toList q) : q = "a.proto".toList := by
  cases h with
  | root => rfl
  | «import» q f q' b t h1 h2 h3 h4 =>
    rw [holds_tree h3] at h4
    simp [tree, topImports] at h4

theorem means_a : MeansFile texts.files ["w".toList] [] "a.proto".toList "/w/a.proto".toList := (fileOf_means cwd _ _).1 (by decide +kernel)

theorem needed {f : Str} (h : NeededText texts ["w".toList] [] "a.proto".toList f) : f = "/w/a.proto".toList := by
  obtain ⟨q, h1, h2⟩ := h
  rw [asked h1] at h2
  exact means_unique cwd h2 means_a

theorem no_imports (f g : Str) : ¬ ReachesText texts ["w".toList] [] f g := by
  have : ∀ f g, ¬ ImportsText texts ["w".toList] [] f g := by
    rintro f g ⟨t, q, b, h1, h2, _⟩
    rw [holds_tree h1] at h2
    simp [tree, topImports] at h2
  intro h
  cases h with
  | one f g h => exact this _ _ h
  | more f g h h1 _ => exact this _ _ h1

theorem supported : Supported loaded.world (CodeSample.pks.getD · []) := by
  rw [world_eq]
  have h := CodeSample.handled
  have ht : ∀ f, f < CodeSample.world.files.length → Tidy CodeSample.world (CodeSample.pks.getD · []) f := h.tidy
  exact ⟨h.packages, (ht 0 (by decide)).idents, fun f hf => (ht f hf).unique, fun f hf => (ht f hf).twins, (ht 0 (by decide)).publics, fun f hf => (ht f hf).heads,
    h.enums, h.fields, h.oneofs⟩

theorem compiles : Compiles (genStructs loaded.world) (genEnums loaded.world) (compiled CodeSample.world 100) := by
  rw [world_eq]
  refine compiled_ok (by decide +kernel) ?_
  have h : ∀ g ∈ genStructs CodeSample.world, ∀ f ∈ g.fields,
      (match elabType (genEnums CodeSample.world) ((genStructs CodeSample.world).map fun g => (g.pkg, g.name)) f.type with | .struct _ => false | _ => true) = true := by
    decide +kernel
  intro g hg f hf i e
  have := h g hg f hf
  rw [e] at this
  cases this

theorem good (k : Nat) (hk : k < loaded.world.files.length) : GoodFile (loaded.world.file k) := by
  have h := CodeSample.handled
  rw [world_eq] at hk ⊢
  exact h.good k hk

end PipelineSample

open PipelineSample in
/-- Non-vacuity of C75 (and with it of C74): all hypotheses hold for the sample. -/
example : ∃ S, Describes loaded.world (CodeSample.pks.getD · []) (allMessages loaded.world) S ∧ Implements (compiled CodeSample.world 100) S := by
  obtain ⟨_, S, h1, _, h2, _⟩ := C75_wire_partial cwd (fun f t h => by rw [holds_tree h]; exact parsed) ["/w/a.proto".toList]
    (fun f hf => by rw [needed hf]; exact List.mem_singleton_self _) (by decide) (fun e _ h => absurd rfl h) loads _ supported _ compiles
  exact ⟨S, h2, h1⟩

open PipelineSample in
/-- Non-vacuity of the acceptance of files. -/
example : ∃ x, loadWhole texts [] flags 3 ⟨[], []⟩ "a.proto".toList = some x := by
  have hP : ∀ f t, Holds texts f t → Parsed t.tree := fun f t h => by rw [holds_tree h]; exact parsed
  have hU : ∀ f, NeededText texts ["w".toList] [] "a.proto".toList f → f ∈ ["/w/a.proto".toList] := fun f hf => by rw [needed hf]; exact List.mem_singleton_self _
  have hM : ∀ q q' f, AskedText texts ["w".toList] [] "a.proto".toList q → AskedText texts ["w".toList] [] "a.proto".toList q' →
      MeansFile texts.files ["w".toList] [] q f → MeansFile texts.files ["w".toList] [] q' f → userPackage texts.files flags q = userPackage texts.files flags q' :=
    fun q q' f hq hq' _ _ => by rw [asked hq, asked hq']
  have hL := C74_world cwd hP ["/w/a.proto".toList] hU (by decide) loads
  refine C74_accepts_partial cwd hP ["/w/a.proto".toList] hU (by decide) hM ?_ ?_
  · intro q hq
    rw [asked hq]
    obtain ⟨f, t, h1, h2, h3⟩ := (C74_accepted cwd hP ["/w/a.proto".toList] hU (by decide) loads).1 _ hq
    rw [asked hq] at h1
    refine ⟨f, t, none, h1, h2, h3, no_imports f f, ?_, by decide +kernel⟩
    intro o ho
    rw [holds_tree h2] at ho
    cases ho
  · intro order W services hW _
    have ho : order = ["/w/a.proto".toList] := by
      obtain ⟨r, _, hr⟩ := hW.first
      cases order with
      | nil => cases hr
      | cons a l =>
        have ha := needed ((hW.needed a).1 (List.mem_cons_self ..))
        cases l with
        | nil => rw [ha]
        | cons b l =>
          have hb := needed ((hW.needed b).1 (by simp))
          have := hW.once
          rw [ha, hb] at this
          simp at this
    subst ho
    obtain ⟨rfl, rfl⟩ := C74_unique_partial cwd hM hW hL
    refine ⟨good, _, supported, fun f s hs => ?_⟩
    match f with
    | 0 =>
      have : loaded.services 0 = [] := List.length_eq_zero_iff.1 (by decide +kernel)
      rw [this] at hs
      cases hs
    | f + 1 => cases hs

end Verif.Props
