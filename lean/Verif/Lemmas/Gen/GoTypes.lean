import Verif.Spec.Gen.GoTypes
import Verif.Lemmas.Gen.FieldTypes
import Verif.Props.Gen.Text
/-!
# Lemmas: the types of generated files
-/
namespace Verif.Props.Gen
open Verif.Spec Verif.Spec.Gen Verif.Model Verif.Model.Gen

/-! ## Lists -/

theorem perm_flatMap_append {α β : Type} (f g : α → List β) : ∀ l : List α, (l.flatMap fun x => f x ++ g x).Perm (l.flatMap f ++ l.flatMap g)
  | [] => .nil
  | x :: l => by
    rw [List.flatMap_cons, List.flatMap_cons, List.flatMap_cons]
    refine ((perm_flatMap_append f g l).append_left _).trans ?_
    rw [List.append_assoc, List.append_assoc]
    refine List.Perm.append_left _ ?_
    rw [← List.append_assoc, ← List.append_assoc]
    exact List.Perm.append_right _ List.perm_append_comm

theorem sublist_flatMap {α β : Type} {f g : α → List β} (h : ∀ x, (f x).Sublist (g x)) : ∀ l : List α, (l.flatMap f).Sublist (l.flatMap g)
  | [] => .slnil
  | x :: l => by
    rw [List.flatMap_cons, List.flatMap_cons]
    exact (h x).append (sublist_flatMap h l)

theorem sorted_ext : ∀ {l l' : List Nat}, l.Pairwise (· < ·) → l'.Pairwise (· < ·) → (∀ i, i ∈ l ↔ i ∈ l') → l = l'
  | [], [], _, _, _ => rfl
  | [], b :: l', _, _, h => absurd ((h b).2 (List.mem_cons_self ..)) (by simp)
  | a :: l, [], _, _, h => absurd ((h a).1 (List.mem_cons_self ..)) (by simp)
  | a :: l, b :: l', h1, h2, h => by
    rw [List.pairwise_cons] at h1 h2
    have hab : a = b := by
      rcases List.mem_cons.1 ((h a).1 (List.mem_cons_self ..)) with e | e
      · exact e
      · rcases List.mem_cons.1 ((h b).2 (List.mem_cons_self ..)) with e' | e'
        · exact e'.symm
        · have := h1.1 b e'
          have := h2.1 a e
          omega
    subst hab
    rw [sorted_ext h1.2 h2.2 fun i => ?_]
    constructor
    · intro hi
      rcases List.mem_cons.1 ((h i).1 (List.mem_cons_of_mem _ hi)) with e | e
      · have := h1.1 i hi
        omega
      · exact e
    · intro hi
      rcases List.mem_cons.1 ((h i).2 (List.mem_cons_of_mem _ hi)) with e | e
      · have := h2.1 i hi
        omega
      · exact e

theorem idxOf_nodup {α : Type} [BEq α] [LawfulBEq α] {l : List α} (hd : l.Nodup) {i : Nat} {a : α} (h : l[i]? = some a) : l.idxOf? a = some i := by
  obtain ⟨hlt, e⟩ := List.getElem?_eq_some_iff.1 h
  unfold List.idxOf?
  rw [List.findIdx?_eq_some_iff_getElem]
  refine ⟨hlt, by rw [e]; simp, fun j hj he => ?_⟩
  have he : l[j] = a := by simpa using he
  rw [← e] at he
  have := (List.getElem_inj hd).1 he
  omega

theorem all2_eq_map {α β : Type} {R : α → β → Prop} {f : α → β} : ∀ {l : List α} {l' : List β}, All2 R l l' → (∀ a ∈ l, ∀ b, R a b → b = f a) → l' = l.map f
  | [], _, .nil, _ => rfl
  | a :: l, _, .cons h t, hf => by
    rw [List.map_cons, hf a (List.mem_cons_self ..) _ h, all2_eq_map t fun a ha => hf a (List.mem_cons_of_mem _ ha)]

theorem all2_of_map {α β : Type} {R : α → β → Prop} {f : α → β} : ∀ {l : List α}, (∀ a ∈ l, R a (f a)) → All2 R l (l.map f)
  | [], _ => .nil
  | a :: _, h => .cons (h a (List.mem_cons_self ..)) (all2_of_map fun a ha => h a (List.mem_cons_of_mem _ ha))

theorem all2_left {α β γ : Type} {R : β → γ → Prop} {f : α → β} : ∀ {l : List α} {l' : List γ}, All2 R (l.map f) l' ↔ All2 (fun a c => R (f a) c) l l'
  | [], l' => by
    constructor
    · intro h; cases h; exact .nil
    · intro h; cases h; exact .nil
  | a :: l, l' => by
    constructor
    · intro h
      cases h with
      | cons h t => exact .cons h (all2_left.1 t)
    · intro h
      cases h with
      | cons h t => exact .cons h (all2_left.2 t)

/-! ## Declarations -/

/-- Declarations that say nothing about types. -/
def Inert (d : GoDecl) : Prop := d.declares = none ∧ d.resets = none ∧ (∀ t m, d ≠ .marker t m) ∧ ∀ t ws, d ≠ .wrappers t ws

theorem enumDecls_declares (g : GoEnum) : (enumDecls g).filterMap GoDecl.declares = [g.name] ∧ (enumDecls g).filterMap GoDecl.resets = [] := by
  unfold enumDecls
  by_cases h : g.consts = [] <;> cases g.tables <;> simp [h, GoDecl.declares, GoDecl.resets]

theorem enumDecls_mem {g : GoEnum} {d : GoDecl} (h : d ∈ enumDecls g) : d = .intType g.name ∨ Inert d := by
  unfold enumDecls at h
  simp only [List.cons_append, List.mem_cons, List.mem_append] at h
  rcases h with rfl | h | h
  · exact .inl rfl
  · split at h
    · cases h
    · rw [List.mem_singleton] at h
      subst h
      exact .inr ⟨rfl, rfl, fun _ _ h => (by cases h), fun _ _ h => by cases h⟩
  · split at h
    · simp only [List.mem_cons, List.not_mem_nil, or_false] at h
      rcases h with rfl | rfl | rfl <;> exact .inr ⟨rfl, rfl, fun _ _ h => (by cases h), fun _ _ h => by cases h⟩
    · cases h

theorem oneofDecls_declares (own n : Str) (ws : List GenWrapper) :
    (oneofDecls own n ws).filterMap GoDecl.declares = n :: ws.map GenWrapper.name ∧ (oneofDecls own n ws).filterMap GoDecl.resets = [] := by
  unfold oneofDecls
  induction ws with
  | nil => exact ⟨rfl, rfl⟩
  | cons w ws ih =>
    rw [List.filterMap_cons] at ih ⊢
    simp only [GoDecl.declares] at ih ⊢
    refine ⟨?_, ?_⟩
    · have := (List.cons.inj ih.1).2
      rw [List.flatMap_cons, List.filterMap_append, this]
      rfl
    · have := ih.2
      rw [List.filterMap_cons] at this ⊢
      simp only [GoDecl.resets] at this ⊢
      rw [List.flatMap_cons, List.filterMap_append, this]
      rfl

theorem messageDecls_declares (o : GenOptions) (s : GenStruct) (gs : List GenGetter) (os : List (Str × List GenWrapper)) :
    (messageDecls o s gs os).filterMap GoDecl.declares = s.name :: os.flatMap (fun x => x.1 :: x.2.map GenWrapper.name) ∧
    (messageDecls o s gs os).filterMap GoDecl.resets = [s.name] := by
  have hg : ∀ gs : List GenGetter, (gs.map (getterDecl s.pkg s.name)).filterMap GoDecl.declares = [] ∧ (gs.map (getterDecl s.pkg s.name)).filterMap GoDecl.resets = [] := by
    intro gs
    induction gs with
    | nil => exact ⟨rfl, rfl⟩
    | cons g gs ih =>
      rw [List.map_cons, List.filterMap_cons, List.filterMap_cons]
      exact ih
  have ho : ∀ os : List (Str × List GenWrapper), (os.flatMap fun x => oneofDecls s.pkg x.1 x.2).filterMap GoDecl.declares = os.flatMap (fun x => x.1 :: x.2.map GenWrapper.name) ∧
      (os.flatMap fun x => oneofDecls s.pkg x.1 x.2).filterMap GoDecl.resets = [] := by
    intro os
    induction os with
    | nil => exact ⟨rfl, rfl⟩
    | cons x os ih =>
      rw [List.flatMap_cons, List.flatMap_cons, List.filterMap_append, List.filterMap_append, ih.1, ih.2, (oneofDecls_declares _ _ _).1, (oneofDecls_declares _ _ _).2]
      exact ⟨rfl, rfl⟩
  unfold messageDecls
  simp only [List.filterMap_append]
  rw [(ho os).1, (ho os).2]
  have h1 : (if o.getter then gs.map (getterDecl s.pkg s.name) else []).filterMap GoDecl.declares = [] := by
    split
    · exact (hg gs).1
    · rfl
  have h2 : (if o.getter then gs.map (getterDecl s.pkg s.name) else []).filterMap GoDecl.resets = [] := by
    split
    · exact (hg gs).2
    · rfl
  rw [h1, h2]
  constructor
  · split <;> split <;> rfl
  · split <;> split <;> rfl

/-- The names of the enums of a file. -/
def enumNames (d : FileDecl) : List Str :=
  d.enums.map (fun e => goTypeName [e.name]) ++ d.messages.flatMap fun m => m.enums.map fun e => goTypeName [m.name, e.name]

/-- The names of the other types of a file. -/
def chainNames (W : World) (p : Nat) (c : Chain) : List Str :=
  goTypeName c.path :: (List.range c.msg.oneofs.length).flatMap fun k => oneofFieldType c k :: (wrappersOf W p c k).map GenWrapper.name

theorem filterMap_single {α : Type} {f : GoDecl → Option Str} {g : α → List GoDecl} {n : α → List Str} (h : ∀ a, (g a).filterMap f = n a) :
    ∀ l : List α, (l.flatMap g).filterMap f = l.flatMap n
  | [] => rfl
  | a :: l => by rw [List.flatMap_cons, List.flatMap_cons, List.filterMap_append, h, filterMap_single h l]

theorem flatMap_single {α β : Type} (f : α → β) : ∀ l : List α, (l.flatMap fun a => [f a]) = l.map f
  | [] => rfl
  | a :: l => by rw [List.flatMap_cons, List.map_cons, flatMap_single f l]; rfl

theorem flatMap_none {α β : Type} : ∀ l : List α, (l.flatMap fun _ => ([] : List β)) = []
  | [] => rfl
  | _ :: l => by rw [List.flatMap_cons, flatMap_none l]; rfl

theorem fileDecls_declares (W : World) (o : GenOptions) (p : Nat) :
    (fileDecls W o p).filterMap GoDecl.declares = enumNames (W.file p) ++ (msgsChains [] (W.file p).messages).flatMap (chainNames W p) ∧
    (fileDecls W o p).filterMap GoDecl.resets = (msgsChains [] (W.file p).messages).map fun c => goTypeName c.path := by
  unfold fileDecls enumNames
  simp only [List.filterMap_append]
  constructor
  · refine congr (congrArg _ (congr (congrArg _ ?_) ?_)) ?_
    · exact (filterMap_single (fun e => (enumDecls_declares _).1) _).trans (flatMap_single _ _)
    · refine filterMap_single (fun m => ?_) _
      exact (filterMap_single (fun e => (enumDecls_declares _).1) _).trans (flatMap_single _ _)
    · refine filterMap_single (fun c => ?_) _
      refine ((messageDecls_declares _ _ _ _).1).trans ?_
      unfold chainNames
      rw [List.flatMap_map]
      rfl
  · have h1 : ∀ (q : List Str) (es : List EnumDecl), (es.flatMap fun e => enumDecls (enumGen (W.file p) q e)).filterMap GoDecl.resets = [] := fun q es =>
      (filterMap_single (n := fun _ => []) (fun e => (enumDecls_declares _).2) _).trans (flatMap_none _)
    rw [h1, show ((W.file p).messages.flatMap fun m => m.enums.flatMap fun e => enumDecls (enumGen (W.file p) [m.name] e)).filterMap GoDecl.resets = [] from
      (filterMap_single (n := fun _ => []) (fun m => h1 _ _) _).trans (flatMap_none _)]
    exact (filterMap_single (n := fun c => [goTypeName c.path]) (fun c => (messageDecls_declares _ _ _ _).2) _).trans (flatMap_single _ _)

/-! ## The declarations of a file -/

/-- The relevant declarations of a generated file. -/
inductive Part (W : World) (p : Nat) : GoDecl → Prop
  | enum (n : Str) : n ∈ enumNames (W.file p) → Part W p (.intType n)
  | struct (c : Chain) : Around (W.file p).messages c → Part W p (.struct (goTypeName c.path) ((genStruct W p c).fields.map (fieldSyn (W.file p).goImport)))
  | reset (c : Chain) : Around (W.file p).messages c → Part W p (.reset (goTypeName c.path))
  | wrappers (c : Chain) : Around (W.file p).messages c → c.msg.oneofs ≠ [] → Part W p (.wrappers (goTypeName c.path) ((genStruct W p c).wrappers.map GenWrapper.name))
  | iface (c : Chain) (k : Nat) : Around (W.file p).messages c → k < c.msg.oneofs.length → Part W p (.iface (oneofFieldType c k) (oneofFieldType c k))
  | wrapper (c : Chain) (k : Nat) (w : GenWrapper) : Around (W.file p).messages c → k < c.msg.oneofs.length → w ∈ wrappersOf W p c k →
      Part W p (.struct w.name [fieldSyn (W.file p).goImport w.field])
  | marker (c : Chain) (k : Nat) (w : GenWrapper) : Around (W.file p).messages c → k < c.msg.oneofs.length → w ∈ wrappersOf W p c k → Part W p (.marker w.name w.method)

theorem oneofs_nil {c : Chain} {f : Nat → Str × List GenWrapper} : (List.range c.msg.oneofs.length).map f = [] ↔ c.msg.oneofs = [] := by
  rw [List.map_eq_nil_iff, List.range_eq_nil, List.length_eq_zero_iff]

theorem fileDecls_part {W : World} {o : GenOptions} {p : Nat} {d : GoDecl} (h : d ∈ fileDecls W o p) : Part W p d ∨ Inert d := by
  unfold fileDecls at h
  simp only [List.mem_append, List.mem_flatMap] at h
  rcases h with (⟨e, he, h⟩ | ⟨m, hm, e, he, h⟩) | ⟨c, hc, h⟩
  · rcases enumDecls_mem h with rfl | h
    · exact .inl (.enum _ (List.mem_append_left _ (List.mem_map.2 ⟨e, he, rfl⟩)))
    · exact .inr h
  · rcases enumDecls_mem h with rfl | h
    · exact .inl (.enum _ (List.mem_append_right _ (List.mem_flatMap.2 ⟨m, hm, List.mem_map.2 ⟨e, he, rfl⟩⟩)))
    · exact .inr h
  · have hc := (chains_iff _ _).1 hc
    unfold messageDecls at h
    simp only [List.mem_append] at h
    rcases h with (((h | h) | h) | h) | h
    · simp only [List.mem_cons, List.not_mem_nil, or_false] at h
      rcases h with rfl | rfl
      · exact .inl (.struct c hc)
      · exact .inl (.reset c hc)
    · split at h
      · simp only [List.mem_cons, List.not_mem_nil, or_false] at h
        rcases h with rfl | rfl <;> exact .inr ⟨rfl, rfl, fun _ _ h => (by cases h), fun _ _ h => by cases h⟩
      · cases h
    · split at h
      · obtain ⟨g, _, rfl⟩ := List.mem_map.1 h
        exact .inr ⟨rfl, rfl, fun _ _ h => (by cases h), fun _ _ h => by cases h⟩
      · cases h
    · split at h
      · cases h
      · rename_i hne
        rw [List.mem_singleton] at h
        subst h
        exact .inl (.wrappers c hc fun e => hne (oneofs_nil.2 e))
    · simp only [List.mem_flatMap, List.mem_map, List.mem_range] at h
      obtain ⟨_, ⟨k, hk, rfl⟩, h⟩ := h
      unfold oneofDecls at h
      rcases List.mem_cons.1 h with rfl | h
      · exact .inl (.iface c k hc hk)
      · obtain ⟨w, hw, h⟩ := List.mem_flatMap.1 h
        simp only [List.mem_cons, List.not_mem_nil, or_false] at h
        rcases h with rfl | rfl
        · exact .inl (.wrapper c k w hc hk hw)
        · exact .inl (.marker c k w hc hk hw)

theorem part_fileDecls {W : World} {o : GenOptions} {p : Nat} {d : GoDecl} (h : Part W p d) : d ∈ fileDecls W o p := by
  have hmsg : ∀ {c : Chain} {d : GoDecl}, Around (W.file p).messages c → d ∈ messageDecls o (genStruct W p c) (genGetters W p c [] (namedFields c.msg))
      ((List.range c.msg.oneofs.length).map fun k => (oneofFieldType c k, wrappersOf W p c k)) → d ∈ fileDecls W o p := by
    intro c d hc h
    unfold fileDecls
    exact List.mem_append_right _ (List.mem_flatMap.2 ⟨c, (chains_iff _ _).2 hc, h⟩)
  have hone : ∀ {c : Chain} {k : Nat} {d : GoDecl}, Around (W.file p).messages c → k < c.msg.oneofs.length →
      d ∈ oneofDecls (W.file p).goImport (oneofFieldType c k) (wrappersOf W p c k) → d ∈ fileDecls W o p := by
    intro c k d hc hk h
    refine hmsg hc (List.mem_append_right _ (List.mem_flatMap.2 ⟨_, List.mem_map.2 ⟨k, List.mem_range.2 hk, rfl⟩, h⟩))
  cases h with
  | enum n h =>
    unfold fileDecls
    apply List.mem_append_left
    rcases List.mem_append.1 h with h | h
    · obtain ⟨e, he, rfl⟩ := List.mem_map.1 h
      exact List.mem_append_left _ (List.mem_flatMap.2 ⟨e, he, List.mem_append_left _ (List.mem_cons_self ..)⟩)
    · obtain ⟨m, hm, h⟩ := List.mem_flatMap.1 h
      obtain ⟨e, he, rfl⟩ := List.mem_map.1 h
      exact List.mem_append_right _ (List.mem_flatMap.2 ⟨m, hm, List.mem_flatMap.2 ⟨e, he, List.mem_append_left _ (List.mem_cons_self ..)⟩⟩)
  | struct c hc => exact hmsg hc (List.mem_append_left _ (List.mem_append_left _ (List.mem_append_left _ (List.mem_append_left _ (List.mem_cons_self ..)))))
  | reset c hc =>
    exact hmsg hc (List.mem_append_left _ (List.mem_append_left _ (List.mem_append_left _ (List.mem_append_left _ (List.mem_cons_of_mem _ (List.mem_cons_self ..))))))
  | wrappers c hc hne =>
    refine hmsg hc (List.mem_append_left _ (List.mem_append_right _ ?_))
    rw [if_neg fun e => hne (oneofs_nil.1 e)]
    exact List.mem_cons_self ..
  | iface c k hc hk => exact hone hc hk (List.mem_cons_self ..)
  | wrapper c k w hc hk hw => exact hone hc hk (List.mem_cons_of_mem _ (List.mem_flatMap.2 ⟨w, hw, List.mem_cons_self ..⟩))
  | marker c k w hc hk hw => exact hone hc hk (List.mem_cons_of_mem _ (List.mem_flatMap.2 ⟨w, hw, List.mem_cons_of_mem _ (List.mem_cons_self ..)⟩))

/-! ## Programs -/

/-- The file generated for a proto file, with these imports. -/
def goFileOf (W : World) (o : GenOptions) (imps : Nat → List (Str × Str)) (p : Nat) : GoSource :=
  ⟨(W.file p).goImport, ⟨(W.file p).goPackage, imps p, fileDecls W o p⟩⟩

/-- All generated files. -/
def sourcesOf (W : World) (o : GenOptions) (imps : Nat → List (Str × Str)) : List GoSource := (List.range W.files.length).map (goFileOf W o imps)

section
variable {W : World} {o : GenOptions} {imps : Nat → List (Str × Str)}

theorem source_mem {p : Nat} (h : p < W.files.length) : goFileOf W o imps p ∈ sourcesOf W o imps := List.mem_map.2 ⟨p, List.mem_range.2 h, rfl⟩

theorem mem_source {s : GoSource} (h : s ∈ sourcesOf W o imps) : ∃ p, p < W.files.length ∧ s = goFileOf W o imps p := by
  obtain ⟨p, hp, rfl⟩ := List.mem_map.1 h
  exact ⟨p, List.mem_range.1 hp, rfl⟩

theorem inPackage_part {path : Str} {d : GoDecl} (h : InPackage (sourcesOf W o imps) path d) (hd : ¬ Inert d) :
    ∃ p, p < W.files.length ∧ (W.file p).goImport = path ∧ Part W p d := by
  obtain ⟨s, hs, e, h⟩ := h
  obtain ⟨p, hp, rfl⟩ := mem_source hs
  exact ⟨p, hp, e, (fileDecls_part h).resolve_right hd⟩

theorem part_inPackage {p : Nat} {d : GoDecl} (hp : p < W.files.length) (h : Part W p d) : InPackage (sourcesOf W o imps) (W.file p).goImport d :=
  ⟨_, source_mem hp, rfl, part_fileDecls h⟩

theorem flatMap_congr {α β : Type} {f g : α → List β} (h : ∀ a, f a = g a) (l : List α) : l.flatMap f = l.flatMap g := by rw [funext h]

theorem typeNames_eq : typeNames (sourcesOf W o imps) = (List.range W.files.length).flatMap fun p =>
    (enumNames (W.file p)).map (fun n => ((W.file p).goImport, n)) ++
    ((msgsChains [] (W.file p).messages).flatMap (chainNames W p)).map fun n => ((W.file p).goImport, n) := by
  unfold typeNames sourcesOf
  rw [List.flatMap_map]
  refine flatMap_congr (fun p => ?_) _
  show ((fileDecls W o p).filterMap GoDecl.declares).map (fun n => ((W.file p).goImport, n)) = _
  rw [(fileDecls_declares W o p).1, List.map_append]

theorem messageTypes_eq : messageTypes (sourcesOf W o imps) = structNames W := by
  unfold messageTypes sourcesOf structNames genStructs allMessages
  rw [List.flatMap_map, List.map_map, List.map_flatMap]
  refine flatMap_congr (fun p => ?_) _
  show ((fileDecls W o p).filterMap GoDecl.resets).map (fun n => ((W.file p).goImport, n)) = _
  rw [(fileDecls_declares W o p).2, List.map_map, List.map_map]
  rfl

theorem genEnums_eq : genEnums W = (List.range W.files.length).flatMap fun p => (enumNames (W.file p)).map fun n => ((W.file p).goImport, n) := by
  unfold genEnums
  refine flatMap_congr (fun p => ?_) _
  unfold enumNames
  rw [List.map_append, List.map_map, List.map_flatMap]
  congr 1
  refine flatMap_congr (fun m => ?_) _
  rw [List.map_map]
  rfl

theorem distinct_names (h : (typeNames (sourcesOf W o imps)).Nodup) : (structNames W ++ genEnums W).Nodup := by
  rw [typeNames_eq, (perm_flatMap_append _ _ _).nodup_iff, List.perm_append_comm.nodup_iff] at h
  rw [genEnums_eq]
  refine List.Nodup.sublist (List.Sublist.append_right ?_ _) h
  unfold structNames genStructs allMessages
  rw [List.map_map, List.map_flatMap]
  refine sublist_flatMap (fun p => ?_) _
  rw [List.map_map, List.map_flatMap, ← flatMap_single]
  refine sublist_flatMap (fun c => ?_) _
  exact List.Sublist.cons_cons _ (List.nil_sublist _)

end

/-- A type is declared once. -/
theorem declared_once {P : List GoSource} (h : (typeNames P).Nodup) {s s' : GoSource} {d d' : GoDecl} {n : Str} (hs : s ∈ P) (hs' : s' ∈ P) (hd : d ∈ s.file.decls)
    (hd' : d' ∈ s'.file.decls) (e : s.path = s'.path) (h1 : d.declares = some n) (h2 : d'.declares = some n) : s = s' ∧ d = d' := by
  have key : ∀ l : List GoDecl, ∀ a : Str, ((l.filterMap GoDecl.declares).map fun n => (a, n)) = (l.filter fun d => d.declares.isSome).map fun d => (a, d.declares.getD []) := by
    intro l a
    induction l with
    | nil => rfl
    | cons x l ih =>
      cases hx : x.declares with
      | none => rw [List.filterMap_cons_none hx, List.filter_cons_of_neg (by rw [hx]; simp), ih]
      | some m => rw [List.filterMap_cons_some hx, List.filter_cons_of_pos (by rw [hx]; rfl), List.map_cons, List.map_cons, ih, hx]; rfl
  have hL : typeNames P = (P.flatMap fun s => (s.file.decls.filter fun d => d.declares.isSome).map fun d => (s, d)).map fun x => (x.1.path, x.2.declares.getD []) := by
    unfold typeNames
    rw [List.map_flatMap]
    refine flatMap_congr (fun s => ?_) _
    rw [List.map_map]
    exact key _ _
  rw [hL] at h
  have hm : ∀ {s : GoSource} {d : GoDecl}, s ∈ P → d ∈ s.file.decls → d.declares = some n →
      (s, d) ∈ P.flatMap fun s => (s.file.decls.filter fun d => d.declares.isSome).map fun d => (s, d) := by
    intro s d hs hd h
    exact List.mem_flatMap.2 ⟨s, hs, List.mem_map.2 ⟨d, List.mem_filter.2 ⟨hd, by rw [h]; rfl⟩, rfl⟩⟩
  have := mem_of_nodup_map h (hm hs hd h1) (hm hs' hd' h2) (by dsimp only; rw [e, h1, h2])
  exact ⟨congrArg Prod.fst this, congrArg Prod.snd this⟩

/-! ## Names -/

/-- Names like `isM_X`. -/
def IsName (n : Str) : Prop := ∃ r, n = 'i' :: 's' :: r

theorem isName_not_exported {n : Str} (h : IsName n) : ¬ ExportedIdent n := by
  obtain ⟨r, rfl⟩ := h
  rintro ⟨c, r', e, hc, _⟩
  injection e with e _
  subst e
  revert hc
  decide +kernel

theorem isName_iface (c : Chain) (k : Nat) : IsName (oneofFieldType c k) := ⟨_, rfl⟩

section
variable {W : World} {o : GenOptions} {imps : Nat → List (Str × Str)} {p : Nat}

theorem enumNames_exported (h : NamedFile (W.file p)) {n : Str} (hn : n ∈ enumNames (W.file p)) : ExportedIdent n := by
  rcases List.mem_append.1 hn with hn | hn
  · obtain ⟨e, he, rfl⟩ := List.mem_map.1 hn
    exact type_named h (.enum he)
  · obtain ⟨m, hm, hn⟩ := List.mem_flatMap.1 hn
    obtain ⟨e, he, rfl⟩ := List.mem_map.1 hn
    exact type_named h (.nested hm (.enum he))

theorem wrapperName_exported (h : NamedFile (W.file p)) {c : Chain} {k : Nat} {w : GenWrapper} (hc : Around (W.file p).messages c) (hw : w ∈ wrappersOf W p c k) :
    ExportedIdent w.name := by
  obtain ⟨x, hx, rfl⟩ := List.mem_map.1 hw
  exact wrapper_exported (type_named h (chain_declared hc)) (field_named (h.messages _ (within_msg hc)).fields (List.mem_filter.1 hx).1)

theorem struct_exported (h : NamedFile (W.file p)) {n : Str} {fs : List (Str × TypeSyn × Str)} (hd : Part W p (.struct n fs)) : ExportedIdent n := by
  cases hd with
  | struct c hc => exact type_named h (chain_declared hc)
  | wrapper c k w hc hk hw => exact wrapperName_exported h hc hw

theorem iface_part {n m : Str} (hd : Part W p (.iface n m)) : m = n ∧ IsName n := by
  cases hd with
  | iface c k _ _ => exact ⟨rfl, isName_iface c k⟩

theorem not_inert {d : GoDecl} {n : Str} (h : d.declares = some n) : ¬ Inert d := fun hi => by rw [hi.1] at h; cases h

theorem typeNames_shape (hn : ∀ f, NamedFile (W.file f)) {path n : Str} (h : (path, n) ∈ typeNames (sourcesOf W o imps)) : ExportedIdent n ∨ IsName n := by
  obtain ⟨s, hs, h1⟩ := List.mem_flatMap.1 h
  obtain ⟨n', h2, e⟩ := List.mem_map.1 h1
  clear h h1
  cases e
  obtain ⟨d, hd, h⟩ := List.mem_filterMap.1 h2
  clear h2
  obtain ⟨p, _, rfl⟩ := mem_source hs
  have hd := (fileDecls_part hd).resolve_right (not_inert h)
  cases hd with
  | enum _ hm => cases h; exact .inl (enumNames_exported (hn p) hm)
  | struct c hc => cases h; exact .inl (struct_exported (hn p) (.struct c hc))
  | iface c k _ _ => cases h; exact .inr (isName_iface c k)
  | wrapper c k w hc hk hw => cases h; exact .inl (wrapperName_exported (hn p) hc hw)
  | reset | wrappers | marker => cases h

theorem not_typeName (hn : ∀ f, NamedFile (W.file f)) {path n : Str} (h : n ∈ "byte".toList :: predeclared.map Prod.fst) : (path, n) ∉ typeNames (sourcesOf W o imps) := by
  intro hm
  have hk : ∀ n ∈ "byte".toList :: predeclared.map Prod.fst, (∀ c ∈ n.head?, ¬ Upper c) ∧ n.take 2 ≠ ['i', 's'] := by decide +kernel
  obtain ⟨h1, h2⟩ := hk n h
  rcases typeNames_shape hn hm with h | ⟨r, rfl⟩
  · exact exported_ne h h1 rfl
  · exact h2 rfl

/-! ## Types -/

/-- The import paths that may occur in a file. -/
def knownPaths (W : World) (p : Nat) : List Str := "strconv".toList :: "github.com/cloudwego/prutal".toList :: (W.imports p).map fun i => (W.file i.1).goImport

/-- What is known about the generated files. -/
structure Bound (W : World) (imps : Nat → List (Str × Str)) (declared : Str → Str) : Prop where
  named : ∀ f, NamedFile (W.file f)
  found : AllFound W
  plain : ∀ p, p < W.files.length → ∀ i ∈ imps p, i.1 = []
  paths : ∀ p, p < W.files.length → ∀ i ∈ imps p, i.2 ∈ knownPaths W p
  declared : ∀ p, p < W.files.length → ∀ a ∈ knownPaths W p, declared a = pathBase a
  bases : ∀ p, p < W.files.length → ∀ a ∈ knownPaths W p, ∀ b ∈ knownPaths W p, pathBase a = pathBase b → a = b

/-- Type expressions in generated files. -/
def SafeExpr (W : World) (p : Nat) : GoExpr → Prop
  | .basic s => s ∈ scalarTypes.map Prod.snd
  | .iface n => IsName n
  | .named pkg n => ExportedIdent n ∧ (pkg ≠ (W.file p).goImport → ∃ i ∈ W.imports p, pkg = (W.file i.1).goImport)
  | .ptr t => SafeExpr W p t
  | .slice t => SafeExpr W p t
  | .map k v => SafeExpr W p k ∧ SafeExpr W p v

theorem named_sound (hN : (typeNames (sourcesOf W o imps)).Nodup) {path n : Str} {g : GoType} (h : NamedType (sourcesOf W o imps) path n g) (hn : ExportedIdent n) :
    g = elabType (genEnums W) (structNames W) (.named path n) := by
  have hd := List.nodup_append.1 (distinct_names hN)
  unfold elabType
  cases h with
  | int32 h =>
    obtain ⟨p, hp, rfl, h'⟩ := inPackage_part h (not_inert rfl)
    cases h' with
    | enum _ h =>
      rw [if_pos]
      rw [List.contains_iff_mem, genEnums_eq]
      exact List.mem_flatMap.2 ⟨p, List.mem_range.2 hp, List.mem_map.2 ⟨n, h, rfl⟩⟩
  | struct i fs h hi =>
    rw [messageTypes_eq] at hi
    rw [if_neg, idxOf_nodup hd.1 hi]
    rw [List.contains_iff_mem]
    exact fun h => hd.2.2 _ (List.mem_of_getElem? hi) _ h rfl
  | iface m h =>
    obtain ⟨p, hp, rfl, h'⟩ := inPackage_part h (not_inert rfl)
    exact absurd hn (isName_not_exported (iface_part h').2)

theorem basic_word {s : Str} (h : s ∈ scalarTypes.map Prod.snd) : s = "[]byte".toList ∨ (s, basicGoType s) ∈ predeclared := by
  revert s
  decide +kernel

theorem predeclared_unique {n : Str} {g g' : GoType} (h : (n, g) ∈ predeclared) (h' : (n, g') ∈ predeclared) : g = g' := by
  have : ∀ a ∈ predeclared, ∀ b ∈ predeclared, a.1 = b.1 → a.2 = b.2 := by decide +kernel
  exact this _ h _ h' rfl

theorem named_declared {path n : Str} {g : GoType} {P : List GoSource} (h : NamedType P path n g) : (path, n) ∈ typeNames P := by
  have key : ∀ d, InPackage P path d → d.declares = some n → (path, n) ∈ typeNames P := by
    rintro d ⟨s, hs, rfl, hd⟩ h
    exact List.mem_flatMap.2 ⟨s, hs, List.mem_map.2 ⟨n, List.mem_filterMap.2 ⟨d, hd, h⟩, rfl⟩⟩
  cases h with
  | int32 h => exact key _ h rfl
  | struct i fs h _ => exact key _ h rfl
  | iface m h => exact key _ h rfl

theorem type_sound {declared : Str → Str} (hB : Bound W imps declared) (hN : (typeNames (sourcesOf W o imps)).Nodup) (hp : p < W.files.length) :
    ∀ {t : GoExpr} {g : GoType}, HasType (sourcesOf W o imps) declared (goFileOf W o imps p) (exprSyn (W.file p).goImport t) g → SafeExpr W p t →
      g = elabType (genEnums W) (structNames W) t
  | .basic s, g, h, hs => by
    unfold exprSyn at h
    rcases basic_word hs with rfl | hb
    · rw [if_pos rfl] at h
      cases h with
      | bytes _ => rfl
      | slice _ g h =>
        cases h with
        | own _ _ h => exact absurd (named_declared h) (not_typeName hB.named (List.mem_cons_self ..))
        | predeclared _ _ _ h =>
          have : ∀ x ∈ predeclared, x.1 ≠ "byte".toList := by decide +kernel
          exact absurd rfl (this _ h)
    · have hne : s ≠ "[]byte".toList := by
        rintro rfl
        have : ∀ x ∈ predeclared, x.1 ≠ "[]byte".toList := by decide +kernel
        exact this _ hb rfl
      rw [if_neg hne] at h
      cases h with
      | own _ _ h => exact absurd (named_declared h) (not_typeName hB.named (List.mem_cons_of_mem _ (List.mem_map.2 ⟨_, hb, rfl⟩)))
      | predeclared _ _ _ h => exact predeclared_unique h hb
  | .iface n, g, h, hs => by
    unfold exprSyn at h
    cases h with
    | own _ _ h =>
      cases h with
      | int32 h =>
        obtain ⟨p', _, _, h⟩ := inPackage_part h (not_inert rfl)
        cases h with
        | enum _ h => exact absurd (enumNames_exported (hB.named p') h) (isName_not_exported hs)
      | struct i fs h _ =>
        obtain ⟨p', _, _, h⟩ := inPackage_part h (not_inert rfl)
        exact absurd (struct_exported (hB.named p') h) (isName_not_exported hs)
      | iface m h => rfl
    | predeclared _ _ _ h =>
      obtain ⟨r, rfl⟩ := hs
      have : ∀ x ∈ predeclared, x.1.take 2 ≠ ['i', 's'] := by decide +kernel
      exact absurd rfl (this _ h)
  | .named pkg n, g, h, hs => by
    unfold exprSyn at h
    split at h
    · rename_i e
      subst e
      cases h with
      | own _ _ h => exact named_sound hN h hs.1
      | predeclared _ _ _ h =>
        have : ∀ x ∈ predeclared, ∀ c ∈ x.1.head?, ¬ Upper c := by decide +kernel
        exact absurd rfl (exported_ne hs.1 (this _ h))
    · rename_i hne
      obtain ⟨j, hj, e⟩ := hs.2 hne
      have hk : pkg ∈ knownPaths W p := List.mem_cons_of_mem _ (List.mem_cons_of_mem _ (List.mem_map.2 ⟨j, hj, e.symm⟩))
      cases h with
      | imported _ _ i _ hi hb _ _ h =>
        unfold boundName at hb
        rw [if_pos (hB.plain p hp i hi), hB.declared p hp _ (hB.paths p hp i hi)] at hb
        rw [hB.bases p hp _ (hB.paths p hp i hi) _ hk hb] at h
        exact named_sound hN h hs.1
  | .ptr t, g, h, hs => by
    unfold exprSyn at h
    cases h with
    | ptr _ g h =>
      rw [type_sound hB hN hp h hs]
      rfl
  | .slice t, g, h, hs => by
    unfold exprSyn at h
    generalize he : exprSyn (W.file p).goImport t = u at h
    cases h with
    | bytes hb =>
      cases t with
      | basic s =>
        unfold exprSyn at he
        split at he
        · cases he
        · cases he
          have hk : "byte".toList ∉ scalarTypes.map Prod.snd := by decide +kernel
          exact absurd hs hk
      | iface n =>
        cases he
        obtain ⟨r, hr⟩ := hs
        cases hr
      | named pkg n =>
        unfold exprSyn at he
        split at he
        · cases he
          exact absurd rfl (exported_ne hs.1 (by decide +kernel))
        · cases he
      | ptr t => cases he
      | slice t => cases he
      | map k v => cases he
    | slice _ g h =>
      rw [← he] at h
      rw [type_sound hB hN hp h hs]
      rfl
  | .map k v, g, h, hs => by
    unfold exprSyn at h
    cases h with
    | map _ _ g1 g2 h1 h2 =>
      rw [type_sound hB hN hp h1 hs.1, type_sound hB hN hp h2 hs.2]
      rfl

end

end Verif.Props.Gen
