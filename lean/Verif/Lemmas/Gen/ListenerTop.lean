import Verif.Lemmas.Gen.ListenerMsg
/-!
# Lemmas about the listeners: services and files
-/
namespace Verif.Props.Gen
open Verif.Model.Gen Verif.Spec.Gen

/-! ## Services -/

theorem rpcOptions_ends : ∀ (xs : List (Option OptionNode)) {s : LState} {ss : List ServiceRec} {v : ServiceRec} {ms : List MethodRec} {m : MethodRec},
    s.services = ss ++ [v] → v.methods = ms ++ [m] →
    Ends (∀ o ∈ rpcOptions xs, GoodOption o) (run (xs.flatMap evRpcOption) s)
      (fun s' => ∃ oo, OptionsAre (rpcOptions xs) oo ∧
        s' = { s with services := ss ++ [{ v with methods := ms ++ [{ m with options := m.options ++ oo }] }] })
  | [], s, ss, v, ms, m, hs, hv => by
    refine .pure (by simp [rpcOptions]) ⟨[], optionsAre_nil, ?_⟩
    simp [← hv, ← hs]
  | none :: xs, s, ss, v, ms, m, hs, hv => rpcOptions_ends xs hs hv
  | some o :: xs, s, ss, v, ms, m, hs, hv => by
    rw [List.flatMap_cons]
    refine Ends.append (P1 := GoodOption o) (P2 := ∀ o ∈ rpcOptions xs, GoodOption o) (Q1 := fun s1 => ∃ x, o.value = some x ∧
      s1 = { s with services := ss ++ [{ v with methods := ms ++ [{ m with options := m.options ++ [(o.name, x)] }] }] }) ?_ ?_
      (by simp [rpcOptions])
    · rw [evRpcOption, run_one]
      refine exitOption_ends (fun x hx => ⟨_, ?_, x, hx, rfl⟩)
      simp only [addOption]
      rw [hs, updateLast_ok (y := { v with methods := ms ++ [{ m with options := m.options ++ [(o.name, x)] }] }) (by
        rw [hv, updateLast_pure]; rfl)]
      rfl
    · rintro s1 ⟨x, hx, rfl⟩
      refine (rpcOptions_ends xs (s := { s with services := _ }) rfl rfl).mono Iff.rfl ?_
      rintro s2 ⟨oo, ho, rfl⟩
      refine ⟨(o.name, x) :: oo, optionsAre_append (a := [o]) (optionsAre_one hx) ho, ?_⟩
      simp

/-- What is added to a service. -/
def ServiceGrown (es : List ServiceElem) (v v' : ServiceRec) : Prop :=
  v'.name = v.name ∧ v'.directives = v.directives ∧ (∃ oo, v'.options = v.options ++ oo ∧ OptionsAre (serviceOptions es) oo) ∧
    ∃ ms, v'.methods = v.methods ++ ms ∧ All2 MethodIs (serviceRpcs es) ms

theorem serviceOptions_cons (e : ServiceElem) (es : List ServiceElem) : serviceOptions (e :: es) = serviceOptions [e] ++ serviceOptions es := by
  cases e <;> simp [serviceOptions]

theorem serviceRpcs_cons (e : ServiceElem) (es : List ServiceElem) : serviceRpcs (e :: es) = serviceRpcs [e] ++ serviceRpcs es := by
  cases e <;> simp [serviceRpcs]

theorem ServiceGrown.trans {e : ServiceElem} {es : List ServiceElem} {v v1 v2 : ServiceRec} (h1 : ServiceGrown [e] v v1) (h2 : ServiceGrown es v1 v2) :
    ServiceGrown (e :: es) v v2 := by
  obtain ⟨a1, b1, ⟨o1, p1, q1⟩, r1, s1, t1⟩ := h1
  obtain ⟨a2, b2, ⟨o2, p2, q2⟩, r2, s2, t2⟩ := h2
  refine ⟨a2.trans a1, b2.trans b1, ⟨o1 ++ o2, ?_, ?_⟩, r1 ++ r2, ?_, ?_⟩
  · rw [p2, p1, List.append_assoc]
  · rw [serviceOptions_cons]; exact optionsAre_append q1 q2
  · rw [s2, s1, List.append_assoc]
  · rw [serviceRpcs_cons]; exact all2_append t1 t2

theorem ServiceGrown.same {es : List ServiceElem} {v : ServiceRec} (h1 : serviceOptions es = []) (h2 : serviceRpcs es = []) : ServiceGrown es v v :=
  ⟨rfl, rfl, ⟨[], by simp, by rw [h1]; exact optionsAre_nil⟩, [], by simp, by rw [h2]; exact .nil⟩

/-- The flags are those of the types that a keyword `stream` precedes. -/
theorem stream_flags {r : RpcNode} (h : OrderedRpc r) {m : MethodRec} (h1 : m.requestStream = false) (h2 : m.returnStream = false) :
    (r.requestStream.toList ++ r.returnStream.toList).foldl (streamAt r.requestPos r.returnPos) m =
      { m with requestStream := r.requestStream.isSome, returnStream := r.returnStream.isSome } := by
  obtain ⟨ha, hb⟩ := h
  cases hq : r.requestStream with
  | none =>
    cases hr : r.returnStream with
    | none => cases m; simp_all
    | some y =>
      obtain ⟨b1, b2⟩ := hb y hr
      have : ¬ y < r.requestPos := by omega
      simp [streamAt, this, b2, ← h1]
  | some x =>
    have a1 := ha x hq
    cases hr : r.returnStream with
    | none => simp [streamAt, a1, ← h2]
    | some y =>
      obtain ⟨b1, b2⟩ := hb y hr
      have : ¬ y < r.requestPos := by omega
      simp [streamAt, a1, this, b2]

theorem serviceElem_ends {e : ServiceElem} {s : LState} {ss : List ServiceRec} {v : ServiceRec} (hs : s.services = ss ++ [v])
    (ho : ∀ r ∈ serviceRpcs [e], OrderedRpc r) :
    Ends (GoodServiceElem e) (run (evServiceElem e) s) (fun s' => ∃ v', ServiceGrown [e] v v' ∧ s' = { s with services := ss ++ [v'] }) := by
  cases e with
  | empty => exact .pure trivial ⟨v, .same rfl rfl, by simp [← hs]⟩
  | option o =>
    rw [evServiceElem, run_one]
    refine exitOption_ends (fun x hx => ⟨{ s with services := ss ++ [{ v with options := v.options ++ [(o.name, x)] }] }, ?_,
      { v with options := v.options ++ [(o.name, x)] }, ?_, rfl⟩)
    · simp only [addOption]
      rw [hs, updateLast_pure]; rfl
    · exact ⟨rfl, rfl, ⟨_, rfl, optionsAre_one hx⟩, [], by simp, .nil⟩
  | rpc r =>
    have hr := ho r (by simp [serviceRpcs])
    rw [evServiceElem, run_cons]
    have hent : step s (.enterRpc r.name r.directives) = .ok { s with
        services := ss ++ [{ v with methods := v.methods ++ [{ name := r.name, directives := r.directives }] }] } := by
      simp only [step, enterRpc]
      rw [hs, updateLast_pure]; rfl
    rw [hent]
    show Ends _ (run _ _) _
    refine Ends.append (rpcOptions_ends r.options (s := { s with services := _ }) rfl rfl) (P2 := True) ?_ (by simp [GoodServiceElem])
    rintro s1 ⟨oo, hoo, rfl⟩
    rw [run_one]
    simp only [step, exitRpc]
    rw [updateLast_ok (y := { v with methods := v.methods ++ [{ name := r.name, directives := r.directives, options := oo, request := r.request,
                                                                 ret := r.ret, requestStream := r.requestStream.isSome,
                                                                 returnStream := r.returnStream.isSome }] }) (by
      dsimp only
      rw [updateLast_pure, stream_flags hr rfl rfl]
      rfl)]
    refine .pure trivial ⟨{ v with methods := v.methods ++ [_] }, ⟨rfl, rfl, ⟨[], by simp, optionsAre_nil⟩, _, rfl, ?_⟩, rfl⟩
    exact all2_one ⟨rfl, rfl, rfl, rfl, hoo, Iff.rfl, Iff.rfl⟩

theorem serviceElems_ends : ∀ (es : List ServiceElem) {s : LState} {ss : List ServiceRec} {v : ServiceRec}, s.services = ss ++ [v] →
    (∀ r ∈ serviceRpcs es, OrderedRpc r) → Ends (∀ x ∈ es, GoodServiceElem x) (run (es.flatMap evServiceElem) s)
      (fun s' => ∃ v', ServiceGrown es v v' ∧ s' = { s with services := ss ++ [v'] })
  | [], s, ss, v, hs, _ => .pure (by simp) ⟨v, .same rfl rfl, by simp [← hs]⟩
  | e :: es, s, ss, v, hs, ho => by
    rw [List.flatMap_cons]
    rw [serviceRpcs_cons] at ho
    refine (serviceElem_ends hs (fun r hr => ho r (List.mem_append_left _ hr))).append (P2 := ∀ x ∈ es, GoodServiceElem x) ?_ (by simp)
    rintro s1 ⟨v1, g1, rfl⟩
    refine (serviceElems_ends es (s := { s with services := ss ++ [v1] }) rfl (fun r hr => ho r (List.mem_append_right _ hr))).mono Iff.rfl ?_
    rintro s2 ⟨v2, g2, rfl⟩
    exact ⟨v2, g1.trans g2, rfl⟩

/-! ## Files -/

/-- The outcome for statements `es` of a file. -/
structure TopPost (s : LState) (es : List TopElem) (s' : LState) : Prop where
  edition : s'.edition = s.edition
  msgstack : s'.msgstack = []
  enum : s'.enum = none
  package : s'.package = if s.package = [] then ((topPackages es).head?).getD [] else s.package
  imports : ∃ xs, s'.imports = s.imports ++ xs ∧ xs.map (fun x => (some x.1, x.2)) = topImports es
  options : ∃ oo, s'.options = s.options ++ oo ∧ OptionsAre (topOptions es) oo
  services : ∃ vs, s'.services = s.services ++ vs ∧ All2 ServiceIs (topServices es) vs
  enums : ∃ js ds, s'.enums = s.enums ++ js ∧ All3 (EnumAt s' none) (topEnums es) js ds
  messages : ∃ js ms, s'.messages = s.messages ++ js ∧ All3 (MsgAt s' none) (topMessages es) js ms
  oldMsgs : ∀ (k : Nat) (r : MsgRec), s.msgStore[k]? = some r → s'.msgStore[k]? = some r
  oldEnums : ∀ (k : Nat) (r : EnumRec), s.enumStore[k]? = some r → s'.enumStore[k]? = some r

theorem topImports_cons (e : TopElem) (es : List TopElem) : topImports (e :: es) = topImports [e] ++ topImports es := by cases e <;> simp [topImports]
theorem topOptions_cons (e : TopElem) (es : List TopElem) : topOptions (e :: es) = topOptions [e] ++ topOptions es := by cases e <;> simp [topOptions]
theorem topServices_cons (e : TopElem) (es : List TopElem) : topServices (e :: es) = topServices [e] ++ topServices es := by cases e <;> simp [topServices]
theorem topEnums_cons (e : TopElem) (es : List TopElem) : topEnums (e :: es) = topEnums [e] ++ topEnums es := by cases e <;> simp [topEnums]
theorem topMessages_cons (e : TopElem) (es : List TopElem) : topMessages (e :: es) = topMessages [e] ++ topMessages es := by cases e <;> simp [topMessages]
theorem topPackages_cons (e : TopElem) (es : List TopElem) : topPackages (e :: es) = topPackages [e] ++ topPackages es := by cases e <;> simp [topPackages]

theorem TopPost.trans {s s1 s2 : LState} {e : TopElem} {es : List TopElem} (hp : ∀ n ∈ topPackages [e], n ≠ []) (h1 : TopPost s [e] s1)
    (h2 : TopPost s1 es s2) : TopPost s (e :: es) s2 := by
  obtain ⟨is1, i1, i1'⟩ := h1.imports
  obtain ⟨is2, i2, i2'⟩ := h2.imports
  obtain ⟨oo1, p1, p1'⟩ := h1.options
  obtain ⟨oo2, p2, p2'⟩ := h2.options
  obtain ⟨vs1, v1, v1'⟩ := h1.services
  obtain ⟨vs2, v2, v2'⟩ := h2.services
  obtain ⟨ej1, ed1, e1, e1'⟩ := h1.enums
  obtain ⟨ej2, ed2, e2, e2'⟩ := h2.enums
  obtain ⟨mj1, md1, m1, m1'⟩ := h1.messages
  obtain ⟨mj2, md2, m2, m2'⟩ := h2.messages
  refine ⟨h2.edition.trans h1.edition, h2.msgstack, h2.enum, ?_, ⟨is1 ++ is2, ?_, ?_⟩, ⟨oo1 ++ oo2, ?_, ?_⟩, ⟨vs1 ++ vs2, ?_, ?_⟩,
    ⟨ej1 ++ ej2, ed1 ++ ed2, ?_, ?_⟩, ⟨mj1 ++ mj2, md1 ++ md2, ?_, ?_⟩, fun k r h => h2.oldMsgs k r (h1.oldMsgs k r h),
    fun k r h => h2.oldEnums k r (h1.oldEnums k r h)⟩
  · rw [h2.package, h1.package, topPackages_cons e es]
    by_cases hk : s.package = []
    · simp only [hk, if_true]
      cases hx : topPackages [e] with
      | nil => simp
      | cons n ns =>
        have := hp n (by rw [hx]; exact List.mem_cons_self ..)
        simp [this]
    · simp [hk]
  · rw [i2, i1, List.append_assoc]
  · rw [topImports_cons, List.map_append, i1', i2']
  · rw [p2, p1, List.append_assoc]
  · rw [topOptions_cons]; exact optionsAre_append p1' p2'
  · rw [v2, v1, List.append_assoc]
  · rw [topServices_cons]; exact all2_append v1' v2'
  · rw [e2, e1, List.append_assoc]
  · rw [topEnums_cons]
    exact (e1'.mono fun n j d _ h => ⟨h2.oldEnums _ _ h.1, h.2⟩).append e2'
  · rw [m2, m1, List.append_assoc]
  · rw [topMessages_cons]
    exact (m1'.mono fun n j d _ h => loaded_frame h (fun k r _ hr => h2.oldMsgs k r hr) h2.oldEnums).append m2'

/-- A file on which nothing has an effect but what is given. -/
theorem TopPost.same {s : LState} {es : List TopElem} (hs : s.msgstack = []) (he : s.enum = none) (h0 : topPackages es = []) (h1 : topImports es = [])
    (h2 : topOptions es = []) (h3 : topServices es = []) (h4 : topEnums es = []) (h5 : topMessages es = []) : TopPost s es s :=
  ⟨rfl, hs, he, by rw [h0]; split <;> simp_all, ⟨[], by simp, by rw [h1]; rfl⟩, ⟨[], by simp, by rw [h2]; exact optionsAre_nil⟩,
    ⟨[], by simp, by rw [h3]; exact .nil⟩, ⟨[], [], by simp, by rw [h4]; exact .nil⟩, ⟨[], [], by simp, by rw [h5]; exact .nil⟩,
    fun _ _ h => h, fun _ _ h => h⟩

theorem package_same (s : LState) : s.package = if s.package = [] then (([] : List Str).head?).getD [] else s.package := by
  split <;> simp_all

theorem top_ends {e : TopElem} {s : LState} (hs : s.msgstack = []) (hen : s.enum = none)
    (hm : ∀ n d es, e = .message n d es → ∀ x, Inside es x → NumbersElem x) (hv : ∀ x, e = .enum x → NumbersElem (.enum x))
    (hr : ∀ n d es, e = .service n d es → ∀ r ∈ serviceRpcs es, OrderedRpc r) :
    Ends (GoodTop s.edition e ∧ (s.package ≠ [] → topPackages [e] = [])) (run (evTop e) s) (TopPost s [e]) := by
  have notPackage : topPackages [e] = [] → (GoodTop s.edition e ∧ (s.package ≠ [] → topPackages [e] = []) ↔ GoodTop s.edition e) := by
    intro h; simp [h]
  cases e with
  | empty => exact .pure ⟨trivial, fun _ => rfl⟩ (.same hs hen rfl rfl rfl rfl rfl rfl)
  | extend t fs =>
    rw [evTop, run_extend]
    exact .pure ⟨trivial, fun _ => rfl⟩ (.same hs hen rfl rfl rfl rfl rfl rfl)
  | importStmt p path =>
    rw [notPackage rfl, evTop, run_one]
    simp only [step]
    cases path with
    | none => exact .fail (fun h => h rfl)
    | some x =>
      exact .pure (by simp [GoodTop]) ⟨rfl, hs, hen, package_same s, ⟨_, rfl, rfl⟩, ⟨[], by simp, optionsAre_nil⟩, ⟨[], by simp, .nil⟩,
        ⟨[], [], by simp, .nil⟩, ⟨[], [], by simp, .nil⟩, fun _ _ h => h, fun _ _ h => h⟩
  | package n =>
    rw [evTop, run_one]
    simp only [step]
    by_cases hp : s.package = []
    · rw [if_neg (by simp [hp])]
      refine .pure ⟨trivial, fun h => absurd hp h⟩ ⟨rfl, hs, hen, ?_, ⟨[], by simp, rfl⟩, ⟨[], by simp, optionsAre_nil⟩, ⟨[], by simp, .nil⟩,
        ⟨[], [], by simp, .nil⟩, ⟨[], [], by simp, .nil⟩, fun _ _ h => h, fun _ _ h => h⟩
      simp [hp, topPackages]
    · rw [if_pos hp]
      exact .fail (fun h => by simp [topPackages, hp] at h)
  | option o =>
    rw [notPackage rfl, evTop, run_one]
    refine exitOption_ends (fun v hv => ⟨_, rfl, ?_⟩)
    exact ⟨rfl, hs, hen, package_same s, ⟨[], by simp, rfl⟩, ⟨_, rfl, optionsAre_one hv⟩, ⟨[], by simp, .nil⟩,
        ⟨[], [], by simp, .nil⟩, ⟨[], [], by simp, .nil⟩, fun _ _ h => h, fun _ _ h => h⟩
  | enum e =>
    rw [notPackage rfl, evTop]
    obtain ⟨hv1, hv2⟩ := hv e rfl
    refine (enum_ends (p := none) (t := { s with enums := s.enums ++ [s.enumStore.length] }) rfl hv1 hv2).mono Iff.rfl ?_
    rintro s' ⟨d, rfl, hd⟩
    refine ⟨rfl, hs, rfl, package_same s, ⟨[], by simp, rfl⟩, ⟨[], by simp, optionsAre_nil⟩, ⟨[], by simp, .nil⟩,
      ⟨_, [d], rfl, .one ⟨by simp, hd⟩⟩, ⟨[], [], by simp, .nil⟩, fun _ _ h => h, fun k r h => ?_⟩
    obtain ⟨hlt, _⟩ := List.getElem?_eq_some_iff.1 h
    dsimp only
    rw [List.getElem?_append_left hlt]
    exact h
  | service n d es =>
    rw [notPackage rfl, evTop, run_cons]
    show Ends _ (run _ _) _
    refine (serviceElems_ends es (s := { s with services := s.services ++ [{ name := n, directives := d }] }) rfl (hr n d es rfl)).mono Iff.rfl ?_
    rintro s' ⟨v, ⟨a, b, ⟨oo, o1, o2⟩, ms, m1, m2⟩, rfl⟩
    simp only [List.nil_append] at o1 m1
    subst o1 m1
    exact ⟨rfl, hs, hen, package_same s, ⟨[], by simp, rfl⟩, ⟨[], by simp, optionsAre_nil⟩, ⟨[v], rfl, all2_one ⟨a, b, o2, m2⟩⟩,
      ⟨[], [], by simp, .nil⟩, ⟨[], [], by simp, .nil⟩, fun _ _ h => h, fun k r h => h⟩
  | message n d es =>
    rw [notPackage rfl, evTop, run_cons]
    show Ends _ (run _ _) _
    refine Ends.append (elems_ends es { s with messages := s.messages ++ [s.msgStore.length],
                                               msgStore := s.msgStore ++ [{ name := n, directives := d }],
                                               msgstack := s.msgStore.length :: s.msgstack } s.msgStore.length s.msgstack
      { name := n, directives := d, parent := none } rfl (by simp) hen (hm n d es rfl)) (P2 := True) ?_ (by simp only [GoodTop, and_true])
    intro s1 hp
    have hg := hp.1
    obtain ⟨m, hm⟩ := loaded_new hp
    rw [run_one]
    simp only [step, exitMessage, hg.msgstack]
    have e := hg.rest
    refine .pure trivial ⟨by rw [e], hs, by rw [e]; exact hen, ?_, ⟨[], ?_, rfl⟩, ⟨[], ?_, optionsAre_nil⟩, ⟨[], ?_, .nil⟩,
      ⟨[], [], ?_, .nil⟩, ⟨[s.msgStore.length], [m], ?_, .one ?_⟩, fun k r h => ?_, fun k r h => ?_⟩
    · rw [e]; exact package_same s
    · rw [e]; simp
    · rw [e]; simp
    · rw [e]; simp
    · rw [e]; simp
    · rw [e]
    · exact loaded_frame hm (fun k r _ h => h) (fun k e h => h)
    · obtain ⟨hlt, _⟩ := List.getElem?_eq_some_iff.1 h
      have := hg.msgs k (by simp; omega) (by omega)
      dsimp only at this ⊢
      rw [this, List.getElem?_append_left hlt]
      exact h
    · obtain ⟨hlt, _⟩ := List.getElem?_eq_some_iff.1 h
      have := hg.enums k hlt
      dsimp only at this ⊢
      rw [this]
      exact h

/-- The package statements that are accepted. -/
def PackagesOk (s : LState) (es : List TopElem) : Prop :=
  (topPackages es).length ≤ 1 ∧ (s.package ≠ [] → topPackages es = [])

theorem tops_ends : ∀ (es : List TopElem) {s : LState}, s.msgstack = [] → s.enum = none →
    (∀ n d ms, .message n d ms ∈ es → ∀ x, Inside ms x → NumbersElem x) → (∀ x, .enum x ∈ es → NumbersElem (.enum x)) →
    (∀ n d ss, .service n d ss ∈ es → ∀ r ∈ serviceRpcs ss, OrderedRpc r) → (∀ n ∈ topPackages es, n ≠ []) →
    Ends ((∀ e ∈ es, GoodTop s.edition e) ∧ PackagesOk s es) (run (es.flatMap evTop) s) (TopPost s es)
  | [], s, hs, hen, _, _, _, _ => .pure ⟨by simp, by simp [PackagesOk, topPackages]⟩ (.same hs hen rfl rfl rfl rfl rfl rfl)
  | e :: es, s, hs, hen, hm, hv, hr, hp => by
    rw [List.flatMap_cons]
    rw [topPackages_cons e es] at hp
    have hp1 : ∀ n ∈ topPackages [e], n ≠ [] := fun n hn => hp n (List.mem_append_left _ hn)
    have head := top_ends (e := e) hs hen (fun n d ms h => hm n d ms (by rw [h]; exact List.mem_cons_self ..))
      (fun x h => hv x (by rw [h]; exact List.mem_cons_self ..)) (fun n d ms h => hr n d ms (by rw [h]; exact List.mem_cons_self ..))
    refine head.append (P2 := (∀ e ∈ es, GoodTop s.edition e) ∧ (topPackages es).length ≤ 1 ∧ ((s.package ≠ [] ∨ topPackages [e] ≠ []) → topPackages es = []))
      ?_ ?_
    · intro s1 h1
      have tail := tops_ends es h1.msgstack h1.enum (fun n d ms h => hm n d ms (List.mem_cons_of_mem _ h))
        (fun x h => hv x (List.mem_cons_of_mem _ h)) (fun n d ms h => hr n d ms (List.mem_cons_of_mem _ h))
        (fun n hn => hp n (List.mem_append_right _ hn))
      rw [h1.edition] at tail
      refine tail.mono ?_ (fun s2 h2 => h1.trans hp1 h2)
      have hk : s1.package ≠ [] ↔ (s.package ≠ [] ∨ topPackages [e] ≠ []) := by
        rw [h1.package]
        by_cases hk : s.package = []
        · simp only [hk, if_true, ne_eq, not_true, false_or]
          cases hx : topPackages [e] with
          | nil => simp
          | cons n ns =>
            have := hp1 n (by rw [hx]; exact List.mem_cons_self ..)
            simp [this]
        · simp [hk]
      rw [PackagesOk, hk]
    · rw [PackagesOk, topPackages_cons e es]
      have hl : (topPackages [e]).length ≤ 1 := by cases e <;> simp [topPackages]
      cases hx : topPackages [e] with
      | nil => simp [hx]; constructor <;> (intro h; simp_all)
      | cons n ns =>
        rw [hx] at hl
        have : ns = [] := by cases ns with
          | nil => rfl
          | cons _ _ => simp at hl
        subst this
        simp only [List.length_append, List.length_cons, List.length_nil, List.mem_cons, forall_eq_or_imp]
        constructor
        · rintro ⟨⟨a, b⟩, c, d⟩
          have : topPackages es = [] := List.eq_nil_of_length_eq_zero (by omega)
          exact ⟨⟨a, fun h => by have := d h; simp at this⟩, b, by simp [this], fun _ => this⟩
        · rintro ⟨⟨a, b⟩, c, d, f⟩
          have := f (.inr (by simp))
          refine ⟨⟨a, c⟩, by simp [this], fun h => ?_⟩
          have := b h
          simp at this

end Verif.Props.Gen
