import Verif.Lemmas.Gen.GoStructs
import Verif.Lemmas.Gen.Named
import Verif.Props.Gen.Reader
import Verif.Props.Gen.Legal
/-!
# C94: the Go types of the generated text
-/
namespace Verif.Props
open Verif.Spec Verif.Spec.Gen Verif.Model Verif.Model.Gen Verif.Props.Gen

namespace Gen

/-- The program that Go reads. -/
theorem read_sources {W : World} {o : GenOptions} {notes : Nat → Notes} {args : List Str} (hR : Printable W notes args) {P : List GoSource} (h : Read W o notes args P) :
    ∃ imps : Nat → List (Str × Str), P = sourcesOf W o imps ∧ ∀ p, p < W.files.length → (∀ i ∈ imps p, i.1 = []) ∧ (∀ i ∈ imps p, i.2 ∈ knownPaths W p) ∧
      ∀ d ∈ fileDecls W o p, ∀ q ∈ d.quals, ∃ i ∈ imps p, pathBase i.2 = q := by
  have key : ∀ p s, P[p]? = some s → s = goFileOf W o (fun p => (P[p]?.map fun s => s.file.imports).getD []) p ∧ (∀ i ∈ s.file.imports, i.1 = []) ∧
      (∀ i ∈ s.file.imports, i.2 ∈ knownPaths W p) ∧ ∀ d ∈ fileDecls W o p, ∀ q ∈ d.quals, ∃ i ∈ s.file.imports, pathBase i.2 = q := by
    intro p s hs
    have hp : p < W.files.length := by
      rw [← h.count]
      exact (List.getElem?_eq_some_iff.1 hs).1
    obtain ⟨imports, h1, _, _, h3, h4, h5⟩ := C76_file_partial W o p (notes p) args hR.named hR.found (hR.packages p hp) (fun i hi => (hR.bases p hp i hi).1) (hR.paths p hp)
      (hR.comments p hp) (hR.percent p hp) hR.arguments
    have e := (h1 s.file (h.plain s (List.mem_of_getElem? hs))).1 (h.text p s hs)
    have e2 := h.path p s hs
    obtain ⟨path, file⟩ := s
    dsimp only at e e2
    subst e e2
    refine ⟨?_, h3, h4, fun d hd q hq => (h5 q).1 ⟨d, hd, hq⟩⟩
    unfold goFileOf
    dsimp only
    rw [hs]
    rfl
  refine ⟨fun p => (P[p]?.map fun s => s.file.imports).getD [], ?_, fun p hp => ?_⟩
  · refine List.ext_getElem? fun p => ?_
    unfold sourcesOf
    rw [List.getElem?_map]
    by_cases hp : p < P.length
    · have hs := List.getElem?_eq_getElem hp
      rw [List.getElem?_range (by rw [← h.count]; exact hp), hs]
      exact congrArg some (key p _ hs).1
    · rw [List.getElem?_eq_none_iff.2 (by omega), List.getElem?_eq_none_iff.2 (by rw [List.length_range, ← h.count]; omega)]
      rfl
  · have hs := List.getElem?_eq_getElem (l := P) (i := p) (by rw [h.count]; exact hp)
    dsimp only
    rw [hs]
    exact (key p _ hs).2

theorem bound_of {W : World} {notes : Nat → Notes} {args : List Str} (hR : Printable W notes args) {imps : Nat → List (Str × Str)} {declared : Str → Str}
    (h1 : ∀ p, p < W.files.length → (∀ i ∈ imps p, i.1 = []) ∧ ∀ i ∈ imps p, i.2 ∈ knownPaths W p) (h2 : declared "strconv".toList = "strconv".toList)
    (h3 : declared "github.com/cloudwego/prutal".toList = "prutal".toList) (h4 : ∀ p, p < W.files.length → (W.file p).goPackage = declared (W.file p).goImport) :
    Bound W imps declared := by
  refine ⟨hR.named, hR.found, fun p hp => (h1 p hp).1, fun p hp => (h1 p hp).2, fun p hp a ha => ?_, hR.distinct⟩
  unfold knownPaths at ha
  rcases List.mem_cons.1 ha with rfl | ha
  · exact h2.trans (by decide)
  · rcases List.mem_cons.1 ha with rfl | ha
    · exact h3.trans (by decide)
    · obtain ⟨i, hi, rfl⟩ := List.mem_map.1 ha
      have hi' : i.1 < W.files.length := by
        apply Decidable.byContradiction
        intro hlt
        apply (hR.paths p hp i hi).1
        unfold World.file
        rw [List.getD_eq_getElem?_getD, List.getElem?_eq_none_iff.2 (by omega)]
        rfl
      rw [← h4 i.1 hi']
      exact (hR.bases p hp i hi).2

end Gen

/-- C94: Go reads the generated files as a program, and only as this one.

Missing: files that are not `Printable` (see C76). -/
theorem C94_read_partial (W : World) (o : GenOptions) (notes : Nat → Notes) (args : List Str) (hR : Printable W notes args) :
    ∃ P, Read W o notes args P ∧ ∀ P', Read W o notes args P' → P' = P := by
  have key : ∀ p, ∃ file : GoFile, p < W.files.length → file.Plain ∧ ReadsAs (generatedText W o p (notes p) args) file ∧
      ∀ f : GoFile, f.Plain → ReadsAs (generatedText W o p (notes p) args) f → f = file := by
    intro p
    by_cases hp : p < W.files.length
    · obtain ⟨imports, h1, h2, _⟩ := C76_file_partial W o p (notes p) args hR.named hR.found (hR.packages p hp) (fun i hi => (hR.bases p hp i hi).1) (hR.paths p hp)
        (hR.comments p hp) (hR.percent p hp) hR.arguments
      refine ⟨_, fun _ => ⟨?_, h2, fun f hf h => (h1 f hf).1 h⟩⟩
      exact file_plain o (file_ok ⟨hR.named, hR.found, fun i hi _ => (hR.bases p hp i hi).1⟩ (hR.comments p hp) (hR.percent p hp))
    · exact ⟨⟨[], [], []⟩, fun h => absurd h hp⟩
  obtain ⟨file, hfile⟩ := Classical.axiomOfChoice key
  have get : ∀ (p : Nat) (s : GoSource), ((List.range W.files.length).map fun p => (⟨(W.file p).goImport, file p⟩ : GoSource))[p]? = some s →
      p < W.files.length ∧ s = ⟨(W.file p).goImport, file p⟩ := by
    intro p s hs
    rw [List.getElem?_map] at hs
    obtain ⟨q, hq, e⟩ := Option.map_eq_some_iff.1 hs
    obtain ⟨h1, h2⟩ := List.getElem?_eq_some_iff.1 hq
    rw [List.getElem_range] at h2
    subst h2
    exact ⟨by simpa using h1, e.symm⟩
  refine ⟨(List.range W.files.length).map fun p => ⟨(W.file p).goImport, file p⟩, ⟨by simp, fun p s hs => ?_, fun s hs => ?_, fun p s hs => ?_⟩, fun P' h => ?_⟩
  · rw [(get p s hs).2]
  · obtain ⟨p, hp, rfl⟩ := List.mem_map.1 hs
    exact (hfile p (List.mem_range.1 hp)).1
  · obtain ⟨hp, rfl⟩ := get p s hs
    exact (hfile p hp).2.1
  · refine List.ext_getElem (by rw [h.count]; simp) fun p h1 h2 => ?_
    have hp : p < W.files.length := by rw [← h.count]; exact h1
    have hs := List.getElem?_eq_getElem h1
    have e1 := h.path p _ hs
    have e2 := (hfile p hp).2.2 _ (h.plain _ (List.mem_of_getElem? hs)) (h.text p _ hs)
    rw [List.getElem_map, List.getElem_range]
    generalize P'[p] = s at e1 e2
    cases s
    dsimp only at e1 e2
    rw [e1, e2]

/-- C94: the struct types of the generated files, as Go reads and compiles them, are the ones that C56, C57, C75 and C79 speak of: what these claims assume about the Go compiler follows from
its reading of the generated text.

Missing: files for which the text is not a Go program or means other packages (C58, C76). -/
theorem C94_compiles_partial (W : World) (o : GenOptions) (notes : Nat → Notes) (args : List Str) (hR : Printable W notes args) (P : List GoSource)
    (hP : Read W o notes args P) (declared : Str → Str) (hstrconv : declared "strconv".toList = "strconv".toList)
    (hprutal : declared "github.com/cloudwego/prutal".toList = "prutal".toList) (env : GoEnv) (h : Compiled P declared env) :
    Compiles (genStructs W) (genEnums W) env := by
  obtain ⟨imps, rfl, h1⟩ := read_sources hR hP
  exact compiled_sound (bound_of hR (fun p hp => ⟨(h1 p hp).1, (h1 p hp).2.1⟩) hstrconv hprutal fun p hp => h.packages _ (source_mem hp)) h

/-- C94: and the generated files compile, if the names of their types differ (C54) and no struct contains itself (C81).

Missing: besides the above, files in which fields refer to types that are not generated (C60). -/
theorem C94_accepted_partial (W : World) (o : GenOptions) (notes : Nat → Notes) (args : List Str) (hR : Printable W notes args) (P : List GoSource)
    (hP : Read W o notes args P) (declared : Str → Str) (hstrconv : declared "strconv".toList = "strconv".toList)
    (hprutal : declared "github.com/cloudwego/prutal".toList = "prutal".toList) (hD : ∀ p, p < W.files.length → (W.file p).goPackage = declared (W.file p).goImport)
    (henums : ∀ r, Exists W r → r.isEnum = true → r.path.length ≤ 2) (hpublic : ∀ g x, (x, true) ∈ W.imports g → (W.file x).goImport = (W.file g).goImport) :
    (∃ env, Compiled P declared env) ↔ (typeNames P).Nodup ∧ ∀ i, ¬ LeadsTo W i i := by
  obtain ⟨imps, rfl, h1⟩ := read_sources hR hP
  have hB := bound_of hR (fun p hp => ⟨(h1 p hp).1, (h1 p hp).2.1⟩) hstrconv hprutal hD
  constructor
  · rintro ⟨env, h⟩
    refine ⟨h.distinct, (C81_legal_partial W hR.found henums hpublic (distinct_names h.distinct)).1 ((C81_compiles _ _).1 ⟨env, compiled_sound hB h⟩)⟩
  · rintro ⟨hN, h⟩
    obtain ⟨env, hC⟩ := (C81_compiles _ _).2 ((C81_legal_partial W hR.found henums hpublic (distinct_names hN)).2 h)
    exact ⟨env, compiled_complete ⟨henums, hpublic⟩ hB hN (fun p hp => (h1 p hp).2.2) hD hC⟩

/-- C94: in files that the generator accepts all names are identifiers, keys of maps are of the types that the language allows, fields are in oneofs that exist, and all types are found: what
C76 asks of the declarations holds. -/
theorem C94_accepts {D : Disk} {cwd includes : List Str} {m : Str → Option Str} {root : Str} {fuel : Nat} {st : LoaderState} {x : LoadedSet}
    (hc : Cwd D.texts.files cwd)
    (hranges : ∀ f s p, D.embedded f = some (some s) ∨ D.embedded f = none ∧ D.read f = some s → parseText s = some p → DecimalRanges p)
    (U : List Str) (hU : ∀ f, NeededText D.texts cwd includes root f → f ∈ U) (hfuel : U.length < fuel)
    (h : loadWhole D.texts includes m fuel st root = some x) : (∀ f, NamedFile (x.world.file f)) ∧ AllFound x.world := by
  have hW := C74_world hc (fun f t ht => by
    obtain ⟨s, hs, ht⟩ := holds_read ht
    exact read_parsed ht fun p hp => hranges f s p hs hp) U hU hfuel h
  have beyond : ∀ f, ¬ f < x.world.files.length → (x.world.file f).enums = [] ∧ (x.world.file f).messages = [] := by
    intro f hf
    unfold World.file
    rw [List.getD_eq_getElem?_getD, List.getElem?_eq_none_iff.2 (by omega)]
    exact ⟨rfl, rfl⟩
  refine ⟨fun f => ?_, fun f c ha fd hfd => ?_⟩
  · by_cases hf : f < x.world.files.length
    · have hf' := hf
      rw [hW.length] at hf'
      obtain ⟨t, ht, hi, _⟩ := hW.files f _ (List.getElem?_eq_getElem hf')
      obtain ⟨s, _, hs⟩ := holds_read ht
      unfold readText at hs
      obtain ⟨p, hp, rfl⟩ := Option.map_eq_some_iff.1 hs
      exact fileIs_named hi (readProto_names (C78_sound _ _ hp).2)
    · obtain ⟨h1, h2⟩ := beyond f hf
      refine ⟨fun e he => ?_, fun m hm => ?_⟩
      · rw [h1] at he
        cases he
      · rw [h2] at hm
        cases hm with
        | here h => cases h
        | deeper h _ => cases h
  · obtain ⟨ps, st', _, rfl, hk⟩ := whole_some h
    have hlen : (loadedSet D.texts includes ps).world.files.length = ps.length := by simp [loadedSet]
    have h1 := (hk f (hlen ▸ around_file ha)).1
    unfold fileResolves at h1
    exact List.all_eq_true.1 (List.all_eq_true.1 (Bool.and_eq_true_iff.1 h1).1 c ((chains_iff _ _).2 ha)) fd hfd

/-- C94, from the characters of proto files through the characters of Go files to bytes: if the generator accepts a file, and Go reads the files it writes as a program and compiles it, then
the messages of the program are encoded and decoded as the schema that the proto files declare prescribes.

Missing: see C79 (the hypotheses on the proto files) and `C94_compiles_partial` (`Presentable`). -/
theorem C94_wire_partial {D : Disk} {cwd includes : List Str} {m : Str → Option Str} {root : Str} {fuel : Nat} {st : LoaderState} {x : LoadedSet}
    (hc : Cwd D.texts.files cwd)
    (hranges : ∀ f s p, D.embedded f = some (some s) ∨ D.embedded f = none ∧ D.read f = some s → parseText s = some p → DecimalRanges p)
    (U : List Str) (hU : ∀ f, NeededText D.texts cwd includes root f → f ∈ U)
    (hfuel : U.length < fuel) (hE : ∀ e, NeededText D.texts cwd includes root e → D.embedded e ≠ none → ¬ ReachesText D.texts cwd includes e e)
    (h : loadWhole D.texts includes m fuel st root = some x) (pkg : Nat → List Str) (hS : Supported x.world pkg)
    (o : GenOptions) (notes : Nat → Notes) (args : List Str) (hR : Presentable x.world notes args) :
    WorldIs D.texts cwd includes m root (x.protos.map (·.file)) x.world x.services ∧
    (∃ P, Read x.world o notes args P) ∧
    ∀ P, Read x.world o notes args P →
      ∀ declared : Str → Str, declared "strconv".toList = "strconv".toList → declared "github.com/cloudwego/prutal".toList = "prutal".toList →
      (∀ p, p < x.world.files.length → (x.world.file p).goPackage = declared (x.world.file p).goImport) →
      ((∃ env, Compiled P declared env) ↔ (typeNames P).Nodup ∧ ∀ i, ¬ LeadsTo x.world i i) ∧
      ∀ env, Compiled P declared env →
        ∃ S, Implements env S ∧ S.WF ∧ Describes x.world pkg (allMessages x.world) S ∧
          (∀ id v, Typed S id v →
            match encode S false 1000 id v with
            | some bs => bs.length < 2 ^ 64 → marshal env (.ptr id (some v)) = .ok bs
            | none => marshal env (.ptr id (some v)) = .error .maxDepth) ∧
          ∀ id v, Typed S id v → ∀ b w, unmarshal env b (.ptr id (some v)) = .ok w ↔ Decodes S 1000 id b v w := by
  obtain ⟨h1, h2⟩ := C94_accepts hc hranges U hU hfuel h
  have hQ : Printable x.world notes args := { hR with named := h1, found := h2 }
  obtain ⟨P0, hP0, _⟩ := C94_read_partial x.world o notes args hQ
  refine ⟨C74_world hc (fun f t ht => ?_) U hU hfuel h, ⟨P0, hP0⟩, fun P hP declared d1 d2 d3 => ⟨?_, fun env hC => ?_⟩⟩
  · obtain ⟨s, hs, ht⟩ := holds_read ht
    exact read_parsed ht fun p hp => hranges f s p hs hp
  · exact C94_accepted_partial x.world o notes args hQ P hP declared d1 d2 d3 hS.enums fun g y hg => (hS.publics g y hg).2
  · exact (C79_wire_partial hc hranges U hU hfuel hE h pkg hS env (C94_compiles_partial x.world o notes args hQ P hP declared d1 d2 env hC)).2

/-! ## Examples -/

namespace GoTypesSample

/-- Two files of different Go packages, one of which imports the other, with comments. -/
theorem printable : Printable TextSample.world (fun _ => TextSample.notes) ["prutalgen".toList, "geo.proto".toList] where
  named := TextSample.files_named (by decide +kernel)
  found := ClosedSample.found_of (by decide +kernel)
  packages := by
    have : ∀ p, p < TextSample.world.files.length → TextSample.wordOk (TextSample.world.file p).goPackage = true := by decide +kernel
    exact fun p hp => TextSample.word_ok (this p hp)
  bases := by
    have : ∀ p, p < TextSample.world.files.length → ∀ i ∈ TextSample.world.imports p, TextSample.wordOk (pathBase (TextSample.world.file i.1).goImport) = true ∧
        (TextSample.world.file i.1).goPackage = pathBase (TextSample.world.file i.1).goImport := by decide +kernel
    exact fun p hp i hi => ⟨TextSample.word_ok (this p hp i hi).1, (this p hp i hi).2⟩
  paths := by decide +kernel
  distinct := by decide +kernel
  comments := fun _ _ => TextSample.notes_ok
  percent := by
    intro p _ q i c hc
    unfold TextSample.notes at hc
    split at hc
    · cases hc
    · split at hc
      · revert c
        decide +kernel
      · cases hc
  arguments := by decide +kernel

def names (path : Str) : Str := pathBase path

theorem publics (g x : Nat) (h : (x, true) ∈ TextSample.world.imports g) : (TextSample.world.file x).goImport = (TextSample.world.file g).goImport := by
  unfold TextSample.world at h
  dsimp only at h
  split at h
  · rw [List.mem_singleton] at h
    cases h
  · cases h

theorem enums (r : Ref) (h : Exists TextSample.world r) (he : r.isEnum = true) : r.path.length ≤ 2 := by
  have : ∀ r ∈ allRefs TextSample.world, r.isEnum = true → r.path.length ≤ 2 := by decide +kernel
  exact this r (allRefs_mem h) he

theorem distinct (imps : Nat → List (Str × Str)) : (typeNames (sourcesOf TextSample.world ⟨true, true⟩ imps)).Nodup := by
  rw [typeNames_eq]
  decide +kernel

theorem no_values (f : Nat) (c : Chain) (h : Around (TextSample.world.file f).messages c) (fd : FieldDecl) (hfd : fd ∈ c.msg.fields) : ¬ ByValue c.msg fd := by
  have : ∀ x ∈ allMessages TextSample.world, ∀ fd ∈ x.2.msg.fields, genNoPointer x.2.msg fd = false := by decide +kernel
  intro hb
  have h1 := this (f, c) ((all_iff _ f c).2 h) fd hfd
  rw [noPointer_iff.2 hb] at h1
  cases h1

end GoTypesSample

open GoTypesSample in
/-- Non-vacuity: Go reads and compiles the files generated for the sample (three messages, of which one has a oneof, and an enum of another package). -/
example : ∃ P env, Read TextSample.world ⟨true, true⟩ (fun _ => TextSample.notes) ["prutalgen".toList, "geo.proto".toList] P ∧ Compiled P names env ∧
    env.structs.length = 3 ∧ Compiles (genStructs TextSample.world) (genEnums TextSample.world) env := by
  obtain ⟨P, hP, _⟩ := C94_read_partial _ ⟨true, true⟩ _ _ printable
  have hN : (typeNames P).Nodup := by
    obtain ⟨imps, rfl, _⟩ := read_sources printable hP
    exact distinct imps
  obtain ⟨env, h⟩ := (C94_accepted_partial _ _ _ _ printable P hP names (by decide +kernel) (by decide +kernel) (by decide +kernel) enums publics).2
    ⟨hN, fun i hi => by
      have hno : ∀ i j, ¬ HoldsValue TextSample.world i j := by
        rintro i j ⟨p, c, fd, r, q, c', hx, hfd, _, _, _, hb, _⟩
        exact no_values p c ((all_iff _ p c).1 (List.mem_of_getElem? hx)) fd hfd hb
      cases hi with
      | one _ _ h => exact hno _ _ h
      | more _ _ _ h _ => exact hno _ _ h⟩
  have hC := C94_compiles_partial _ _ _ _ printable P hP names (by decide +kernel) (by decide +kernel) env h
  exact ⟨P, env, hP, h, by rw [hC.count]; decide +kernel, hC⟩

namespace GoTypesSample

/-- The file whose characters `ReaderSample.disk` holds. -/
theorem code_printable : Printable CodeSample.world (fun _ _ => {}) ["prutalgen".toList] where
  named := TextSample.files_named (by decide +kernel)
  found := ClosedSample.found_of (by decide +kernel)
  packages := by
    have : ∀ p, p < CodeSample.world.files.length → TextSample.wordOk (CodeSample.world.file p).goPackage = true := by decide +kernel
    exact fun p hp => TextSample.word_ok (this p hp)
  bases := fun _ _ _ hi => by cases hi
  paths := fun _ _ _ hi => by cases hi
  distinct := by decide +kernel
  comments := fun _ _ _ => ⟨by simp, by simp⟩
  percent := fun _ _ _ _ _ hc => by cases hc
  arguments := by decide +kernel

theorem code_distinct (imps : Nat → List (Str × Str)) : (typeNames (sourcesOf CodeSample.world ⟨true, true⟩ imps)).Nodup := by
  rw [typeNames_eq]
  decide +kernel

end GoTypesSample

open GoTypesSample ReaderSample PipelineSample in
/-- Non-vacuity of `C94_wire_partial`: all hypotheses hold for the characters of a proto file with a oneof, an enum and a map, and the characters of the Go file generated for it. -/
example : ∃ P env S, Read loaded.world ⟨true, true⟩ (fun _ _ => {}) ["prutalgen".toList] P ∧ Compiled P names env ∧
    Verif.Spec.Gen.Describes loaded.world (CodeSample.pks.getD · []) (allMessages loaded.world) S ∧ Verif.Spec.Implements env S := by
  have hR : Printable loaded.world (fun _ _ => {}) ["prutalgen".toList] := by rw [world_eq]; exact code_printable
  have e := disk_texts
  have hT : ∀ f s p, disk.embedded f = some (some s) ∨ disk.embedded f = none ∧ disk.read f = some s → parseText s = some p → DecimalRanges p := by
    intro f s p hs hp
    rw [disk_source hs] at hp
    exact source_decimal hp
  have hc : Cwd disk.texts.files ["w".toList] := by rw [e]; exact cwd
  have hl : loadWhole disk.texts [] flags 3 ⟨[], []⟩ "a.proto".toList = some loaded := by rw [e]; exact loads
  obtain ⟨_, ⟨P, hP⟩, h⟩ := C94_wire_partial hc hT ["/w/a.proto".toList] (fun f hf => by rw [e] at hf; rw [needed hf]; exact List.mem_singleton_self _) (by decide)
    (fun e _ h => absurd rfl h) hl _ supported ⟨true, true⟩ _ _ hR.toPresentable
  obtain ⟨h1, h2⟩ := h P hP names (by decide +kernel) (by decide +kernel) (by rw [world_eq]; decide +kernel)
  obtain ⟨env, hC⟩ := h1.2 ⟨by
    obtain ⟨imps, rfl, _⟩ := read_sources hR hP
    rw [world_eq]
    exact code_distinct imps, fun i hi => by
      have hno : ∀ i j, ¬ HoldsValue loaded.world i j := by
        rw [world_eq]
        rintro i j ⟨p, c, fd, r, q, c', hx, hfd, _, _, _, hb, _⟩
        have : ∀ x ∈ allMessages CodeSample.world, ∀ fd ∈ x.2.msg.fields, genNoPointer x.2.msg fd = false := by decide +kernel
        have h1 := this (p, c) (List.mem_of_getElem? hx) fd hfd
        rw [noPointer_iff.2 hb] at h1
        cases h1
      cases hi with
      | one _ _ h => exact hno _ _ h
      | more _ _ _ h _ => exact hno _ _ h⟩
  obtain ⟨S, h3, _, h4, _⟩ := h2 env hC
  exact ⟨P, env, S, hP, hC, h4, h3⟩

end Verif.Props
