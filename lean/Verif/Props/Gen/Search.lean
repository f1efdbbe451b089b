import Verif.Spec.Gen.Search
import Verif.Props.Gen.Paths
import Verif.Props.Gen.Loader
/-!
# C72: which file an import path means, and what is loaded; C73: several files in one run
-/
namespace Verif.Props
open Verif.Spec.Gen Verif.Model.Gen

namespace Gen

/-! ## Paths and places -/

theorem parts_slash : ∀ (s : Str), parts '/' s = splitSlash s
  | [] => rfl
  | c :: s => by
    rw [parts, splitSlash, parts_slash s]
    split
    · rfl
    · cases splitSlash s <;> rfl

theorem splitSlash_free : ∀ (s : Str), ∀ w ∈ splitSlash s, '/' ∉ w
  | [] => by intro w hw; rw [splitSlash, List.mem_singleton] at hw; rw [hw]; simp
  | c :: s => by
    intro w hw
    have ih := splitSlash_free s
    rw [splitSlash] at hw
    split at hw
    · rcases List.mem_cons.1 hw with e | hw
      · rw [e]; simp
      · exact ih w hw
    · rename_i hc
      split at hw
      · rename_i h0; exact absurd h0 (splitSlash_ne s)
      · rename_i v l h0
        rw [h0] at ih
        rcases List.mem_cons.1 hw with e | hw
        · rw [e, List.mem_cons, not_or]
          exact ⟨Ne.symm hc, ih v (by simp)⟩
        · exact ih w (List.mem_cons_of_mem _ hw)

theorem walkStep_plain {place : List Str} {w : Str} (hp : ∀ x ∈ place, Plain x) (hw : '/' ∉ w) : ∀ x ∈ walkStep place w, Plain x := by
  unfold walkStep
  split
  · exact hp
  · rename_i h1
    simp only [not_or] at h1
    split
    · exact fun x hx => hp x (List.dropLast_subset _ hx)
    · rename_i h2
      intro x hx
      rcases List.mem_append.1 hx with hx | hx
      · exact hp x hx
      · rw [List.mem_singleton.1 hx]; exact ⟨h1.1, hw, h1.2, h2⟩

theorem foldl_walk_plain : ∀ (ws : List Str) {place : List Str}, (∀ x ∈ place, Plain x) → (∀ w ∈ ws, '/' ∉ w) →
    ∀ x ∈ ws.foldl walkStep place, Plain x
  | [], _, hp, _ => hp
  | w :: ws, _, hp, hw => foldl_walk_plain ws (walkStep_plain hp (hw w (by simp))) (fun v hv => hw v (List.mem_cons_of_mem _ hv))

/-- Cleaning an absolute path is walking. -/
theorem clean_rooted : ∀ (ws : List Str) {place : List Str}, (∀ x ∈ place, Plain x) → (∀ w ∈ ws, '/' ∉ w) →
    ws.foldl (cleanStep true) place.reverse = (ws.foldl walkStep place).reverse
  | [], _, _, _ => rfl
  | w :: ws, place, hp, hw => by
    rw [List.foldl_cons, List.foldl_cons, ← clean_rooted ws (walkStep_plain hp (hw w (by simp))) (fun v hv => hw v (List.mem_cons_of_mem _ hv))]
    congr 1
    unfold cleanStep walkStep
    split
    · rfl
    · split
      · rcases List.eq_nil_or_concat place with rfl | ⟨l, x, rfl⟩
        · rfl
        · have hx := (hp x (by simp)).2.2.2
          simp [hx]
      · simp

/-- Cleaning a relative path does not change where it leads. -/
theorem clean_relative (place : List Str) : ∀ (ws out : List Str), (∀ x ∈ out, x ≠ [] ∧ x ≠ ['.']) →
    ((ws.foldl (cleanStep false) out).reverse).foldl walkStep place = ws.foldl walkStep (out.reverse.foldl walkStep place) ∧
    ∀ x ∈ ws.foldl (cleanStep false) out, x ≠ [] ∧ x ≠ ['.']
  | [], _, h => ⟨rfl, h⟩
  | w :: ws, out, h => by
    have key : ((cleanStep false out w).reverse).foldl walkStep place = walkStep (out.reverse.foldl walkStep place) w ∧
        ∀ x ∈ cleanStep false out w, x ≠ [] ∧ x ≠ ['.'] := by
      unfold cleanStep
      by_cases h1 : w = [] ∨ w = ['.']
      · rw [if_pos h1]; unfold walkStep; rw [if_pos h1]; exact ⟨rfl, h⟩
      · rw [if_neg h1]
        by_cases h2 : w = ['.', '.']
        · rw [if_pos h2]
          cases out with
          | nil => subst h2; exact ⟨rfl, by decide⟩
          | cons x rest =>
            dsimp only
            by_cases hx : x = ['.', '.']
            · rw [if_pos hx, h2]
              refine ⟨by simp [List.foldl_append], fun y hy => ?_⟩
              rcases List.mem_cons.1 hy with e | hy
              · rw [e]; decide
              · exact h y hy
            · rw [if_neg hx]
              refine ⟨?_, fun y hy => h y (List.mem_cons_of_mem _ hy)⟩
              obtain ⟨e1, e2⟩ := h x (by simp)
              rw [List.reverse_cons, List.foldl_append, List.foldl_cons, List.foldl_nil, h2]
              generalize rest.reverse.foldl walkStep place = p
              simp [walkStep, e1, e2, hx]
        · rw [if_neg h2]
          refine ⟨by simp [List.foldl_append], fun y hy => ?_⟩
          rcases List.mem_cons.1 hy with e | hy
          · rw [e]; exact not_or.1 h1
          · exact h y hy
    have ih := clean_relative place ws _ key.2
    rw [List.foldl_cons, List.foldl_cons, ih.1, key.1]
    exact ⟨rfl, ih.2⟩

theorem absName_join : ∀ (ws : List Str), absName ws = '/' :: joinSlash ws
  | [] => rfl
  | [w] => by simp [absName, joinSlash]
  | w :: v :: l => by
    have ih := absName_join (v :: l)
    simp only [absName] at ih
    rw [absName, List.flatMap_cons, ih, joinSlash]
    rfl

theorem split_abs {ws : List Str} (h : ∀ w ∈ ws, Plain w) : splitSlash (absName ws) = [] :: (if ws = [] then [[]] else ws) := by
  rw [absName_join, splitSlash, if_pos rfl]
  by_cases hn : ws = []
  · subst hn; rfl
  · rw [if_neg hn, split_join hn (fun w hw => (h w hw).2.1)]

theorem walk_plain : ∀ {ws : List Str} (place : List Str), (∀ w ∈ ws, Plain w) → ws.foldl walkStep place = place ++ ws
  | [], place, _ => by simp
  | w :: ws, place, h => by
    obtain ⟨h1, _, h3, h4⟩ := h w (by simp)
    rw [List.foldl_cons, walk_plain _ (fun x hx => h x (List.mem_cons_of_mem _ hx))]
    simp [walkStep, h1, h3, h4]

theorem rooted_abs (ws : List Str) : isRooted (absName ws) = true := by rw [absName_join]; rfl

theorem clean_of_rooted {s : Str} (h : isRooted s = true) : pathClean s = absName ((splitSlash s).foldl walkStep []) := by
  unfold pathClean renderPath
  have e := clean_rooted (splitSlash s) (place := []) (by simp) (splitSlash_free s)
  rw [List.reverse_nil] at e
  rw [h, if_pos rfl, absName_join, e, List.reverse_reverse]

theorem foldl_abs {ws : List Str} (h : ∀ w ∈ ws, Plain w) : (splitSlash (absName ws)).foldl walkStep [] = ws := by
  rw [split_abs h, List.foldl_cons]
  by_cases hn : ws = []
  · subst hn; rfl
  · rw [if_neg hn, walk_plain _ h]; rfl

theorem clean_abs {ws : List Str} (h : ∀ w ∈ ws, Plain w) : pathClean (absName ws) = absName ws := by
  rw [clean_of_rooted (rooted_abs ws), foldl_abs h]

theorem rooted_append {a b : Str} (h : a ≠ []) : isRooted (a ++ b) = isRooted a := by
  cases a with
  | nil => exact absurd rfl h
  | cons c a => rfl

/-- The absolute path of a cleaned path. -/
theorem abs_clean {cwd : List Str} (hc : ∀ w ∈ cwd, Plain w) (s : Str) : absPath (absName cwd) (pathClean s) = absName (placeOf cwd s) := by
  by_cases hr : isRooted s = true
  · have hp : placeOf cwd s = (splitSlash s).foldl walkStep [] := by
      unfold placeOf walk
      rw [if_pos (by simpa [isRooted] using hr), parts_slash]
    unfold absPath
    rw [hp, clean_of_rooted hr, if_pos (rooted_abs _)]
    exact clean_abs (foldl_walk_plain _ (by simp) (splitSlash_free s))
  · have hp : placeOf cwd s = (splitSlash s).foldl walkStep cwd := by
      unfold placeOf walk
      rw [if_neg (by simpa [isRooted] using hr), parts_slash]
    rw [hp]
    have hf : isRooted s = false := by simpa using hr
    have he : pathClean s = renderPath false ((splitSlash s).foldl (cleanStep false) []) := by unfold pathClean; rw [hf]
    obtain ⟨h1, h2⟩ := clean_relative cwd (splitSlash s) [] (by simp)
    -- the elements kept have no slash
    have h3 : ∀ x ∈ (splitSlash s).foldl (cleanStep false) [], '/' ∉ x := by
      have inv : ∀ (ws acc : List Str), (∀ w ∈ ws, '/' ∉ w) → (∀ x ∈ acc, '/' ∉ x) → ∀ x ∈ ws.foldl (cleanStep false) acc, '/' ∉ x := by
        intro ws
        induction ws with
        | nil => intro acc _ h; exact h
        | cons w ws ih =>
          intro acc hw ha
          refine ih _ (fun v hv => hw v (List.mem_cons_of_mem _ hv)) ?_
          unfold cleanStep
          split
          · exact ha
          · split
            · split
              · intro x hx; simp at hx; rw [hx]; decide
              · split
                · intro x hx
                  rcases List.mem_cons.1 hx with e | hx
                  · rw [e]; decide
                  · exact ha x hx
                · intro x hx
                  exact ha x (List.mem_cons_of_mem _ hx)
            · intro x hx
              rcases List.mem_cons.1 hx with e | hx
              · rw [e]; exact hw w (by simp)
              · exact ha x hx
      exact inv _ [] (splitSlash_free s) (by simp)
    rw [he]
    rw [show ([] : List Str).reverse = [] from rfl, List.foldl_nil] at h1
    rw [← h1]
    generalize hL : (splitSlash s).foldl (cleanStep false) [] = L at h2 h3
    -- the text of the cleaned path, and its elements
    have h4 : isRooted (renderPath false L) = false ∧ renderPath false L ≠ [] ∧
        (splitSlash (renderPath false L)).foldl walkStep cwd = L.reverse.foldl walkStep cwd := by
      unfold renderPath
      rw [if_neg (by simp)]
      by_cases hLe : L = []
      · rw [if_pos hLe, hLe]
        exact ⟨rfl, by simp, rfl⟩
      · rw [if_neg hLe, split_join (by simp [hLe]) (fun w hw => h3 w (List.mem_reverse.1 hw))]
        have hne : L.reverse ≠ [] := by simp [hLe]
        have hall : ∀ x ∈ L.reverse, x ≠ [] ∧ '/' ∉ x := fun x hx => ⟨(h2 x (List.mem_reverse.1 hx)).1, h3 x (List.mem_reverse.1 hx)⟩
        generalize L.reverse = K at hne hall
        match K, hne with
        | w :: l, _ =>
          obtain ⟨g1, g2⟩ := hall w (by simp)
          cases w with
          | nil => exact absurd rfl g1
          | cons c w =>
            simp only [List.mem_cons, not_or] at g2
            have : ∃ t, joinSlash ((c :: w) :: l) = c :: t := by
              cases l with
              | nil => exact ⟨w, rfl⟩
              | cons v l => exact ⟨_, rfl⟩
            obtain ⟨t, e⟩ := this
            rw [e]
            exact ⟨by simpa [isRooted] using Ne.symm g2.1, by simp, rfl⟩
    obtain ⟨g1, g2, g3⟩ := h4
    have hcne : absName cwd ≠ [] := by rw [absName_join]; simp
    unfold absPath
    rw [if_neg (by rw [g1]; simp)]
    unfold pathJoin
    rw [if_neg (fun hh => hcne hh.1), if_neg hcne, if_neg g2, clean_of_rooted (by rw [rooted_append hcne]; exact rooted_abs cwd), splitSlash_append,
      List.foldl_append, foldl_abs hc, g3]

/-- The path that is looked at for an include directory. -/
theorem abs_join {cwd : List Str} (hc : ∀ w ∈ cwd, Plain w) (d q : Str) : absPath (absName cwd) (pathJoin d q) = absName (candidate cwd d q) := by
  have hpl : ∀ d q : Str, d ≠ [] → placeOf cwd (d ++ '/' :: q) = walk (placeOf cwd d) q := by
    intro d q hd
    unfold placeOf walk
    have : (d ++ '/' :: q).head? = d.head? := by
      cases d with
      | nil => exact absurd rfl hd
      | cons c d => rfl
    rw [this, parts_slash, splitSlash_append, parts_slash, parts_slash]
    split <;> rw [List.foldl_append]
  unfold candidate pathJoin
  by_cases hd : d = []
  · subst hd
    rw [if_pos rfl, if_pos rfl]
    by_cases hq : q = []
    · subst hq
      have e : placeOf cwd [] = cwd := rfl
      rw [if_pos ⟨rfl, rfl⟩, e]
      unfold absPath pathJoin
      have hcne : absName cwd ≠ [] := by rw [absName_join]; simp
      rw [if_neg (by simp [isRooted]), if_neg (fun hh => hcne hh.1), if_neg hcne, if_pos rfl, clean_abs hc]
    · rw [if_neg (fun hh => hq hh.2), abs_clean hc]
  · rw [if_neg (fun hh => hd hh.1), if_neg hd, if_neg hd]
    by_cases hq : q = []
    · subst hq
      rw [if_pos rfl, abs_clean hc]
      rfl
    · rw [if_neg hq, abs_clean hc, hpl d q hd]

/-! ## Lookup -/

section
variable {fs : Files} {cwd includes : List Str} {m : Str → Option Str} {root : Str}

theorem searchIn_spec (hc : Cwd fs cwd) (q : Str) : ∀ (l : List Str) (f : Str), searchIn fs q l = some f ↔
    ∃ before d after, l = before ++ d :: after ∧ f = absName (candidate cwd d q) ∧ fs.stat (absName (candidate cwd d q)) = true ∧
      ∀ d' ∈ before, fs.stat (absName (candidate cwd d' q)) = false
  | [], f => by simp [searchIn]
  | d :: l, f => by
    rw [searchIn, hc.path, abs_join hc.names]
    by_cases h : fs.stat (absName (candidate cwd d q)) = true
    · rw [if_pos h]
      constructor
      · intro e; cases e
        exact ⟨[], d, l, rfl, rfl, h, by simp⟩
      · rintro ⟨before, d', after, e, rfl, h1, h2⟩
        cases before with
        | nil => cases e; rfl
        | cons x before =>
          cases e
          rw [h2 d (by simp)] at h
          cases h
    · rw [if_neg h, searchIn_spec hc q l]
      constructor
      · rintro ⟨before, d', after, rfl, h1, h2, h3⟩
        refine ⟨d :: before, d', after, rfl, h1, h2, fun x hx => ?_⟩
        rcases List.mem_cons.1 hx with rfl | hx
        · simpa using h
        · exact h3 x hx
      · rintro ⟨before, d', after, e, h1, h2, h3⟩
        cases before with
        | nil => cases e; exact absurd h2 h
        | cons x before =>
          cases e
          exact ⟨before, d', after, rfl, h1, h2, fun y hy => h3 y (List.mem_cons_of_mem _ hy)⟩

theorem fileOf_means (hc : Cwd fs cwd) (q f : Str) : fileOf fs includes q = some f ↔ MeansFile fs cwd includes q f := by
  unfold fileOf searchProtoFile
  cases he : fs.embedded q with
  | some src =>
    dsimp only
    constructor
    · intro e; cases e; exact .embedded q (by rw [he]; nofun)
    · intro h
      cases h with
      | embedded => rfl
      | found _ _ _ _ h => rw [he] at h; cases h
  | none =>
    dsimp only
    rw [searchIn_spec hc]
    constructor
    · rintro ⟨before, d, after, e, rfl, h1, h2⟩
      exact .found before after d q he e h1 h2
    · intro h
      cases h with
      | embedded _ h => exact absurd he h
      | found before after d _ _ e h1 h2 => exact ⟨before, d, after, e, rfl, h1, h2⟩

theorem sourceOf_contains (f : Str) (src : Source) : sourceOf fs f = some src ↔ Contains fs f src := by
  unfold sourceOf Contains
  cases fs.embedded f with
  | some s => simp
  | none => simp

theorem importedFiles_iff (hc : Cwd fs cwd) (f g : Str) : g ∈ importedFiles fs includes f ↔ DirectImport fs cwd includes f g := by
  unfold importedFiles DirectImport
  constructor
  · intro h
    cases hs : sourceOf fs f with
    | none => rw [hs] at h; cases h
    | some src =>
      rw [hs] at h
      obtain ⟨q, hq, e⟩ := List.mem_filterMap.1 h
      exact ⟨src, q, (sourceOf_contains f src).1 hs, hq, (fileOf_means hc q g).1 e⟩
  · rintro ⟨src, q, h1, h2, h3⟩
    rw [(sourceOf_contains f src).2 h1]
    exact List.mem_filterMap.2 ⟨q, h2, (fileOf_means hc q g).2 h3⟩

theorem reaches_imports (hc : Cwd fs cwd) (f g : Str) : Imports (importedFiles fs includes) f g ↔ Reaches fs cwd includes f g := by
  constructor
  · intro h
    induction h with
    | one h => exact .one _ _ ((importedFiles_iff hc _ _).1 h)
    | more h _ ih => exact .more _ _ _ ((importedFiles_iff hc _ _).1 h) ih
  · intro h
    induction h with
    | one _ _ h => exact .one ((importedFiles_iff hc _ _).2 h)
    | more _ _ _ h _ ih => exact .more ((importedFiles_iff hc _ _).2 h) ih

/-- Files that are not embedded have absolute paths, embedded ones relative names. -/
theorem found_source (hc : Cwd fs cwd) {q f : Str} (hf : searchProtoFile fs includes q = some f) : sourceOf fs f = fs.read f := by
  obtain ⟨_, d, _, _, rfl, _⟩ := (searchIn_spec hc q _ f).1 hf
  unfold sourceOf
  cases h : fs.embedded (absName (candidate cwd d q)) with
  | none => rfl
  | some x =>
    refine absurd ?_ (hc.embedded _ (by rw [h]; nofun))
    rw [absName_join]; rfl

/-- One call of `loadProto`. -/
theorem loadFile_succ (hc : Cwd fs cwd) (n : Nat) (stack : List Str) (protos : List LoadedProto) (q : Str) :
    loadFile fs includes m (n + 1) stack protos q =
      match fileOf fs includes q with
      | none => .notFound
      | some f =>
        if fs.embedded q = none ∧ f ∈ stack then .cyclic
        else if f ∈ protos.map (·.file) then .ok protos
        else parseInput (loadFile fs includes m n (stack ++ [f])) protos f (userPackage fs m q) (sourceOf fs f) := by
  rw [loadFile]
  unfold fileOf userPackage
  cases he : fs.embedded q with
  | some src =>
    have : sourceOf fs q = src := by unfold sourceOf; rw [he]
    simp [this]
  | none =>
    dsimp only
    cases hs : searchProtoFile fs includes q with
    | none => rfl
    | some f =>
      dsimp only
      rw [found_source hc hs]
      simp

/-! ## Loading -/

/-- A record of a loaded file, among the loaded files `ps`. -/
def GoodRec (fs : Files) (cwd includes : List Str) (m : Str → Option Str) (root : Str) (ps : List LoadedProto) (p : LoadedProto) : Prop :=
  ∃ q src, Asked fs cwd includes root q ∧ fileOf fs includes q = some p.file ∧ sourceOf fs p.file = some src ∧
    protoGoPackage (userPackage fs m q) src.goPackage = some (p.goImport, p.goPackage) ∧
    ∀ i ∈ src.imports, ∃ g, fileOf fs includes i = some g ∧ g ∈ ps.map (·.file)

theorem GoodRec.mono {ps qs : List LoadedProto} {p : LoadedProto} (h : GoodRec fs cwd includes m root ps p) :
    GoodRec fs cwd includes m root (ps ++ qs) p := by
  obtain ⟨q, src, h1, h2, h3, h4, h5⟩ := h
  refine ⟨q, src, h1, h2, h3, h4, fun i hi => ?_⟩
  obtain ⟨g, e, hg⟩ := h5 i hi
  exact ⟨g, e, by rw [List.map_append]; exact List.mem_append_left _ hg⟩

/-- What is true of the result of loading the files meant by the import paths `qs`. -/
def AOk (fs : Files) (cwd includes : List Str) (m : Str → Option Str) (root : Str) (protos : List LoadedProto) (qs : List Str) :
    LoadRes (List LoadedProto) → Prop
  | .ok ps => ∃ new, ps = protos ++ new ∧ (ps.map (·.file)).Nodup ∧ (∀ q ∈ qs, ∃ f, fileOf fs includes q = some f ∧ f ∈ ps.map (·.file)) ∧
      ∀ p ∈ new, GoodRec fs cwd includes m root ps p
  | .fuel => False
  | .panic => False
  | .notFound => ∃ q, Asked fs cwd includes root q ∧ fileOf fs includes q = none
  | .unreadable => ∃ q f, Asked fs cwd includes root q ∧ fileOf fs includes q = some f ∧ sourceOf fs f = none
  | .noPackage => ∃ q f src, Asked fs cwd includes root q ∧ fileOf fs includes q = some f ∧ sourceOf fs f = some src ∧
      protoGoPackage (userPackage fs m q) src.goPackage = none
  | .cyclic => ∃ f, Needed fs cwd includes root f ∧ Reaches fs cwd includes f f

structure AInv (fs : Files) (cwd includes : List Str) (root : Str) (stack : List Str) (protos : List LoadedProto) : Prop where
  stackNodup : stack.Nodup
  stackIn : ∀ x ∈ stack, x ∈ protos.map (·.file)
  stackNeeded : ∀ x ∈ stack, Needed fs cwd includes root x
  nodup : (protos.map (·.file)).Nodup

theorem reaches_step {f g h : Str} (h1 : Reaches fs cwd includes f g) (h2 : DirectImport fs cwd includes g h) : Reaches fs cwd includes f h := by
  induction h1 with
  | one _ _ h => exact .more _ _ _ h (.one _ _ h2)
  | more _ _ _ h _ ih => exact .more _ _ _ h (ih h2)

theorem load_files (hc : Cwd fs cwd) (U : List Str) (hU : ∀ f, Needed fs cwd includes root f → f ∈ U) : ∀ n : Nat,
    (∀ (stack : List Str) (protos : List LoadedProto) (q : Str), AInv fs cwd includes root stack protos → Asked fs cwd includes root q →
      U.length < n + stack.length → (∀ x ∈ stack, ∀ f, fileOf fs includes q = some f → Reaches fs cwd includes x f) →
      AOk fs cwd includes m root protos [q] (loadFile fs includes m n stack protos q)) ∧
    (∀ (qs stack : List Str) (protos : List LoadedProto), AInv fs cwd includes root stack protos → (∀ q ∈ qs, Asked fs cwd includes root q) →
      U.length < n + stack.length → (∀ x ∈ stack, ∀ q ∈ qs, ∀ f, fileOf fs includes q = some f → Reaches fs cwd includes x f) →
      AOk fs cwd includes m root protos qs (walkImports (loadFile fs includes m n stack) protos qs)) := by
  intro n
  induction n with
  | zero =>
    have bad : ∀ (stack : List Str) (protos : List LoadedProto), AInv fs cwd includes root stack protos → U.length < 0 + stack.length → False := by
      intro stack protos hi hl
      have := nodup_length_le hi.stackNodup (fun x hx => hU x (hi.stackNeeded x hx))
      omega
    exact ⟨fun stack protos q hi _ hl => (bad stack protos hi hl).elim, fun qs stack protos hi _ hl => (bad stack protos hi hl).elim⟩
  | succ n ih =>
    have one : ∀ (stack : List Str) (protos : List LoadedProto) (q : Str), AInv fs cwd includes root stack protos → Asked fs cwd includes root q →
        U.length < n + 1 + stack.length → (∀ x ∈ stack, ∀ f, fileOf fs includes q = some f → Reaches fs cwd includes x f) →
        AOk fs cwd includes m root protos [q] (loadFile fs includes m (n + 1) stack protos q) := by
      intro stack protos q hi hq hl hr
      rw [loadFile_succ hc]
      cases hf : fileOf fs includes q with
      | none => exact ⟨q, hq, hf⟩
      | some f =>
        dsimp only
        have hneed : Needed fs cwd includes root f := ⟨q, hq, (fileOf_means hc q f).1 hf⟩
        by_cases h1 : fs.embedded q = none ∧ f ∈ stack
        · rw [if_pos h1]
          exact ⟨f, hneed, hr f h1.2 f hf⟩
        · rw [if_neg h1]
          by_cases h2 : f ∈ protos.map (·.file)
          · rw [if_pos h2]
            refine ⟨[], by simp, hi.nodup, fun q' hq' => ?_, by simp⟩
            rw [List.mem_singleton.1 hq']
            exact ⟨f, hf, h2⟩
          · rw [if_neg h2]
            have h3 : f ∉ stack := fun h => h2 (hi.stackIn f h)
            cases hs : sourceOf fs f with
            | none => exact ⟨q, f, hq, hf, hs⟩
            | some src =>
              have hask : ∀ i ∈ src.imports, Asked fs cwd includes root i := fun i hin =>
                .import q f i src hq ((fileOf_means hc q f).1 hf) ((sourceOf_contains f src).1 hs) hin
              have hsub : ∀ imp pkg, AOk fs cwd includes m root (protos ++ [⟨f, imp, pkg⟩]) src.imports
                  (walkImports (loadFile fs includes m n (stack ++ [f])) (protos ++ [⟨f, imp, pkg⟩]) src.imports) := by
                intro imp pkg
                refine ih.2 src.imports (stack ++ [f]) _ ⟨?_, ?_, ?_, ?_⟩ hask (by simp; omega) ?_
                · rw [List.nodup_append]
                  exact ⟨hi.stackNodup, by simp, fun a ha b hb e => h3 (by rw [← List.mem_singleton.1 hb, ← e]; exact ha)⟩
                · intro x hx
                  rw [List.map_append]
                  rcases List.mem_append.1 hx with hx | hx
                  · exact List.mem_append_left _ (hi.stackIn x hx)
                  · rw [List.mem_singleton.1 hx]; exact List.mem_append_right _ (by simp)
                · intro x hx
                  rcases List.mem_append.1 hx with hx | hx
                  · exact hi.stackNeeded x hx
                  · rw [List.mem_singleton.1 hx]; exact hneed
                · rw [List.map_append, List.nodup_append]
                  exact ⟨hi.nodup, by simp, fun a ha b hb e => h2 (by rw [show b = f by simpa using hb] at e; rw [← e]; exact ha)⟩
                · intro x hx i hin g hg
                  have hd : DirectImport fs cwd includes f g :=
                    ⟨src, i, (sourceOf_contains f src).1 hs, hin, (fileOf_means hc i g).1 hg⟩
                  rcases List.mem_append.1 hx with hx | hx
                  · exact reaches_step (hr x hx f hf) hd
                  · rw [List.mem_singleton.1 hx]; exact .one _ _ hd
              unfold parseInput
              dsimp only
              cases hp : protoGoPackage (userPackage fs m q) src.goPackage with
              | none =>
                dsimp only
                have hsub := hsub [] []
                generalize walkImports (loadFile fs includes m n (stack ++ [f])) (protos ++ [⟨f, [], []⟩]) src.imports = r at hsub
                cases r with
                | ok ps => exact ⟨q, f, src, hq, hf, hs, hp⟩
                | fuel => exact hsub
                | panic => exact hsub
                | notFound => exact hsub
                | unreadable => exact hsub
                | noPackage => exact hsub
                | cyclic => exact hsub
              | some ip =>
                obtain ⟨imp, pkg⟩ := ip
                dsimp only
                have hsub := hsub imp pkg
                generalize walkImports (loadFile fs includes m n (stack ++ [f])) (protos ++ [⟨f, imp, pkg⟩]) src.imports = r at hsub
                cases r with
                | fuel => exact hsub
                | panic => exact hsub
                | notFound => exact hsub
                | unreadable => exact hsub
                | noPackage => exact hsub
                | cyclic => exact hsub
                | ok ps =>
                  obtain ⟨new, e, g1, g2, g3⟩ := hsub
                  refine ⟨⟨f, imp, pkg⟩ :: new, by rw [e]; simp, g1, fun q' hq' => ?_, fun p hpn => ?_⟩
                  · rw [List.mem_singleton.1 hq']
                    exact ⟨f, hf, by rw [e]; simp⟩
                  · rcases List.mem_cons.1 hpn with rfl | hpn
                    · exact ⟨q, src, hq, hf, hs, hp, g2⟩
                    · exact g3 p hpn
    refine ⟨one, ?_⟩
    intro qs
    induction qs with
    | nil =>
      intro stack protos hi _ _ _
      rw [walkImports]
      exact ⟨[], by simp, hi.nodup, by simp, by simp⟩
    | cons q qs ihl =>
      intro stack protos hi hq hl hr
      rw [walkImports]
      have h1 := one stack protos q hi (hq q (by simp)) hl (fun x hx => hr x hx q (by simp))
      generalize loadFile fs includes m (n + 1) stack protos q = r at h1
      cases r with
      | fuel => exact h1
      | panic => exact h1
      | notFound => exact h1
      | unreadable => exact h1
      | noPackage => exact h1
      | cyclic => exact h1
      | ok ps1 =>
        obtain ⟨new1, rfl, g1, g2, g3⟩ := h1
        have h2 := ihl stack (protos ++ new1) ⟨hi.stackNodup, fun x hx => by rw [List.map_append]; exact List.mem_append_left _ (hi.stackIn x hx),
          hi.stackNeeded, g1⟩ (fun q' hq' => hq q' (List.mem_cons_of_mem _ hq')) hl (fun x hx q' hq' => hr x hx q' (List.mem_cons_of_mem _ hq'))
        dsimp only
        generalize walkImports (loadFile fs includes m (n + 1) stack) (protos ++ new1) qs = r at h2
        cases r with
        | fuel => exact h2
        | panic => exact h2
        | notFound => exact h2
        | unreadable => exact h2
        | noPackage => exact h2
        | cyclic => exact h2
        | ok ps2 =>
          obtain ⟨new2, rfl, k1, k2, k3⟩ := h2
          refine ⟨new1 ++ new2, by simp, k1, fun q' hq' => ?_, fun p hp => ?_⟩
          · rcases List.mem_cons.1 hq' with rfl | hq'
            · obtain ⟨f, e, hf⟩ := g2 q' (by simp)
              exact ⟨f, e, by rw [List.map_append]; exact List.mem_append_left _ hf⟩
            · exact k2 q' hq'
          · rcases List.mem_append.1 hp with hp | hp
            · exact (g3 p hp).mono
            · exact k3 p hp

/-- Everything that is not being loaded is complete, and not part of a cycle. -/
def Done (fs : Files) (includes : List Str) (stack files : List Str) : Prop :=
  ∀ x ∈ files, x ∉ stack → (∀ g ∈ importedFiles fs includes x, g ∈ files ∧ g ∉ stack) ∧ Acc (fun a b => a ∈ importedFiles fs includes b) x

theorem load_prefix (hc : Cwd fs cwd) : ∀ n : Nat,
    (∀ (stack : List Str) (protos : List LoadedProto) (q : Str) (ps : List LoadedProto), loadFile fs includes m n stack protos q = .ok ps →
      ∃ f new, fileOf fs includes q = some f ∧ ps = protos ++ new ∧ f ∈ ps.map (·.file) ∧ (f ∉ protos.map (·.file) → (new.map (·.file)).head? = some f)) ∧
    (∀ (qs stack : List Str) (protos ps : List LoadedProto), walkImports (loadFile fs includes m n stack) protos qs = .ok ps → ∃ new, ps = protos ++ new) := by
  intro n
  induction n with
  | zero =>
    refine ⟨fun stack protos q ps h => (by rw [loadFile] at h; cases h), fun qs stack protos ps h => ?_⟩
    cases qs with
    | nil => rw [walkImports] at h; cases h; exact ⟨[], by simp⟩
    | cons q qs => rw [walkImports, loadFile] at h; cases h
  | succ n ih =>
    have one : ∀ (stack : List Str) (protos : List LoadedProto) (q : Str) (ps : List LoadedProto), loadFile fs includes m (n + 1) stack protos q = .ok ps →
      ∃ f new, fileOf fs includes q = some f ∧ ps = protos ++ new ∧ f ∈ ps.map (·.file) ∧
        (f ∉ protos.map (·.file) → (new.map (·.file)).head? = some f) := by
      intro stack protos q ps h
      rw [loadFile_succ hc] at h
      cases hf : fileOf fs includes q with
      | none => rw [hf] at h; cases h
      | some f =>
        rw [hf] at h
        dsimp only at h
        split at h
        · cases h
        · split at h
          · rename_i h2; cases h; exact ⟨f, [], rfl, by simp, h2, fun hn => absurd h2 hn⟩
          · unfold parseInput at h
            split at h
            · cases h
            · split at h
              · obtain ⟨new, rfl⟩ := ih.2 _ _ _ _ h
                exact ⟨f, _ :: new, rfl, by rw [List.append_assoc]; rfl, by simp, fun _ => rfl⟩
              · split at h
                · cases h
                · rename_i hne
                  exact absurd h (hne ps)
    refine ⟨one, ?_⟩
    intro qs
    induction qs with
    | nil => intro stack protos ps h; rw [walkImports] at h; cases h; exact ⟨[], by simp⟩
    | cons q qs ihl =>
      intro stack protos ps h
      rw [walkImports] at h
      split at h
      · rename_i ps1 h1
        obtain ⟨_, new1, _, rfl, _⟩ := one _ _ _ _ h1
        obtain ⟨new2, rfl⟩ := ihl _ _ _ h
        exact ⟨new1 ++ new2, by simp⟩
      · rename_i hne
        exact absurd h (hne ps)

theorem load_done (hc : Cwd fs cwd) (hE : ∀ e, Needed fs cwd includes root e → fs.embedded e ≠ none → ¬ Reaches fs cwd includes e e) : ∀ n : Nat,
    (∀ (stack : List Str) (protos : List LoadedProto) (q : Str) (ps : List LoadedProto), loadFile fs includes m n stack protos q = .ok ps →
      Asked fs cwd includes root q → (∀ x ∈ stack, x ∈ protos.map (·.file)) →
      (∀ x ∈ stack, ∀ f, fileOf fs includes q = some f → Reaches fs cwd includes x f) → Done fs includes stack (protos.map (·.file)) →
      Done fs includes stack (ps.map (·.file)) ∧ ∀ f, fileOf fs includes q = some f → f ∉ stack) ∧
    (∀ (qs stack : List Str) (protos ps : List LoadedProto), walkImports (loadFile fs includes m n stack) protos qs = .ok ps →
      (∀ q ∈ qs, Asked fs cwd includes root q) → (∀ x ∈ stack, x ∈ protos.map (·.file)) →
      (∀ x ∈ stack, ∀ q ∈ qs, ∀ f, fileOf fs includes q = some f → Reaches fs cwd includes x f) → Done fs includes stack (protos.map (·.file)) →
      Done fs includes stack (ps.map (·.file)) ∧ ∀ q ∈ qs, ∃ f, fileOf fs includes q = some f ∧ f ∈ ps.map (·.file) ∧ f ∉ stack) := by
  intro n
  induction n with
  | zero =>
    refine ⟨fun stack protos q ps h => (by rw [loadFile] at h; cases h), fun qs stack protos ps h _ _ _ hd => ?_⟩
    cases qs with
    | nil => rw [walkImports] at h; cases h; exact ⟨hd, by simp⟩
    | cons q qs => rw [walkImports, loadFile] at h; cases h
  | succ n ih =>
    have one : ∀ (stack : List Str) (protos : List LoadedProto) (q : Str) (ps : List LoadedProto), loadFile fs includes m (n + 1) stack protos q = .ok ps →
      Asked fs cwd includes root q → (∀ x ∈ stack, x ∈ protos.map (·.file)) →
      (∀ x ∈ stack, ∀ f, fileOf fs includes q = some f → Reaches fs cwd includes x f) → Done fs includes stack (protos.map (·.file)) →
      Done fs includes stack (ps.map (·.file)) ∧ ∀ f, fileOf fs includes q = some f → f ∉ stack := by
      intro stack protos q ps h hq hs hr hd
      rw [loadFile_succ hc] at h
      cases hf : fileOf fs includes q with
      | none => rw [hf] at h; cases h
      | some f =>
        rw [hf] at h hr
        dsimp only at h
        have hneed : Needed fs cwd includes root f := ⟨q, hq, (fileOf_means hc q f).1 hf⟩
        have hns : ¬ (fs.embedded q = none ∧ f ∈ stack) → f ∉ stack := by
          intro h1 h2
          have he : fs.embedded q ≠ none := fun e => h1 ⟨e, h2⟩
          have e : f = q := by
            unfold fileOf at hf
            cases hx : fs.embedded q with
            | none => exact absurd hx he
            | some _ => rw [hx] at hf; cases hf; rfl
          exact hE f hneed (by rw [e]; exact he) (hr f h2 f rfl)
        split at h
        · cases h
        · rename_i h1
          have h3 := hns h1
          refine ⟨?_, fun f' e => by cases e; exact h3⟩
          split at h
          · cases h; exact hd
          · rename_i h2
            unfold parseInput at h
            split at h
            · cases h
            · rename_i src hsrc
              split at h
              · rename_i imp pkg _
                have hask : ∀ i ∈ src.imports, Asked fs cwd includes root i := fun i hin =>
                  .import q f i src hq ((fileOf_means hc q f).1 hf) ((sourceOf_contains f src).1 hsrc) hin
                have hd1 : Done fs includes (stack ++ [f]) (List.map (·.file) (protos ++ [(⟨f, imp, pkg⟩ : LoadedProto)])) := by
                  intro x hx hxs
                  have hxs' : x ∉ stack ∧ x ≠ f := by simpa using hxs
                  have hx' : x ∈ protos.map (·.file) := by
                    rw [List.map_append] at hx
                    rcases List.mem_append.1 hx with h | h
                    · exact h
                    · exact absurd (by simpa using h) hxs'.2
                  obtain ⟨d1, d2⟩ := hd x hx' hxs'.1
                  refine ⟨fun g hg => ?_, d2⟩
                  obtain ⟨e1, e2⟩ := d1 g hg
                  refine ⟨by rw [List.map_append]; exact List.mem_append_left _ e1, fun hgs => ?_⟩
                  rcases List.mem_append.1 hgs with h' | h'
                  · exact e2 h'
                  · exact h2 (List.mem_singleton.1 h' ▸ e1)
                obtain ⟨k1, k2⟩ := ih.2 src.imports (stack ++ [f]) _ ps h hask
                  (by
                    intro x hx
                    rw [List.map_append]
                    rcases List.mem_append.1 hx with hx | hx
                    · exact List.mem_append_left _ (hs x hx)
                    · rw [List.mem_singleton.1 hx]; exact List.mem_append_right _ (by simp))
                  (by
                    intro x hx i hin g hg
                    have hdi : DirectImport fs cwd includes f g :=
                      ⟨src, i, (sourceOf_contains f src).1 hsrc, hin, (fileOf_means hc i g).1 hg⟩
                    rcases List.mem_append.1 hx with hx | hx
                    · exact reaches_step (hr x hx f rfl) hdi
                    · rw [List.mem_singleton.1 hx]; exact .one _ _ hdi) hd1
                have himp : ∀ g ∈ importedFiles fs includes f, g ∈ ps.map (·.file) ∧ g ∉ stack ++ [f] := by
                  intro g hg
                  unfold importedFiles at hg
                  rw [hsrc] at hg
                  obtain ⟨i, hin, e⟩ := List.mem_filterMap.1 hg
                  obtain ⟨g', e', a1, a2⟩ := k2 i hin
                  rw [e] at e'; cases e'
                  exact ⟨a1, a2⟩
                intro x hx hxs
                by_cases hxf : x = f
                · subst hxf
                  refine ⟨fun g hg => ⟨(himp g hg).1, fun hh => (himp g hg).2 (List.mem_append_left _ hh)⟩, Acc.intro _ fun g hg => ?_⟩
                  exact (k1 g (himp g hg).1 (himp g hg).2).2
                · obtain ⟨d1, d2⟩ := k1 x hx (by simp [hxs, hxf])
                  exact ⟨fun g hg => ⟨(d1 g hg).1, fun hh => (d1 g hg).2 (List.mem_append_left _ hh)⟩, d2⟩
              · split at h
                · cases h
                · rename_i hne
                  exact absurd h (hne ps)
    refine ⟨one, ?_⟩
    intro qs
    induction qs with
    | nil => intro stack protos ps h _ _ _ hd; rw [walkImports] at h; cases h; exact ⟨hd, by simp⟩
    | cons q qs ihl =>
      intro stack protos ps h hq hs hr hd
      rw [walkImports] at h
      split at h
      · rename_i ps1 h1
        obtain ⟨f, new1, hf, rfl, hfm, _⟩ := (load_prefix hc _).1 _ _ _ _ h1
        obtain ⟨a1, a2⟩ := one _ _ _ _ h1 (hq q (by simp)) hs (fun x hx => hr x hx q (by simp)) hd
        obtain ⟨new2, rfl⟩ := (load_prefix hc _).2 _ _ _ _ h
        obtain ⟨b1, b2⟩ := ihl stack _ _ h (fun q' hq' => hq q' (List.mem_cons_of_mem _ hq'))
          (fun x hx => by rw [List.map_append]; exact List.mem_append_left _ (hs x hx)) (fun x hx q' hq' => hr x hx q' (List.mem_cons_of_mem _ hq')) a1
        refine ⟨b1, fun q' hq' => ?_⟩
        rcases List.mem_cons.1 hq' with rfl | hq'
        · exact ⟨f, hf, by rw [List.map_append]; exact List.mem_append_left _ hfm, a2 f hf⟩
        · exact b2 q' hq'
      · rename_i hne
        exact absurd h (hne ps)

/-- What sorting does when there may be cycles. -/
theorem sort_general {F : Type} [DecidableEq F] (imports : F → List F) (pp : List F) (r : F) (hhead : pp.head? = some r) (hnodup : pp.Nodup)
    (hclosed : ∀ p ∈ pp, ∀ q ∈ imports p, q ∈ pp) (hreach : ∀ x ∈ pp, x = r ∨ Imports imports r x) :
    (sortProtoFiles imports pp).Perm pp ∧ (sortProtoFiles imports pp).head? = some r := by
  obtain ⟨deg, hk, -⟩ := kahn_spec hnodup hclosed (pp.length + 1) _ _ [] (kinv_init hnodup) (by simp)
  have hmem : ∀ x, x ∈ kahn imports (pp.length + 1) (inDegree imports pp)
      (pp.filter fun p => inDegree imports pp p == 0) [] → x ∈ pp := by
    intro x hx; exact ((hk.mem x).1 (by simpa using hx)).1
  have hnd : (kahn imports (pp.length + 1) (inDegree imports pp) (pp.filter fun p => inDegree imports pp p == 0) []).Nodup := by
    have := hk.nodup
    simpa using this
  have hord := hk.order
  have hr : r ∈ pp := List.mem_of_mem_head? (by rw [hhead]; rfl)
  unfold sortProtoFiles
  generalize kahn imports (pp.length + 1) (inDegree imports pp) (pp.filter fun p => inDegree imports pp p == 0) [] = ret at *
  dsimp only
  by_cases hl : ret.length = pp.length
  · rw [if_pos hl]
    have hall : ∀ x ∈ pp, x ∈ ret := fun x hx => nodup_full hnd hmem (by omega) hx
    have hperm : ret.Perm pp := perm_of hnd hnodup fun x => ⟨hmem x, hall x⟩
    refine ⟨hperm, ?_⟩
    cases ret with
    | nil => exact absurd (hall r hr) (by simp)
    | cons x l =>
      have hx : x ∈ pp := hmem x (List.mem_cons_self ..)
      rcases hreach x hx with e | h
      · rw [e]; rfl
      · exfalso
        have himp : ∀ {a b : F}, a ∈ pp → Imports imports a b → ∃ p ∈ pp, b ∈ imports p := by
          intro a b ha hab
          induction hab with
          | one h => exact ⟨_, ha, h⟩
          | more h _ ih => exact ih (hclosed _ ha _ h)
        obtain ⟨p, hp, hxp⟩ := himp hr h
        obtain ⟨a, b, c, e⟩ := hord p x hp hxp (by simp)
        cases a with
        | nil =>
          simp only [List.nil_append, List.cons.injEq] at e
          rw [e.2] at hnd
          simp at hnd
        | cons y a =>
          simp only [List.cons_append, List.cons.injEq] at e
          rw [e.2] at hnd
          simp at hnd
  · rw [if_neg hl]
    exact ⟨.refl _, hhead⟩

theorem find_files (protos : List LoadedProto) : ∀ (order : List Str), (∀ f ∈ order, f ∈ protos.map (·.file)) →
    (order.filterMap fun f => protos.find? (·.file = f)).map (·.file) = order ∧
    ∀ p ∈ (order.filterMap fun f => protos.find? (·.file = f)), p ∈ protos
  | [], _ => ⟨rfl, by simp⟩
  | f :: order, h => by
    obtain ⟨ih1, ih2⟩ := find_files protos order (fun x hx => h x (List.mem_cons_of_mem _ hx))
    obtain ⟨p, hp, e⟩ := List.mem_map.1 (h f (by simp))
    cases hfi : protos.find? (·.file = f) with
    | none =>
      have := List.find?_eq_none.1 hfi p hp
      simp [e] at this
    | some p' =>
      have hpe : p'.file = f := by simpa using List.find?_some hfi
      have e2 : ((f :: order).filterMap fun f => protos.find? (·.file = f)) = p' :: order.filterMap fun f => protos.find? (·.file = f) :=
        List.filterMap_cons_some (f := fun f => protos.find? (·.file = f)) hfi
      rw [e2, List.map_cons, ih1, hpe]
      refine ⟨rfl, fun x hx => ?_⟩
      rcases List.mem_cons.1 hx with rfl | hx
      · exact List.mem_of_find?_eq_some hfi
      · exact ih2 x hx

/-- Everything about a successful call of LoadProto. -/
theorem root_facts (hc : Cwd fs cwd) (U : List Str) (hU : ∀ f, Needed fs cwd includes root f → f ∈ U) {fuel : Nat} (hfuel : U.length < fuel)
    {st st' : LoaderState} {ps : List LoadedProto} (h : loadRoot fs includes m fuel st root = .ok (ps, st')) :
    ∃ protos r, loadFile fs includes m fuel [] [] root = .ok protos ∧ MeansFile fs cwd includes root r ∧
      ps.map (·.file) = sortProtoFiles (importedFiles fs includes) (protos.map (·.file)) ∧ (protos.map (·.file)).Nodup ∧
      (ps.map (·.file)).Perm (protos.map (·.file)) ∧ (ps.map (·.file)).head? = some r ∧ (∀ p ∈ protos, GoodRec fs cwd includes m root protos p) ∧
      (∀ p ∈ ps, p ∈ protos) ∧ (∀ f, f ∈ protos.map (·.file) ↔ Needed fs cwd includes root f) ∧
      (∀ f ∈ protos.map (·.file), ∀ g ∈ importedFiles fs includes f, g ∈ protos.map (·.file)) := by
  unfold loadRoot at h
  dsimp only [LoaderState.reset] at h
  have hA := (load_files (m := m) hc U hU fuel).1 [] [] root ⟨List.nodup_nil, by simp, by simp, List.nodup_nil⟩ .root (by simpa using hfuel) (by simp)
  have hP := (load_prefix (includes := includes) (m := m) hc fuel).1 [] [] root
  generalize hl : loadFile fs includes m fuel [] [] root = res at h hA hP
  cases res with
  | cyclic => cases h
  | notFound => cases h
  | unreadable => cases h
  | noPackage => cases h
  | panic => cases h
  | fuel => cases h
  | ok protos =>
    obtain ⟨new, e, g1, g2, g3⟩ := hA
    rw [List.nil_append] at e
    subst e
    obtain ⟨r, new', hr, e, hrm, hh⟩ := hP protos rfl
    rw [List.nil_append] at e
    subst e
    have hhead := hh (by simp)
    have hcl : ∀ f ∈ protos.map (·.file), ∀ i src, Contains fs f src → i ∈ src.imports → ∃ g, fileOf fs includes i = some g ∧ g ∈ protos.map (·.file) := by
      intro f hf i src hs hi
      obtain ⟨p, hp, rfl⟩ := List.mem_map.1 hf
      obtain ⟨_, src', _, _, h3, _, h5⟩ := g3 p hp
      rw [(sourceOf_contains _ _).2 hs] at h3; cases h3
      exact h5 i hi
    have hall : ∀ f, f ∈ protos.map (·.file) ↔ Needed fs cwd includes root f := by
      intro f
      constructor
      · intro hf
        obtain ⟨p, hp, rfl⟩ := List.mem_map.1 hf
        obtain ⟨q, _, h1, h2, _⟩ := g3 p hp
        exact ⟨q, h1, (fileOf_means hc _ _).1 h2⟩
      · rintro ⟨q, hq, hd⟩
        have key : ∀ q, Asked fs cwd includes root q → ∃ f, fileOf fs includes q = some f ∧ f ∈ protos.map (·.file) := by
          intro q hq
          induction hq with
          | root => exact ⟨r, hr, hrm⟩
          | «import» q f q' src _ h2 h3 h4 ih =>
            obtain ⟨f', e, hf'⟩ := ih
            rw [(fileOf_means hc _ _).2 h2] at e; cases e
            exact hcl f hf' q' src h3 h4
        obtain ⟨f', e, hf'⟩ := key q hq
        rw [(fileOf_means hc _ _).2 hd] at e; cases e
        exact hf'
    have hcl' : ∀ f ∈ protos.map (·.file), ∀ g ∈ importedFiles fs includes f, g ∈ protos.map (·.file) := by
      intro f hf g hg
      obtain ⟨src, i, h1, h2, h3⟩ := (importedFiles_iff hc f g).1 hg
      obtain ⟨g', e, hg'⟩ := hcl f hf i src h1 h2
      rw [(fileOf_means hc _ _).2 h3] at e; cases e
      exact hg'
    have hreach : ∀ x ∈ protos.map (·.file), x = r ∨ Imports (importedFiles fs includes) r x := by
      intro x hx
      obtain ⟨q, hq, hd⟩ := (hall x).1 hx
      have key : ∀ q, Asked fs cwd includes root q → ∀ f, MeansFile fs cwd includes q f → f = r ∨ Reaches fs cwd includes r f := by
        intro q hq
        induction hq with
        | root => intro f hf; rw [(fileOf_means hc _ _).2 hf] at hr; cases hr; exact .inl rfl
        | «import» q f q' src _ h2 h3 h4 ih =>
          intro g hg
          have hdi : DirectImport fs cwd includes f g := ⟨src, q', h3, h4, hg⟩
          rcases ih f h2 with rfl | h
          · exact .inr (.one _ _ hdi)
          · exact .inr (reaches_step h hdi)
      rcases key q hq x hd with h | h
      · exact .inl h
      · exact .inr ((reaches_imports hc _ _).2 h)
    obtain ⟨s1, s2⟩ := sort_general (importedFiles fs includes) (protos.map (·.file)) r hhead g1 hcl' hreach
    obtain ⟨f1, f2⟩ := find_files protos (sortProtoFiles (importedFiles fs includes) (protos.map (·.file))) (fun f hf => s1.mem_iff.1 hf)
    injection h with h
    injection h with h _
    subst h
    exact ⟨protos, r, rfl, (fileOf_means hc _ _).1 hr, f1, g1, by rw [f1]; exact s1, by rw [f1]; exact s2, g3, f2, hall, hcl'⟩

end
end Gen

open Gen

section
variable {fs : Files} {cwd includes : List Str} {m : Str → Option Str} {root : Str} {fuel : Nat} {st st' : LoaderState} {ps : List LoadedProto}

/-- **C72**: which file an import path means: a well-known (embedded) one, or the one in the first of the include directories that has it, or else the
file that the path names in the working directory; where directories and files are found by walking through the elements of the paths, so that different
spellings of a path mean the same file.  Missing: files in the include directories should take precedence over embedded ones (`C72_shadow_violated`). -/
theorem C72_lookup_partial (hc : Cwd fs cwd) (q f : Str) : fileOf fs includes q = some f ↔ MeansFile fs cwd includes q f := fileOf_means hc q f

/-- **C72**: what is loaded are the file that was asked for, first, and all the files needed, each once, however often and in however many spellings it
is imported.  `U` are the needed files; loading ends when there are finitely many of them. -/
theorem C72_files (hc : Cwd fs cwd) (U : List Str) (hU : ∀ f, Needed fs cwd includes root f → f ∈ U) (hfuel : U.length < fuel)
    (h : loadRoot fs includes m fuel st root = .ok (ps, st')) :
    (ps.map (·.file)).Nodup ∧ (∀ f, f ∈ ps.map (·.file) ↔ Needed fs cwd includes root f) ∧
      ∃ r, MeansFile fs cwd includes root r ∧ (ps.map (·.file)).head? = some r := by
  obtain ⟨protos, r, _, h2, _, h4, h5, h6, _, _, h9, _⟩ := root_facts hc U hU hfuel h
  exact ⟨h5.nodup_iff.2 h4, fun f => by rw [h5.mem_iff]; exact h9 f, r, h2, h6⟩

/-- **C72**: every file comes before the files it imports, and no file imports itself, directly or not.  Missing: embedded files that import themselves
(`C72_embedded_cycle_violated`); there are none among the well-known ones, but users of the package can register any. -/
theorem C72_order_partial (hc : Cwd fs cwd) (U : List Str) (hU : ∀ f, Needed fs cwd includes root f → f ∈ U) (hfuel : U.length < fuel)
    (hE : ∀ e, Needed fs cwd includes root e → fs.embedded e ≠ none → ¬ Reaches fs cwd includes e e)
    (h : loadRoot fs includes m fuel st root = .ok (ps, st')) :
    (∀ f, Needed fs cwd includes root f → ¬ Reaches fs cwd includes f f) ∧
    ∀ f g, Needed fs cwd includes root f → DirectImport fs cwd includes f g → Before (ps.map (·.file)) f g := by
  obtain ⟨protos, r, h1, h2, h3, h4, h5, h6, _, _, h9, h10⟩ := root_facts hc U hU hfuel h
  obtain ⟨hd, _⟩ := (load_done (m := m) hc hE fuel).1 [] [] root protos h1 .root (by simp) (by simp) (by intro x hx; cases hx)
  have hac : ∀ x ∈ protos.map (·.file), ¬ Imports (importedFiles fs includes) x x := fun x hx => acc_irrefl (hd x hx (by simp)).2
  obtain ⟨_, hord⟩ := C44_sorted (importedFiles fs includes) (protos.map (·.file)) h4 h10 hac
  refine ⟨fun f hf hr => hac f ((h9 f).2 hf) ((reaches_imports hc f f).2 hr), fun f g hf hg => ?_⟩
  rw [h3]
  exact hord f ((h9 f).2 hf) g ((importedFiles_iff hc f g).2 hg)

/-- **C72**: loading succeeds exactly when every import path that has to be looked up means a file, which can be read, does not import itself, and has a Go package
(what this is from the options and the file is C63).  Missing: embedded files that import themselves, and options that give different Go packages for
different spellings of the path of a file (`C72_spelling_violated`). -/
theorem C72_load_iff_partial (hc : Cwd fs cwd) (U : List Str) (hU : ∀ f, Needed fs cwd includes root f → f ∈ U) (hfuel : U.length < fuel)
    (hE : ∀ e, Needed fs cwd includes root e → fs.embedded e ≠ none → ¬ Reaches fs cwd includes e e)
    (hM : ∀ q q' f, Asked fs cwd includes root q → Asked fs cwd includes root q' → MeansFile fs cwd includes q f → MeansFile fs cwd includes q' f →
      userPackage fs m q = userPackage fs m q') :
    (∃ ps st', loadRoot fs includes m fuel st root = .ok (ps, st')) ↔
      ∀ q, Asked fs cwd includes root q → ∃ f src, MeansFile fs cwd includes q f ∧ Contains fs f src ∧ ¬ Reaches fs cwd includes f f ∧
        protoGoPackage (userPackage fs m q) src.goPackage ≠ none := by
  constructor
  · rintro ⟨ps, st', h⟩ q hq
    obtain ⟨hac, _⟩ := C72_order_partial hc U hU hfuel hE h
    obtain ⟨protos, r, h1, h2, h3, h4, h5, h6, h7, h8, h9, h10⟩ := root_facts hc U hU hfuel h
    have key : ∀ q, Asked fs cwd includes root q → ∃ f, MeansFile fs cwd includes q f ∧ f ∈ protos.map (·.file) := by
      intro q hq
      induction hq with
      | root => exact ⟨r, h2, (h9 r).2 ⟨root, .root, h2⟩⟩
      | «import» q f q' src _ k2 k3 k4 ih =>
        obtain ⟨f', e, hf'⟩ := ih
        have e1 := (fileOf_means hc _ _).2 k2
        rw [(fileOf_means hc _ _).2 e] at e1; cases e1
        obtain ⟨p, hp, rfl⟩ := List.mem_map.1 hf'
        obtain ⟨_, src', _, _, h3, _, h5⟩ := h7 p hp
        rw [(sourceOf_contains _ _).2 k3] at h3; cases h3
        obtain ⟨g, e, hg⟩ := h5 q' k4
        exact ⟨g, (fileOf_means hc _ _).1 e, hg⟩
    obtain ⟨f, hd, hf⟩ := key q hq
    obtain ⟨p, hp, rfl⟩ := List.mem_map.1 hf
    obtain ⟨q', src, k1, k2, k3, k4, _⟩ := h7 p hp
    refine ⟨p.file, src, hd, (sourceOf_contains _ _).1 k3, hac _ ⟨q, hq, hd⟩, ?_⟩
    rw [hM q q' p.file hq k1 hd ((fileOf_means hc _ _).1 k2), k4]
    nofun
  · intro hall
    have hA := (load_files (m := m) hc U hU fuel).1 [] [] root ⟨List.nodup_nil, by simp, by simp, List.nodup_nil⟩ .root (by simpa using hfuel) (by simp)
    unfold loadRoot
    dsimp only [LoaderState.reset]
    generalize hl : loadFile fs includes m fuel [] [] root = res at hA
    cases res with
    | ok protos => exact ⟨_, _, rfl⟩
    | fuel => exact hA.elim
    | panic => exact hA.elim
    | cyclic =>
      obtain ⟨f, ⟨q, hq, hd⟩, hr⟩ := hA
      obtain ⟨f', _, hd', _, hn, _⟩ := hall q hq
      have e := (fileOf_means hc _ _).2 hd
      rw [(fileOf_means hc _ _).2 hd'] at e; cases e
      exact absurd hr hn
    | notFound =>
      obtain ⟨q, hq, hn⟩ := hA
      obtain ⟨f', _, hd', _⟩ := hall q hq
      rw [(fileOf_means hc _ _).2 hd'] at hn; cases hn
    | unreadable =>
      obtain ⟨q, f, hq, hf, hs⟩ := hA
      obtain ⟨f', src, hd', hs', _⟩ := hall q hq
      rw [(fileOf_means hc _ _).2 hd'] at hf; cases hf
      rw [(sourceOf_contains _ _).2 hs'] at hs; cases hs
    | noPackage =>
      obtain ⟨q, f, src, hq, hf, hs, hp⟩ := hA
      obtain ⟨f', src', hd', hs', _, hn⟩ := hall q hq
      rw [(fileOf_means hc _ _).2 hd'] at hf; cases hf
      rw [(sourceOf_contains _ _).2 hs'] at hs; cases hs
      exact absurd hp hn

/-- **C72**: the Go package of a file is the one given for the path under which it is imported (or in the file, C63), whichever import statement this is.
Missing: as before. -/
theorem C72_package_partial (hc : Cwd fs cwd) (U : List Str) (hU : ∀ f, Needed fs cwd includes root f → f ∈ U) (hfuel : U.length < fuel)
    (hM : ∀ q q' f, Asked fs cwd includes root q → Asked fs cwd includes root q' → MeansFile fs cwd includes q f → MeansFile fs cwd includes q' f →
      userPackage fs m q = userPackage fs m q')
    (h : loadRoot fs includes m fuel st root = .ok (ps, st')) (p : LoadedProto) (hp : p ∈ ps) (q : Str) (src : Source) (hq : Asked fs cwd includes root q)
    (hd : MeansFile fs cwd includes q p.file) (hs : Contains fs p.file src) :
    protoGoPackage (userPackage fs m q) src.goPackage = some (p.goImport, p.goPackage) := by
  obtain ⟨protos, r, h1, h2, h3, h4, h5, h6, h7, h8, h9, h10⟩ := root_facts hc U hU hfuel h
  obtain ⟨q', src', k1, k2, k3, k4, _⟩ := h7 p (h8 p hp)
  rw [(sourceOf_contains _ _).2 hs] at k3; cases k3
  rw [hM q q' p.file hq k1 hd ((fileOf_means hc _ _).1 k2)]
  exact k4

end

namespace Gen
section
variable {fs : Files} {includes : List Str} {m : Str → Option Str} {gt : GenPathType} {out : Str} {fuel : Nat}

theorem mainLoop_done : ∀ (as : List Str) (st st' : LoaderState) (done : List Written),
    mainLoop fs includes m gt out fuel st done as =
      (done ++ (mainLoop fs includes m gt out fuel st' [] as).1, (mainLoop fs includes m gt out fuel st' [] as).2)
  | [], st, st', done => by simp [mainLoop]
  | a :: as, st, st', done => by
    have e : loadRoot fs includes m fuel st (pathClean a) = loadRoot fs includes m fuel st' (pathClean a) := rfl
    rw [mainLoop, mainLoop, e]
    generalize loadRoot fs includes m fuel st' (pathClean a) = r
    match r with
    | .ok ([], _) => simp
    | .ok (p :: ps, st2) =>
      dsimp only
      rw [mainLoop_done as st2 st2, mainLoop_done as st2 st2 ([] ++ _)]
      simp
    | .cyclic => simp
    | .notFound => simp
    | .unreadable => simp
    | .noPackage => simp
    | .panic => simp
    | .fuel => simp

theorem mainLoop_append : ∀ (as bs : List Str) (st : LoaderState),
    mainLoop fs includes m gt out fuel st [] (as ++ bs) =
      if (mainLoop fs includes m gt out fuel st [] as).2 = .ok () then
        ((mainLoop fs includes m gt out fuel st [] as).1 ++ (mainLoop fs includes m gt out fuel st [] bs).1, (mainLoop fs includes m gt out fuel st [] bs).2)
      else mainLoop fs includes m gt out fuel st [] as
  | [], bs, st => by simp [mainLoop]
  | a :: as, bs, st => by
    match hr : loadRoot fs includes m fuel st (pathClean a) with
    | .ok ([], _) => simp [mainLoop, hr]
    | .ok (p :: ps, st2) =>
      have d1 := mainLoop_done (fs := fs) (includes := includes) (m := m) (gt := gt) (out := out) (fuel := fuel) (as ++ bs) st2 st
        [⟨sourcePath p.file p.goImport gt out, p :: ps⟩]
      have d2 := mainLoop_done (fs := fs) (includes := includes) (m := m) (gt := gt) (out := out) (fuel := fuel) as st2 st
        [⟨sourcePath p.file p.goImport gt out, p :: ps⟩]
      simp only [List.cons_append, mainLoop, hr, List.nil_append, d1, d2, mainLoop_append as bs st]
      split <;> simp
    | .cyclic => simp [mainLoop, hr]
    | .notFound => simp [mainLoop, hr]
    | .unreadable => simp [mainLoop, hr]
    | .noPackage => simp [mainLoop, hr]
    | .panic => simp [mainLoop, hr]
    | .fuel => simp [mainLoop, hr]

end
end Gen

/-- **C73**: one run with several proto files is the same as several runs, one after the other, up to the first that fails. -/
theorem C73_separate (fs : Files) (protoPath opts : List Str) (out : Str) (as bs : List Str) (fuel : Nat) :
    genMain fs protoPath opts out (as ++ bs) fuel =
      if (genMain fs protoPath opts out as fuel).2 = .ok () then
        ((genMain fs protoPath opts out as fuel).1 ++ (genMain fs protoPath opts out bs fuel).1, (genMain fs protoPath opts out bs fuel).2)
      else genMain fs protoPath opts out as fuel := mainLoop_append as bs _

/-- The include directories: the working directory if none is given. -/
def includeDirs (protoPath : List Str) : List Str := if protoPath = [] then [['.']] else protoPath

/-- **C73**: in a successful run, one file is written for every argument: for the proto file meant by it, with the code for this file, placed as in C62.  `Needed`
files are as in C72. -/
theorem C73_written {fs : Files} {cwd : List Str} (hc : Cwd fs cwd) (protoPath opts : List Str) (out : Str) (U : List Str) (fuel : Nat) (hfuel : U.length < fuel) :
    ∀ (args : List Str), (∀ a ∈ args, ∀ f, Needed fs cwd (includeDirs protoPath) (pathClean a) f → f ∈ U) →
      ∀ ws : List Written, genMain fs protoPath opts out args fuel = (ws, .ok ()) →
      ws.length = args.length ∧ ∀ (i : Nat) (a : Str) (w : Written), args[i]? = some a → ws[i]? = some w →
        ∃ (p : LoadedProto) (rest : List LoadedProto), w.protos = p :: rest ∧ MeansFile fs cwd (includeDirs protoPath) (pathClean a) p.file ∧
          w.path = sourcePath p.file p.goImport (genPathType opts) (if out = [] then ['.'] else out) ∧
          ∀ f, f ∈ w.protos.map (·.file) ↔ Needed fs cwd (includeDirs protoPath) (pathClean a) f
  | [], _, ws, h => by cases h; simp
  | a :: as, hU, ws, h => by
    rw [← List.singleton_append, C73_separate] at h
    split at h
    · rename_i h1
      injection h with h2 h3
      obtain ⟨k1, k2⟩ := C73_written hc protoPath opts out U fuel hfuel as (fun b hb => hU b (List.mem_cons_of_mem _ hb)) _ (Prod.ext rfl h3)
      have one : ∃ w p rest, (genMain fs protoPath opts out [a] fuel).1 = [w] ∧ w.protos = p :: rest ∧
          MeansFile fs cwd (includeDirs protoPath) (pathClean a) p.file ∧
          w.path = sourcePath p.file p.goImport (genPathType opts) (if out = [] then ['.'] else out) ∧
          ∀ f, f ∈ w.protos.map (·.file) ↔ Needed fs cwd (includeDirs protoPath) (pathClean a) f := by
        have e0 : genMain fs protoPath opts out [a] fuel = mainLoop fs (includeDirs protoPath) (proto2pkg opts) (genPathType opts)
          (if out = [] then ['.'] else out) fuel ⟨[], []⟩ [] [a] := rfl
        rw [e0, mainLoop] at h1
        rw [e0, mainLoop]
        have hF : ∀ ps st', loadRoot fs (includeDirs protoPath) (proto2pkg opts) fuel ⟨[], []⟩ (pathClean a) = .ok (ps, st') → _ :=
          fun ps st' hh => C72_files hc U (hU a (by simp)) hfuel hh
        generalize loadRoot fs (includeDirs protoPath) (proto2pkg opts) fuel ⟨[], []⟩ (pathClean a) = r at h1 hF
        match r with
        | .ok ([], _) => cases h1
        | .ok (p :: ps, st2) =>
          obtain ⟨_, g2, r, g3, g4⟩ := hF _ _ rfl
          have e : p.file = r := by simpa using g4
          exact ⟨_, p, ps, rfl, rfl, by rw [e]; exact g3, rfl, g2⟩
        | .cyclic => cases h1
        | .notFound => cases h1
        | .unreadable => cases h1
        | .noPackage => cases h1
        | .panic => cases h1
        | .fuel => cases h1
      obtain ⟨w, p, rest, e1, e2⟩ := one
      rw [e1] at h2
      subst h2
      refine ⟨by simp; exact k1, fun i b v hb hv => ?_⟩
      cases i with
      | zero =>
        simp only [List.getElem?_cons_zero, Option.some.injEq, List.singleton_append] at hb hv
        subst hb hv
        exact ⟨p, rest, e2⟩
      | succ i =>
        simp only [List.getElem?_cons_succ, List.singleton_append] at hb hv
        exact k2 i b v hb hv
    · rename_i h1
      rw [h] at h1
      exact absurd rfl h1


/-! ## Examples -/

namespace Gen

/-- A finite set of import paths that contains all that are looked up. -/
theorem asked_in {fs : Files} {cwd includes : List Str} {root : Str} (hc : Cwd fs cwd) (A : List Str) (hr : root ∈ A)
    (h : (A.all fun q => match fileOf fs includes q with
      | none => true
      | some f => match sourceOf fs f with
        | none => true
        | some src => src.imports.all fun i => A.contains i) = true) : ∀ q, Asked fs cwd includes root q → q ∈ A := by
  intro q hq
  induction hq with
  | root => exact hr
  | «import» q f q' src _ h2 h3 h4 ih =>
    have := List.all_eq_true.1 h q ih
    rw [(fileOf_means hc q f).2 h2] at this
    dsimp only at this
    rw [(sourceOf_contains f src).2 h3] at this
    simpa using List.all_eq_true.1 this q' h4

theorem needed_in {fs : Files} {cwd includes : List Str} {root : Str} (hc : Cwd fs cwd) (A U : List Str) (hr : root ∈ A)
    (h : (A.all fun q => match fileOf fs includes q with
      | none => true
      | some f => match sourceOf fs f with
        | none => true
        | some src => src.imports.all fun i => A.contains i) = true)
    (hU : (A.all fun q => match fileOf fs includes q with
      | none => true
      | some f => U.contains f) = true) : ∀ f, Needed fs cwd includes root f → f ∈ U := by
  rintro f ⟨q, hq, hd⟩
  have := List.all_eq_true.1 hU q (asked_in hc A hr h q hq)
  rw [(fileOf_means hc q f).2 hd] at this
  simpa using this

end Gen

namespace Lookup

def table {α : Type} (l : List (String × α)) (s : Str) : Option α := (l.find? fun e => e.1.toList = s).map (·.2)

/-- The working directory is `/w`; `/w/inc/a.proto` imports `/w/inc/b.proto` in two spellings and a well-known file; there are other files of these names in
`/w` and in the include directory. -/
def fs : Files where
  cwd := "/w".toList
  stat s := (table [("/w/inc/a.proto", ()), ("/w/inc/b.proto", ()), ("/w/a.proto", ()), ("/w/inc/google/protobuf/any.proto", ()), ("/w/inc/sub", ()), ("/w/c.proto", ()), ("/w/inc/c.proto", ())] s).isSome
  read s := table [
    ("/w/inc/a.proto", ⟨["sub/../b.proto".toList, "google/protobuf/any.proto".toList, "b.proto".toList], some "x/a".toList⟩),
    ("/w/inc/b.proto", ⟨["google/protobuf/any.proto".toList], none⟩),
    ("/w/a.proto", ⟨[], some "x/other".toList⟩),
    ("/w/c.proto", ⟨[], some "x/c".toList⟩),
    ("/w/inc/c.proto", ⟨[], some "x/inc".toList⟩),
    ("/w/inc/google/protobuf/any.proto", ⟨[], some "x/mine".toList⟩)] s
  embedded s := table [("google/protobuf/any.proto", some ⟨[], some "google.golang.org/protobuf/types/known/anypb".toList⟩),
    ("x.proto", some ⟨["y.proto".toList], some "x/x".toList⟩), ("y.proto", some ⟨["x.proto".toList], some "x/y".toList⟩)] s

theorem table_mem {α : Type} {l : List (String × α)} {s : Str} (h : table l s ≠ none) : ∃ e ∈ l, e.1.toList = s := by
  unfold table at h
  cases hf : l.find? fun e => e.1.toList = s with
  | none => rw [hf] at h; exact absurd rfl h
  | some e => exact ⟨e, List.mem_of_find?_eq_some hf, by simpa using List.find?_some hf⟩

theorem cwd : Cwd fs ["w".toList] where
  path := by decide +kernel
  names := by unfold Plain; decide +kernel
  embedded := by
    intro q h
    obtain ⟨e, he, rfl⟩ := table_mem h
    have : ∀ e ∈ [("google/protobuf/any.proto", some (⟨[], some "google.golang.org/protobuf/types/known/anypb".toList⟩ : Source)),
      ("x.proto", some ⟨["y.proto".toList], some "x/x".toList⟩), ("y.proto", some ⟨["x.proto".toList], some "x/y".toList⟩)],
        e.1.toList.head? ≠ some '/' := by decide +kernel
    exact this e he

theorem needed : ∀ f, Needed fs ["w".toList] ["inc".toList] "a.proto".toList f →
    f ∈ ["/w/inc/a.proto".toList, "/w/inc/b.proto".toList, "google/protobuf/any.proto".toList] :=
  needed_in cwd ["a.proto".toList, "sub/../b.proto".toList, "google/protobuf/any.proto".toList, "b.proto".toList] _ (by decide +kernel)
    (by decide +kernel) (by decide +kernel)

/-- The hypotheses of `C72_files`: `b.proto` is loaded once, and the embedded file. -/
example : loadRoot fs ["inc".toList] (fun q => if q ∈ ["b.proto".toList, "sub/../b.proto".toList] then some "x/b".toList else none) 4 ⟨[], []⟩ "a.proto".toList =
    .ok ([⟨"/w/inc/a.proto".toList, "x/a".toList, "a".toList⟩, ⟨"/w/inc/b.proto".toList, "x/b".toList, "b".toList⟩,
      ⟨"google/protobuf/any.proto".toList, "google.golang.org/protobuf/types/known/anypb".toList, "anypb".toList⟩],
     ⟨[⟨"/w/inc/a.proto".toList, "x/a".toList, "a".toList⟩, ⟨"/w/inc/b.proto".toList, "x/b".toList, "b".toList⟩,
      ⟨"google/protobuf/any.proto".toList, "google.golang.org/protobuf/types/known/anypb".toList, "anypb".toList⟩], []⟩) := by rfl

/-- The hypotheses of `C72_order_partial` and `C72_load_iff_partial`: the embedded file imports nothing, and the options do not tell the two spellings apart. -/
example : (∀ e, Needed fs ["w".toList] ["inc".toList] "a.proto".toList e → fs.embedded e ≠ none → ¬ Reaches fs ["w".toList] ["inc".toList] e e) ∧
    (∀ q q' f, Asked fs ["w".toList] ["inc".toList] "a.proto".toList q → Asked fs ["w".toList] ["inc".toList] "a.proto".toList q' →
      MeansFile fs ["w".toList] ["inc".toList] q f → MeansFile fs ["w".toList] ["inc".toList] q' f →
      userPackage fs (fun q => if q ∈ ["b.proto".toList, "sub/../b.proto".toList] then some "x/b".toList else none) q =
        userPackage fs (fun q => if q ∈ ["b.proto".toList, "sub/../b.proto".toList] then some "x/b".toList else none) q') := by
  refine ⟨fun e he hne hr => ?_, fun q q' f hq hq' hd hd' => ?_⟩
  · have h1 := needed e he
    have h2 : e = "google/protobuf/any.proto".toList := by
      have : ∀ e ∈ ["/w/inc/a.proto".toList, "/w/inc/b.proto".toList, "google/protobuf/any.proto".toList], fs.embedded e ≠ none →
        e = "google/protobuf/any.proto".toList := by decide +kernel
      exact this e h1 hne
    subst h2
    have h3 := (reaches_imports cwd _ _).2 hr
    have h4 : importedFiles fs ["inc".toList] "google/protobuf/any.proto".toList = [] := by decide +kernel
    cases h3 with
    | one h => rw [h4] at h; cases h
    | more h _ => rw [h4] at h; cases h
  · have hA := asked_in (includes := ["inc".toList]) (root := "a.proto".toList) cwd ["a.proto".toList, "sub/../b.proto".toList, "google/protobuf/any.proto".toList, "b.proto".toList]
      (by decide +kernel) (by decide +kernel)
    have h1 := hA q hq
    have h2 := hA q' hq'
    have e1 := (fileOf_means cwd _ _).2 hd
    have e2 := (fileOf_means cwd _ _).2 hd'
    have : ∀ q ∈ ["a.proto".toList, "sub/../b.proto".toList, "google/protobuf/any.proto".toList, "b.proto".toList],
        ∀ q' ∈ ["a.proto".toList, "sub/../b.proto".toList, "google/protobuf/any.proto".toList, "b.proto".toList],
        fileOf fs ["inc".toList] q = fileOf fs ["inc".toList] q' →
        userPackage fs (fun q => if q ∈ ["b.proto".toList, "sub/../b.proto".toList] then some "x/b".toList else none) q =
          userPackage fs (fun q => if q ∈ ["b.proto".toList, "sub/../b.proto".toList] then some "x/b".toList else none) q' := by decide +kernel
    exact this q h1 q' h2 (by rw [e1, e2])

end Lookup

/-- Violation of C72: a file in an include directory does not take precedence over the embedded one of the same name (in `protoc` it does). -/
theorem C72_shadow_violated : Lookup.fs.stat "/w/inc/google/protobuf/any.proto".toList = true ∧
    fileOf Lookup.fs ["inc".toList] "google/protobuf/any.proto".toList = some "google/protobuf/any.proto".toList ∧
    ((sourceOf Lookup.fs "google/protobuf/any.proto".toList).bind (·.goPackage)) ≠
      ((Lookup.fs.read "/w/inc/google/protobuf/any.proto".toList).bind (·.goPackage)) := by decide +kernel

/-- Violation of C72: embedded files that import each other are accepted. -/
theorem C72_embedded_cycle_violated : Reaches Lookup.fs ["w".toList] [] "x.proto".toList "x.proto".toList ∧
    ∃ ps st', loadRoot Lookup.fs [] (fun _ => none) 4 ⟨[], []⟩ "x.proto".toList = .ok (ps, st') ∧ ps.map (·.file) = ["x.proto".toList, "y.proto".toList] := by
  refine ⟨(reaches_imports Lookup.cwd _ _).1 (.more (y := "y.proto".toList) (by decide +kernel) (.one (by decide +kernel))), ?_⟩
  exact ⟨_, _, rfl, rfl⟩

/-- Violation of C72: the Go package that the user gives for a file is used or not, depending on how the file is named: with the option `Mb.proto=x/b` and the include
directory `inc`, loading `b.proto` succeeds, and loading the same file as `inc/b.proto` or `sub/../b.proto` fails. -/
theorem C72_spelling_violated :
    fileOf Lookup.fs ["inc".toList] "b.proto".toList = fileOf Lookup.fs ["inc".toList] "inc/../inc/../b.proto".toList ∧
    fileOf Lookup.fs ["inc".toList] "b.proto".toList = fileOf Lookup.fs ["inc".toList] "sub/../b.proto".toList ∧
    fileOf Lookup.fs ["inc".toList] "b.proto".toList = fileOf Lookup.fs ["inc".toList] "inc/b.proto".toList ∧
    (∃ ps st', loadRoot Lookup.fs ["inc".toList] (proto2pkg ["Mb.proto=x/b".toList]) 4 ⟨[], []⟩ "b.proto".toList = .ok (ps, st')) ∧
    loadRoot Lookup.fs ["inc".toList] (proto2pkg ["Mb.proto=x/b".toList]) 4 ⟨[], []⟩ "sub/../b.proto".toList = .noPackage ∧
    loadRoot Lookup.fs ["inc".toList] (proto2pkg ["Mb.proto=x/b".toList]) 4 ⟨[], []⟩ "inc/b.proto".toList = .noPackage := by
  refine ⟨by decide +kernel, by decide +kernel, by decide +kernel, ⟨_, _, rfl⟩, rfl, rfl⟩

/-- A run with two arguments. -/
example : (genMain Lookup.fs ["inc".toList] ["Mb.proto=x/b".toList, "paths=source_relative".toList] [] ["b.proto".toList, "./a.proto".toList] 4).2 = .noPackage ∧
    ((genMain Lookup.fs [] ["Mb.proto=x/b".toList] "gen".toList ["inc/../a.proto".toList, "./inc/sub/../../a.proto".toList] 4).1.map (·.path)) =
      ["gen/x/other/a.pb.go".toList, "gen/x/other/a.pb.go".toList] := by
  refine ⟨rfl, rfl⟩

/-- Violation of C73: an argument that names a file in the working directory does not mean this file when there is one of that name in an include directory (`protoc`
reports this). -/
theorem C73_shadowed_violated : Lookup.fs.stat "/w/c.proto".toList = true ∧
    genMain Lookup.fs ["inc".toList] [] [] ["./c.proto".toList] 4 =
      ([⟨"x/inc/c.pb.go".toList, [⟨"/w/inc/c.proto".toList, "x/inc".toList, "inc".toList⟩]⟩], .ok ()) := by
  refine ⟨by decide +kernel, rfl⟩

end Verif.Props
