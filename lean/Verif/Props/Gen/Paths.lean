import Verif.Spec.Gen.Paths
import Verif.Spec.Gen.Names
import Verif.Props.Gen.Options
/-!
# C62: where generated files go; C63: the Go packages of generated files
-/
namespace Verif.Props
open Verif.Spec.Gen Verif.Model.Gen

namespace Gen

/-! ## Paths -/

theorem splitSlash_ne : ∀ (s : Str), splitSlash s ≠ []
  | [] => by simp [splitSlash]
  | c :: s => by
    rw [splitSlash]
    split
    · simp
    · split <;> simp

theorem splitSlash_append : ∀ (a b : Str), splitSlash (a ++ '/' :: b) = splitSlash a ++ splitSlash b
  | [], b => by simp [splitSlash]
  | c :: a, b => by
    rw [List.cons_append, splitSlash, splitSlash, splitSlash_append a b]
    split
    · rfl
    · cases h : splitSlash a with
      | nil => exact absurd h (splitSlash_ne a)
      | cons w l => rfl

theorem splitSlash_plain : ∀ {w : Str}, '/' ∉ w → splitSlash w = [w]
  | [], _ => rfl
  | c :: w, h => by
    simp only [List.mem_cons, not_or] at h
    rw [splitSlash, if_neg (Ne.symm h.1), splitSlash_plain h.2]

theorem split_join : ∀ {ws : List Str}, ws ≠ [] → (∀ w ∈ ws, '/' ∉ w) → splitSlash (joinSlash ws) = ws
  | [], h, _ => absurd rfl h
  | [w], _, h => splitSlash_plain (h w (by simp))
  | w :: v :: l, _, h => by
    rw [joinSlash, splitSlash_append, splitSlash_plain (h w (by simp)), split_join (by simp) (fun x hx => h x (List.mem_cons_of_mem _ hx))]
    rfl

theorem joinSlash_append : ∀ {a b : List Str}, a ≠ [] → b ≠ [] → joinSlash (a ++ b) = joinSlash a ++ '/' :: joinSlash b
  | [], _, h, _ => absurd rfl h
  | [w], [], _, h => absurd rfl h
  | [w], v :: l, _, _ => rfl
  | w :: v :: l, b, _, h => by
    have ih := joinSlash_append (a := v :: l) (b := b) (by simp) h
    rw [List.cons_append, List.cons_append, joinSlash, ← List.cons_append, ih, joinSlash]
    simp

theorem clean_plain (rooted : Bool) : ∀ {ws : List Str} (out : List Str), (∀ w ∈ ws, Plain w) → ws.foldl (cleanStep rooted) out = ws.reverse ++ out
  | [], out, _ => rfl
  | w :: ws, out, h => by
    obtain ⟨h1, _, h3, h4⟩ := h w (by simp)
    rw [List.foldl_cons, clean_plain rooted _ (fun x hx => h x (List.mem_cons_of_mem _ hx))]
    unfold cleanStep
    rw [if_neg (by simp [h1, h3]), if_neg h4]
    simp

theorem plain_head {ws : List Str} (hne : ws ≠ []) (h : ∀ w ∈ ws, Plain w) : isRooted (joinSlash ws) = false ∧ joinSlash ws ≠ [] := by
  match ws, hne with
  | w :: l, _ =>
    obtain ⟨h1, h2, _⟩ := h w (by simp)
    cases w with
    | nil => exact absurd rfl h1
    | cons c w =>
      simp only [List.mem_cons, not_or] at h2
      have : ∃ t, joinSlash ((c :: w) :: l) = c :: t := by
        cases l with
        | nil => exact ⟨w, rfl⟩
        | cons v l => exact ⟨_, rfl⟩
      obtain ⟨t, e⟩ := this
      rw [e]
      unfold isRooted
      simp only [List.head?_cons, Option.some.injEq, decide_eq_false_iff_not, ne_eq, reduceCtorEq, not_false_eq_true, and_true]
      exact Ne.symm h2.1

/-- A path of names is not changed by cleaning. -/
theorem clean_id {ws : List Str} (hne : ws ≠ []) (h : ∀ w ∈ ws, Plain w) : pathClean (joinSlash ws) = joinSlash ws := by
  unfold pathClean
  rw [(plain_head hne h).1, split_join hne (fun w hw => (h w hw).2.1), clean_plain _ _ h, List.append_nil]
  unfold renderPath
  rw [if_neg (by simp), if_neg (by simp [hne]), List.reverse_reverse]

/-- Where a path of names leads, from a directory. -/
theorem join_below {ws : List Str} (hne : ws ≠ []) (h : ∀ w ∈ ws, Plain w) (out : Str) : pathJoin out (joinSlash ws) = below (pathClean out) (joinSlash ws) := by
  have hj := (plain_head hne h).2
  unfold pathJoin
  rw [if_neg (fun hh => hj hh.2)]
  by_cases ho : out = []
  · subst ho
    rw [if_pos rfl, clean_id hne h]
    rfl
  · rw [if_neg ho, if_neg hj]
    have hr : isRooted (out ++ '/' :: joinSlash ws) = isRooted out := by
      cases out with
      | nil => exact absurd rfl ho
      | cons c out => rfl
    unfold pathClean
    rw [hr, splitSlash_append, List.foldl_append, split_join hne (fun w hw => (h w hw).2.1), clean_plain _ _ h]
    generalize hL : (splitSlash out).foldl (cleanStep (isRooted out)) [] = L
    -- the elements kept are never empty
    have hL' : ∀ x ∈ L, x ≠ [] ∧ '/' ∉ x ∧ x ≠ ['.'] := by
      have inv : ∀ (ws : List Str) (acc : List Str), (∀ w ∈ ws, '/' ∉ w) → (∀ x ∈ acc, x ≠ [] ∧ '/' ∉ x ∧ x ≠ ['.']) →
          ∀ x ∈ ws.foldl (cleanStep (isRooted out)) acc, x ≠ [] ∧ '/' ∉ x ∧ x ≠ ['.'] := by
        intro ws
        induction ws with
        | nil => intro acc _ h; exact h
        | cons w ws ih =>
          intro acc hw ha
          rw [List.foldl_cons]
          refine ih _ (fun v hv => hw v (List.mem_cons_of_mem _ hv)) ?_
          unfold cleanStep
          split
          · exact ha
          · rename_i hne'
            simp only [not_or] at hne'
            split
            · split
              · split
                · intro x hx; cases hx
                · intro x hx
                  rw [List.mem_singleton.1 hx]
                  decide
              · split
                · intro x hx
                  rcases List.mem_cons.1 hx with e | hx
                  · rw [e]; decide
                  · exact ha x hx
                · intro x hx
                  exact ha x (List.mem_cons_of_mem _ hx)
            · intro x hx
              rcases List.mem_cons.1 hx with e | hx
              · rw [e]; exact ⟨hne'.1, hw w (by simp), hne'.2⟩
              · exact ha x hx
      have hsp : ∀ (s : Str), ∀ w ∈ splitSlash s, '/' ∉ w := by
        intro s
        induction s with
        | nil => intro w hw; rw [splitSlash, List.mem_singleton] at hw; rw [hw]; simp
        | cons c s ih =>
          intro w hw
          rw [splitSlash] at hw
          split at hw
          · rcases List.mem_cons.1 hw with e | hw
            · rw [e]; simp
            · exact ih w hw
          · rename_i hc
            split at hw
            · rename_i h0; exact absurd h0 (splitSlash_ne s)
            · rename_i v l h0
              rw [h0] at ih
              rcases List.mem_cons.1 hw with e | hw
              · rw [e, List.mem_cons, not_or]
                exact ⟨Ne.symm hc, ih v (by simp)⟩
              · exact ih w (List.mem_cons_of_mem _ hw)
      rw [← hL]
      exact inv _ [] (hsp out) (by intro x hx; cases hx)
    unfold renderPath below
    by_cases hR : isRooted out = true
    · rw [if_pos hR, if_pos hR, List.reverse_append, List.reverse_reverse]
      have hd : ('/' :: joinSlash L.reverse) ≠ ['.'] := by simp
      rw [if_neg hd]
      cases hc : L.reverse with
      | nil => simp [joinSlash]
      | cons x l =>
        have hx : ('/' :: joinSlash (x :: l)) ≠ ['/'] := by
          simp only [ne_eq, List.cons.injEq, true_and]
          have hx := (hL' x (by rw [← List.mem_reverse, hc]; simp)).1
          cases l with
          | nil => exact hx
          | cons y l => simp [joinSlash]
        rw [if_neg hx, joinSlash_append (by simp) hne]
        rfl
    · rw [if_neg hR, if_neg hR, List.reverse_append, List.reverse_reverse]
      by_cases hLe : L = []
      · subst hLe
        rw [if_pos rfl, if_pos rfl, List.append_nil, if_neg (by simp [hne])]
        rfl
      · rw [if_neg (by simp [hne]), if_neg hLe]
        have hrev : L.reverse ≠ [] := by simp [hLe]
        rw [joinSlash_append hrev hne]
        have hd : joinSlash L.reverse ≠ ['.'] ∧ joinSlash L.reverse ≠ ['/'] := by
          have hm : ∀ x ∈ L.reverse, x ≠ [] ∧ '/' ∉ x ∧ x ≠ ['.'] := fun x hx => hL' x (List.mem_reverse.1 hx)
          match hc : L.reverse, hm, hrev with
          | [x], hm, _ =>
            have := hm x (by simp)
            refine ⟨this.2.2, fun e => this.2.1 ?_⟩
            rw [show x = ['/'] from e]; simp
          | x :: y :: l, hm, _ =>
            have hx := (hm x (by simp)).1
            cases x with
            | nil => exact absurd rfl hx
            | cons c x => exact ⟨by simp [joinSlash], by simp [joinSlash]⟩
        rw [if_neg hd.1, if_neg hd.2]

/-! ## Names of files -/

theorem trimSuffix_append (s t : Str) : trimSuffix (s ++ t) t = s := by
  unfold trimSuffix
  rw [if_pos (List.isSuffixOf_iff_suffix.2 (List.suffix_append ..))]
  simp

theorem base_last {s dir n : Str} (e' : s = dir ++ '/' :: n) (hne : n ≠ []) (hx : '/' ∉ n) : pathBase s = n := by
  unfold pathBase
  rw [if_neg (by rw [e']; simp)]
  have h1 : s.reverse = n.reverse ++ '/' :: dir.reverse := by rw [e']; simp
  have h2 : s.reverse.dropWhile (fun c => c = '/') = s.reverse := by
    rw [h1]
    cases hr : n.reverse with
    | nil => exact absurd (List.reverse_eq_nil_iff.1 hr) hne
    | cons c l =>
      have : c ∈ n := by rw [← List.mem_reverse, hr]; simp
      rw [List.cons_append, List.dropWhile_cons_of_neg]
      simp only [decide_eq_true_eq]
      intro e
      subst e
      exact hx this
  have h3 : s.reverse.takeWhile (fun c => c ≠ '/') = n.reverse := by
    rw [h1, List.takeWhile_append_of_pos]
    · rw [List.takeWhile_cons_of_neg (by simp), List.append_nil]
    · intro c hc
      simp only [ne_eq, decide_not, Bool.not_eq_eq_eq_not, Bool.not_true, decide_eq_false_iff_not]
      intro e
      subst e
      exact hx (List.mem_reverse.1 hc)
  dsimp only
  rw [h2, if_neg (by rw [h1]; simp), h3, List.reverse_reverse]

theorem base_single {s : Str} (hne : s ≠ []) (hx : '/' ∉ s) : pathBase s = s := by
  unfold pathBase
  rw [if_neg hne]
  have h2 : s.reverse.dropWhile (fun c => c = '/') = s.reverse := by
    cases hr : s.reverse with
    | nil => rfl
    | cons c l =>
      have : c ∈ s := by rw [← List.mem_reverse, hr]; simp
      rw [List.dropWhile_cons_of_neg]
      simp only [decide_eq_true_eq]
      intro e
      subst e
      exact hx this
  have h3 : s.reverse.takeWhile (fun c => c ≠ '/') = s.reverse := by
    have := List.takeWhile_append_of_pos (p := fun c => decide (c ≠ '/')) (l₁ := s.reverse) (l₂ := []) (fun c hc => by
      simp only [ne_eq, decide_not, Bool.not_eq_eq_eq_not, Bool.not_true, decide_eq_false_iff_not]
      intro e
      subst e
      exact hx (List.mem_reverse.1 hc))
    simpa using this
  dsimp only
  rw [h2, if_neg (by simp [hne]), h3, List.reverse_reverse]

theorem base_proto {s dir name : Str} (h : ProtoPath s dir name) : pathBase s = name ++ ".proto".toList := by
  obtain ⟨e, hs⟩ := h
  refine base_last (dir := dir) (by rw [e]; simp) (by simp) ?_
  rw [List.mem_append, not_or]
  exact ⟨hs, by decide⟩

theorem plain_name {name : Str} (h : '/' ∉ name) : Plain (name ++ ".pb.go".toList) := by
  have hl : (name ++ ".pb.go".toList).length = name.length + 6 := by rw [List.length_append]; rfl
  refine ⟨by simp, ?_, fun e => ?_, fun e => ?_⟩
  · rw [List.mem_append, not_or]
    exact ⟨h, by decide⟩
  · rw [e] at hl; simp at hl
  · rw [e] at hl; simp at hl

theorem last_slash {a b x y : Str} (hx : '/' ∉ x) (hy : '/' ∉ y) (h : a ++ '/' :: x = b ++ '/' :: y) : a = b ∧ x = y := by
  have := congrArg List.reverse h
  simp only [List.reverse_append, List.reverse_cons, List.append_assoc, List.singleton_append] at this
  rcases List.append_eq_append_iff.1 this with ⟨c, h1, h2⟩ | ⟨c, h1, h2⟩
  · cases c with
    | nil =>
      simp only [List.append_nil, List.nil_append, List.cons.injEq, true_and] at h1 h2
      exact ⟨List.reverse_inj.1 h2, (List.reverse_inj.1 h1).symm⟩
    | cons d c =>
      simp only [List.cons_append, List.cons.injEq] at h2
      exact absurd (List.mem_reverse.1 (by rw [h1, ← h2.1]; simp)) hy
  · cases c with
    | nil =>
      simp only [List.append_nil, List.nil_append, List.cons.injEq, true_and] at h1 h2
      exact ⟨(List.reverse_inj.1 h2).symm, List.reverse_inj.1 h1⟩
    | cons d c =>
      simp only [List.cons_append, List.cons.injEq] at h2
      exact absurd (List.mem_reverse.1 (by rw [h1, ← h2.1]; simp)) hx

theorem below_inj {d a b : Str} (h : below d a = below d b) : a = b := by
  unfold below at h
  split at h
  · exact h
  · split at h
    · simpa using h
    · simpa using h

end Gen

open Gen

/-- With `paths=import` (the default), the code for `name.proto` goes to the file `name.pb.go` in the directory named by the import path of its Go package, below the
output directory.  Missing: import paths with `..` (`C62_outside_violated`). -/
theorem C62_import_partial (file dir name goImport out : Str) (hf : ProtoPath file dir name) (hi : PlainPath goImport) :
    sourcePath file goImport .byImport out = below (pathClean out) (goImport ++ '/' :: name ++ ".pb.go".toList) := by
  obtain ⟨ws, hne, hp, rfl⟩ := hi
  unfold sourcePath
  dsimp only
  rw [base_proto hf, trimSuffix_append]
  have hn : ∀ w ∈ [name ++ ".pb.go".toList], Plain w := fun w hw => by rw [List.mem_singleton.1 hw]; exact plain_name hf.slash
  have hb := plain_head hne hp
  have e1 : pathJoin (joinSlash ws) (name ++ ".pb.go".toList) = joinSlash (ws ++ [name ++ ".pb.go".toList]) := by
    have := join_below (ws := [name ++ ".pb.go".toList]) (by simp) hn (joinSlash ws)
    rw [show joinSlash [name ++ ".pb.go".toList] = name ++ ".pb.go".toList from rfl] at this
    rw [this, clean_id hne hp, joinSlash_append hne (by simp)]
    unfold below
    have h1 : joinSlash ws ≠ ['/'] := fun e => by rw [e] at hb; cases hb.1
    have h2 : joinSlash ws ≠ ['.'] := by
      intro e
      have := split_join hne (fun w hw => (hp w hw).2.1)
      rw [e] at this
      have hw := hp ['.'] (by rw [← this]; simp [splitSlash])
      exact hw.2.2.1 rfl
    rw [if_neg h2, if_neg h1]
    rfl
  rw [e1, join_below (by simp) (fun w hw => ?_) out, joinSlash_append hne (by simp)]
  · simp [joinSlash]
  · rcases List.mem_append.1 hw with h | h
    · exact hp w h
    · exact hn w h

/-- With `paths=source_relative`, the code for a proto file goes to the file of the same name next to it. -/
theorem C62_relative (file dir name goImport out : Str) (hf : ProtoPath file dir name) :
    sourcePath file goImport .sourceRelative out = dir ++ '/' :: name ++ ".pb.go".toList := by
  unfold sourcePath
  dsimp only
  rw [hf.spelled, trimSuffix_append]

/-- The code for different proto files goes to different files, unless the files have the same name and the same Go package and `paths=import` is used (in which case the
code of one replaces that of the other, `C62_overwrite_violated`). -/
theorem C62_distinct_partial (f1 d1 n1 i1 f2 d2 n2 i2 out : Str) (gt : GenPathType) (h1 : ProtoPath f1 d1 n1) (h2 : ProtoPath f2 d2 n2) (p1 : PlainPath i1)
    (p2 : PlainPath i2) : sourcePath f1 i1 gt out = sourcePath f2 i2 gt out ↔ f1 = f2 ∧ gt = .sourceRelative ∨ n1 = n2 ∧ i1 = i2 ∧ gt = .byImport := by
  cases gt with
  | byImport =>
    rw [C62_import_partial f1 d1 n1 i1 out h1 p1, C62_import_partial f2 d2 n2 i2 out h2 p2]
    constructor
    · intro h
      have h := below_inj h
      rw [List.append_assoc, List.append_assoc, List.cons_append, List.cons_append] at h
      obtain ⟨e1, e2⟩ := last_slash (plain_name h1.slash).2.1 (plain_name h2.slash).2.1 h
      exact .inr ⟨List.append_cancel_right e2, e1, rfl⟩
    · rintro (⟨_, h⟩ | ⟨e1, e2, _⟩)
      · cases h
      · rw [e1, e2]
  | sourceRelative =>
    constructor
    · intro h
      rw [C62_relative f1 d1 n1 i1 out h1, C62_relative f2 d2 n2 i2 out h2] at h
      have h := List.append_cancel_right h
      exact .inl ⟨by rw [h1.spelled, h2.spelled, h], rfl⟩
    · rintro (⟨e, _⟩ | ⟨_, _, h⟩)
      · subst e
        rfl
      · cases h

/-- The hypotheses are met. -/
example : ProtoPath "/src/api/user.proto".toList "/src/api".toList "user".toList ∧ PlainPath "example.com/x/user".toList ∧
    sourcePath "/src/api/user.proto".toList "example.com/x/user".toList .byImport "./gen/".toList = "gen/example.com/x/user/user.pb.go".toList ∧
    sourcePath "/src/api/user.proto".toList "example.com/x/user".toList .sourceRelative "./gen/".toList = "/src/api/user.pb.go".toList :=
  ⟨⟨by decide +kernel, by decide⟩, ⟨["example.com".toList, "x".toList, "user".toList], by simp, by unfold Plain; decide +kernel, by decide +kernel⟩, by decide +kernel,
    by decide +kernel⟩

/-- Violation of C62: the code of two proto files of the same Go package goes to the same file. -/
theorem C62_overwrite_violated : "/src/a/user.proto".toList ≠ "/src/b/user.proto".toList ∧
    sourcePath "/src/a/user.proto".toList "example.com/x".toList .byImport "gen".toList = sourcePath "/src/b/user.proto".toList "example.com/x".toList .byImport "gen".toList := by
  decide +kernel

/-- Violation of C62: a Go package with `..` leads out of the output directory. -/
theorem C62_outside_violated : sourcePath "/src/a.proto".toList "../../x".toList .byImport "gen/go".toList = "x/a.pb.go".toList := by decide +kernel

/-- Violation of C62: with `paths=source_relative` the output directory (`-go_out`) is ignored: the code never goes below it, whatever it is, but next to the proto file. -/
theorem C62_go_out_violated (file dir name goImport out : Str) (hf : ProtoPath file dir name) (h : ¬ (pathClean out ++ ['/']) <+: dir ++ ['/']) :
    ¬ (pathClean out ++ ['/']) <+: sourcePath file goImport .sourceRelative out := by
  rw [C62_relative file dir name goImport out hf]
  intro ⟨t, ht⟩
  apply h
  have hx := (plain_name hf.slash).2.1
  have e : pathClean out ++ '/' :: t = dir ++ '/' :: (name ++ ".pb.go".toList) := by simpa using ht
  rcases List.append_eq_append_iff.1 e with ⟨c, h1, h2⟩ | ⟨c, h1, h2⟩
  · rw [h1]
    cases c with
    | nil => simp
    | cons d c =>
      simp only [List.cons_append, List.cons.injEq] at h2
      rw [← h2.1]
      exact ⟨c ++ ['/'], by simp⟩
  · cases c with
    | nil =>
      rw [h1]
      simp
    | cons d c =>
      simp only [List.cons_append, List.cons.injEq] at h2
      exact absurd (by rw [h2.2]; simp) hx

/-- Its hypotheses are met. -/
example : ProtoPath "/src/a.proto".toList "/src".toList "a".toList ∧ ¬ (pathClean "gen".toList ++ ['/']) <+: "/src".toList ++ ['/'] :=
  ⟨⟨by decide +kernel, by decide⟩, by decide +kernel⟩

/-! ## C63 -/

namespace Gen

theorem parts_plain {c : Char} : ∀ {s : Str}, c ∉ s → parts c s = [s]
  | [], _ => rfl
  | d :: s, h => by
    simp only [List.mem_cons, not_or] at h
    rw [parts, if_neg (Ne.symm h.1), parts_plain h.2]

theorem params_plain {opts : List Str} (h : ∀ o ∈ opts, ',' ∉ o) : params opts = opts := by
  unfold params
  induction opts with
  | nil => rfl
  | cons o l ih =>
    rw [List.flatMap_cons, parts_plain (h o (by simp)), ih (fun x hx => h x (List.mem_cons_of_mem _ hx))]
    rfl

theorem reverse_induction {α : Type} {P : List α → Prop} (h0 : P []) (h1 : ∀ l x, P l → P (l ++ [x])) (l : List α) : P l := by
  rw [← List.reverse_reverse l]
  generalize l.reverse = r
  induction r with
  | nil => exact h0
  | cons x r ih =>
    rw [List.reverse_cons]
    exact h1 _ x ih

theorem genPathType_is (opts : List Str) : PathsIs opts (genPathType opts) := by
  induction opts using reverse_induction with
  | h0 => exact .inl (by simp)
  | h1 l x ih =>
    unfold genPathType at ih ⊢
    rw [List.foldl_append, List.foldl_cons, List.foldl_nil]
    generalize hg : List.foldl _ GenPathType.byImport l = g at ih ⊢
    split
    · rename_i e
      exact .inr ⟨l, [], by rw [e], by simp⟩
    · rename_i h1
      split
      · rename_i e
        exact ⟨l, [], by rw [e], by simp⟩
      · rename_i h2
        cases g with
        | byImport =>
          rcases ih with h | ⟨a, b, e, h⟩
          · refine .inl ?_
            rw [List.mem_append, not_or]
            exact ⟨h, by simpa using fun e => h2 e.symm⟩
          · refine .inr ⟨a, b ++ [x], by rw [e]; simp, ?_⟩
            rw [List.mem_append, not_or]
            exact ⟨h, by simpa using fun e => h2 e.symm⟩
        | sourceRelative =>
          obtain ⟨a, b, e, h⟩ := ih
          refine ⟨a, b ++ [x], by rw [e]; simp, ?_⟩
          rw [List.mem_append, not_or]
          exact ⟨h, by simpa using fun e => h1 e.symm⟩

theorem cut_eq {sep : Char} {a b : Str} (h : sep ∉ a) : cut sep (a ++ sep :: b) = (a, b) := by
  induction a with
  | nil => simp [cut]
  | cons c a ih =>
    simp only [List.mem_cons, not_or] at h
    rw [List.cons_append, cut, if_neg (Ne.symm h.1), ih h.2]

theorem cut_none {sep : Char} {a : Str} (h : sep ∉ a) : cut sep a = (a, []) := by
  induction a with
  | nil => rfl
  | cons c a ih =>
    simp only [List.mem_cons, not_or] at h
    rw [cut, if_neg (Ne.symm h.1), ih h.2]

/-- What one option does. -/
theorem assign_step (file : Str) (ret : Option Str) (s : Str) :
    (∃ v, Assigns file v s ∧ assignOpt file ret s = some v) ∨ ((∀ v, ¬ Assigns file v s) ∧ assignOpt file ret s = ret) := by
  cases s with
  | nil => exact .inr ⟨fun v ⟨a, e, _⟩ => (by cases e), rfl⟩
  | cons c s =>
    rw [assignOpt]
    by_cases hcond : c = 'M' ∧ '=' ∈ s ∧ pathClean (cut '=' s).1 = file
    · rw [if_pos hcond]
      obtain ⟨hc, h, h'⟩ := hcond
      subst hc
      obtain ⟨h1, h2⟩ := cut_spec '=' s
      refine .inl ⟨_, ⟨(cut '=' s).1, ?_, h1, h'⟩, rfl⟩
      rcases h2 with ⟨e, _⟩ | e
      · rw [e] at h
        exact absurd h h1
      · rw [List.cons_append, ← e]
    · rw [if_neg hcond]
      refine .inr ⟨fun v ⟨a, e, h1, h2⟩ => hcond ?_, rfl⟩
      simp only [List.cons_append, List.cons.injEq] at e
      rw [e.2, cut_eq h1]
      exact ⟨e.1, by simp, h2⟩

theorem flag_unique {ps : List Str} {file v v' : Str} (h : FlagIs ps file v) (h' : FlagIs ps file v') : v = v' := by
  obtain ⟨a, p, b, e, hp, hn⟩ := h
  obtain ⟨a', p', b', e', hp', hn'⟩ := h'
  rw [e] at e'
  rcases List.append_eq_append_iff.1 e' with ⟨c, h1, h2⟩ | ⟨c, h1, h2⟩
  · cases c with
    | nil =>
      simp only [List.nil_append, List.cons.injEq] at h2
      rw [h2.1] at hp
      obtain ⟨x, e1, h3, _⟩ := hp
      obtain ⟨y, e2, h4, _⟩ := hp'
      rw [e1] at e2
      simp only [List.cons_append, List.cons.injEq, true_and] at e2
      have := (cut_eq (b := v) h3).symm.trans ((congrArg (cut '=') e2).trans (cut_eq h4))
      exact (Prod.mk.inj this).2
    | cons d c =>
      simp only [List.cons_append, List.cons.injEq] at h2
      exact absurd hp' (hn v' p' (by rw [h2.2]; simp))
  · cases c with
    | nil =>
      simp only [List.nil_append, List.cons.injEq] at h2
      rw [← h2.1] at hp
      obtain ⟨x, e1, h3, _⟩ := hp
      obtain ⟨y, e2, h4, _⟩ := hp'
      rw [e1] at e2
      simp only [List.cons_append, List.cons.injEq, true_and] at e2
      have := (cut_eq (b := v) h3).symm.trans ((congrArg (cut '=') e2).trans (cut_eq h4))
      exact (Prod.mk.inj this).2
    | cons d c =>
      simp only [List.cons_append, List.cons.injEq] at h2
      exact absurd hp (hn' v p (by rw [h2.2]; simp))

theorem proto2pkg_is (opts : List Str) (file : Str) : match proto2pkg opts file with
    | some v => FlagIs opts file v
    | none => ∀ v, ∀ p ∈ opts, ¬ Assigns file v p := by
  induction opts using reverse_induction with
  | h0 => intro v p hp; cases hp
  | h1 l x ih =>
    unfold proto2pkg at ih ⊢
    rw [List.foldl_append, List.foldl_cons, List.foldl_nil]
    generalize hg : List.foldl _ (none : Option Str) l = g at ih ⊢
    rcases assign_step file g x with ⟨v, hv, e⟩ | ⟨hv, e⟩
    · rw [e]
      exact ⟨l, x, [], rfl, hv, fun _ q hq => by cases hq⟩
    · rw [e]
      cases g with
      | none =>
        intro v p hp
        rcases List.mem_append.1 hp with hp | hp
        · exact ih v p hp
        · rw [List.mem_singleton.1 hp]
          exact hv v
      | some w =>
        obtain ⟨a, p, b, e1, h1, h2⟩ := ih
        refine ⟨a, p, b ++ [x], by rw [e1]; simp, h1, fun v q hq => ?_⟩
        rcases List.mem_append.1 hq with hq | hq
        · exact h2 v q hq
        · rw [List.mem_singleton.1 hq]
          exact hv v

theorem goPkg_set {s imp name : Str} (h : GoPkg s imp name) (st : Str × Str) : setGoPackage st s = (imp, name) ∧ name ≠ [] := by
  unfold setGoPackage
  cases h with
  | named a b _ _ h1 h2 h3 h4 =>
    rw [cut_eq h1]
    dsimp only
    rw [trim_iff.2 h2, trim_iff.2 h3, if_pos h4]
    exact ⟨rfl, h4⟩
  | single _ _ h1 h2 h3 h4 =>
    rw [cut_none h1]
    dsimp only
    rw [trim_iff.2 h2]
    have : trimSpace [] = [] := rfl
    rw [this, if_neg (by simp), if_pos h3, base_single h3 h4]
    exact ⟨rfl, h3⟩
  | last _ dir _ h1 h2 h3 h4 =>
    rw [cut_none h1]
    dsimp only
    rw [trim_iff.2 h2]
    have : trimSpace [] = [] := rfl
    rw [this, if_neg (by simp), if_pos (by simp), base_last rfl h3 h4]
    exact ⟨rfl, h3⟩

end Gen

/-- `-go_opt=paths=…` is read as `protoc` does.  Missing: several parameters in one option, separated by commas (`C63_comma_violated`: they are ignored). -/
theorem C63_paths_partial (opts : List Str) (h : ∀ o ∈ opts, ',' ∉ o) : PathsIs (params opts) (genPathType opts) := by
  rw [params_plain h]
  exact genPathType_is opts

/-- `-go_opt=Mfile=package` is read as `protoc` does.  Missing: as before. -/
theorem C63_flag_partial (opts : List Str) (h : ∀ o ∈ opts, ',' ∉ o) (file v : Str) : proto2pkg opts file = some v ↔ FlagIs (params opts) file v := by
  rw [params_plain h]
  have hs := proto2pkg_is opts file
  constructor
  · intro e
    rw [e] at hs
    exact hs
  · intro hf
    cases e : proto2pkg opts file with
    | some w =>
      rw [e] at hs
      rw [flag_unique hs hf]
    | none =>
      rw [e] at hs
      obtain ⟨a, p, b, e1, h1, _⟩ := hf
      exact absurd h1 (hs v p (by rw [e1]; simp))

/-- The Go package of a file is the one given by the user or in the file, and there is an error if neither is given.  Missing: when both are given and differ
(`C63_precedence_violated`: the one in the file is used). -/
theorem C63_package_partial (m option : Option Str) (h : m = none ∨ option = none ∨ m = option) :
    (∀ imp name, GoPackageOf m option imp name → protoGoPackage m option = some (imp, name)) ∧ (m = none → option = none → protoGoPackage m option = none) := by
  constructor
  · rintro imp name (⟨s, e, hs⟩ | ⟨e, s, e', hs⟩)
    · subst e
      rcases h with h | h | h
      · cases h
      · subst h
        unfold protoGoPackage
        dsimp only
        rw [Option.getD_some, (goPkg_set hs _).1, if_neg (goPkg_set hs ([], [])).2]
      · subst h
        unfold protoGoPackage
        simp only [(goPkg_set hs _).1, if_neg (goPkg_set hs ([], [])).2]
    · subst e e'
      unfold protoGoPackage
      simp only [(goPkg_set hs _).1, if_neg (goPkg_set hs ([], [])).2]
  · intro e e'
    subst e e'
    decide

/-- The hypotheses are met: `M` for two files, and both ways to write a Go package. -/
example : (∀ o ∈ ["paths=source_relative".toList, "Ma/b.proto=example.com/b;bee".toList, "Mc.proto=x".toList], ',' ∉ o) ∧
    proto2pkg ["paths=source_relative".toList, "Ma/b.proto=example.com/b;bee".toList, "Mc.proto=x".toList] "a/b.proto".toList = some "example.com/b;bee".toList ∧
    GoPackageOf (some "example.com/b;bee".toList) none "example.com/b".toList "bee".toList ∧
    GoPackageOf none (some "example.com/b".toList) "example.com/b".toList "b".toList := by
  refine ⟨by decide +kernel, by decide +kernel, .inl ⟨_, rfl, ?_⟩, .inr ⟨rfl, _, rfl, ?_⟩⟩
  · have := GoPkg.named "example.com/b".toList "bee".toList _ _ (by decide +kernel) (trimSpace_trimmed _) (trimSpace_trimmed _) (by decide +kernel)
    have e1 : trimSpace "example.com/b".toList = "example.com/b".toList := by decide +kernel
    have e2 : trimSpace "bee".toList = "bee".toList := by decide +kernel
    rw [e1, e2] at this
    exact this
  · have e1 : trimSpace "example.com/b".toList = "example.com/b".toList := by decide +kernel
    have ht : Trimmed "example.com/b".toList "example.com/b".toList := by
      have := trimSpace_trimmed "example.com/b".toList
      rw [e1] at this
      exact this
    exact GoPkg.last "example.com/b".toList "example.com".toList "b".toList (by decide +kernel) ht (by decide) (by decide)

/-- Violation of C63: the Go package that the user gives for a file does not take precedence over the one in the file. -/
theorem C63_precedence_violated : protoGoPackage (some "example.com/mine".toList) (some "example.com/theirs".toList) = some ("example.com/theirs".toList, "theirs".toList) := by
  decide +kernel

/-- Violation of C63: parameters separated by commas are ignored. -/
theorem C63_comma_violated : PathsIs (params ["paths=source_relative,Ma.proto=x/a".toList]) .sourceRelative ∧ FlagIs (params ["paths=source_relative,Ma.proto=x/a".toList]) "a.proto".toList "x/a".toList ∧
    genPathType ["paths=source_relative,Ma.proto=x/a".toList] = .byImport ∧ proto2pkg ["paths=source_relative,Ma.proto=x/a".toList] "a.proto".toList = none := by
  have e : params ["paths=source_relative,Ma.proto=x/a".toList] = ["paths=source_relative".toList, "Ma.proto=x/a".toList] := by decide +kernel
  rw [e]
  refine ⟨⟨[], _, rfl, by decide +kernel⟩, ⟨["paths=source_relative".toList], _, [], rfl, ⟨"a.proto".toList, by decide +kernel, by decide, by decide +kernel⟩, fun _ q hq => by cases hq⟩, by decide +kernel, by decide +kernel⟩

/-- Violation of C63: the name of a Go package that is taken from the import path need not be an identifier, and then the generated code does not compile. -/
theorem C63_name_violated : protoGoPackage none (some "example.com/go-api".toList) = some ("example.com/go-api".toList, "go-api".toList) ∧ ¬ ProtoIdent "go-api".toList := by
  refine ⟨by decide +kernel, ?_⟩
  rintro ⟨c, r, _, _, h⟩
  exact absurd (h '-' (by decide)) (by decide)

end Verif.Props
