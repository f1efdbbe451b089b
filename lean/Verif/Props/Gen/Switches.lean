import Verif.Lemmas.Gen.Switches
import Verif.Props.Gen.Enum
import Verif.Props.Gen.Names
/-!
# C80: the switches of the generator

What directives and options select in the generated code.  Which directives a declaration has is settled by C79 (`C79_directives`), which options by C75.
-/
namespace Verif.Props
namespace Gen
open Verif.Spec Verif.Spec.Gen Verif.Model Verif.Model.Gen

/-- What the generated constants of an enum are; `T` is the name of the Go type that they are prefixed with. -/
theorem consts_of {p : FileDecl} {parent : List Str} {e : EnumDecl} {T : Str}
    (hT : (if parent ≠ [] then goTypeName parent else goTypeName [e.name]) = T) (i : Nat) (v : EnumField) (h : e.fields[i]? = some v) :
    ∃ n, (enumGen p parent e).consts[i]? = some (n, v.value) ∧ (Bare p e v → n = goCamelCase v.name) ∧
      (¬ Bare p e v → n = T ++ '_' :: v.name) := by
  refine ⟨enumConst p parent e v, ?_, ?_, ?_⟩
  · show (e.fields.map _)[i]? = _
    rw [List.getElem?_map, h]
    rfl
  · intro hb
    unfold enumConst
    rw [if_pos (bare_iff.2 hb)]
  · intro hb
    unfold enumConst
    rw [if_neg (fun h => hb (bare_iff.1 h)), ← hT]
    split <;> rfl

theorem slot_tag (W : World) (p : Nat) (c : Chain) : ∀ (seen : List Nat) (fs : List (FieldDecl × Str)),
    ∀ g ∈ genSlots W p c seen fs, ∃ r, g.tag = 'p' :: r := by
  intro seen fs
  induction fs generalizing seen with
  | nil => exact nofun
  | cons x fs ih =>
    obtain ⟨f, n⟩ := x
    intro g hg
    unfold genSlots at hg
    split at hg
    · split at hg
      · exact ih _ g hg
      · rcases List.mem_cons.1 hg with e | h
        · exact ⟨_, by rw [e]; rfl⟩
        · exact ih _ g h
    · rcases List.mem_cons.1 hg with e | h
      · exact ⟨_, by rw [e]; rfl⟩
      · exact ih _ g h

theorem slot_mem (W : World) (p : Nat) (c : Chain) : ∀ (seen : List Nat) (fs : List (FieldDecl × Str)),
    ∀ x ∈ fs, x.1.oneof = none → fieldGen W p c x.1 x.2 ∈ genSlots W p c seen fs := by
  intro seen fs
  induction fs generalizing seen with
  | nil => exact nofun
  | cons y fs ih =>
    obtain ⟨f, n⟩ := y
    intro x hx ho
    unfold genSlots
    rcases List.mem_cons.1 hx with e | h
    · subst e
      dsimp only at ho
      rw [ho]
      exact List.mem_cons_self ..
    · split
      · split
        · exact ih _ x h ho
        · exact List.mem_cons_of_mem _ (ih _ x h ho)
      · exact List.mem_cons_of_mem _ (ih _ x h ho)

end Gen

open Gen Verif.Spec Verif.Spec.Gen Verif.Model Verif.Model.Gen

/-- C80: the constants of an enum at the top of a file.  A value for which the user asks for no prefix has an exported name that shows its own name; any other value has
the name of the enum type, an underscore and its name as it is declared. -/
theorem C80_consts (p : FileDecl) (e : EnumDecl) (hn : ∀ v ∈ e.fields, ProtoIdent v.name) (i : Nat) (v : EnumField) (h : e.fields[i]? = some v) :
    ∃ n, (enumGen p [] e).consts[i]? = some (n, v.value) ∧ (Bare p e v → ExportedIdent n ∧ SameGoName v.name n) ∧
      (¬ Bare p e v → n = (enumGen p [] e).name ++ '_' :: v.name) := by
  obtain ⟨n, h1, h2, h3⟩ := consts_of (p := p) (parent := []) (e := e) (T := (enumGen p [] e).name) rfl i v h
  refine ⟨n, h1, fun hb => ?_, h3⟩
  rw [h2 hb]
  have := camel_same (hn v (List.mem_of_getElem? h))
  exact ⟨this.2, this.1⟩

/-- C80: the constants of an enum in a message are prefixed with the name of the struct generated for the message. -/
theorem C80_consts_nested (W : World) (k : Nat) (c : Chain) (e : EnumDecl) (hc : c ≠ []) (hn : ∀ v ∈ e.fields, ProtoIdent v.name) (i : Nat) (v : EnumField)
    (h : e.fields[i]? = some v) :
    ∃ n, (enumGen (W.file k) c.path e).consts[i]? = some (n, v.value) ∧ (Bare (W.file k) e v → ExportedIdent n ∧ SameGoName v.name n) ∧
      (¬ Bare (W.file k) e v → n = (genStruct W k c).name ++ '_' :: v.name) := by
  have hp : c.path ≠ [] := by
    match c, hc with
    | (outer, m) :: _, _ => exact fun e => by simp [Chain.path] at e
  obtain ⟨n, h1, h2, h3⟩ := consts_of (p := W.file k) (parent := c.path) (e := e) (T := (genStruct W k c).name) (by rw [if_pos hp]; rfl) i v h
  refine ⟨n, h1, fun hb => ?_, h3⟩
  rw [h2 hb]
  have := camel_same (hn v (List.mem_of_getElem? h))
  exact ⟨this.2, this.1⟩

/-- C54: the constants of an enum have different names, if the names of the values are different and all are prefixed, or if none is prefixed and no two names differ only
in what Go names do not show. -/
theorem C54_consts_partial (p : FileDecl) (parent : List Str) (e : EnumDecl)
    (h : (∀ v ∈ e.fields, ¬ Bare p e v) ∧ (e.fields.map EnumField.name).Nodup ∨
      (∀ v ∈ e.fields, Bare p e v ∧ ProtoIdent v.name) ∧ e.fields.Pairwise fun v w => ¬ SameGoName v.name w.name) :
    ((enumGen p parent e).consts.map Prod.fst).Nodup := by
  rcases h with ⟨h1, h2⟩ | ⟨h1, h2⟩
  · exact consts_prefixed p parent e h2 fun v hv => by
      cases hb : enumNoPrefix p e v with
      | false => rfl
      | true => exact absurd (bare_iff.1 hb) (h1 v hv)
  · have : (enumGen p parent e).consts.map Prod.fst = e.fields.map fun v => goCamelCase v.name := by
      unfold enumGen
      dsimp only
      rw [List.map_map]
      refine List.map_congr_left fun v hv => ?_
      simp only [Function.comp, enumConst, bare_iff.2 (h1 v hv).1, if_true]
    rw [this]
    refine List.pairwise_map.2 (h2.imp_of_mem fun hv hw hn e => hn ?_)
    exact (C46_collisions _ _ (h1 _ hv).2 (h1 _ hw).2).1 e

/-- C54: with a prefix at some values only, two constants can have the same name, however different the names of the values. -/
theorem C54_consts_violated : ∃ (p : FileDecl) (e : EnumDecl), (e.fields.map EnumField.name).Nodup ∧ ((e.fields.map EnumField.value).Nodup) ∧
    (e.fields.Pairwise fun v w => ¬ SameGoName v.name w.name) ∧ ¬ ((enumGen p [] e).consts.map Prod.fst).Nodup := by
  refine ⟨{ edition := .proto3 }, { name := "E".toList, fields := [⟨"E_RED".toList, 0, ["no_enum_prefix".toList], []⟩, ⟨"RED".toList, 1, [], []⟩] },
    by decide, by decide, ?_, by decide +kernel⟩
  refine List.pairwise_cons.2 ⟨fun w hw => ?_, List.pairwise_singleton ..⟩
  rw [List.mem_singleton.1 hw]
  intro h
  exact absurd ((C46_collisions _ _ ⟨'E', _, rfl, by decide, by decide⟩ ⟨'R', _, rfl, by decide, by decide⟩).2 h) (by decide +kernel)

/-- C80: an enum has tables of its names unless the user asks for none. -/
theorem C80_tables (p : FileDecl) (parent : List Str) (e : EnumDecl) : (enumGen p parent e).tables = none ↔ Tableless p e := by
  rw [← tableless_iff]
  unfold enumGen
  dsimp only
  cases enumMapping p e <;> simp

/-- C80: the struct of a message has a field for unknown fields exactly if the user asks for it, and then it is the last one. -/
theorem C80_unknown (W : World) (k : Nat) (c : Chain) :
    ((∃ g ∈ (genStruct W k c).fields, g.name = "unknownFields".toList ∧ g.type = .basic "[]byte".toList ∧ g.tag = "json:\"-\"".toList) ↔
      Keeps (W.file k) c.msg) ∧
    (Keeps (W.file k) c.msg → ∃ fs, (genStruct W k c).fields = fs ++ [⟨"unknownFields".toList, .basic "[]byte".toList, "json:\"-\"".toList⟩] ∧
      ∀ g ∈ fs, g.tag ≠ "json:\"-\"".toList) := by
  have hs := slot_tag W k c [] (namedFields c.msg)
  have hs' : ∀ g ∈ genSlots W k c [] (namedFields c.msg), g.tag ≠ "json:\"-\"".toList := by
    intro g hg e
    obtain ⟨r, hr⟩ := hs g hg
    rw [e] at hr
    have := congrArg List.head? hr
    exact absurd (Option.some.inj (this : some 'j' = some 'p')) (by decide)
  have hf : (genStruct W k c).fields = genSlots W k c [] (namedFields c.msg) ++ (if genUnknownFields (W.file k) c.msg then [Model.Gen.unknownSlot] else []) := rfl
  constructor
  · rw [← keeps_iff, hf]
    constructor
    · rintro ⟨g, hg, _, _, ht⟩
      rcases List.mem_append.1 hg with h | h
      · exact absurd ht (hs' g h)
      · split at h
        · assumption
        · cases h
    · intro h
      rw [if_pos h]
      exact ⟨Model.Gen.unknownSlot, List.mem_append_right _ (List.mem_singleton.2 rfl), rfl, rfl, rfl⟩
  · intro h
    rw [hf, if_pos (keeps_iff.2 h)]
    exact ⟨_, rfl, hs'⟩

/-- C80: where the type of a field is a message, the generated struct holds pointers to the struct of that message unless the user asks for values: in a field by itself, in
a list, and in a map. -/
theorem C80_messages (W : World) (k : Nat) (c : Chain) (fd : FieldDecl) (n : Str) (hf : (fd, n) ∈ namedFields c.msg) (ho : fd.oneof = none) (r : Ref) (q : Option Nat)
    (ht : fieldType W k c fd = .decl r q) (hm : r.isEnum = false) :
    ∃ g ∈ (genStruct W k c).fields, g.name = n ∧ ∃ T x, T = GoExpr.named x (goTypeName r.path) ∧
      (fd.key = none → fd.repeated = false → (g.type = T ↔ ByValue c.msg fd) ∧ (g.type = .ptr T ↔ ¬ ByValue c.msg fd)) ∧
      (fd.key = none → fd.repeated = true → (g.type = .slice T ↔ ByValue c.msg fd) ∧ (g.type = .slice (.ptr T) ↔ ¬ ByValue c.msg fd)) ∧
      (fd.key ≠ none → ∃ key, (g.type = .map key T ↔ ByValue c.msg fd) ∧ (g.type = .map key (.ptr T) ↔ ¬ ByValue c.msg fd)) := by
  refine ⟨fieldGen W k c fd n, List.mem_append_left _ (slot_mem W k c [] _ _ hf ho), rfl, .named (resolvedImport W k q) (goTypeName r.path), _, rfl, ?_⟩
  have hmsg : (Resolved.decl r q).isMessage = true := by
    show (!r.isEnum) = true
    rw [hm]
    rfl
  have hne : (Resolved.decl r q = .scalar "[]byte".toList) = False := eq_false nofun
  rw [← noPointer_iff]
  have hg : (fieldGen W k c fd n).type = fieldGoType W k c.msg fd (.decl r q) := by rw [← ht]; rfl
  rw [hg]
  refine ⟨fun h1 h2 => ?_, fun h1 h2 => ?_, fun h1 => ?_⟩
  · unfold fieldGoType isPointer
    rw [h1, h2]
    cases genNoPointer c.msg fd <;> simp [hmsg, typeGoName]
  · unfold fieldGoType elemTypeName
    rw [h1, h2]
    cases genNoPointer c.msg fd <;> simp [hmsg, typeGoName]
  · obtain ⟨key, e⟩ := Option.ne_none_iff_exists'.1 h1
    refine ⟨keyGoName key, ?_⟩
    unfold fieldGoType elemTypeName
    rw [e]
    cases genNoPointer c.msg fd <;> simp [hmsg, typeGoName]

/-- C80: where the user asks for values, a field by itself is never a pointer, so that it does not tell unset from zero. -/
theorem C80_values (W : World) (k : Nat) (c : Chain) (fd : FieldDecl) (n : Str) (hf : (fd, n) ∈ namedFields c.msg) (ho : fd.oneof = none)
    (h : ByValue c.msg fd) : ∃ g ∈ (genStruct W k c).fields, g.name = n ∧ ∀ T, g.type ≠ .ptr T ∧ g.type ≠ .slice (.ptr T) ∧ ∀ key, g.type ≠ .map key (.ptr T) := by
  refine ⟨fieldGen W k c fd n, List.mem_append_left _ (slot_mem W k c [] _ _ hf ho), rfl, fun T => ?_⟩
  have hg : (fieldGen W k c fd n).type = fieldGoType W k c.msg fd (fieldType W k c fd) := rfl
  rw [hg]
  have hp := noPointer_iff.2 h
  have hT : ∀ t T, typeGoName W k t ≠ .ptr T ∧ typeGoName W k t ≠ .slice (.ptr T) ∧ ∀ key, typeGoName W k t ≠ .map key (.ptr T) := by
    intro t T
    cases t <;> exact ⟨nofun, nofun, nofun⟩
  generalize fieldType W k c fd = t
  unfold fieldGoType isPointer elemTypeName
  rw [hp]
  split
  · refine ⟨nofun, nofun, fun key e => ?_⟩
    simp only [Bool.not_true, Bool.false_and, Bool.false_eq_true, if_false, GoExpr.map.injEq] at e
    exact (hT t T).1 e.2
  · split
    · refine ⟨nofun, fun e => ?_, nofun⟩
      simp only [Bool.not_true, Bool.false_and, Bool.false_eq_true, if_false, GoExpr.slice.injEq] at e
      exact (hT t T).1 e
    · simp only [if_true, Bool.false_eq_true, if_false]
      exact hT t T

/-! ## Examples -/

namespace SwitchSample

/-- An enum with a switch at one value, in a file with options. -/
def shade : EnumDecl where
  name := "Shade".toList
  fields := [⟨"dark_red".toList, 0, ["no_enum_prefix".toList], []⟩, ⟨"blue".toList, 1, [], []⟩]
  directives := []
  options := [("(gogoproto.goproto_enum_prefix)".toList, "true".toList)]

def leaf : MsgDecl := .mk "Leaf".toList [] [] [] [] [] [] []

/-- A message with one field by value and others by pointer; the message switches off what the file switches on. -/
def tree : MsgDecl := .mk "Tree".toList [shade] []
  [{ name := "left".toList, typ := "Leaf".toList, number := 1, directives := ["no_pointer".toList] },
   { name := "right".toList, typ := "Leaf".toList, number := 2 },
   { name := "more".toList, typ := "Leaf".toList, number := 3, repeated := true,
     options := [("(gogoproto.nullable)".toList, "true".toList), ("(gogoproto.nullable)".toList, "false".toList)] }]
  [] ["no_unknown_fields".toList] [("(gogoproto.goproto_unrecognized)".toList, "true".toList)] []

def file : FileDecl where
  edition := .proto3
  enums := [shade]
  messages := [leaf, tree]
  directives := ["unknown_fields".toList, "no_enum_mapping".toList]
  options := [("(gogoproto.goproto_enum_prefix_all)".toList, "false".toList)]
  goImport := "x".toList

def world : World := { files := [file], imports := fun _ => [] }

end SwitchSample
open SwitchSample

/-- One value without prefix, by its directive; the other with, since the option of the enum counts before that of the file. -/
example : (enumGen file [] shade).consts = [("DarkRed".toList, 0), ("Shade_blue".toList, 1)] ∧
    (enumGen file ["Tree".toList] shade).consts = [("DarkRed".toList, 0), ("Tree_blue".toList, 1)] := by decide +kernel

example : Bare file shade ⟨"dark_red".toList, 0, ["no_enum_prefix".toList], []⟩ ∧ ¬ Bare file shade ⟨"blue".toList, 1, [], []⟩ :=
  ⟨.value (List.mem_singleton.2 rfl), fun h => absurd (bare_iff.2 h) (by decide +kernel)⟩

/-- Non-vacuity of `C54_consts_partial`: an enum of either kind. -/
example : (∀ v ∈ colors.fields, ¬ Bare { edition := .proto3 } colors v) ∧ (colors.fields.map EnumField.name).Nodup :=
  ⟨fun v hv h => absurd (bare_iff.2 h) (by clear h; revert v; decide +kernel), by decide⟩

example : (∀ v ∈ shade.fields, Bare { file with directives := ["no_enum_prefix".toList] } shade v ∧ ProtoIdent v.name) ∧
    shade.fields.Pairwise fun v w => ¬ SameGoName v.name w.name := by
  refine ⟨fun v hv => ⟨.file (List.mem_singleton.2 rfl), ?_⟩, ?_⟩
  · rcases List.mem_cons.1 hv with e | hv
    · rw [e]; exact ⟨'d', _, rfl, by decide, by decide⟩
    · rw [List.mem_singleton.1 hv]; exact ⟨'b', _, rfl, by decide, by decide⟩
  · refine List.pairwise_cons.2 ⟨fun w hw => ?_, List.pairwise_singleton ..⟩
    rw [List.mem_singleton.1 hw]
    intro h
    exact absurd ((C46_collisions _ _ ⟨'d', _, rfl, by decide, by decide⟩ ⟨'b', _, rfl, by decide, by decide⟩).2 h) (by decide +kernel)

/-- Without the option of the enum, that of the file counts. -/
example : Bare file { shade with options := [] } ⟨"blue".toList, 1, [], []⟩ :=
  .fileOption (fun _ => List.not_mem_nil) ⟨[], [], rfl, fun _ => List.not_mem_nil⟩

example : Tableless file shade ∧ ¬ Tableless { file with directives := [] } shade :=
  ⟨.inr (by decide), by rintro (h | h) <;> cases h⟩

/-- Unknown fields are kept in one message, by the directive of the file; the directive of the other message counts before it. -/
example : Keeps file leaf ∧ ¬ Keeps file tree :=
  ⟨.file ⟨List.not_mem_nil, List.not_mem_nil⟩ ⟨[], _, rfl, List.not_mem_nil, List.not_mem_nil⟩, fun h => absurd (keeps_iff.2 h) (by decide +kernel)⟩

example : (genStruct world 0 [([], tree)]).fields.map (fun g => (g.name, g.type)) =
    [("Left".toList, .named "x".toList "Leaf".toList), ("Right".toList, .ptr (.named "x".toList "Leaf".toList)),
     ("More".toList, .slice (.named "x".toList "Leaf".toList))] ∧
    (genStruct world 0 [([], leaf)]).fields.map (fun g => (g.name, g.type)) = [("unknownFields".toList, .basic "[]byte".toList)] := by decide +kernel

example : ∀ fd ∈ tree.fields, ∃ r q, fieldType world 0 [([], tree)] fd = .decl r q ∧ r.isEnum = false := by
  have h : ∀ fd ∈ tree.fields, fieldType world 0 [([], tree)] fd = .decl ⟨false, 0, ["Leaf".toList]⟩ none := by decide +kernel
  exact fun fd hfd => ⟨_, _, h fd hfd, rfl⟩

end Verif.Props
