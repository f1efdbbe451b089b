import Verif.Lemmas.Gen.Legal
import Verif.Lemmas.Gen.FieldTypes
import Verif.Props.Gen.Closed
import Verif.Props.Gen.Verify
import Verif.Props.Gen.Switches
/-!
# C81: the generated types are accepted by the Go compiler
-/
namespace Verif.Props
namespace Gen
open Verif.Spec Verif.Spec.Gen Verif.Model Verif.Model.Gen

theorem slots_named {W : World} {p : Nat} {c : Chain} {pkg n : Str} : ∀ {seen : List Nat} {l : List (FieldDecl × Str)} {g : GenField},
    g ∈ genSlots W p c seen l → g.type = .named pkg n → ∃ x ∈ l, x.1.oneof = none ∧ g = fieldGen W p c x.1 x.2
  | _, [], _, h, _ => by
    rw [genSlots] at h
    cases h
  | seen, (f, m) :: rest, g, h, hn => by
    have step : ∀ {seen'}, g ∈ genSlots W p c seen' rest → ∃ x ∈ (f, m) :: rest, x.1.oneof = none ∧ g = fieldGen W p c x.1 x.2 := fun h => by
      obtain ⟨x, h1, h2⟩ := slots_named h hn
      exact ⟨x, List.mem_cons_of_mem _ h1, h2⟩
    rw [genSlots] at h
    split at h
    · split at h
      · exact step h
      · rcases List.mem_cons.1 h with h | h
        · rw [h] at hn
          cases hn
        · exact step h
    · rename_i ho
      rcases List.mem_cons.1 h with h | h
      · exact ⟨_, List.mem_cons_self .., ho, h⟩
      · exact step h

/-- A field whose Go type is a declared type by itself. -/
theorem named_field {W : World} {p : Nat} {m : MsgDecl} {f : FieldDecl} {t : Resolved} {pkg n : Str} (h : fieldGoType W p m f t = .named pkg n) :
    f.key = none ∧ f.repeated = false ∧ ∃ r q, t = .decl r q ∧ pkg = resolvedImport W p q ∧ n = goTypeName r.path ∧ (r.isEnum = false → ByValue m f) := by
  unfold fieldGoType at h
  match hk : f.key with
  | some k => rw [hk] at h; cases h
  | none =>
    rw [hk] at h
    dsimp only at h
    cases hr : f.repeated with
    | true => rw [hr, if_pos rfl] at h; cases h
    | false =>
      rw [hr, if_neg (by simp)] at h
      cases hp : isPointer W p m f t with
      | true => rw [hp, if_pos rfl] at h; cases h
      | false =>
        rw [hp, if_neg (by simp)] at h
        match t, h, hp with
        | .decl r q, h, hp =>
          cases h
          refine ⟨rfl, rfl, r, q, rfl, rfl, rfl, fun he => ?_⟩
          rw [← noPointer_iff]
          cases hn : genNoPointer m f with
          | true => rfl
          | false =>
            unfold isPointer at hp
            rw [hn, hk, hr] at hp
            have hm : (Resolved.decl r q).isMessage = true := by
              show (!r.isEnum) = true
              rw [he]
              rfl
            simp [hm] at hp

theorem elab_struct {enums ns : List (Str × Str)} {t : GoExpr} {j : Nat} (h : elabType enums ns t = .struct j) :
    ∃ pkg n, t = .named pkg n ∧ (pkg, n) ∉ enums ∧ ns.idxOf? (pkg, n) = some j := by
  cases t with
  | basic s => exact absurd h (basic_not_struct s j)
  | named p n =>
    unfold elabType at h
    split at h
    · cases h
    · rename_i hc
      split at h
      · rename_i k hk
        cases h
        exact ⟨p, n, rfl, by simpa using hc, hk⟩
      · cases h
  | iface n => cases h
  | ptr t => cases h
  | slice t => cases h
  | map k v => cases h

/-- Structs are inside of each other as the proto files ask for. -/
theorem inside_iff {W : World} (hf : AllFound W) (he : ∀ r, Exists W r → r.isEnum = true → r.path.length ≤ 2)
    (hp : ∀ g x, (x, true) ∈ W.imports g → (W.file x).goImport = (W.file g).goImport)
    (hd : ((genStructs W).map (fun g => (g.pkg, g.name)) ++ genEnums W).Nodup) (i j : Nat) :
    HasInside (genStructs W) (genEnums W) i j ↔ HoldsValue W i j := by
  have hd' := List.nodup_append.1 hd
  constructor
  · rintro ⟨g, hg, f, hfm, ht⟩
    unfold genStructs at hg
    rw [List.getElem?_map, Option.map_eq_some_iff] at hg
    obtain ⟨⟨p, c⟩, hx, rfl⟩ := hg
    obtain ⟨pkg, n, e1, e2, e3⟩ := elab_struct ht
    have ha := (all_iff W p c).1 (List.mem_of_getElem? hx)
    unfold genStruct at hfm
    dsimp only at hfm
    rcases List.mem_append.1 hfm with hfm | hfm
    · obtain ⟨x, hxm, ho, rfl⟩ := slots_named hfm e1
      obtain ⟨hk, hr, r, q, h1, h2, h3, h4⟩ := named_field (e1 : fieldGoType W p c.msg x.1 (fieldType W p c x.1) = _)
      obtain ⟨v, hv⟩ := Option.isSome_iff_exists.1 (hf p c ha x.1 (named_fst_mem hxm))
      have hv' : typeResolve W p c true x.1.typ = some (.decl r q) := by
        unfold fieldType at h1
        rw [hv] at h1 ⊢
        rw [← h1]
        rfl
      obtain ⟨h5, h6⟩ := resolve_exists ha hp hv'
      have hE : r.isEnum = false := by
        cases hE : r.isEnum with
        | false => rfl
        | true =>
          have := exists_enum h5 hE (he r h5 hE)
          rw [← h6, ← h2, ← h3] at this
          exact absurd this e2
      obtain ⟨id, c', h7, h8⟩ := exists_message h5 hE
      have h9 := struct_index hd'.1 h7
      rw [← around_path ((all_iff W r.file c').1 (List.mem_of_getElem? h7)), h8, ← h6, ← h2, ← h3] at h9
      have hid : id = j := by
        have h10 : (structNames W).idxOf? (pkg, n) = some j := e3
        rw [h9] at h10
        exact Option.some.inj h10
      subst hid
      exact ⟨p, c, x.1, r, q, c', hx, named_fst_mem hxm, hk, hr, ho, h4 hE, hv', hE, h7, h8⟩
    · split at hfm
      · rw [List.mem_singleton.1 hfm] at e1
        cases e1
      · cases hfm
  · rintro ⟨p, c, fd, r, q, c', hx, hfd, hk, hr, ho, hv, ht, hE, h7, h8⟩
    have ha := (all_iff W p c).1 (List.mem_of_getElem? hx)
    obtain ⟨h5, h6⟩ := resolve_exists ha hp ht
    refine ⟨genStruct W p c, by unfold genStructs; rw [List.getElem?_map, hx]; rfl, ?_⟩
    obtain ⟨n, hn⟩ := named_of hfd
    refine ⟨fieldGen W p c fd n, List.mem_append_left _ (slot_mem W p c [] _ _ hn ho), ?_⟩
    have hty : (fieldGen W p c fd n).type = .named (resolvedImport W p q) (goTypeName r.path) := by
      show fieldGoType W p c.msg fd (fieldType W p c fd) = _
      unfold fieldType
      rw [ht]
      unfold fieldGoType isPointer
      rw [noPointer_iff.2 hv, hk, hr]
      rfl
    rw [hty]
    have h9 := struct_index hd'.1 h7
    rw [← around_path ((all_iff W r.file c').1 (List.mem_of_getElem? h7)), h8, ← h6] at h9
    have hne : (resolvedImport W p q, goTypeName r.path) ∉ genEnums W := by
      intro hm
      refine hd'.2.2 _ ?_ _ hm rfl
      rw [h6]
      refine List.mem_map.2 ⟨genStruct W r.file c', List.mem_map.2 ⟨_, List.mem_of_getElem? h7, rfl⟩, ?_⟩
      show (_, goTypeName c'.path) = _
      rw [← around_path ((all_iff W r.file c').1 (List.mem_of_getElem? h7)), h8]
      rfl
    unfold elabType
    rw [if_neg (by simpa using hne)]
    have h10 : ((genStructs W).map fun g => (g.pkg, g.name)).idxOf? (resolvedImport W p q, goTypeName r.path) = some j := h9
    rw [h10]

theorem containsStruct_iff {W : World} (hI : ∀ i j, HasInside (genStructs W) (genEnums W) i j ↔ HoldsValue W i j) (i j : Nat) :
    ContainsStruct (genStructs W) (genEnums W) i j ↔ LeadsTo W i j := by
  constructor
  · intro h
    induction h with
    | one i j h => exact .one _ _ ((hI _ _).1 h)
    | more i j k h _ ih => exact .more _ _ _ ((hI _ _).1 h) ih
  · intro h
    induction h with
    | one i j h => exact .one _ _ ((hI _ _).2 h)
    | more i j k h _ ih => exact .more _ _ _ ((hI _ _).2 h) ih

end Gen

open Gen Verif.Spec Verif.Spec.Gen Verif.Model Verif.Model.Gen

/-- C81: the Go compiler makes something of generated types exactly if their names differ and no struct contains itself.  (So the hypothesis of C56, C57 and C75 that it does can be
met for all such types, and for no others.) -/
theorem C81_compiles (gs : List GenStruct) (enums : List (Str × Str)) : (∃ env, Compiles gs enums env) ↔ LegalTypes gs enums :=
  ⟨fun ⟨_, h⟩ => legal_of_compiles h, fun h => ⟨_, compiles_of_legal h 0⟩⟩

/-- C81: generated types with different names (C54) are legal exactly if no message leads to itself through fields for which the user asks for values.

Missing: that the generator refuses such messages (`C81_recursive_violated`); the files of the findings of C60. -/
theorem C81_legal_partial (W : World) (hf : AllFound W) (he : ∀ r, Exists W r → r.isEnum = true → r.path.length ≤ 2)
    (hp : ∀ g x, (x, true) ∈ W.imports g → (W.file x).goImport = (W.file g).goImport)
    (hd : ((genStructs W).map (fun g => (g.pkg, g.name)) ++ genEnums W).Nodup) :
    LegalTypes (genStructs W) (genEnums W) ↔ ∀ i, ¬ LeadsTo W i i := by
  have hI := containsStruct_iff (inside_iff hf he hp hd)
  constructor
  · exact fun h i hi => h.finite i ((hI i i).2 hi)
  · exact fun h => ⟨hd, fun i hi => h i ((hI i i).1 hi)⟩

/-- C81: in particular, without such fields messages may refer to themselves and to each other in any way. -/
theorem C81_pointers_partial (W : World) (hf : AllFound W) (he : ∀ r, Exists W r → r.isEnum = true → r.path.length ≤ 2)
    (hp : ∀ g x, (x, true) ∈ W.imports g → (W.file x).goImport = (W.file g).goImport)
    (hd : ((genStructs W).map (fun g => (g.pkg, g.name)) ++ genEnums W).Nodup)
    (hv : ∀ (f : Nat) (c : Chain), Around (W.file f).messages c → ∀ fd ∈ c.msg.fields, ¬ ByValue c.msg fd) : ∃ env, Compiles (genStructs W) (genEnums W) env := by
  rw [C81_compiles, C81_legal_partial W hf he hp hd]
  have hno : ∀ i j, ¬ HoldsValue W i j := by
    rintro i j ⟨p, c, fd, r, q, c', hx, hfd, _, _, _, hb, _⟩
    exact hv p c ((all_iff W p c).1 (List.mem_of_getElem? hx)) fd hfd hb
  intro i h
  cases h with
  | one _ _ h => exact hno _ _ h
  | more _ _ _ h _ => exact hno _ _ h

namespace LegalSample

/-- `message List { int32 x = 1; List next = 2; }`, with the directive `no_pointer` at a field. -/
def loop (ds : List Str) : MsgDecl := .mk "List".toList [] []
  [{ name := "x".toList, typ := "int32".toList, number := 1 }, { name := "next".toList, typ := "List".toList, number := 2, directives := ds }] [] [] [] []

def world (ds : List Str) : World where
  files := [{ edition := .proto3, package := "p".toList, goImport := "x/p".toList, goPackage := "p".toList, messages := [loop ds] }]
  imports := fun _ => []

theorem around {ds : List Str} {f : Nat} {c : Chain} (h : Around ((world ds).file f).messages c) : f = 0 ∧ c = [([], loop ds)] := by
  have h1 := (all_iff (world ds) f c).2 h
  have h2 : (f, c) ∈ [(0, [([], loop ds)])] := h1
  rw [List.mem_singleton] at h2
  exact ⟨congrArg Prod.fst h2, congrArg Prod.snd h2⟩

theorem resolves (ds : List Str) : typeResolve (world ds) 0 [([], loop ds)] true "List".toList = some (.decl ⟨false, 0, ["List".toList]⟩ none) := rfl

theorem found (ds : List Str) : AllFound (world ds) := by
  intro f c h fd hfd
  obtain ⟨rfl, rfl⟩ := around h
  have hfd : fd ∈ (loop ds).fields := hfd
  rcases List.mem_cons.1 hfd with e | hfd
  · rw [e]; rfl
  · rw [List.mem_singleton.1 hfd]; rfl

theorem noEnums (ds : List Str) (r : Ref) (h : Exists (world ds) r) (he : r.isEnum = true) : r.path.length ≤ 2 := by
  exfalso
  obtain ⟨b, f, path⟩ := r
  dsimp only at he
  subst he
  unfold Spec.Gen.Exists at h
  dsimp only at h
  have key : ∀ ms es path k, Spec.Gen.Declares ms es path k → ms = [loop ds] ∨ ms = [] → es = [] → k = false := by
    intro ms es path k h
    induction h with
    | enum h => intro _ e; rw [e] at h; cases h
    | msg h => intros; rfl
    | nested h _ ih =>
      intro hm e
      rcases hm with hm | hm
      · rw [hm] at h
        rw [List.mem_singleton.1 h] at ih
        exact ih (.inr rfl) rfl
      · rw [hm] at h
        cases h
  match f with
  | 0 => exact absurd (key _ _ _ _ h (.inl rfl) rfl) (by decide)
  | f + 1 => exact absurd (key _ _ _ _ h (.inr rfl) rfl) (by decide)

theorem distinct (ds : List Str) : ((genStructs (world ds)).map (fun g => (g.pkg, g.name)) ++ genEnums (world ds)).Nodup := by
  show [("x/p".toList, "List".toList)].Nodup
  decide

end LegalSample
open LegalSample

/-- Non-vacuity of `C81_pointers_partial`: a message that refers to itself. -/
example : ∃ env, Compiles (genStructs (LegalSample.world [])) (genEnums (LegalSample.world [])) env :=
  C81_pointers_partial _ (found []) (noEnums []) nofun (distinct []) fun f c h fd hfd hb => by
    obtain ⟨rfl, rfl⟩ := around h
    have hfd : fd ∈ (loop []).fields := hfd
    simp only [loop, MsgDecl.fields, List.mem_cons, List.not_mem_nil, or_false] at hfd
    rcases hfd with e | e <;> subst e <;> exact absurd (noPointer_iff.2 hb) (by decide +kernel)

/-- C81 (violated): a message that holds itself by value is accepted and code is generated for it that no Go compiler accepts. -/
theorem C81_recursive_violated : ∃ W : World, AllFound W ∧ (∀ f, GoodFile (W.file f)) ∧
    ((genStructs W).map (fun g => (g.pkg, g.name)) ++ genEnums W).Nodup ∧ ¬ ∃ env, Compiles (genStructs W) (genEnums W) env := by
  refine ⟨LegalSample.world ["no_pointer".toList], found _, fun f => ?_, distinct _, ?_⟩
  · match f with
    | 0 => exact (C43_partial _).1 (by decide +kernel)
    | f + 1 => exact (C43_partial { edition := .proto3 }).1 (by decide +kernel)
  · rw [C81_compiles, C81_legal_partial _ (found _) (noEnums _) nofun (distinct _)]
    intro h
    exact h 0 (.one _ _ ⟨0, [([], loop ["no_pointer".toList])], { name := "next".toList, typ := "List".toList, number := 2, directives := ["no_pointer".toList] },
      ⟨false, 0, ["List".toList]⟩, none, [([], loop ["no_pointer".toList])], rfl, List.mem_cons_of_mem _ (List.mem_cons_self ..), rfl, rfl, rfl,
      .inl (List.mem_singleton.2 rfl), resolves _, rfl, rfl, rfl⟩)

end Verif.Props
