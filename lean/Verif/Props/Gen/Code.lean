import Verif.Lemmas.Gen.Schema
import Verif.Props.Marshal
import Verif.Props.Unmarshal
/-!
# C56: generated message code implements the messages of the proto files
-/
namespace Verif.Props
open Verif.Spec Verif.Spec.Gen Verif.Model Verif.Model.Gen Verif.Props.Gen

/-! ## C56: from proto files to the wire -/

theorem Gen.implements_core (W : World) (pkg : Nat → List Str) (env : GoEnv) (hC : Compiles (genStructs W) (genEnums W) env) (hH : Handled W pkg) :
    Implements env (mkSchema W pkg env) ∧ (mkSchema W pkg env).WF ∧ Describes W pkg (allMessages W) (mkSchema W pkg env) := by
  have hd : (structNames W ++ genEnums W).Nodup := hC.distinct
  have hlen : env.structs.length = (allMessages W).length := by
    rw [hC.count]
    exact List.length_map ..
  have hstruct : ∀ (i f : Nat) (c : Chain), (allMessages W)[i]? = some (f, c) → (genStructs W)[i]? = some (genStruct W f c) := by
    intro i f c h
    unfold genStructs
    rw [List.getElem?_map, h]
    rfl
  have haround : ∀ (i f : Nat) (c : Chain), (allMessages W)[i]? = some (f, c) → Around (W.file f).messages c := fun i f c h =>
    (all_iff W f c).1 (List.mem_of_getElem? h)
  have hS : ∀ (i f : Nat) (c : Chain), (allMessages W)[i]? = some (f, c) → ∃ d, env.structs[i]? = some d ∧
      mkSchema W pkg env i = mkMessage W pkg f c d := by
    intro i f c h
    have hi : i < env.structs.length := by
      rw [hlen]
      exact (List.getElem?_eq_some_iff.1 h).1
    refine ⟨env.structs[i], List.getElem?_eq_getElem hi, ?_⟩
    unfold mkSchema
    rw [h, List.getElem?_eq_getElem hi]
  refine ⟨?_, ?_, haround, ?_, ?_, ?_, ?_, ?_, ?_⟩
  · intro i
    cases he : env.structs[i]? with
    | none =>
      dsimp only
      unfold mkSchema
      rw [he]
      cases (allMessages W)[i]? <;> rfl
    | some d =>
      dsimp only
      have hi : i < (allMessages W).length := by
        rw [← hlen]
        exact (List.getElem?_eq_some_iff.1 he).1
      obtain ⟨⟨f, c⟩, hx⟩ : ∃ x, (allMessages W)[i]? = some x := ⟨_, List.getElem?_eq_getElem hi⟩
      obtain ⟨d', h1, h2⟩ := hS i f c hx
      rw [he] at h1
      cases h1
      rw [h2]
      exact implements1 hH hd (haround i f c hx) (hC.fields i _ d (hstruct i f c hx) he) (hC.wrappers i _ d (hstruct i f c hx) he)
  · intro i
    cases hx : (allMessages W)[i]? with
    | none =>
      have : mkSchema W pkg env i = default := by
        unfold mkSchema
        rw [hx]
      rw [this]
      refine ⟨?_, .nil, ?_, ?_, ?_, ?_, fun s q h => (by cases h), ⟨[], rfl, rfl, ?_, ?_, ?_⟩⟩ <;> intro f hf <;> cases hf
    | some x =>
      obtain ⟨f, c⟩ := x
      obtain ⟨d, h1, h2⟩ := hS i f c hx
      rw [h2]
      exact message_wf hH hd (haround i f c hx) (hC.fields i _ d (hstruct i f c hx) h1) (fun id => schema_zero hlen id) (hC.zero i d h1)
  · intro f c h
    obtain ⟨i, hi, e⟩ := List.mem_iff_getElem.1 ((all_iff W f c).2 h)
    exact ⟨i, by rw [List.getElem?_eq_getElem hi, e]⟩
  · intro i f c hx fd hf
    obtain ⟨d, h1, h2⟩ := hS i f c hx
    have hc := haround i f c hx
    rw [h2]
    rw [← named_fst] at hf
    obtain ⟨x, hxn, rfl⟩ := List.mem_map.1 hf
    refine ⟨mkField W pkg f c x, mem_fields.2 ⟨x, hxn, rfl⟩, (toNat_number hH hc hxn).1, ?_, (shape_facts hH hd hc hxn).shape⟩
    show x.1.oneof.map _ = none ↔ _
    rw [Option.map_eq_none_iff]
  · intro i f c hx g hg
    obtain ⟨d, h1, h2⟩ := hS i f c hx
    have hc := haround i f c hx
    rw [h2] at hg
    obtain ⟨x, hxn, rfl⟩ := mem_fields.1 hg
    exact ⟨x.1, named_fst_mem hxn, (toNat_number hH hc hxn).1⟩
  · intro i f c hx fd hf fd' hf' g hg g' hg' e e' k hk
    obtain ⟨d, h1, h2⟩ := hS i f c hx
    have hc := haround i f c hx
    rw [h2] at hg hg'
    obtain ⟨x, hxn, rfl⟩ := mem_fields.1 hg
    obtain ⟨y, hyn, rfl⟩ := mem_fields.1 hg'
    have hex : ∀ (z : FieldDecl × Str), z ∈ namedFields c.msg → ∀ fd ∈ c.msg.fields, ((mkField W pkg f c z).num : Int) = fd.number → z.1 = fd := by
      intro z hz fd hf e
      rw [← named_fst] at hf
      obtain ⟨z', hz', rfl⟩ := List.mem_map.1 hf
      have : z.1.number = z'.1.number := by rw [← e]; exact (toNat_number hH hc hz).1.symm
      rw [number_inj hH hc hz hz' this]
    have ex := hex x hxn fd hf e
    have ey := hex y hyn fd' hf' e'
    subst ex ey
    constructor
    · intro hs
      rcases slot_eq hH hc hyn hxn hs with rfl | ⟨k', h3, h4⟩
      · exact hk
      · rw [hk] at h4
        rw [h3, Option.some.inj h4]
    · intro hk'
      show slotOf W f c y = slotOf W f c x
      unfold slotOf slotName
      rw [hk, hk']
  · intro i f c hx
    obtain ⟨d, h1, h2⟩ := hS i f c hx
    rw [h2, ← keeps_iff]
    unfold mkMessage
    dsimp only
    cases genUnknownFields (W.file f) c.msg <;> simp
  · intro i h
    unfold mkSchema
    rw [h]

/-- Once compiled, the code generated for a set of files implements the schema that the files describe: a Go struct for every message, with a
field of the right number, Go type, encoding, packing and presence for every declared field, the members of a oneof behind one interface, and
unknown fields kept where asked for.

Missing: files that are not `Handled`: among them those with `[packed = false]` in proto3 (`C56_unpacked_violated`), with the feature
`LEGACY_REQUIRED` (`C56_required_violated`), with enums in messages in messages (C60), with type names that the generator resolves differently
from the language (C55); oneof members held by value. -/
theorem C56_implements_partial (W : World) (pkg : Nat → List Str) (env : GoEnv) (hC : Compiles (genStructs W) (genEnums W) env) (hH : Handled W pkg) :
    ∃ S, Implements env S ∧ S.WF ∧ Describes W pkg (allMessages W) S :=
  ⟨mkSchema W pkg env, Gen.implements_core W pkg env hC hH⟩

/-- From proto files to the wire: values of the generated types are written as protobuf prescribes for the messages that the files describe (except
for zero members of oneofs, see C26), and read back as it prescribes. -/
theorem C56_wire_partial (W : World) (pkg : Nat → List Str) (env : GoEnv) (hC : Compiles (genStructs W) (genEnums W) env) (hH : Handled W pkg) :
    ∃ S, Describes W pkg (allMessages W) S ∧
      (∀ id v, Typed S id v →
        match encode S false 1000 id v with
        | some bs => bs.length < 2 ^ 64 → marshal env (.ptr id (some v)) = .ok bs
        | none => marshal env (.ptr id (some v)) = .error .maxDepth) ∧
      ∀ id v, Typed S id v → ∀ b w, unmarshal env b (.ptr id (some v)) = .ok w ↔ Decodes S 1000 id b v w := by
  obtain ⟨S, hI, hW, hD⟩ := C56_implements_partial W pkg env hC hH
  exact ⟨S, hD, fun id v hv => C37_encoding hI hW id v hv, fun id v hv b w => C50_exact hI hW id v hv b w⟩

/-! ### Non-vacuity: a file -/

namespace CodeSample

def fd (n t : String) (k : Int) : FieldDecl := { name := n.toList, typ := t.toList, number := k }

/-- `enum Kind` inside of `Node`. -/
def kind : EnumDecl where
  name := "Kind".toList
  fields := [{ name := "A".toList, value := 0 }, { name := "B".toList, value := 1 }]

/-- The fields of `Node`. -/
def fields : List FieldDecl :=
  [fd "id" "int32" 1, { fd "xs" "sint64" 2 with repeated := true }, { fd "note" "string" 3 with optional := true }, fd "next" "Node" 4,
   { fd "kids" "Node" 5 with key := some "string".toList }, { fd "s" "string" 6 with oneof := some 0 }, { fd "k" "Kind" 7 with oneof := some 0 },
   fd "data" "bytes" 8, { fd "kinds" "Node.Kind" 9 with repeated := true }]

def node : MsgDecl := .mk "Node".toList [kind] [] fields ["v".toList] ["unknown_fields".toList] [] []

/-- ```
syntax = "proto3";
package p;
//prutalgen:unknown_fields
message Node {
  enum Kind { A = 0; B = 1; }
  int32 id = 1;
  repeated sint64 xs = 2;
  optional string note = 3;
  Node next = 4;
  map<string, Node> kids = 5;
  oneof v { string s = 6; Kind k = 7; }
  bytes data = 8;
  repeated Node.Kind kinds = 9;
}
``` -/
def world : World where
  files := [{ edition := .proto3, package := "p".toList, goImport := "x/p".toList, goPackage := "p".toList, messages := [node] }]
  imports := fun _ => []

def pks : List (List Str) := [["p".toList]]

theorem around {f : Nat} {c : Chain} (h : Around (world.file f).messages c) : f = 0 ∧ c = [([], node)] := by
  have h1 := (all_iff world f c).2 h
  have h2 : (f, c) ∈ [(0, [([], node)])] := h1
  rw [List.mem_singleton] at h2
  exact ⟨congrArg Prod.fst h2, congrArg Prod.snd h2⟩

theorem ident_of_test {s : Str} (h : ∀ x ∈ s, IdentChar x) (h' : s.head?.any (fun c => !decide (Digit c)) = true) : ProtoIdent s := by
  cases s with
  | nil => cases h'
  | cons c r => exact ⟨c, r, rfl, by simpa using h', h⟩

theorem noDouble (name : List Str) (h : (["p".toList, "p".toList]).isPrefixOf name = false) (x : Nat) (hne : pks.getD x [] ≠ []) :
    ¬ pks.getD x [] ++ pks.getD x [] <+: name := by
  match x with
  | 0 =>
    intro hp
    have := List.isPrefixOf_iff_prefix.2 hp
    exact absurd (this.symm.trans h) (by decide)
  | x + 1 => exact absurd rfl hne

theorem noSelf (name : List Str) (x : List Str × MsgDecl) (hx : x ∈ [(([] : List Str), node)]) (e : name.head? = some x.2.name) :
    ¬ ∃ k, Spec.Gen.Declares x.2.messages x.2.enums name k := by
  rw [List.mem_singleton] at hx
  subst hx
  rintro ⟨k, h⟩
  cases h with
  | enum h =>
    rw [show node.enums = [kind] from rfl, List.mem_singleton] at h
    subst h
    exact absurd (Option.some.inj e) (by decide)
  | msg h => cases h
  | nested h _ => cases h

theorem node_refers : Refers world (pks.getD · []) 0 [([], node)] "Node".toList ["Node".toList] ⟨false, 0, ["Node".toList]⟩ 1 where
  spelled := by decide +kernel
  nonempty := by decide
  idents := by simp only [Ident]; decide +kernel
  scalar := fun s => by cases s <;> decide
  means := by
    refine means_of_test (by decide) (.inl (.refl 0)) (.msg (m := node) (List.mem_cons_self ..)) (by decide +kernel) fun j h1 h2 => ?_
    have h2 : j ≤ 2 := h2
    have : j = 2 := by omega
    subst this
    decide +kernel
  self := noSelf _
  doubled := fun x _ => noDouble _ (by decide +kernel) x
  scope := .inl ⟨rfl, by decide⟩

theorem kind_exists : Spec.Gen.Exists world ⟨true, 0, ["Node".toList, "Kind".toList]⟩ :=
  .nested (m := node) (List.mem_cons_self ..) (.enum (e := kind) (List.mem_cons_self ..))

theorem kind_refers : Refers world (pks.getD · []) 0 [([], node)] "Kind".toList ["Kind".toList] ⟨true, 0, ["Node".toList, "Kind".toList]⟩ 2 where
  spelled := by decide +kernel
  nonempty := by decide
  idents := by simp only [Ident]; decide +kernel
  scalar := fun s => by cases s <;> decide
  means := by
    refine means_of_test (by decide) (.inl (.refl 0)) kind_exists (by decide +kernel) fun j h1 h2 => ?_
    have h2 : j ≤ 2 := h2
    omega
  self := noSelf _
  doubled := fun x _ => noDouble _ (by decide +kernel) x
  scope := .inl ⟨rfl, by decide⟩

theorem nodeKind_refers : Refers world (pks.getD · []) 0 [([], node)] "Node.Kind".toList ["Node".toList, "Kind".toList]
    ⟨true, 0, ["Node".toList, "Kind".toList]⟩ 1 where
  spelled := by decide +kernel
  nonempty := by decide
  idents := by simp only [Ident]; decide +kernel
  scalar := fun s => by cases s <;> decide
  means := by
    refine means_of_test (by decide) (.inl (.refl 0)) kind_exists (by decide +kernel) fun j h1 h2 => ?_
    have h2 : j ≤ 2 := h2
    have : j = 2 := by omega
    subst this
    decide +kernel
  self := noSelf _
  doubled := fun x _ => noDouble _ (by decide +kernel) x
  scope := .inl ⟨rfl, by decide⟩

theorem within {m : MsgDecl} (h : Within [node] m) : m = node := by
  cases h with
  | here h => exact List.mem_singleton.1 h
  | deeper h h' =>
    rw [List.mem_singleton.1 h] at h'
    have h' : Within [] _ := h'
    cases h' with
    | here h => cases h
    | deeper h _ => cases h

theorem tidy : Tidy world (pks.getD · []) 0 := by
  refine tidy_of_test (by decide +kernel) (fun g i hi => by cases hi) ⟨noTwins_of_test (by decide +kernel), fun m hm => ?_⟩ (fun g x hx => by cases hx)
  rw [within hm]
  exact noTwins_of_test (by decide +kernel)

/-- What is true of all fields of the sample. -/
theorem field_of (f : FieldDecl) (h1 : ProtoIdent f.name) (h2 : 1 ≤ f.number ∧ f.number < 2 ^ 31)
    (h3 : ∀ x, f.key = some x → f.repeated = false ∧ f.oneof = none ∧ ∃ s : Scalar, s.isKey = true ∧ x = keyword s)
    (h4 : ∀ k, f.oneof = some k → f.repeated = false ∧ f.optional = false ∧ k = 0) (h5 : f.options = []) (h6 : f.directives = [])
    (h7 : (∃ s, f.typ = keyword s) ∨ ∃ name r i, Refers world (pks.getD · []) 0 [([], node)] f.typ name r i) :
    HandledField world (pks.getD · []) 0 [([], node)] f where
  name := h1
  number := h2
  key := h3
  oneof := by
    intro k hk
    obtain ⟨a, b, rfl⟩ := h4 k hk
    exact ⟨a, b, by decide⟩
  packing := fun _ => ⟨true, .default3 rfl fun v h => (by rw [h5] at h; cases h), fun h => by cases h.2⟩
  presence := by
    intro _ _ _
    refine ⟨?_, fun h => by cases h⟩
    cases ho : f.optional with
    | true => exact ⟨true, .optional3 rfl ho⟩
    | false => exact ⟨false, .plain3 rfl ho⟩
  type := h7

theorem handled : Handled world (pks.getD · []) where
  packages := by
    refine ⟨fun f => ?_, fun f => ?_⟩
    · match f with
      | 0 => decide +kernel
      | f + 1 => rfl
    · match f with
      | 0 => simp only [Ident]; decide +kernel
      | f + 1 => intro s h; cases h
  tidy := fun f hf => by
    match f, hf with
    | 0, _ => exact tidy
  good := fun f hf => by
    match f, hf with
    | 0, _ =>
      refine ⟨fun e h => (by cases h), fun m hm => ?_⟩
      rw [within hm]
      have dis : ∀ {α : Type} {l : List α}, l.Nodup → Distinct l := fun {α l} hn i j x hi hj => by
        obtain ⟨hi, e1⟩ := List.getElem?_eq_some_iff.1 hi
        obtain ⟨hj, e2⟩ := List.getElem?_eq_some_iff.1 hj
        exact (List.getElem_inj hn).1 (e1.trans e2.symm)
      have res : ∀ n : Int, n < 19000 → ¬ Reserved [] n := fun n hn h => by
        rcases h with h | ⟨_, h, _⟩
        · omega
        · cases h
      refine ⟨⟨fun f hf => res _ ?_, dis (by decide +kernel)⟩, fun e he => ?_⟩
      · have : ∀ f ∈ fields, f.number < 19000 := by decide +kernel
        exact this f hf
      · have he : e ∈ [kind] := he
        rw [List.mem_singleton] at he
        subst he
        refine ⟨fun f hf => res _ ?_, .inr (dis (by decide +kernel))⟩
        have : ∀ f ∈ kind.fields, f.value < 19000 := by decide +kernel
        exact this f hf
  enums := fun r hr he => by
    have := allRefs_mem hr
    have h : ∀ r ∈ allRefs world, r.path.length ≤ 2 := by decide +kernel
    exact h r this
  fields := fun f c hc fd hf => by
    obtain ⟨rfl, rfl⟩ := around hc
    have hf : fd ∈ CodeSample.fields := hf
    unfold CodeSample.fields at hf
    simp only [List.mem_cons, List.not_mem_nil, or_false] at hf
    have nokey : ∀ x : Str, (none : Option Str) = some x → ∀ p : Prop, p := fun x h => by cases h
    have noone : ∀ x : Nat, (none : Option Nat) = some x → ∀ p : Prop, p := fun x h => by cases h
    rcases hf with rfl | rfl | rfl | rfl | rfl | rfl | rfl | rfl | rfl
    · exact field_of _ (ident_of_test (by decide) (by decide)) (by decide) (fun x h => nokey x h _) (fun x h => noone x h _) rfl rfl (.inl ⟨.int32, by decide⟩)
    · exact field_of _ (ident_of_test (by decide) (by decide)) (by decide) (fun x h => nokey x h _) (fun x h => noone x h _) rfl rfl (.inl ⟨.sint64, by decide⟩)
    · exact field_of _ (ident_of_test (by decide) (by decide)) (by decide) (fun x h => nokey x h _) (fun x h => noone x h _) rfl rfl (.inl ⟨.string, by decide⟩)
    · exact field_of _ (ident_of_test (by decide) (by decide)) (by decide) (fun x h => nokey x h _) (fun x h => noone x h _) rfl rfl (.inr ⟨_, _, _, node_refers⟩)
    · refine field_of _ (ident_of_test (by decide) (by decide)) (by decide) (fun x h => ⟨rfl, rfl, .string, by decide, ?_⟩) (fun x h => noone x h _) rfl rfl
        (.inr ⟨_, _, _, node_refers⟩)
      exact (Option.some.inj h).symm
    · exact field_of _ (ident_of_test (by decide) (by decide)) (by decide) (fun x h => nokey x h _) (fun x h => ⟨rfl, rfl, (Option.some.inj h).symm⟩) rfl rfl (.inl ⟨.string, by decide⟩)
    · exact field_of _ (ident_of_test (by decide) (by decide)) (by decide) (fun x h => nokey x h _) (fun x h => ⟨rfl, rfl, (Option.some.inj h).symm⟩) rfl rfl (.inr ⟨_, _, _, kind_refers⟩)
    · exact field_of _ (ident_of_test (by decide) (by decide)) (by decide) (fun x h => nokey x h _) (fun x h => noone x h _) rfl rfl (.inl ⟨.bytes, by decide⟩)
    · exact field_of _ (ident_of_test (by decide) (by decide)) (by decide) (fun x h => nokey x h _) (fun x h => noone x h _) rfl rfl (.inr ⟨_, _, _, nodeKind_refers⟩)
  oneofs := fun f c hc o ho => by
    obtain ⟨rfl, rfl⟩ := around hc
    have ho : o ∈ ["v".toList] := ho
    rw [List.mem_singleton] at ho
    subst ho
    exact ident_of_test (by decide) (by decide)

end CodeSample

/-- The environment of compiled structs that hold no other structs by value; `sizes` are their sizes. -/
def compiled (W : World) (size : Nat) : GoEnv where
  structs := (genStructs W).map fun g =>
    let fields := g.fields.map (elabField (genEnums W) ((genStructs W).map fun g => (g.pkg, g.name)))
    { fields := fields
      wrappers := elabWrappers (genEnums W) ((genStructs W).map fun g => (g.pkg, g.name)) g
      size := size
      zero := .struct (fields.map fun f => goZero [] f.type) }

theorem compiled_ok {W : World} {size : Nat} (hd : ((genStructs W).map (fun g => (g.pkg, g.name)) ++ genEnums W).Nodup)
    (hz : ∀ g ∈ genStructs W, ∀ f ∈ g.fields, ∀ i, elabType (genEnums W) ((genStructs W).map fun g => (g.pkg, g.name)) f.type ≠ .struct i) :
    Compiles (genStructs W) (genEnums W) (compiled W size) where
  distinct := hd
  count := List.length_map ..
  fields := fun i g d hg hd => by
    unfold compiled at hd
    rw [List.getElem?_map, hg] at hd
    cases hd
    rfl
  wrappers := fun i g d hg hd => by
    unfold compiled at hd
    rw [List.getElem?_map, hg] at hd
    cases hd
    rfl
  zero := fun i d hd => by
    unfold compiled at hd
    rw [List.getElem?_map, Option.map_eq_some_iff] at hd
    obtain ⟨g, hg, rfl⟩ := hd
    dsimp only
    congr 1
    refine List.map_congr_left fun f hf => ?_
    obtain ⟨gf, hgf, rfl⟩ := List.mem_map.1 hf
    have := hz g (List.mem_of_getElem? hg) gf hgf
    show goZero [] (elabType _ _ gf.type) = goZero _ (elabType _ _ gf.type)
    revert this
    generalize elabType (genEnums W) ((genStructs W).map fun g => (g.pkg, g.name)) gf.type = t
    intro this
    cases t with
    | struct i => exact absurd rfl (this i)
    | _ => rfl

/-- Non-vacuity. -/
example : ∃ S, Implements (compiled CodeSample.world 100) S ∧ S.WF ∧ Describes CodeSample.world (CodeSample.pks.getD · []) (allMessages CodeSample.world) S := by
  refine C56_implements_partial _ _ _ (compiled_ok (by decide +kernel) ?_) CodeSample.handled
  have h : ∀ g ∈ genStructs CodeSample.world, ∀ f ∈ g.fields,
      (match elabType (genEnums CodeSample.world) ((genStructs CodeSample.world).map fun g => (g.pkg, g.name)) f.type with | .struct _ => false | _ => true) = true := by
    decide +kernel
  intro g hg f hf i e
  have := h g hg f hf
  rw [e] at this
  cases this

/-! ### Violations -/

/-- What an implementation of a described schema needs: a Go field that declares the field. -/
theorem Gen.needs {W : World} {pkg : Nat → List Str} {env : GoEnv} {S : Schema} (hI : Implements env S) (hD : Describes W pkg (allMessages W) S) {i f : Nat}
    {c : Chain} {d : StructDecl} (hx : (allMessages W)[i]? = some (f, c)) (hd : env.structs[i]? = some d) {fd : FieldDecl} (hf : fd ∈ c.msg.fields) (ho : fd.oneof = none) :
    ∃ gf ∈ d.fields, ∃ x g, (g.num : Int) = fd.number ∧ Denotes W pkg (allMessages W) f c fd.typ x ∧ ShapeIs (W.file f) c.msg fd x g.shape ∧ Spec.Declares gf g := by
  obtain ⟨g, hg, h1, h2, x, h3, h4⟩ := hD.fields i f c hx fd hf
  have := hI i
  rw [hd] at this
  obtain ⟨gf, h5, h6⟩ := this.plain g hg (h2.2 ho)
  exact ⟨gf, List.mem_of_getElem? h5, x, g, h1, h3, h4, h6⟩

/-- C56 (violated): in a file of edition 2023, a field with the feature `LEGACY_REQUIRED` (which tracks presence) is generated like one that does
not, whatever implements the described message. -/
theorem C56_required_violated : ∃ (W : World) (env : GoEnv), Compiles (genStructs W) (genEnums W) env ∧
    ∀ pkg S, Describes W pkg (allMessages W) S → ¬ Implements env S := by
  let fd : FieldDecl := { name := "x".toList, typ := keyword .int32, number := 1, options := [("features.field_presence".toList, "LEGACY_REQUIRED".toList)] }
  let m : MsgDecl := .mk "M".toList [] [] [fd] [] [] [] []
  let W : World := ⟨[{ edition := .ed2023, messages := [m] }], fun _ => []⟩
  refine ⟨W, compiled W 4, compiled_ok (by decide +kernel) ?_, ?_⟩
  · intro g hg f hf i e
    have h : ∀ g ∈ genStructs W, ∀ f ∈ g.fields, elabType (genEnums W) ((genStructs W).map fun g => (g.pkg, g.name)) f.type = .int32 := by decide +kernel
    rw [h g hg f hf] at e
    cases e
  · intro pkg S hD hI
    obtain ⟨gf, hgf, x, g, _, hx, hs, hdec⟩ := Gen.needs hI hD (i := 0) (f := 0) (c := [([], m)]) rfl rfl (fd := fd) (List.mem_cons_self ..) rfl
    have ht : ∀ gf ∈ ((compiled W 4).structs.getD 0 default).fields, gf.type = .int32 := by decide +kernel
    have hty := hdec.type
    rw [ht gf hgf] at hty
    have hxs : x = .scalar .int32 := by
      cases hx with
      | scalar s h =>
        have : ∀ s, keyword .int32 = keyword s → s = .int32 := fun s h => by
          cases s <;> first | rfl | exact absurd h (by decide)
        rw [this s h]
      | enum _ _ _ h => exact absurd rfl (h .int32)
      | message _ _ _ _ _ h => exact absurd rfl (h .int32)
    subst hxs
    generalize g.shape = sh at hs hty
    cases hs with
    | map k s h => cases h
    | mapMsg k id b h => cases h
    | list s b _ h => cases h
    | msgList id b _ h => cases h
    | msg id b _ _ h => cases h
    | single s _ _ h1 h2 =>
      rcases h2 with h2 | h2 | h2 | h2
      · exact h2 rfl
      · rw [h2] at h1
        cases h1
      · rcases h2 with h2 | h2 | h2
        · cases h2
        · cases h2
        · exact absurd (lastSet_iff.2 h2) (by decide +kernel)
      · generalize hb : false = b at h2
        cases h2 with
        | implicit _ hf =>
          generalize hv : some "IMPLICIT" = v at hf
          cases hf with
          | field v h =>
            cases hv
            exact absurd (List.mem_singleton.1 h.1) (by decide)
          | file v h _ => exact h _ (List.mem_cons_self ..)
          | unset h _ => cases hv
        | plain3 h => cases h
        | _ => cases hb
    | optional s _ _ h => cases hty

/-- C56 (violated): in a proto3 file, a repeated field with `[packed = false]` is generated as a packed one. -/
theorem C56_unpacked_violated : ∃ (W : World) (env : GoEnv), Compiles (genStructs W) (genEnums W) env ∧
    ∀ pkg S, Describes W pkg (allMessages W) S → ¬ Implements env S := by
  let fd : FieldDecl := { name := "xs".toList, typ := keyword .int32, number := 1, repeated := true, options := [("packed".toList, "false".toList)] }
  let m : MsgDecl := .mk "M".toList [] [] [fd] [] [] [] []
  let W : World := ⟨[{ edition := .proto3, messages := [m] }], fun _ => []⟩
  refine ⟨W, compiled W 24, compiled_ok (by decide +kernel) ?_, ?_⟩
  · intro g hg f hf i e
    have h : ∀ g ∈ genStructs W, ∀ f ∈ g.fields, elabType (genEnums W) ((genStructs W).map fun g => (g.pkg, g.name)) f.type = .slice .int32 := by decide +kernel
    rw [h g hg f hf] at e
    cases e
  · intro pkg S hD hI
    obtain ⟨gf, hgf, x, g, hn, hx, hs, hdec⟩ := Gen.needs hI hD (i := 0) (f := 0) (c := [([], m)]) rfl rfl (fd := fd) (List.mem_cons_self ..) rfl
    have ht : ∀ gf ∈ ((compiled W 24).structs.getD 0 default).fields, gf.tag = "varint,1,rep,packed,name=xs".toList := by decide +kernel
    have hn : g.num = 1 := by
      have : (g.num : Int) = 1 := hn
      omega
    have htag := hdec.tag
    rw [ht gf hgf, hn] at htag
    obtain ⟨p, h1, _, _, h2⟩ := Lemmas.parseStructTag_ok (Lemmas.encWord_shape g.shape) (by decide) htag
    have hp : ∀ p T, parseStructTag "varint,1,rep,packed,name=xs".toList = .ok (p, T) → p.packed = true := by
      intro p T h
      have : (parseStructTag "varint,1,rep,packed,name=xs".toList).toOption.map (fun x => x.1.packed) = some true := by decide +kernel
      rw [h] at this
      exact Option.some.inj this
    rw [hp p _ h1] at h2
    generalize g.shape = sh at hs h2
    cases hs with
    | map k s h => cases h
    | mapMsg k id b h => cases h
    | list s b _ _ _ h =>
      have hb : b = false := by
        cases h with
        | on3 _ h => exact absurd (List.mem_singleton.1 h.1) (by decide)
        | off3 _ _ => rfl
        | default3 _ h => exact absurd (List.mem_cons_self ..) (h _)
        | on2 h _ => cases h
        | off2 h _ => cases h
        | default2 h _ => cases h
        | packed h _ => cases h
        | expanded h _ => cases h
        | default h _ => cases h
      subst hb
      rw [Shape.isPacked, Bool.and_false] at h2
      cases h2
    | msgList id b _ _ h => cases h2
    | msg id b _ h => cases h
    | single s _ h => cases h
    | optional s _ h => cases h

end Verif.Props
