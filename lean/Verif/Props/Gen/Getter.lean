import Verif.Lemmas.Gen.Getters
import Verif.Props.Gen.Code
/-!
# C57: generated getters
-/
namespace Verif.Props
open Verif.Spec Verif.Spec.Gen Verif.Model Verif.Model.Gen Verif.Props.Gen

/-! ## C57: what getters return -/

/-- Every field of every message has a getter named after it, which returns the value of the field; on a nil message, and for a field that is not
set, it returns the zero value.  (`n` is the name of the Go struct field: of the struct of the message, or of the struct that wraps a member of
a oneof.)

Missing: files that are not `Handled` (see C56); the defaults of proto2 (`C57_default_violated`, `C57_enum_violated`). -/
theorem C57_getters_partial (W : World) (pkg : Nat → List Str) (env : GoEnv) (hC : Compiles (genStructs W) (genEnums W) env) (hH : Handled W pkg)
    (hn : ConstsDistinct W) (hw : ∀ f c, Around (W.file f).messages c → ((genStruct W f c).wrappers.map GenWrapper.name).Nodup) :
    ∃ S, Implements env S ∧ S.WF ∧ Describes W pkg (allMessages W) S ∧
      ∀ (i f : Nat) (c : Chain), (allMessages W)[i]? = some (f, c) → ∀ fd ∈ c.msg.fields, ∀ g ∈ (S i).fields, (g.num : Int) = fd.number →
        ∃ n, (∃ k, n = goCamelCase fd.name ++ List.replicate k '_') ∧
          (match g.member with
            | none => ((genStruct W f c).fields[g.slot]?).map GenField.name = some n
            | some w => ((genStruct W f c).wrappers[w]?).map (fun w => w.field.name) = some n) ∧
          ∀ x r, Shows S g x r → callGetter W env f c ("Get".toList ++ n) x = some r := by
  obtain ⟨hI, hWF, hD⟩ := Gen.implements_core W pkg env hC hH
  refine ⟨mkSchema W pkg env, hI, hWF, hD, ?_⟩
  have hd : (structNames W ++ genEnums W).Nodup := hC.distinct
  have hlen : env.structs.length = (allMessages W).length := by
    rw [hC.count]
    exact List.length_map ..
  intro i f c hi fd hf g hg hnum
  have hc := (all_iff W f c).1 (List.mem_of_getElem? hi)
  have hlt : i < env.structs.length := by
    rw [hlen]
    exact (List.getElem?_eq_some_iff.1 hi).1
  have hm : mkSchema W pkg env i = mkMessage W pkg f c env.structs[i] := by
    unfold mkSchema
    rw [hi, List.getElem?_eq_getElem hlt]
  rw [hm] at hg
  obtain ⟨x, hx, rfl⟩ := mem_fields.1 hg
  obtain ⟨n, hy⟩ := named_of hf
  have hxy : x = (fd, n) := number_inj hH hc hx hy (by rw [← hnum]; exact (toNat_number hH hc hx).1.symm)
  subst hxy
  refine ⟨n, named_shape hx, ?_, fun v r h => getter_call hH hd hn (fun id => schema_zero hlen id) hc (hw f c hc) hx h⟩
  have hslot := at_slot hH hc hx
  cases ho : fd.oneof with
  | none =>
    have : (mkField W pkg f c (fd, n)).member = none := by
      show fd.oneof.map _ = none
      rw [ho]
      rfl
    rw [this]
    dsimp only
    rw [show (mkField W pkg f c (fd, n)).slot = slotOf W f c (fd, n) from rfl, hslot]
    show some (slotField W f c (fd, n)).name = _
    rw [slotField_name]
    unfold slotName
    rw [show ((fd, n) : FieldDecl × Str).1.oneof = none from ho]
  | some k =>
    have : (mkField W pkg f c (fd, n)).member = some (memberOf W f c (fd, n)) := by
      show fd.oneof.map _ = _
      rw [ho]
      rfl
    rw [this]
    dsimp only
    rw [show (genStruct W f c).wrappers[memberOf W f c (fd, n)]? = _ from at_member (oneof_lt hH hc hx ho) hx ho]
    rfl

/-- Getters of message values always return something, except for a oneof that holds a nil pointer to its member. -/
theorem C57_total (S : Schema) (hW : S.WF) (id : Nat) (fs : List Val) (hv : Typed S id (.struct fs)) (g : Field) (hg : g ∈ (S id).fields)
    (hn : ∀ w, fs[g.slot]? ≠ some (.iface (some (w, none)))) : ∃ r, Shows S g (some (.struct fs)) r := by
  cases hv with
  | mk _ _ hlen hf _ =>
    have hlt : g.slot < fs.length := by
      rw [hlen]
      exact (hW id).slots g hg
    have hat := List.getElem?_eq_getElem hlt
    have ht := hf g hg _ hat
    generalize fs[g.slot] = y at hat ht
    cases ht with
    | plain _ _ hm hs =>
      cases hsh : g.shape with
      | optional s =>
        rw [hsh] at hs
        cases hs with
        | optionalNil => exact ⟨_, .unset fs s hm hsh hat⟩
        | optional _ v _ => exact ⟨_, .set fs s v hm hsh hat⟩
      | _ => exact ⟨y, .plain fs y hm (fun s e => by rw [hsh] at e; cases e) hat⟩
    | unset _ w hm => exact ⟨_, .none fs w hm hat⟩
    | nilMember _ w w' hm => exact absurd hat (hn w')
    | member _ w d hm _ => exact ⟨_, .member fs w d hm hat⟩
    | otherMember _ w w' d hm hne => exact ⟨_, .other fs w w' (some d) hm hat fun e => hne e.symm⟩

/-- What a field holds is determined. -/
theorem C57_functional (S : Schema) (g : Field) (x : Option Val) (r r' : Val) (h : Shows S g x r) (h' : Shows S g x r') : r = r' := by
  cases h <;> cases h' <;> simp_all

/-- Non-vacuity: the file of C56. -/
example : Compiles (genStructs CodeSample.world) (genEnums CodeSample.world) (compiled CodeSample.world 100) ∧ Handled CodeSample.world (CodeSample.pks.getD · []) ∧
    ConstsDistinct CodeSample.world ∧
    ∀ f c, Around (CodeSample.world.file f).messages c → ((genStruct CodeSample.world f c).wrappers.map GenWrapper.name).Nodup := by
  refine ⟨compiled_ok (by decide +kernel) ?_, CodeSample.handled, by unfold ConstsDistinct; decide +kernel, ?_⟩
  · have h : ∀ g ∈ genStructs CodeSample.world, ∀ f ∈ g.fields,
        (match elabType (genEnums CodeSample.world) ((genStructs CodeSample.world).map fun g => (g.pkg, g.name)) f.type with | .struct _ => false | _ => true) = true := by
      decide +kernel
    intro g hg f hf i e
    have := h g hg f hf
    rw [e] at this
    cases this
  · intro f c hc
    obtain ⟨rfl, rfl⟩ := CodeSample.around hc
    decide +kernel

set_option maxRecDepth 20000 in
/-- A message of this file, and its getters. -/
example :
    let v := Val.struct [.w32 7#32, .slice [], .ptr none, .ptr none, .map none, .iface (some (1, some (.w32 1#32))), .bytes none, .slice [], .ptr none]
    let get := fun s x => callGetter CodeSample.world (compiled CodeSample.world 100) 0 [([], CodeSample.node)] ("Get".toList ++ s) x
    get "Id".toList (some v) = some (.w32 7#32) ∧ get "Note".toList (some v) = some (.str []) ∧ get "S".toList (some v) = some (.str []) ∧
    get "K".toList (some v) = some (.w32 1#32) ∧ get "K".toList none = some (.w32 0#32) ∧ get "Next".toList none = some (.ptr none) ∧
    get "Kids".toList none = some (.map none) := by
  exact ⟨rfl, rfl, rfl, rfl, rfl, rfl, rfl⟩

/-! ### Violations -/

/-- C57 (violated): in proto2, the getter of an unset field with a declared default does not return it. -/
theorem C57_default_violated : ∃ (W : World) (env : GoEnv) (c : Chain) (fd : FieldDecl), Compiles (genStructs W) (genEnums W) env ∧
    (W.file 0).edition = .proto2 ∧ Around (W.file 0).messages c ∧ fd ∈ c.msg.fields ∧ fd.name = "x".toList ∧ fd.typ = keyword .int32 ∧
    ("default".toList, "5".toList) ∈ fd.options ∧ callGetter W env 0 c "GetX".toList none = some (.w32 0#32) ∧
    callGetter W env 0 c "GetX".toList (some (.struct [.ptr none])) = some (.w32 0#32) := by
  let fd : FieldDecl := { name := "x".toList, typ := keyword .int32, number := 1, optional := true, options := [("default".toList, "5".toList)] }
  let m : MsgDecl := .mk "M".toList [] [] [fd] [] [] [] []
  let W : World := ⟨[{ edition := .proto2, messages := [m] }], fun _ => []⟩
  refine ⟨W, compiled W 8, [([], m)], fd, compiled_ok (by decide +kernel) ?_, rfl, (all_iff W 0 _).1 (List.mem_cons_self ..), List.mem_cons_self .., rfl, rfl,
    List.mem_cons_self .., rfl, rfl⟩
  intro g hg f hf i e
  have h : ∀ g ∈ genStructs W, ∀ f ∈ g.fields, elabType (genEnums W) ((genStructs W).map fun g => (g.pkg, g.name)) f.type = .ptr .int32 := by decide +kernel
  rw [h g hg f hf] at e
  cases e

/-- C57 (violated): in proto2, the default of an enum is its first value; the getter of an unset field returns 0, even if the enum has no such
value. -/
theorem C57_enum_violated : ∃ (W : World) (env : GoEnv) (c : Chain) (fd : FieldDecl) (e : EnumDecl), Compiles (genStructs W) (genEnums W) env ∧
    (W.file 0).edition = .proto2 ∧ Around (W.file 0).messages c ∧ fd ∈ c.msg.fields ∧ fd.name = "x".toList ∧ fd.typ = "E".toList ∧
    e ∈ (W.file 0).enums ∧ e.name = "E".toList ∧ (∀ v ∈ e.fields, v.value ≠ 0) ∧
    callGetter W env 0 c "GetX".toList (some (.struct [.ptr none])) = some (.w32 0#32) := by
  let fd : FieldDecl := { name := "x".toList, typ := "E".toList, number := 1, optional := true }
  let m : MsgDecl := .mk "M".toList [] [] [fd] [] [] [] []
  let e : EnumDecl := { name := "E".toList, fields := [{ name := "A".toList, value := 1 }, { name := "B".toList, value := 2 }] }
  let W : World := ⟨[{ edition := .proto2, messages := [m], enums := [e] }], fun _ => []⟩
  refine ⟨W, compiled W 8, [([], m)], fd, e, compiled_ok (by decide +kernel) ?_, rfl, (all_iff W 0 _).1 (List.mem_cons_self ..), List.mem_cons_self .., rfl, rfl,
    List.mem_cons_self .., rfl, by decide, rfl⟩
  intro g hg f hf i e
  have h : ∀ g ∈ genStructs W, ∀ f ∈ g.fields, elabType (genEnums W) ((genStructs W).map fun g => (g.pkg, g.name)) f.type = .ptr .int32 := by decide +kernel
  rw [h g hg f hf] at e
  cases e

end Verif.Props
