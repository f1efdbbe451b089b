import Verif.Spec.Gen.Field
/-!
# Specification: the switches of the generator

What a user asks for with directives in comments and with the options of gogoproto.  A directive is obeyed before an option, and what is written at a declaration
before what is written at the file.
-/
namespace Verif.Spec.Gen
open Verif.Model.Gen (Str Opt FieldDecl FileDecl MsgDecl EnumDecl EnumField)

/-- The last setting of the option is this value. -/
def LastSet (oo : List Opt) (name value : String) : Prop := ∃ a b, oo = a ++ (name.toList, value.toList) :: b ∧ ∀ v, (name.toList, v) ∉ b

/-- A switch is turned on (by `d`) or off (by `no_d`): the first of the two counts. -/
def Turned (ds : List Str) (d : String) (on : Bool) : Prop :=
  ∃ a b, ds = a ++ (if on then d.toList else "no_".toList ++ d.toList) :: b ∧ d.toList ∉ a ∧ "no_".toList ++ d.toList ∉ a

/-- A switch is left alone. -/
def Untouched (ds : List Str) (d : String) : Prop := d.toList ∉ ds ∧ "no_".toList ++ d.toList ∉ ds

/-- The user asks for values instead of pointers: for the field, for all fields of the message, or by the option of the field. -/
def ByValue (m : MsgDecl) (f : FieldDecl) : Prop :=
  "no_pointer".toList ∈ f.directives ∨ "no_pointer".toList ∈ m.directives ∨ LastSet f.options "(gogoproto.nullable)" "false"

/-- The user asks to keep unknown fields. -/
inductive Keeps (p : FileDecl) (m : MsgDecl) : Prop
  | message : Turned m.directives "unknown_fields" true → Keeps p m
  | file : Untouched m.directives "unknown_fields" → Turned p.directives "unknown_fields" true → Keeps p m
  | option : Untouched m.directives "unknown_fields" → Untouched p.directives "unknown_fields" →
      LastSet m.options "(gogoproto.goproto_unrecognized)" "true" → Keeps p m
  | fileOption : Untouched m.directives "unknown_fields" → Untouched p.directives "unknown_fields" →
      Unset m.options "(gogoproto.goproto_unrecognized)" → LastSet p.options "(gogoproto.goproto_unrecognized_all)" "true" → Keeps p m

/-- The user asks for constants without prefix: for the value, for the enum, or for the file. -/
inductive Bare (p : FileDecl) (e : EnumDecl) (v : EnumField) : Prop
  | value : "no_enum_prefix".toList ∈ v.directives → Bare p e v
  | enum : "no_enum_prefix".toList ∈ e.directives → Bare p e v
  | file : "no_enum_prefix".toList ∈ p.directives → Bare p e v
  | option : LastSet e.options "(gogoproto.goproto_enum_prefix)" "false" → Bare p e v
  | fileOption : Unset e.options "(gogoproto.goproto_enum_prefix)" → LastSet p.options "(gogoproto.goproto_enum_prefix_all)" "false" → Bare p e v

/-- The user asks for an enum without tables of its names: for the enum or for the file. -/
def Tableless (p : FileDecl) (e : EnumDecl) : Prop := "no_enum_mapping".toList ∈ e.directives ∨ "no_enum_mapping".toList ∈ p.directives

end Verif.Spec.Gen
