import Verif.Model.Gen.Ast
import Verif.Spec.Types
/-!
# Specification: what a field declaration says

The rules of the protobuf language for packing and presence.  The rules are shared with the model only through the datatype of declarations.
-/
namespace Verif.Spec.Gen
open Verif.Model.Gen (Str Opt FieldDecl FileDecl Edition MsgDecl)

/-- The keyword of a scalar type. -/
def keyword : Scalar → Str
  | .int32 => "int32".toList | .int64 => "int64".toList | .uint32 => "uint32".toList | .uint64 => "uint64".toList
  | .sint32 => "sint32".toList | .sint64 => "sint64".toList | .fixed32 => "fixed32".toList | .fixed64 => "fixed64".toList
  | .sfixed32 => "sfixed32".toList | .sfixed64 => "sfixed64".toList | .float => "float".toList | .double => "double".toList
  | .bool => "bool".toList | .string => "string".toList | .bytes => "bytes".toList

/-- The type of a field: a scalar, an enum, or a message. -/
inductive Kind
  | scalar (s : Scalar)
  | enum
  | message
  deriving DecidableEq

/-- The word naming its encoding. -/
def Kind.word : Kind → List Char
  | .scalar s => s.word
  | .enum => "varint".toList
  | .message => "bytes".toList

/-- May a repeated field of it be packed? -/
def Kind.packable : Kind → Bool
  | .scalar s => s.packable
  | .enum => true
  | .message => false

/-- The option has this value (and is given once). -/
def Sets (oo : List Opt) (name value : String) : Prop := (name.toList, value.toList) ∈ oo ∧ ∀ v, (name.toList, v) ∈ oo → v = value.toList

/-- The option is not given. -/
def Unset (oo : List Opt) (name : String) : Prop := ∀ v, (name.toList, v) ∉ oo

/-- What a feature (of edition 2023) is set to for a field: by the field itself, otherwise by the file. -/
inductive Feature (p : FileDecl) (f : FieldDecl) (name : String) : Option String → Prop
  | field (v : String) : Sets f.options name v → Feature p f name (some v)
  | file (v : String) : Unset f.options name → Sets p.options name v → Feature p f name (some v)
  | unset : Unset f.options name → Unset p.options name → Feature p f name none

/-- Is a repeated field packed (when its type allows)? -/
inductive Packs (p : FileDecl) (f : FieldDecl) : Bool → Prop
  | on2 : p.edition = .proto2 → Sets f.options "packed" "true" → Packs p f true
  | off2 : p.edition = .proto2 → Sets f.options "packed" "false" → Packs p f false
  | default2 : p.edition = .proto2 → Unset f.options "packed" → Packs p f false
  | on3 : p.edition = .proto3 → Sets f.options "packed" "true" → Packs p f true
  | off3 : p.edition = .proto3 → Sets f.options "packed" "false" → Packs p f false
  | default3 : p.edition = .proto3 → Unset f.options "packed" → Packs p f true
  | packed : p.edition = .ed2023 → Feature p f "features.repeated_field_encoding" (some "PACKED") → Packs p f true
  | expanded : p.edition = .ed2023 → Feature p f "features.repeated_field_encoding" (some "EXPANDED") → Packs p f false
  | default : p.edition = .ed2023 → Feature p f "features.repeated_field_encoding" none → Packs p f true

/-- Does a single scalar or enum field tell unset from zero? -/
inductive Tracks (p : FileDecl) (f : FieldDecl) : Bool → Prop
  | proto2 : p.edition = .proto2 → Tracks p f true
  | optional3 : p.edition = .proto3 → f.optional = true → Tracks p f true
  | plain3 : p.edition = .proto3 → f.optional = false → Tracks p f false
  | explicit : p.edition = .ed2023 → Feature p f "features.field_presence" (some "EXPLICIT") → Tracks p f true
  | required : p.edition = .ed2023 → Feature p f "features.field_presence" (some "LEGACY_REQUIRED") → Tracks p f true
  | implicit : p.edition = .ed2023 → Feature p f "features.field_presence" (some "IMPLICIT") → Tracks p f false
  | default : p.edition = .ed2023 → Feature p f "features.field_presence" none → Tracks p f true

end Verif.Spec.Gen
