import Verif.Model.Gen.Paths
import Verif.Spec.Gen.Text
/-!
# Specification: where generated files go
-/
namespace Verif.Spec.Gen
open Verif.Model.Gen

/-- An element of a path that names a file or directory. -/
def Plain (w : Str) : Prop := w ≠ [] ∧ '/' ∉ w ∧ w ≠ ['.'] ∧ w ≠ ['.', '.']

/-- A path like the import path of a Go package: one or more names. -/
def PlainPath (s : Str) : Prop := ∃ ws : List Str, ws ≠ [] ∧ (∀ w ∈ ws, Plain w) ∧ s = joinSlash ws

/-- A path below a directory, which is given in its shortest form. -/
def below (dir rel : Str) : Str := if dir = ['.'] then rel else if dir = ['/'] then '/' :: rel else dir ++ '/' :: rel

/-- The file `dir/name.proto`, where `dir` may be empty. -/
structure ProtoPath (s dir name : Str) : Prop where
  spelled : s = dir ++ '/' :: name ++ ".proto".toList
  slash : '/' ∉ name

/-! ## Options -/

/-- The text without what is before the first `sep`, and so on: the parts of a text. -/
def parts (sep : Char) : Str → List Str
  | [] => [[]]
  | c :: s =>
    if c = sep then [] :: parts sep s
    else
      match parts sep s with
      | [] => [[c]]
      | w :: l => (c :: w) :: l

/-- The parameters given to the generator: the values of `-go_opt`, each with one or more parameters separated by commas (as in `protoc`). -/
def params (opts : List Str) : List Str := opts.flatMap (parts ',')

/-- The parameters ask for this way of placing files; the last one counts; by import path if there is none. -/
def PathsIs (ps : List Str) : GenPathType → Prop
  | .byImport => "paths=source_relative".toList ∉ ps ∨
      ∃ before after, ps = before ++ "paths=import".toList :: after ∧ "paths=source_relative".toList ∉ after
  | .sourceRelative => ∃ before after, ps = before ++ "paths=source_relative".toList :: after ∧ "paths=import".toList ∉ after

/-- The parameter `Mfile=v` for this file, where the file may be written in different ways. -/
def Assigns (file v p : Str) : Prop := ∃ a, p = 'M' :: a ++ '=' :: v ∧ '=' ∉ a ∧ pathClean a = file

/-- The parameters give `v` as the Go package of a file; the last one counts. -/
def FlagIs (ps : List Str) (file v : Str) : Prop :=
  ∃ before p after, ps = before ++ p :: after ∧ Assigns file v p ∧ ∀ v', ∀ q ∈ after, ¬ Assigns file v' q

/-- What a text says about a Go package: its import path and its name, separated by a semicolon; if there is no name, it is the last element of the import path. -/
inductive GoPkg : Str → Str → Str → Prop
  | named (a b imp name : Str) : ';' ∉ a → Trimmed a imp → Trimmed b name → name ≠ [] → GoPkg (a ++ ';' :: b) imp name
  | single (s name : Str) : ';' ∉ s → Trimmed s name → name ≠ [] → '/' ∉ name → GoPkg s name name
  | last (s dir name : Str) : ';' ∉ s → Trimmed s (dir ++ '/' :: name) → name ≠ [] → '/' ∉ name → GoPkg s (dir ++ '/' :: name) name

/-- The Go package of a file: as given by the user, or else as given in the file. -/
def GoPackageOf (m option : Option Str) (imp name : Str) : Prop :=
  (∃ s, m = some s ∧ GoPkg s imp name) ∨ (m = none ∧ ∃ s, option = some s ∧ GoPkg s imp name)

end Verif.Spec.Gen
