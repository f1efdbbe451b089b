import Verif.Model.Gen.Search
import Verif.Spec.Gen.Paths
/-!
# Specification: which file an import path means, and what is loaded
-/
namespace Verif.Spec.Gen
open Verif.Model.Gen

/-! ## Walking through directories

A place in the file system is the list of the names on the way from the root. -/

/-- One step, by an element of a path. -/
def walkStep (place : List Str) (w : Str) : List Str :=
  if w = [] ∨ w = ['.'] then place else if w = ['.', '.'] then place.dropLast else place ++ [w]

/-- The place to which a path leads from another place. -/
def walk (place : List Str) (s : Str) : List Str := (parts '/' s).foldl walkStep place

/-- The place to which a path leads from the working directory; paths with a slash at the beginning start at the root. -/
def placeOf (cwd : List Str) (s : Str) : List Str := if s.head? = some '/' then walk [] s else walk cwd s

/-- The absolute path of a place. -/
def absName : List Str → Str
  | [] => ['/']
  | w :: l => (w :: l).flatMap ('/' :: ·)

/-- Where a file is looked for in an include directory; the empty text stands for no directory. -/
def candidate (cwd : List Str) (dir file : Str) : List Str := if dir = [] then placeOf cwd file else walk (placeOf cwd dir) file

/-- Which file an import path means: the embedded one of that name; or the one in the first include directory that has it, or else the one named by the path
itself. -/
inductive MeansFile (fs : Files) (cwd : List Str) (includes : List Str) : Str → Str → Prop
  | embedded (q : Str) : fs.embedded q ≠ none → MeansFile fs cwd includes q q
  | found (before after : List Str) (dir q : Str) : fs.embedded q = none → includes ++ [[]] = before ++ dir :: after →
      fs.stat (absName (candidate cwd dir q)) = true → (∀ d ∈ before, fs.stat (absName (candidate cwd d q)) = false) →
      MeansFile fs cwd includes q (absName (candidate cwd dir q))

/-- What is in a file. -/
def Contains (fs : Files) (f : Str) (src : Source) : Prop := fs.embedded f = some (some src) ∨ fs.embedded f = none ∧ fs.read f = some src

/-- The import paths that have to be looked up to load a file. -/
inductive Asked (fs : Files) (cwd : List Str) (includes : List Str) (root : Str) : Str → Prop
  | root : Asked fs cwd includes root root
  | import (q f q' : Str) (src : Source) : Asked fs cwd includes root q → MeansFile fs cwd includes q f → Contains fs f src → q' ∈ src.imports →
      Asked fs cwd includes root q'

/-- The files needed to load a file. -/
def Needed (fs : Files) (cwd : List Str) (includes : List Str) (root f : Str) : Prop :=
  ∃ q, Asked fs cwd includes root q ∧ MeansFile fs cwd includes q f

/-- A file has an import statement for another file. -/
def DirectImport (fs : Files) (cwd : List Str) (includes : List Str) (f g : Str) : Prop :=
  ∃ src q, Contains fs f src ∧ q ∈ src.imports ∧ MeansFile fs cwd includes q g

/-- A file imports another one, directly or not. -/
inductive Reaches (fs : Files) (cwd : List Str) (includes : List Str) : Str → Str → Prop
  | one (f g : Str) : DirectImport fs cwd includes f g → Reaches fs cwd includes f g
  | more (f g h : Str) : DirectImport fs cwd includes f g → Reaches fs cwd includes g h → Reaches fs cwd includes f h

/-- What the user says about the Go package of the file meant by an import path; nothing can be said about embedded files. -/
def userPackage (fs : Files) (m : Str → Option Str) (q : Str) : Option Str := if fs.embedded q = none then m q else none

/-- The working directory, as a list of names. -/
structure Cwd (fs : Files) (cwd : List Str) : Prop where
  path : fs.cwd = absName cwd
  names : ∀ w ∈ cwd, Plain w
  /-- Embedded files have relative names. -/
  embedded : ∀ q, fs.embedded q ≠ none → q.head? ≠ some '/'

end Verif.Spec.Gen
