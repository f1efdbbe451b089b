import Verif.Model.Gen.Ast
/-!
# Specification: command lines in a shell
-/
namespace Verif.Spec.Gen
open Verif.Model.Gen (Str)

/-- Characters that stand for themselves in a POSIX shell.  (There are more.) -/
def Literal (c : Char) : Prop := c.isAlphanum = true ∨ c ∈ ['-', '_', '.', '=', '/', ',', ':', '@', '%', '+']

instance (c : Char) : Decidable (Literal c) := inferInstanceAs (Decidable (_ ∨ _))

/-- The end of a word. -/
def flush (word : Option Str) (rest : List Str) : List Str :=
  match word with
  | some w => w :: rest
  | none => rest

/-- Where the shell is: outside of quotes, between single quotes, behind a backslash. -/
inductive ShellMode
  | plain
  | quoted
  | escaped

/-- How a POSIX shell splits a command line into words, by the rules for blanks, backslashes and single quotes; `none` when a quote is not closed, and
also for characters with another meaning (these rules do not say what the shell does then).  `word`: the word so far. -/
def shellSplit : ShellMode → Option Str → Str → Option (List Str)
  | .plain, word, [] => some (flush word [])
  | .quoted, _, [] => none
  | .escaped, _, [] => none
  | .quoted, word, c :: s => if c = '\'' then shellSplit .plain word s else shellSplit .quoted (some (word.getD [] ++ [c])) s
  | .escaped, word, c :: s => if c = '\n' then none else shellSplit .plain (some (word.getD [] ++ [c])) s
  | .plain, word, c :: s =>
    if c = ' ' then (shellSplit .plain none s).map (flush word)
    else if c = '\'' then shellSplit .quoted (some (word.getD [])) s
    else if c = '\\' then shellSplit .escaped (some (word.getD [])) s
    else if Literal c then shellSplit .plain (some (word.getD [] ++ [c])) s
    else none

/-- The words of a command line. -/
def shellWords (s : Str) : Option (List Str) := shellSplit .plain none s

/-- The text starts with lines that are line comments of Go, then comes `rest`. -/
inductive AfterComments : Str → Str → Prop
  | done (rest : Str) : AfterComments rest rest
  | line (t s rest : Str) : '\n' ∉ t → AfterComments s rest → AfterComments ('/' :: '/' :: t ++ '\n' :: s) rest

end Verif.Spec.Gen
