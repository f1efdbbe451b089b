import Verif.Model.Gen.Header
import Verif.Spec.Gen.Header
/-!
# C61: the start of generated files
-/
namespace Verif.Props
open Verif.Spec.Gen Verif.Model.Gen

namespace Gen

theorem safe_literal {c : Char} (h : shellSafe c = true) : Literal c ∧ c ≠ ' ' ∧ c ≠ '\'' ∧ c ≠ '\\' := by
  refine ⟨?_, ?_, ?_, ?_⟩
  · unfold shellSafe at h
    simp only [Bool.or_eq_true, decide_eq_true_eq] at h
    unfold Literal
    have key : isLower c = true ∨ isUpper c = true ∨ isDigit c = true → c.isAlphanum = true := by
      unfold isLower isUpper isDigit Char.isAlphanum Char.isAlpha Char.isUpper Char.isLower Char.isDigit
      simp only [Char.toNat, Bool.and_eq_true, decide_eq_true_eq, Bool.or_eq_true, ge_iff_le, UInt32.le_iff_toNat_le]
      have h1 : ('A' : Char).val.toNat = 65 := rfl
      have h2 : ('Z' : Char).val.toNat = 90 := rfl
      have h3 : ('a' : Char).val.toNat = 97 := rfl
      have h4 : ('z' : Char).val.toNat = 122 := rfl
      have h5 : ('0' : Char).val.toNat = 48 := rfl
      have h6 : ('9' : Char).val.toNat = 57 := rfl
      rw [h1, h2, h3, h4, h5, h6]
      omega
    simp only [List.mem_cons]
    rcases h with (((((((h | h) | h) | h) | h) | h) | h) | h)
    · exact .inl (key (.inl h))
    · exact .inl (key (.inr (.inl h)))
    · exact .inl (key (.inr (.inr h)))
    all_goals exact .inr (by simp [h])
  all_goals intro e; subst e; revert h; decide

theorem split_safe : ∀ (a : Str) (w : Option Str) (s : Str), a ≠ [] → a.all shellSafe = true →
    shellSplit .plain w (a ++ s) = shellSplit .plain (some (w.getD [] ++ a)) s
  | [], _, _, h, _ => absurd rfl h
  | c :: a, w, s, _, h => by
    rw [List.all_cons, Bool.and_eq_true] at h
    obtain ⟨h1, h2, h3, h4⟩ := safe_literal h.1
    rw [List.cons_append, shellSplit]
    simp only [if_false, h2, h3, h4, h1, if_true]
    by_cases ha : a = []
    · subst ha
      rfl
    · rw [split_safe a _ s ha h.2]
      simp

theorem split_quoted : ∀ (a : Str) (w s : Str), '\'' ∉ a → shellSplit .quoted (some w) (a ++ '\'' :: s) = shellSplit .plain (some (w ++ a)) s
  | [], w, s, _ => by
    rw [List.nil_append, shellSplit]
    simp
  | c :: a, w, s, h => by
    simp only [List.mem_cons, not_or] at h
    rw [List.cons_append, shellSplit]
    simp only [if_neg (Ne.symm h.1)]
    rw [Option.getD_some, split_quoted a _ s h.2]
    simp

theorem replace_none {a : Str} (h : '\'' ∉ a) : (a.flatMap fun c => if c = '\'' then ['\\', '\''] else [c]) = a := by
  induction a with
  | nil => rfl
  | cons c a ih =>
    simp only [List.mem_cons, not_or] at h
    rw [List.flatMap_cons, ih h.2, if_neg (Ne.symm h.1)]
    rfl

theorem split_arg {a : Str} (h : '\'' ∉ a) (s : Str) : shellSplit .plain none (quoteArg a ++ s) = shellSplit .plain (some a) s := by
  unfold quoteArg
  split
  · rename_i hs
    rw [split_safe a none s hs.1 hs.2]
    rfl
  · rw [replace_none h, List.cons_append, List.cons_append, shellSplit]
    simp only [if_false, if_true, show ('\'' : Char) ≠ ' ' by decide, List.append_assoc, List.singleton_append]
    rw [split_quoted a _ s h]
    rfl

theorem split_args : ∀ (args : List Str), (∀ a ∈ args, '\'' ∉ a) → shellSplit .plain none (joinSpaces (args.map quoteArg)) = some args
  | [], _ => rfl
  | [a], h => by
    have := split_arg (h a (by simp)) []
    rw [List.append_nil] at this
    rw [List.map_singleton, joinSpaces, this]
    rfl
  | a :: b :: l, h => by
    rw [List.map_cons, List.map_cons, joinSpaces, split_arg (h a (by simp)), shellSplit]
    simp only [if_true]
    rw [← List.map_cons, split_args (b :: l) (fun x hx => h x (List.mem_cons_of_mem _ hx))]
    rfl

theorem mem_quoteArg {a : Str} {c : Char} (h : c ∈ quoteArg a) : c ∈ a ∨ c = '\'' ∨ c = '\\' := by
  unfold quoteArg at h
  split at h
  · exact .inl h
  · simp only [List.cons_append, List.mem_cons, List.mem_append, List.mem_flatMap, List.not_mem_nil, or_false] at h
    rcases h with h | ⟨d, hd, h⟩ | h
    · exact .inr (.inl h)
    · split at h
      · simp only [List.mem_cons, List.not_mem_nil, or_false] at h
        exact .inr h.symm
      · rw [List.mem_singleton.1 h]
        exact .inl hd
    · exact .inr (.inl h)

theorem mem_joinSpaces {c : Char} : ∀ {l : List Str}, c ∈ joinSpaces l → c = ' ' ∨ ∃ a ∈ l, c ∈ a
  | [], h => by cases h
  | [a], h => .inr ⟨a, by simp, h⟩
  | a :: b :: l, h => by
    rw [joinSpaces, List.mem_append, List.mem_cons] at h
    rcases h with h | h | h
    · exact .inr ⟨a, by simp, h⟩
    · exact .inl h
    · rcases mem_joinSpaces h with h | ⟨x, hx, h⟩
      · exact .inl h
      · exact .inr ⟨x, List.mem_cons_of_mem _ hx, h⟩

theorem not_mem_args {c : Char} {args : List Str} (h1 : c ≠ ' ') (h2 : c ≠ '\'') (h3 : c ≠ '\\') (h : ∀ a ∈ args, c ∉ a) : c ∉ argsQuote args := by
  intro hc
  unfold argsQuote at hc
  rcases mem_joinSpaces hc with e | ⟨q, hq, hc⟩
  · exact h1 e
  · obtain ⟨a, ha, rfl⟩ := List.mem_map.1 hq
    rcases mem_quoteArg hc with hc | e | e
    · exact h a ha hc
    · exact h2 e
    · exact h3 e

theorem replaceFirst_skip {old new s : Str} {c : Char} (hc : old.head? = some c) : ∀ {t : Str}, c ∉ t → replaceFirst old new (t ++ old ++ s) = t ++ new ++ s
  | [], _ => by
    cases old with
    | nil => cases hc
    | cons d old =>
      rw [List.nil_append, List.cons_append, replaceFirst, if_pos (by rw [← List.cons_append, List.isPrefixOf_iff_prefix]; exact List.prefix_append ..),
        ← List.cons_append, List.drop_left]
      rfl
  | d :: t, h => by
    simp only [List.mem_cons, not_or] at h
    rw [List.cons_append, List.cons_append, replaceFirst, if_neg, replaceFirst_skip hc h.2]
    · rfl
    · cases old with
      | nil => cases hc
      | cons e old =>
        cases hc
        rw [List.isPrefixOf_iff_prefix, List.cons_prefix_cons]
        exact fun hh => h.1 hh.1

theorem writeLine_append (buf s : Str) (h : s ≠ []) : writeLine buf s = buf ++ writeLine [] s := by
  unfold writeLine
  cases s with
  | nil => exact absurd rfl h
  | cons c s =>
    dsimp only
    have e : (buf ++ c :: s).getLast? = (c :: s).getLast? := by rw [List.getLast?_append]; cases hh : (c :: s).getLast? with
      | none => rw [List.getLast?_eq_none_iff] at hh; cases hh
      | some x => rfl
    rw [e, List.nil_append]
    split
    · rfl
    · simp

theorem writeLine_nil (buf : Str) : writeLine buf [] = buf ++ ['\n'] := rfl

theorem writeLines_append : ∀ (lines : List Str) (buf : Str), lines.foldl writeLine buf = buf ++ lines.foldl writeLine []
  | [], buf => by simp
  | s :: l, buf => by
    rw [List.foldl_cons, List.foldl_cons, writeLines_append l, writeLines_append l (writeLine [] s)]
    by_cases h : s = []
    · subst h
      rw [writeLine_nil, writeLine_nil]
      simp
    · rw [writeLine_append buf s h]
      simp

theorem writeLine_plain {s : Str} (h : s ≠ []) (hn : '\n' ∉ s) (buf : Str) : writeLine buf s = buf ++ s ++ ['\n'] := by
  rw [writeLine_append buf s h]
  unfold writeLine
  cases s with
  | nil => exact absurd rfl h
  | cons c s =>
    dsimp only
    rw [if_neg]
    · simp
    · rw [List.nil_append]
      intro e
      exact hn (List.mem_of_getLast? e)

/-- The text of a file, put together. -/
theorem fileText_eq (args : List Str) (pkg imports : Str) (lines : List Str) (hn : ∀ a ∈ args, '\n' ∉ a) (hb : ∀ a ∈ args, '{' ∉ a) (hpn : '\n' ∉ pkg)
    (hpb : '{' ∉ pkg) : fileText args pkg imports lines = "// Code generated by prutalgen. DO NOT EDIT.\n// ".toList ++ argsQuote args ++ "\n\n".toList ++ "package ".toList ++ pkg ++
      "\n\n".toList ++ imports ++ "\n\n".toList ++ (lines.map fun s => writeLine [] s).flatten := by
  have hq : '\n' ∉ argsQuote args := not_mem_args (by decide) (by decide) (by decide) hn
  have hqb : '{' ∉ argsQuote args := not_mem_args (by decide) (by decide) (by decide) hb
  have hcode : lines.foldl writeLine [] = (lines.map fun s => writeLine [] s).flatten := by
    induction lines with
    | nil => rfl
    | cons s l ih => rw [List.foldl_cons, writeLines_append, ih, List.map_cons, List.flatten_cons]
  have hstart : writerStart (fileHeader args) pkg =
      "// Code generated by prutalgen. DO NOT EDIT.\n// ".toList ++ argsQuote args ++ "\n\n".toList ++ "package ".toList ++ pkg ++ "\n\n".toList ++
      importPlaceHolder ++ "\n\n".toList := by
    have e1 : writeLine [] (fileHeader args) = "// Code generated by prutalgen. DO NOT EDIT.\n// ".toList ++ argsQuote args ++ ['\n'] := by
      unfold fileHeader
      generalize he : "// Code generated by prutalgen. DO NOT EDIT.\n// ".toList = m
      have hm : m ≠ [] ∧ m.getLast? ≠ some '\n' := by rw [← he]; decide +kernel
      have hx : m ++ argsQuote args ≠ [] := by simp [hm.1]
      have hl : (m ++ argsQuote args).getLast? ≠ some '\n' := by
        rw [List.getLast?_append]
        cases hh : (argsQuote args).getLast? with
        | none => exact hm.2
        | some c =>
          intro e
          simp only [Option.some_or, Option.some.injEq] at e
          subst e
          exact hq (List.mem_of_getLast? hh)
      unfold writeLine
      split
      · rename_i h
        exact absurd h hx
      · rw [List.nil_append, if_neg hl]
    have e2 : ∀ buf, writeLine buf ("package ".toList ++ pkg) = buf ++ ("package ".toList ++ pkg) ++ ['\n'] := by
      intro buf
      refine writeLine_plain (by simp) ?_ buf
      rw [List.mem_append, not_or]
      exact ⟨by decide +kernel, hpn⟩
    have e3 : ∀ buf, writeLine buf importPlaceHolder = buf ++ importPlaceHolder ++ ['\n'] :=
      writeLine_plain (by decide +kernel) (by decide +kernel)
    have e4 : fileHeader args ≠ [] := by unfold fileHeader; simp
    have e5 : "\n\n".toList = ['\n', '\n'] := rfl
    unfold writerStart
    dsimp only
    rw [if_pos e4, e1, writeLine_nil, e2, writeLine_nil, e3, writeLine_nil, e5]
    simp only [List.append_assoc, List.singleton_append, List.cons_append, List.nil_append]
  unfold fileText writerBytes
  rw [writeLines_append, hcode, hstart]
  have := replaceFirst_skip (old := importPlaceHolder) (new := imports) (s := "\n\n".toList ++ (lines.map fun s => writeLine [] s).flatten) (c := '{') rfl
    (t := "// Code generated by prutalgen. DO NOT EDIT.\n// ".toList ++ argsQuote args ++ "\n\n".toList ++ "package ".toList ++ pkg ++ "\n\n".toList) (by
      simp only [List.mem_append, not_or]
      exact ⟨⟨⟨⟨⟨by decide +kernel, hqb⟩, by decide +kernel⟩, by decide +kernel⟩, hpb⟩, by decide +kernel⟩)
  simp only [List.append_assoc] at this ⊢
  exact this

end Gen

open Gen

/-- The command line in the header of a generated file is read by a shell as the arguments of the program.  Missing: arguments with a single quote
(`C61_quote_violated`). -/
theorem C61_command_partial (args : List Str) (h : ∀ a ∈ args, '\'' ∉ a) : shellWords (argsQuote args) = some args :=
  split_args args h

/-- A generated file starts with the line by which tools recognise generated Go code, followed by the command line as a comment, the package clause, and the
import declaration; then the code as it was written.  Missing: arguments with newlines (`C61_newline_violated`), or with the text that stands for the imports
(`C61_placeholder_violated`). -/
theorem C61_file_partial (args : List Str) (pkg imports : Str) (lines : List Str) (hn : ∀ a ∈ args, '\n' ∉ a) (hb : ∀ a ∈ args, '{' ∉ a) (hpn : '\n' ∉ pkg)
    (hpb : '{' ∉ pkg) :
    ∃ code, AfterComments (fileText args pkg imports lines) ('\n' :: "package ".toList ++ pkg ++ "\n\n".toList ++ imports ++ "\n\n".toList ++ code) ∧
      "// Code generated by prutalgen. DO NOT EDIT.\n".toList <+: fileText args pkg imports lines ∧
      "// Code generated by prutalgen. DO NOT EDIT.\n// ".toList ++ argsQuote args ++ ['\n'] <+: fileText args pkg imports lines ∧
      code = (lines.map fun s => writeLine [] s).flatten := by
  have hq : '\n' ∉ argsQuote args := not_mem_args (by decide) (by decide) (by decide) hn
  have htext := fileText_eq args pkg imports lines hn hb hpn hpb
  refine ⟨_, ?_, ?_, ?_, rfl⟩
  · rw [htext]
    have e1 : "// Code generated by prutalgen. DO NOT EDIT.\n// ".toList = '/' :: '/' :: " Code generated by prutalgen. DO NOT EDIT.".toList ++ '\n' :: ('/' :: '/' :: [' ']) := by
      decide +kernel
    have e5 : "\n\n".toList = ['\n', '\n'] := rfl
    have := AfterComments.line " Code generated by prutalgen. DO NOT EDIT.".toList _ _ (by decide +kernel)
      (AfterComments.line (' ' :: argsQuote args) _ _ (by simp only [List.mem_cons, not_or]; exact ⟨by decide, hq⟩)
        (AfterComments.done ('\n' :: "package ".toList ++ pkg ++ "\n\n".toList ++ imports ++ "\n\n".toList ++ (lines.map fun s => writeLine [] s).flatten)))
    rw [e1]
    rw [e5] at this ⊢
    simp only [List.append_assoc, List.cons_append, List.nil_append] at this ⊢
    exact this
  · rw [htext]
    have e1 : "// Code generated by prutalgen. DO NOT EDIT.\n// ".toList = "// Code generated by prutalgen. DO NOT EDIT.\n".toList ++ "// ".toList := by decide +kernel
    rw [e1]
    simp only [List.append_assoc]
    exact List.prefix_append ..
  · rw [htext]
    have e5 : "\n\n".toList = ['\n'] ++ ['\n'] := rfl
    rw [e5]
    refine ⟨['\n'] ++ ("package ".toList ++ (pkg ++ (['\n'] ++ (['\n'] ++ (imports ++ (['\n'] ++ (['\n'] ++ (lines.map fun s => writeLine [] s).flatten))))))), ?_⟩
    simp only [List.append_assoc]

/-- The hypotheses are met by a usual command line. -/
example : (∀ a ∈ ["prutalgen".toList, "--go_out=my dir".toList, "a$b.proto".toList], '\'' ∉ a ∧ '\n' ∉ a ∧ '{' ∉ a) ∧
    argsQuote ["prutalgen".toList, "--go_out=my dir".toList, "a$b.proto".toList] = "prutalgen '--go_out=my dir' 'a$b.proto'".toList ∧
    shellWords "prutalgen '--go_out=my dir' 'a$b.proto'".toList = some ["prutalgen".toList, "--go_out=my dir".toList, "a$b.proto".toList] := by
  decide +kernel

/-- Violation of C61: there is no `\'` between single quotes in a shell.  The command line in the header cannot be repeated. -/
theorem C61_quote_violated : shellWords (argsQuote ["prutalgen".toList, "it's.proto".toList]) = none := by decide +kernel

/-- Violation of C61: an argument with a newline ends the comment, and the rest of it becomes Go code. -/
theorem C61_newline_violated : ∃ before, fileText ["prutalgen".toList, "a\nb".toList] "p".toList [] [] = before ++ "\nb'\n\npackage p\n".toList ++ "\n\n\n".toList := by
  refine ⟨"// Code generated by prutalgen. DO NOT EDIT.\n// prutalgen 'a".toList, ?_⟩
  decide +kernel

/-- Violation of C61: the imports are put where an argument contains the text that stands for them, and not where they belong. -/
theorem C61_placeholder_violated : fileText ["prutalgen".toList, "{PRUTALGEN_GO_IMPORTS}".toList] "p".toList "import  \"x/q\"".toList [] =
    "// Code generated by prutalgen. DO NOT EDIT.\n// prutalgen 'import  \"x/q\"'\n\npackage p\n\n{PRUTALGEN_GO_IMPORTS}\n\n".toList := by decide +kernel

end Verif.Props
