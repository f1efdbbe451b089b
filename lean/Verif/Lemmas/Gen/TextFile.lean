import Verif.Lemmas.Gen.TextMessage
import Verif.Props.Gen.Imports
/-!
# The text of a file
-/
namespace Verif.Props
open Verif.Model.Gen Verif.Spec.Gen
namespace Gen

/-! ## The declarations -/

theorem linesRead_mapIdx {α : Type} {g : α → List GTok} : ∀ {l : List α} {f : Nat → α → List Str}, (∀ i x, l[i]? = some x → LinesRead (f i x) (g x)) →
    LinesRead (l.mapIdx f).flatten (l.flatMap g)
  | [], _, _ => linesRead_nil
  | x :: l, f, h => by
    rw [List.mapIdx_cons, List.flatten_cons, List.flatMap_cons]
    exact linesRead_append (h 0 x rfl) (linesRead_mapIdx fun i y hy => h (i + 1) y hy)

/-- The tokens of a message. -/
def msgToks (W : World) (o : GenOptions) (p : Nat) (c : Chain) : List GTok :=
  (messageDecls o (genStruct W p c) (genGetters W p c [] (namedFields c.msg)) ((List.range c.msg.oneofs.length).map fun k => (oneofFieldType c k, wrappersOf W p c k))).flatMap
    GoDecl.toks

mutual
theorem lines_msg {W : World} {o : GenOptions} {p : Nat} {notes : Notes} : ∀ (m : MsgDecl) (q : List Nat) (c : Chain),
    (∀ x ∈ msgChains c m, ∀ q, MessageOk W p notes q x) → LinesRead (msgLines W o p notes q c m) ((msgChains c m).flatMap (msgToks W o p))
  | .mk n es ms fs os ds opts rs, q, c, h => by
    rw [msgChains] at h
    rw [msgLines, msgChains, List.flatMap_cons]
    exact linesRead_append (lines_message o (h _ (List.mem_cons_self ..) q)) (lines_msgs ms q 0 _ fun x hx => h x (List.mem_cons_of_mem _ hx))
theorem lines_msgs {W : World} {o : GenOptions} {p : Nat} {notes : Notes} : ∀ (ms : List MsgDecl) (q : List Nat) (i : Nat) (c : Chain),
    (∀ x ∈ msgsChains c ms, ∀ q, MessageOk W p notes q x) → LinesRead (msgsLines W o p notes q i c ms) ((msgsChains c ms).flatMap (msgToks W o p))
  | [], _, _, _, _ => by
    rw [msgsLines, msgsChains]
    exact linesRead_nil
  | m :: ms, q, i, c, h => by
    rw [msgsChains] at h
    rw [msgsLines, msgsChains, List.flatMap_append]
    exact linesRead_cons (ts := []) linesRead_empty (linesRead_append (lines_msg m _ c fun x hx => h x (List.mem_append_left _ hx))
      (lines_msgs ms q (i + 1) c fun x hx => h x (List.mem_append_right _ hx)))
end

/-- What can be written as a file. -/
structure FileOk (W : World) (p : Nat) (notes : Notes) : Prop where
  enums : ∀ i e, (W.file p).enums[i]? = some e → EnumOk (W.file p) notes [0, i] [] e
  nested : ∀ j m, (W.file p).messages[j]? = some m → ∀ i e, m.enums[i]? = some e → EnumOk (W.file p) notes [1, j, 0, i] [m.name] e
  messages : ∀ c ∈ msgsChains [] (W.file p).messages, ∀ q, MessageOk W p notes q c

theorem lines_file {W : World} {p : Nat} {notes : Notes} (o : GenOptions) (h : FileOk W p notes) :
    LinesRead (protoLines W o p notes) ((fileDecls W o p).flatMap GoDecl.toks) := by
  have h1 : LinesRead ((W.file p).enums.mapIdx fun i e => [] :: enumLines (W.file p) notes [0, i] [] e).flatten
      ((W.file p).enums.flatMap fun e => (enumDecls (enumGen (W.file p) [] e)).flatMap GoDecl.toks) :=
    linesRead_mapIdx fun i e he => linesRead_cons (ts := []) linesRead_empty (lines_enum (h.enums i e he))
  have h2 : LinesRead ((W.file p).messages.mapIdx fun j m => (m.enums.mapIdx fun i e => [] :: enumLines (W.file p) notes [1, j, 0, i] [m.name] e).flatten).flatten
      ((W.file p).messages.flatMap fun m => m.enums.flatMap fun e => (enumDecls (enumGen (W.file p) [m.name] e)).flatMap GoDecl.toks) :=
    linesRead_mapIdx fun j m hm => linesRead_mapIdx fun i e he => linesRead_cons (ts := []) linesRead_empty (lines_enum (h.nested j m hm i e he))
  have h3 := lines_msgs (o := o) (W.file p).messages [] 0 [] h.messages
  unfold protoLines
  refine (linesRead_append (linesRead_append h1 h2) h3).cast ?_
  unfold fileDecls
  simp only [List.flatMap_append, List.flatMap_assoc]
  rfl

/-! ## Imports -/

/-- A line of pieces. -/
theorem lexes_line (ps : List Pc) (hf : fits ps = true) (hok : ∀ p ∈ ps, p.Ok) {rest : Str} {tr : List GTok} (hr : Lexes false rest tr) :
    Lexes false (render ps ('\n' :: rest)) (pcToks ps ++ (semis (after false ps) ++ tr)) := by
  refine render_lexes ?_ ps false hf hok (.newline _ _ _ hr)
  intro c hc
  cases hc
  exact .inl rfl

/-- An import that can be written: its path and its name. -/
structure ImportOk (e : Str × Str) : Prop where
  path : (Pc.str e.1).Ok
  name : e.2 = [] ∨ GoWord e.2

/-- The tokens of an import. -/
def specToks (e : Str × Str) : List GTok := (if e.2 = [] then [] else [.word e.2]) ++ [.str e.1, .semi]

theorem lexes_spec {e : Str × Str} (h : ImportOk e) {rest : Str} {tr : List GTok} (hr : Lexes false rest tr) :
    Lexes false (e.2 ++ ' ' :: quoted e.1 ++ '\n' :: rest) (specToks e ++ tr) := by
  obtain ⟨p, a⟩ := e
  have hp := h.path
  rcases h.name with ha | ha
  · subst ha
    have := lexes_line [.sp, .str p] (by rfl) (by pieces) hr
    simpa [render, pcToks, pcTok, after, semis, specToks, quoted] using this
  · have hw : (Pc.w a).Ok := ha
    have := lexes_line [.w a, .sp, .str p] (by rfl) (by pieces) hr
    have hne : a ≠ [] := (goWord_chars ha.ident).1
    simpa [render, pcToks, pcTok, after, semis, specToks, quoted, hne] using this

theorem lexes_lines (grouping : Str → Int) : ∀ {l : List (Str × Str)} {prev : Option Int}, (∀ e ∈ l, ImportOk e) → ∀ {rest : Str} {tr : List GTok}, Lexes false rest tr →
    Lexes false (importLines grouping prev l ++ rest) (l.flatMap specToks ++ tr)
  | [], _, _, _, _, hr => hr
  | (p, a) :: l, prev, h, rest, tr, hr => by
    have ih := lexes_lines grouping (l := l) (prev := some (grouping p)) (fun e he => h e (List.mem_cons_of_mem _ he)) hr
    have hs := lexes_spec (h (p, a) (List.mem_cons_self ..)) ih
    rw [importLines.eq_def, List.flatMap_cons]
    dsimp only
    have key : ∀ pre : Str, pre = [] ∨ pre = ['\n'] → Lexes false (pre ++ a ++ ' ' :: quoted p ++ '\n' :: importLines grouping (some (grouping p)) l ++ rest)
        (specToks (p, a) ++ l.flatMap specToks ++ tr) := by
      rintro pre (rfl | rfl)
      · simpa [List.append_assoc] using hs
      · simpa [List.append_assoc, semis] using Lexes.newline false _ _ hs
    refine key _ ?_
    split
    · split
      · exact .inr rfl
      · exact .inl rfl
    · exact .inl rfl

theorem lexes_import {p a : Str} (hi : ImportOk (p, a)) {rest : Str} {tr : List GTok} (hr : Lexes false rest tr) :
    Lexes false ("import ".toList ++ a ++ ' ' :: quoted p ++ '\n' :: rest) (importToks [(a, p)] ++ tr) := by
  have hp : (Pc.str p).Ok := hi.path
  have e1 : "import ".toList = "import".toList ++ [' '] := rfl
  rw [e1]
  rcases hi.name with ha | ha
  · have ha : a = [] := ha
    subst ha
    have e2 : importToks [([], p)] = [gw "import", .str p, .semi] := rfl
    rw [e2]
    have := lexes_line [.k "import", .sp, .sp, .str p] (by rfl) (by pieces) hr
    simp only [render, pcToks, pcTok, after, List.flatMap_cons, List.flatMap_nil, List.append_nil, List.nil_append, List.cons_append] at this
    simp only [quoted, List.append_assoc, List.cons_append, List.nil_append]
    exact this
  · have ha : GoWord a := ha
    have hw : (Pc.w a).Ok := ha
    have := lexes_line [.k "import", .sp, .w a, .sp, .str p] (by rfl) (by pieces) hr
    have hne : a ≠ [] := (goWord_chars ha.ident).1
    have e2 : importToks [(a, p)] = [gw "import", .word a, .str p, .semi] := by rw [importToks, if_neg hne]; rfl
    rw [e2]
    simp only [render, pcToks, pcTok, after, List.flatMap_cons, List.flatMap_nil, List.append_nil, List.nil_append, List.cons_append] at this
    simp only [quoted, List.append_assoc, List.cons_append, List.nil_append]
    exact this

/-- The imports of a file are read as imports, in some order. -/
theorem lexes_imports (grouping : Str → Int) (l : List (Str × Str)) (h : ∀ e ∈ l, ImportOk e) :
    ∃ l' : List (Str × Str), l'.Perm l ∧ ∀ {rest : Str} {tr : List GTok}, Lexes false rest tr →
      Lexes false (genImports grouping l ++ '\n' :: rest) (importToks (l'.map fun e => (e.2, e.1)) ++ tr) := by
  match l with
  | [] => exact ⟨[], .nil, fun hr => .newline false _ _ hr⟩
  | [(p, a)] =>
    refine ⟨[(p, a)], .refl _, fun {rest tr} hr => ?_⟩
    exact lexes_import (h (p, a) (List.mem_cons_self ..)) hr
  | x :: y :: l =>
    refine ⟨sortImports (importLess grouping) (x :: y :: l), sort_perm _ _, fun {rest tr} hr => ?_⟩
    have hp := sort_perm (importLess grouping) (x :: y :: l)
    generalize e : sortImports (importLess grouping) (x :: y :: l) = l' at hp
    have h3 := lexes_line [.o ")"] (by rfl) (by pieces) hr
    have h2 := lexes_lines grouping (l := l') (prev := none) (fun z hz => h z (hp.mem_iff.1 hz)) h3
    have h1 := lexes_line [.k "import", .sp, .o "("] (by rfl) (by pieces) h2
    have et : importToks (l'.map fun e => (e.2, e.1)) = gw "import" :: go "(" :: l'.flatMap specToks ++ [go ")", .semi] := by
      have hl := hp.length_eq
      match l', hl with
      | a :: b :: l', _ =>
        simp only [List.map_cons, importToks, List.flatMap_cons, List.flatMap_map, specToks]
        rfl
    rw [et]
    have ex : genImports grouping (x :: y :: l) = "import (\n".toList ++ importLines grouping none l' ++ [')'] := by rw [← e]; rfl
    rw [ex]
    have e1 : "import (\n".toList = "import".toList ++ (' ' :: ("(".toList ++ ['\n'])) := by decide
    rw [e1]
    simp only [render, pcToks, pcTok, after, semis, List.flatMap_cons, List.flatMap_nil, List.append_nil, List.nil_append] at h1
    simp only [List.append_assoc, List.cons_append, List.nil_append]
    exact h1

/-! ## The file -/

theorem argsQuote_mem {args : List Str} {c : Char} (h : c ∈ argsQuote args) : (∃ a ∈ args, c ∈ a) ∨ c = ' ' ∨ c = '\'' ∨ c = '\\' := by
  unfold argsQuote at h
  rcases mem_joinSpaces h with e | ⟨q, hq, hc⟩
  · exact .inr (.inl e)
  · obtain ⟨a, ha, rfl⟩ := List.mem_map.1 hq
    rcases mem_quoteArg hc with hc | e | e
    · exact .inl ⟨a, ha, hc⟩
    · exact .inr (.inr (.inl e))
    · exact .inr (.inr (.inr e))

/-- A file is read as its package clause, its imports and what its lines are read as. -/
theorem lexes_file {args : List Str} {pkg : Str} {lines : List Str} {ts : List GTok} {l : List (Str × Str)} (grouping : Str → Int)
    (ha : ∀ a ∈ args, ∀ c ∈ a, c ≠ '\n' ∧ c ≠ '{' ∧ Legal c) (hp : GoWord pkg) (hl : LinesRead lines ts) (hi : ∀ e ∈ l, ImportOk e) :
    ∃ l' : List (Str × Str), l'.Perm l ∧ Lexes false (fileText args pkg (genImports grouping l) lines)
      (gw "package" :: .word pkg :: .semi :: importToks (l'.map fun e => (e.2, e.1)) ++ ts) := by
  obtain ⟨l', hperm, him⟩ := lexes_imports grouping l hi
  refine ⟨l', hperm, ?_⟩
  have hchar : ∀ x ∈ pkg, wordChar x = true := by
    obtain ⟨c, r, rfl, h1, h2⟩ := hp.ident
    intro x hx
    rcases List.mem_cons.1 hx with rfl | hx
    · exact wordStart_char h1
    · exact h2 x hx
  have hnb : ∀ c : Char, wordChar c = false → c ∉ pkg := fun c hc hm => by rw [hchar c hm] at hc; cases hc
  rw [fileText_eq args pkg _ lines (fun a h hm => (ha a h _ hm).1 rfl) (fun a h hm => (ha a h _ hm).2.1 rfl) (hnb _ (by decide)) (hnb _ (by decide))]
  have hcode : (lines.map fun s => writeLine [] s).flatten = lines.foldl writeLine [] := by
    clear hl
    induction lines with
    | nil => rfl
    | cons s l ih => rw [List.foldl_cons, writeLines_append, ← ih, List.map_cons, List.flatten_cons]
  rw [hcode]
  have h0 := hl [] [] (.eof false)
  rw [List.append_nil, List.append_nil] at h0
  have h1 := him (Lexes.newline false _ _ h0)
  have hw : (Pc.w pkg).Ok := hp
  have h2 := lexes_line [.k "package", .sp, .w pkg] (by rfl) (by pieces) (Lexes.newline false _ _ h1)
  have h3 : Lexes false ('/' :: '/' :: (' ' :: argsQuote args ++ '\n' :: '\n' :: render [.k "package", .sp, .w pkg] ('\n' :: '\n' :: (genImports grouping l ++ '\n' :: '\n' ::
      lines.foldl writeLine [])))) _ :=
    .line false (' ' :: argsQuote args) _ _ (by
      intro c hc
      rcases List.mem_cons.1 hc with rfl | hc
      · decide
      · rcases argsQuote_mem hc with ⟨a, h1, h2⟩ | rfl | rfl | rfl
        · exact ⟨(ha a h1 c h2).1, (ha a h1 c h2).2.2⟩
        · decide
        · decide
        · decide) (by intro c hc; cases hc; rfl) (.newline false _ _ (.newline false _ _ h2))
  have h4 : Lexes false ('/' :: '/' :: (" Code generated by prutalgen. DO NOT EDIT.".toList ++ '\n' :: '/' :: '/' :: (' ' :: argsQuote args ++ '\n' :: '\n' ::
      render [.k "package", .sp, .w pkg] ('\n' :: '\n' :: (genImports grouping l ++ '\n' :: '\n' :: lines.foldl writeLine []))))) _ :=
    .line false " Code generated by prutalgen. DO NOT EDIT.".toList _ _ (by decide +kernel) (by intro c hc; cases hc; rfl) (.newline false _ _ h3)
  have e1 : "// Code generated by prutalgen. DO NOT EDIT.\n// ".toList = '/' :: '/' :: (" Code generated by prutalgen. DO NOT EDIT.".toList ++ '\n' :: '/' :: '/' :: [' ']) := by
    decide +kernel
  have e5 : "\n\n".toList = ['\n', '\n'] := rfl
  have e6 : "package ".toList = "package".toList ++ [' '] := rfl
  rw [e1, e5, e6]
  simp only [render, pcToks, pcTok, after, semis, List.flatMap_cons, List.flatMap_nil, List.append_nil, List.nil_append, List.cons_append] at h4
  simp only [List.append_assoc, List.cons_append, List.nil_append]
  exact h4

end Gen
end Verif.Props
