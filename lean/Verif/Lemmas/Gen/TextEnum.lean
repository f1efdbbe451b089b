import Verif.Lemmas.Gen.TextDecls
import Verif.Props.Gen.Comments
/-!
# The text of enums
-/
namespace Verif.Props
open Verif.Model.Gen Verif.Spec.Gen
namespace Gen

theorem ok_nil : ∀ p ∈ ([] : List Pc), p.Ok := fun _ h => nomatch h
theorem ok_cons {p : Pc} {ps : List Pc} (h : p.Ok) (h' : ∀ q ∈ ps, q.Ok) : ∀ q ∈ p :: ps, q.Ok := fun q hq => by
  rcases List.mem_cons.1 hq with rfl | hq
  · exact h
  · exact h' q hq

/-- Fixed pieces, and pieces for which there is an assumption. -/
macro "pieces" : tactic => `(tactic| (repeat (first | exact ok_nil | (refine ok_cons (by first | exact trivial | assumption) ?_))))

/-- Sequences of tokens that are equal up to associativity and evaluation. -/
macro "tokens" : tactic => `(tactic| (simp only [pcToks, List.flatMap_cons, List.flatMap_nil, pcTok, List.append_assoc, List.cons_append, List.nil_append, List.append_nil] <;> rfl))

theorem LinesRead.cast {l : List Str} {ts ts' : List GTok} (h : LinesRead l ts) (e : ts = ts') : LinesRead l ts' := e ▸ h

theorem line_type {n note : Str} (hn : GoWord n) (hc : note = [] ∨ GoComment note) (hp : ∀ c ∈ note, c ≠ '%') :
    LinesRead [enumTypeLine n note] [gw "type", .word n, gw "int32", .semi] := by
  rw [C59_enum_line_partial n note hp]
  exact linesRead_note [.k "type", .sp, .w n, .sp, .k "int32"] (by simp [render]) hc (by simp) (by rfl) (by pieces)

theorem line_const {a n note : Str} {i : Int} (ha : GoWord a) (hn : GoWord n) (hc : note = [] ∨ GoComment note) :
    LinesRead [lineOf "%s %s = %d %s" [a, n, itoa i, note]] (.word a :: .word n :: go "=" :: intToks i ++ [.semi]) := by
  have hi := itoa_pc i
  exact (linesRead_note (note := note) [.w a, .sp, .w n, .sp, .o "=", .sp, .frag (itoa i) (intToks i), .sp] (by simp [render, lineOf, fill]) hc (by simp) (by rfl)
    (by pieces)).cast (by tokens)

theorem line_open : LinesRead [lineOf "const (" []] [gw "const", go "("] :=
  linesRead_pcs [.k "const", .sp, .o "("] (by rfl) (by simp) (by rfl) (by pieces)

theorem line_close : LinesRead [lineOf ")" []] [go ")", .semi] := linesRead_pcs [.o ")"] (by rfl) (by simp) (by rfl) (by pieces)

theorem line_brace : LinesRead [lineOf "}" []] [go "}", .semi] := linesRead_pcs [.o "}"] (by rfl) (by simp) (by rfl) (by pieces)

/-- A line comment made of a name. -/
theorem line_comment {s : Str} (h : GoComment s) : LinesRead [s] [] :=
  linesRead_line (comment_shape h).1 (comment_shape h).2.1 fun _ _ hr => comment_eol h false hr

theorem ident_legal {c : Char} (h : IdentChar c) : c ≠ '\n' ∧ Legal c := by
  constructor
  · exact wordChar_newline (identChar_word h)
  · constructor
    · rintro rfl
      exact absurd (identChar_word h) (by decide)
    · rintro rfl
      exact absurd (identChar_word h) (by decide)

/-- A literal text and a name. -/
theorem comment_name {a s : Str} (ha : ∀ c ∈ a, c ≠ '\n' ∧ Legal c) (h : ∀ x ∈ s, IdentChar x) {z : Str} (hz : ∀ c ∈ z, c ≠ '\n' ∧ Legal c) :
    GoComment ('/' :: '/' :: (a ++ (s ++ z))) := by
  refine .line _ fun c hc => ?_
  rcases List.mem_append.1 hc with hc | hc
  · exact ha c hc
  · rcases List.mem_append.1 hc with hc | hc
    · exact ident_legal (h c hc)
    · exact hz c hc

theorem line_maps {n : Str} (h : ∀ x ∈ n, IdentChar x) : LinesRead [lineOf "\n// Enum value maps for %s." [n]] [] := by
  have hc := comment_name (a := " Enum value maps for ".toList) (s := n) (z := ".".toList) (by decide +kernel) h (by decide +kernel)
  have e : lineOf "\n// Enum value maps for %s." [n] = '\n' :: ('/' :: '/' :: (" Enum value maps for ".toList ++ (n ++ ".".toList))) := by simp [lineOf, fill]
  rw [e]
  have h' := last_append (s := ['\n']) ⟨(comment_shape hc).1, (comment_shape hc).2.1⟩
  exact linesRead_line h'.1 h'.2 fun _ _ hr => .newline false _ _ (comment_eol hc false hr)

theorem line_nameVar {n : Str} (hn : GoWord (n ++ "_name".toList)) :
    LinesRead [lineOf "var %s_name = map[int32]string {" [n]] [gw "var", .word (n ++ "_name".toList), go "=", gw "map", go "[", gw "int32", go "]", gw "string", go "{"] :=
  linesRead_pcs [.k "var", .sp, .suf n "_name", .sp, .o "=", .sp, .k "map", .o "[", .k "int32", .o "]", .k "string", .sp, .o "{"] (by simp [render, lineOf, fill]) (by simp)
    (by rfl) (by pieces)

theorem line_valueVar {n : Str} (hn : GoWord (n ++ "_value".toList)) :
    LinesRead [lineOf "var %s_value = map[string]int32 {" [n]] [gw "var", .word (n ++ "_value".toList), go "=", gw "map", go "[", gw "string", go "]", gw "int32", go "{"] :=
  linesRead_pcs [.k "var", .sp, .suf n "_value", .sp, .o "=", .sp, .k "map", .o "[", .k "string", .o "]", .k "int32", .sp, .o "{"] (by simp [render, lineOf, fill]) (by simp)
    (by rfl) (by pieces)

theorem str_ok {s : Str} (h : ∀ x ∈ s, IdentChar x) : (Pc.str s).Ok := by
  intro c hc
  have hw := identChar_word (h c hc)
  refine ⟨?_, ?_, (ident_legal (h c hc)).1, (ident_legal (h c hc)).2⟩
  · rintro rfl
    exact absurd hw (by decide)
  · rintro rfl
    exact absurd hw (by decide)

theorem line_name {s : Str} {i : Int} (h : ∀ x ∈ s, IdentChar x) : LinesRead [lineOf "%d: %q," [itoa i, quoted s]] (intToks i ++ [go ":", .str s, go ","]) := by
  have hi := itoa_pc i
  have hs := str_ok h
  exact (linesRead_pcs [.frag (itoa i) (intToks i), .o ":", .sp, .str s, .o ","] (by simp [render, lineOf, fill, quoted]) (by simp) (by rfl) (by pieces)).cast (by tokens)

theorem line_value {s : Str} {i : Int} (h : ∀ x ∈ s, IdentChar x) : LinesRead [lineOf "%q: %d," [quoted s, itoa i]] (.str s :: go ":" :: intToks i ++ [go ","]) := by
  have hi := itoa_pc i
  have hs := str_ok h
  exact (linesRead_pcs [.str s, .o ":", .sp, .frag (itoa i) (intToks i), .o ","] (by simp [render, lineOf, fill, quoted]) (by simp) (by rfl) (by pieces)).cast (by tokens)

theorem lines_stringer {n : Str} (hn : GoWord n) (hn' : GoWord (n ++ "_name".toList)) :
    LinesRead [lineOf "func (x %s) String() string {" [n], lineOf "s, ok := %s_name[int32(x)]" [n], lineOf "if ok { return s }" [],
      lineOf "return strconv.Itoa(int(x))" [], lineOf "}" []] (GoDecl.stringer n (n ++ "_name".toList)).toks := by
  have h1 := linesRead_pcs (s := lineOf "func (x %s) String() string {" [n]) [.k "func", .sp, .o "(", .k "x", .sp, .w n, .o ")", .sp, .k "String", .o "(", .o ")", .sp,
    .k "string", .sp, .o "{"] (by rfl) (by simp) (by rfl) (by pieces)
  have h2 := linesRead_pcs (s := lineOf "s, ok := %s_name[int32(x)]" [n]) [.k "s", .o ",", .sp, .k "ok", .sp, .o ":=", .sp, .suf n "_name", .o "[", .k "int32", .o "(", .k "x",
    .o ")", .o "]"] (by rfl) (by simp) (by rfl) (by pieces)
  have h3 := linesRead_pcs (s := lineOf "if ok { return s }" []) [.k "if", .sp, .k "ok", .sp, .o "{", .sp, .k "return", .sp, .k "s", .sp, .o "}"] (by rfl) (by simp) (by rfl)
    (by pieces)
  have h4 := linesRead_pcs (s := lineOf "return strconv.Itoa(int(x))" []) [.k "return", .sp, .k "strconv", .o ".", .k "Itoa", .o "(", .k "int", .o "(", .k "x", .o ")", .o ")"]
    (by rfl) (by simp) (by rfl) (by pieces)
  exact (linesRead_cons h1 (linesRead_cons h2 (linesRead_cons h3 (linesRead_cons h4 line_brace)))).cast (by tokens)

theorem lines_consts {p : FileDecl} {parent : List Str} {e : EnumDecl} {notes : Nat → Note} (hn : GoWord (goTypeName (parent ++ [e.name]))) (hnotes : ∀ i, GoNote (notes i)) :
    ∀ (fs : List EnumField) (i : Nat), (∀ f ∈ fs, GoWord (enumConst p parent e f)) →
    LinesRead (constLines p parent e notes i fs)
      ((fs.map fun f => (enumConst p parent e f, goTypeName (parent ++ [e.name]), f.value)).flatMap fun c => .word c.1 :: .word c.2.1 :: go "=" :: intToks c.2.2 ++ [.semi])
  | [], _, _ => linesRead_nil
  | f :: fs, i, h => by
    rw [constLines, List.map_cons, List.flatMap_cons]
    have ih := lines_consts hn hnotes fs (i + 1) fun g hg => h g (List.mem_cons_of_mem _ hg)
    have hl := line_const (i := f.value) (h f (List.mem_cons_self ..)) hn (hnotes i).inline
    refine linesRead_append (ts := []) ?_ (linesRead_cons hl ih)
    split
    · next hne =>
      have hh := linesRead_head (hnotes i).head
      rw [headLine, if_pos hne] at hh
      split
      · exact linesRead_append (ts := []) linesRead_empty hh
      · exact hh
    · exact linesRead_nil

theorem lines_names : ∀ (fs : List EnumField) (seen : List Int), (∀ f ∈ fs, ∀ x ∈ f.name, IdentChar x) →
    LinesRead (nameLines seen fs) ((nameTable seen fs).flatMap fun e => intToks e.1 ++ [go ":", .str e.2, go ","])
  | [], _, _ => linesRead_nil
  | f :: fs, seen, h => by
    have h' : ∀ g ∈ fs, ∀ x ∈ g.name, IdentChar x := fun g hg => h g (List.mem_cons_of_mem _ hg)
    rw [nameLines, nameTable]
    split
    · exact lines_names fs seen h'
    · rw [List.flatMap_cons]
      exact linesRead_cons (line_name (h f (List.mem_cons_self ..))) (lines_names fs _ h')

theorem lines_values (fs : List EnumField) (h : ∀ f ∈ fs, ∀ x ∈ f.name, IdentChar x) :
    LinesRead (fs.map fun f => lineOf "%q: %d," [quoted f.name, itoa f.value])
      ((fs.map fun f => (f.name, f.value)).flatMap fun e => .str e.1 :: go ":" :: intToks e.2 ++ [go ","]) := by
  rw [List.flatMap_map]
  exact linesRead_map fun f hf => line_value (h f hf)

theorem lines_mapping {n : Str} (hn : ExportedIdent n) (fs : List EnumField) (h : ∀ f ∈ fs, ∀ x ∈ f.name, IdentChar x) :
    LinesRead (mappingLines n fs) ([GoDecl.nameVar (n ++ "_name".toList) (nameTable [] fs), .valueVar (n ++ "_value".toList) (fs.map fun f => (f.name, f.value)),
      .stringer n (n ++ "_name".toList)].flatMap GoDecl.toks) := by
  have w1 := exported_goWord (exported_append hn (t := "_name".toList) (by decide +kernel))
  have w2 := exported_goWord (exported_append hn (t := "_value".toList) (by decide +kernel))
  have h0 := line_maps (exported_chars hn)
  have h1 := line_nameVar w1
  have h2 := lines_names fs [] h
  have h3 := line_valueVar w2
  have h4 := lines_values fs h
  have h5 := lines_stringer (exported_goWord hn) w1
  unfold mappingLines
  have hA := linesRead_append (linesRead_cons h0 h1) h2
  have hB := linesRead_append hA (linesRead_cons line_brace (linesRead_cons linesRead_empty h3))
  have hC := linesRead_append hB h4
  have hD := linesRead_append hC (linesRead_cons line_brace h5)
  refine hD.cast ?_
  simp only [List.flatMap_cons, List.flatMap_nil, List.append_assoc, List.cons_append, List.nil_append, List.append_nil, GoDecl.toks]

/-- What names and comments of an enum must be like. -/
structure EnumOk (p : FileDecl) (notes : Notes) (q : List Nat) (parent : List Str) (e : EnumDecl) : Prop where
  name : ExportedIdent (goTypeName (parent ++ [e.name]))
  consts : ∀ f ∈ e.fields, GoWord (enumConst p parent e f)
  values : ∀ f ∈ e.fields, ∀ x ∈ f.name, IdentChar x
  note : GoNote (notes q)
  percent : ∀ c ∈ (notes q).inline, c ≠ '%'
  notes : ∀ k, GoNote (notes (q ++ [2, k]))

theorem lines_enum {p : FileDecl} {notes : Notes} {q : List Nat} {parent : List Str} {e : EnumDecl} (h : EnumOk p notes q parent e) :
    LinesRead (enumLines p notes q parent e) ((enumDecls (enumGen p parent e)).flatMap GoDecl.toks) := by
  have hw := exported_goWord h.name
  have h1 := linesRead_head h.note.head
  have h2 := line_type hw h.note.inline h.percent
  have h12 := linesRead_append h1 (linesRead_cons h2 linesRead_empty)
  have h3 : LinesRead (if e.fields ≠ [] then lineOf "const (" [] :: constLines p parent e (fun k => notes (q ++ [2, k])) 0 e.fields ++ [lineOf ")" []] else [])
      ((if (enumGen p parent e).consts = [] then [] else [GoDecl.consts ((enumGen p parent e).consts.map fun c => (c.1, (enumGen p parent e).name, c.2))]).flatMap GoDecl.toks) := by
    by_cases he : e.fields = []
    · rw [if_neg (by simp [he]), if_pos (by simp [enumGen, he])]
      exact linesRead_nil
    · rw [if_pos he, if_neg (by simp [enumGen, he])]
      refine (linesRead_append (linesRead_cons line_open (lines_consts hw h.notes e.fields 0 h.consts)) line_close).cast ?_
      simp only [List.flatMap_cons, List.flatMap_nil, List.append_assoc, List.cons_append, List.nil_append, List.append_nil, GoDecl.toks, enumGen, List.map_map]
      rfl
  have h4 : LinesRead (if enumMapping p e then mappingLines (goTypeName (parent ++ [e.name])) e.fields else [])
      ((match (enumGen p parent e).tables with
        | some t => [GoDecl.nameVar ((enumGen p parent e).name ++ "_name".toList) t.1, .valueVar ((enumGen p parent e).name ++ "_value".toList) t.2,
            .stringer (enumGen p parent e).name ((enumGen p parent e).name ++ "_name".toList)]
        | none => []).flatMap GoDecl.toks) := by
    unfold enumGen
    dsimp only
    cases enumMapping p e with
    | true => exact lines_mapping h.name e.fields h.values
    | false => exact linesRead_nil
  unfold enumLines
  refine (linesRead_append (linesRead_append h12 h3) h4).cast ?_
  rw [enumDecls, List.flatMap_append, List.flatMap_cons]
  rfl

end Gen
end Verif.Props
