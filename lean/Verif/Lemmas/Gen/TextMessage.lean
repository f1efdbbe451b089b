import Verif.Lemmas.Gen.TextEnum
/-!
# The text of messages
-/
namespace Verif.Props
open Verif.Model.Gen Verif.Spec.Gen
namespace Gen

/-- What can be written as a struct field. -/
structure FieldOk (W : World) (p : Nat) (c : Chain) (f : FieldDecl) (n : Str) : Prop where
  name : ExportedIdent n
  type : ExprOk (W.file p).goImport (fieldGoType W p c.msg f (fieldType W p c f))
  tag : (Pc.raw (fieldStructTag (W.file p) f (fieldType W p c f))).Ok
  zero : ZeroOk (W.file p).goImport (fieldGoZero W p c.msg f (fieldType W p c f))

/-- What can be written as a message. -/
structure MessageOk (W : World) (p : Nat) (notes : Notes) (q : List Nat) (c : Chain) : Prop where
  name : ExportedIdent (goTypeName c.path)
  fields : ∀ x ∈ namedFields c.msg, FieldOk W p c x.1 x.2
  oneofs : ∀ k, k < c.msg.oneofs.length → ExportedIdent (oneofFieldName c.msg k)
  tags : ∀ k, k < c.msg.oneofs.length → ∀ x ∈ c.msg.oneofs.getD k [], IdentChar x
  exist : ∀ x ∈ namedFields c.msg, ∀ k, x.1.oneof = some k → k < c.msg.oneofs.length
  note : GoNote (notes q)
  notes : ∀ k, GoNote (notes (q ++ [2, k]))

theorem iface_goWord {c : Chain} {k : Nat} (hn : ExportedIdent (goTypeName c.path)) (ho : ExportedIdent (oneofFieldName c.msg k)) : GoWord (oneofFieldType c k) := by
  unfold oneofFieldType
  rw [List.append_assoc]
  refine prefix_goWord ⟨'i', "s".toList, rfl, by decide +kernel, by decide +kernel⟩ (exported_append hn fun x hx => ?_)
  rcases List.mem_cons.1 hx with rfl | hx
  · exact .inr (.inr (.inr rfl))
  · exact exported_chars ho x hx

theorem wrapper_exported {m : Str} {l : List Str} {n : Str} (hm : ExportedIdent m) (hn : ExportedIdent n) : ExportedIdent (oneofStructName m l n) := by
  unfold oneofStructName
  refine exported_dodge (exported_append hm fun x hx => ?_) _ _
  rcases List.mem_cons.1 hx with rfl | hx
  · exact .inr (.inr (.inr rfl))
  · exact exported_chars hn x hx

/-! ## The struct -/

/-- The tokens of a struct field. -/
def fieldToks (f : Str × TypeSyn × Str) : List GTok := .word f.1 :: f.2.1.toks ++ [.str f.2.2, .semi]

theorem lines_field {W : World} {p : Nat} {c : Chain} {x : NotedField} (h : FieldOk W p c x.1.1 x.1.2) (hn : GoNote x.2.2) :
    LinesRead (fieldLines W p c x) (fieldToks (fieldSyn (W.file p).goImport (fieldGen W p c x.1.1 x.1.2))) := by
  have h1 := linesRead_head hn.head
  have hw : (Pc.w x.1.2).Ok := exported_goWord h.name
  have ht := expr_pc h.type
  have hr := h.tag
  have h2 := linesRead_note (s := lineOf "%s %s `%s` %s" [x.1.2, exprText (W.file p).goImport (fieldGoType W p c.msg x.1.1 (fieldType W p c x.1.1)),
    fieldStructTag (W.file p) x.1.1 (fieldType W p c x.1.1), x.2.2.inline])
    [.w x.1.2, .sp, .frag (exprText (W.file p).goImport (fieldGoType W p c.msg x.1.1 (fieldType W p c x.1.1)))
      (exprSyn (W.file p).goImport (fieldGoType W p c.msg x.1.1 (fieldType W p c x.1.1))).toks, .sp,
      .raw (fieldStructTag (W.file p) x.1.1 (fieldType W p c x.1.1)), .sp] (by simp [render, lineOf, fill]) hn.inline (by simp) (by rfl) (by pieces)
  exact (linesRead_append h1 h2).cast (by unfold fieldToks; tokens)

theorem line_types {n : Str} (h : ∀ x ∈ n, IdentChar x) : LinesRead [lineOf "// Types that are assignable to %s:" [n]] [] := by
  have hc := comment_name (a := " Types that are assignable to ".toList) (s := n) (z := ":".toList) (by decide +kernel) h (by decide +kernel)
  have e : lineOf "// Types that are assignable to %s:" [n] = '/' :: '/' :: (" Types that are assignable to ".toList ++ (n ++ ":".toList)) := by simp [lineOf, fill]
  rw [e]
  exact line_comment hc

theorem line_member {m n : Str} (hm : ∀ x ∈ m, IdentChar x) (hn : ∀ x ∈ n, IdentChar x) : LinesRead [lineOf "//\t*%s_%s" [m, n]] [] := by
  have hc := comment_name (a := "\t*".toList) (s := m ++ '_' :: n) (z := []) (by decide +kernel) (fun x hx => by
    rcases List.mem_append.1 hx with hx | hx
    · exact hm x hx
    · rcases List.mem_cons.1 hx with rfl | hx
      · exact .inr (.inr (.inr rfl))
      · exact hn x hx) (by simp)
  have e : lineOf "//\t*%s_%s" [m, n] = '/' :: '/' :: ("\t*".toList ++ ((m ++ '_' :: n) ++ [])) := by simp [lineOf, fill]
  rw [e]
  exact line_comment hc

theorem linesRead_comments {α : Type} {f : α → Str} {l : List α} (h : ∀ x ∈ l, LinesRead [f x] []) : LinesRead (l.map f) [] := by
  have := linesRead_map (f := f) (g := fun _ => []) h
  rwa [List.flatMap_eq_nil_iff.2 (fun _ _ => rfl)] at this

theorem oneofTag_ok {s : Str} (h : ∀ x ∈ s, IdentChar x) : (Pc.raw ("protobuf_oneof:\"".toList ++ s ++ ['"'])).Ok := by
  intro c hc
  rw [List.append_assoc, List.mem_append, List.mem_append] at hc
  rcases hc with hc | hc | hc
  · have : ∀ c ∈ "protobuf_oneof:\"".toList, c ≠ '`' ∧ c ≠ '\r' ∧ Legal c := by decide +kernel
    exact this c hc
  · have hw := identChar_word (h c hc)
    refine ⟨?_, ?_, (ident_legal (h c hc)).2⟩ <;>
    · rintro rfl
      exact absurd hw (by decide)
  · rw [List.mem_singleton.1 hc]
    decide

theorem lines_slot {W : World} {p : Nat} {notes : Notes} {q : List Nat} {c : Chain} (h : MessageOk W p notes q c) {k : Nat} (hk : k < c.msg.oneofs.length) (own : Str) :
    LinesRead (oneofLines c k) (fieldToks (fieldSyn own (oneofSlot c k))) := by
  have h1 := line_types (exported_chars (h.oneofs k hk))
  have h2 : LinesRead [lineOf "//" []] [] := line_comment (.line [] (by simp))
  have h3 : LinesRead (((namedFields c.msg).filter fun x => x.1.oneof = some k).map (fun x => lineOf "//\t*%s_%s" [goTypeName c.path, x.2])) [] :=
    linesRead_comments fun x hx => line_member (exported_chars h.name) (exported_chars (h.fields x (List.mem_filter.1 hx).1).name)
  have w1 : (Pc.w (oneofFieldName c.msg k)).Ok := exported_goWord (h.oneofs k hk)
  have w2 : (Pc.w (oneofFieldType c k)).Ok := iface_goWord h.name (h.oneofs k hk)
  have hr := oneofTag_ok (h.tags k hk)
  have h4 := linesRead_pcs (s := lineOf "%s %s `protobuf_oneof:\"%s\"`" [oneofFieldName c.msg k, oneofFieldType c k, c.msg.oneofs.getD k []])
    [.w (oneofFieldName c.msg k), .sp, .w (oneofFieldType c k), .sp, .raw ("protobuf_oneof:\"".toList ++ c.msg.oneofs.getD k [] ++ ['"'])]
    (by simp [render, lineOf, fill]) (by simp) (by rfl) (by pieces)
  exact (linesRead_append (linesRead_append (linesRead_cons h1 h2) h3) h4).cast (by unfold fieldToks; tokens)

theorem lines_slots {W : World} {p : Nat} {notes : Notes} {q : List Nat} {c : Chain} (h : MessageOk W p notes q c) : ∀ (xs : List NotedField) (seen : List Nat),
    (∀ x ∈ xs, x.1 ∈ namedFields c.msg ∧ GoNote x.2.2) →
    LinesRead (slotLines W p c seen xs) (((genSlots W p c seen (xs.map Prod.fst)).map (fieldSyn (W.file p).goImport)).flatMap fieldToks)
  | [], _, _ => by
    rw [slotLines]
    exact linesRead_nil
  | x :: xs, seen, hx => by
    have hx' : ∀ y ∈ xs, y.1 ∈ namedFields c.msg ∧ GoNote y.2.2 := fun y hy => hx y (List.mem_cons_of_mem _ hy)
    obtain ⟨hm, hn⟩ := hx x (List.mem_cons_self ..)
    have e : (x :: xs).map Prod.fst = (x.1.1, x.1.2) :: xs.map Prod.fst := rfl
    rw [slotLines, e, genSlots]
    cases ho : x.1.1.oneof with
    | some k =>
      dsimp only
      split
      · exact lines_slots h xs seen hx'
      · rw [List.map_cons, List.flatMap_cons]
        exact linesRead_append (lines_slot h (h.exist x.1 hm k ho) _) (lines_slots h xs _ hx')
    | none =>
      dsimp only
      rw [List.map_cons, List.flatMap_cons]
      have hf := lines_field (x := x) (h.fields x.1 hm) hn
      have hg := linesRead_append hf (lines_slots h xs seen hx')
      split
      · exact linesRead_append (linesRead_append (ts := []) linesRead_empty hf) (lines_slots h xs seen hx')
      · exact hg

theorem noted_fst (notes : Notes) (q : List Nat) (m : MsgDecl) : (notedFields notes q m).map Prod.fst = namedFields m := by
  unfold notedFields
  apply List.ext_getElem?
  intro i
  rw [List.getElem?_map, List.getElem?_mapIdx]
  cases (namedFields m)[i]? <;> rfl

theorem noted_mem {notes : Notes} {q : List Nat} {m : MsgDecl} {x : NotedField} (h : x ∈ notedFields notes q m) : x.1 ∈ namedFields m ∧ ∃ k, x.2.2 = notes (q ++ [2, k]) := by
  refine ⟨?_, ?_⟩
  · rw [← noted_fst notes q m]
    exact List.mem_map_of_mem h
  · unfold notedFields at h
    obtain ⟨k, hk, e⟩ := List.mem_mapIdx.1 h
    exact ⟨k, by rw [← e]⟩

theorem lines_struct {W : World} {p : Nat} {notes : Notes} {q : List Nat} {c : Chain} (h : MessageOk W p notes q c) :
    LinesRead (structLines W p c (notedFields notes q c.msg) (notes q)) (GoDecl.struct (goTypeName c.path) ((genStruct W p c).fields.map (fieldSyn (W.file p).goImport))).toks := by
  have h1 := linesRead_head h.note.head
  have hw : (Pc.w (goTypeName c.path)).Ok := exported_goWord h.name
  have h2 := linesRead_pcs (s := lineOf "type %s struct {" [goTypeName c.path]) [.k "type", .sp, .w (goTypeName c.path), .sp, .k "struct", .sp, .o "{"] (by rfl) (by simp) (by rfl)
    (by pieces)
  have h3 := lines_slots h (notedFields notes q c.msg) [] fun x hx => ⟨(noted_mem hx).1, by
    obtain ⟨k, e⟩ := (noted_mem hx).2
    rw [e]
    exact h.notes k⟩
  rw [noted_fst] at h3
  have h4 : LinesRead (if genUnknownFields (W.file p) c.msg then [lineOf "unknownFields []byte `json:\"-\"`" []] else [])
      (((if genUnknownFields (W.file p) c.msg then [unknownSlot] else []).map (fieldSyn (W.file p).goImport)).flatMap fieldToks) := by
    cases genUnknownFields (W.file p) c.msg with
    | true =>
      have hr : (Pc.raw "json:\"-\"".toList).Ok := by
        intro c hc
        revert c
        decide +kernel
      exact (linesRead_pcs [.k "unknownFields", .sp, .o "[", .o "]", .k "byte", .sp, .raw "json:\"-\"".toList] (by rfl) (by simp) (by rfl) (by pieces)).cast (by rfl)
    | false => exact linesRead_nil
  have h5 := linesRead_note (s := lineOf "} %s" [(notes q).inline]) [.o "}", .sp] (by simp [render, lineOf, fill]) h.note.inline (by simp) (by rfl) (by pieces)
  unfold structLines
  refine (linesRead_append (linesRead_append (linesRead_append h1 (linesRead_cons h2 h3)) h4) h5).cast ?_
  simp only [genStruct, GoDecl.toks, List.map_append, List.flatMap_append, List.append_assoc, List.cons_append, List.nil_append]
  rfl

/-! ## Methods -/

set_option maxRecDepth 2000 in
theorem lines_methods {c : Chain} (o : GenOptions) (hn : ExportedIdent (goTypeName c.path)) :
    LinesRead (methodLines o c) ((GoDecl.reset (goTypeName c.path) :: if o.marshaler then [.marshal (goTypeName c.path), .unmarshal (goTypeName c.path)] else []).flatMap GoDecl.toks) := by
  have hw : (Pc.w (goTypeName c.path)).Ok := exported_goWord hn
  have h1 := linesRead_gap (s := lineOf "\nfunc (x *%s) Reset() { *x = %s{} }" [goTypeName c.path, goTypeName c.path])
    [.k "func", .sp, .o "(", .k "x", .sp, .o "*", .w (goTypeName c.path), .o ")", .sp, .k "Reset", .o "(", .o ")", .sp, .o "{", .sp, .o "*", .k "x", .sp, .o "=", .sp,
      .w (goTypeName c.path), .o "{", .o "}", .sp, .o "}"] (by rfl) (by simp) (by rfl) (by pieces)
  have h2 := linesRead_gap (s := lineOf "\nfunc (x *%s) Marshal(in []byte) ([]byte, error) { return prutal.MarshalAppend(in, x) }" [goTypeName c.path])
    [.k "func", .sp, .o "(", .k "x", .sp, .o "*", .w (goTypeName c.path), .o ")", .sp, .k "Marshal", .o "(", .k "in", .sp, .o "[", .o "]", .k "byte", .o ")", .sp,
      .o "(", .o "[", .o "]", .k "byte", .o ",", .sp, .k "error", .o ")", .sp, .o "{", .sp, .k "return", .sp, .k "prutal", .o ".", .k "MarshalAppend", .o "(", .k "in", .o ",", .sp,
      .k "x", .o ")", .sp, .o "}"] (by rfl) (by simp) (by rfl) (by pieces)
  have h3 := linesRead_gap (s := lineOf "\nfunc (x *%s) Unmarshal(in []byte) error { return prutal.Unmarshal(in, x) }" [goTypeName c.path])
    [.k "func", .sp, .o "(", .k "x", .sp, .o "*", .w (goTypeName c.path), .o ")", .sp, .k "Unmarshal", .o "(", .k "in", .sp, .o "[", .o "]", .k "byte", .o ")", .sp,
      .k "error", .sp, .o "{", .sp, .k "return", .sp, .k "prutal", .o ".", .k "Unmarshal", .o "(", .k "in", .o ",", .sp, .k "x", .o ")", .sp, .o "}"]
    (by rfl) (by simp) (by rfl) (by pieces)
  unfold methodLines
  cases o.marshaler with
  | true => exact (linesRead_cons h1 (linesRead_cons h2 h3)).cast (by rfl)
  | false => exact (linesRead_cons h1 linesRead_nil).cast (by rfl)

/-! ## Getters -/

theorem line_getter {own m n : Str} {t : GoExpr} (hm : GoWord m) (hn : GoWord ("Get".toList ++ n)) (ht : ExprOk own t) :
    LinesRead [lineOf "func (x *%s) Get%s() %s {" [m, n, exprText own t]] (gw "func" :: recvToks m ++ .word ("Get".toList ++ n) :: go "(" :: go ")" :: (exprSyn own t).toks ++ [go "{"]) := by
  have hf := expr_pc ht
  exact (linesRead_pcs [.k "func", .sp, .o "(", .k "x", .sp, .o "*", .w m, .o ")", .sp, .pre "Get" n, .o "(", .o ")", .sp, .frag (exprText own t) (exprSyn own t).toks, .sp, .o "{"]
    (by simp [render, lineOf, fill]) (by simp) (by rfl) (by pieces)).cast (by unfold recvToks; tokens)

theorem line_return {own : Str} {z : ZeroExpr} (h : ZeroOk own z) : LinesRead [lineOf "return %s" [zeroText own z]] (gw "return" :: (zeroSyn own z).toks ++ [.semi]) := by
  have hf := zero_pc h
  exact (linesRead_pcs [.k "return", .sp, .frag (zeroText own z) (zeroSyn own z).toks] (by simp [render, lineOf, fill]) (by simp) (by rfl) (by pieces)).cast (by tokens)

theorem getter_goWord {n : Str} (h : ExportedIdent n) : GoWord ("Get".toList ++ n) :=
  prefix_goWord ⟨'G', "et".toList, rfl, by decide +kernel, by decide +kernel⟩ h

theorem line_deref {n : Str} (hn : GoWord n) : LinesRead [lineOf "if x != nil && x.%s != nil { return *x.%s }" [n, n]] (GuardSyn.deref n).toks :=
  linesRead_pcs [.k "if", .sp, .k "x", .sp, .o "!=", .sp, .k "nil", .sp, .o "&&", .sp, .k "x", .o ".", .w n, .sp, .o "!=", .sp, .k "nil", .sp, .o "{", .sp, .k "return", .sp,
    .o "*", .k "x", .o ".", .w n, .sp, .o "}"] (by rfl) (by simp) (by rfl) (by pieces)

theorem line_field {n : Str} (hn : GoWord n) : LinesRead [lineOf "if x != nil { return x.%s }" [n]] (GuardSyn.field n).toks :=
  linesRead_pcs [.k "if", .sp, .k "x", .sp, .o "!=", .sp, .k "nil", .sp, .o "{", .sp, .k "return", .sp, .k "x", .o ".", .w n, .sp, .o "}"] (by rfl) (by simp) (by rfl) (by pieces)

theorem lines_guard {o w n : Str} (ho : GoWord ("Get".toList ++ o)) (hw : GoWord w) (hn : GoWord n) :
    LinesRead [lineOf "if p, ok := x.Get%s().(*%s); ok {" [o, w], lineOf "return p.%s" [n], lineOf "}" []] (GuardSyn.member ("Get".toList ++ o) w n).toks := by
  have h1 := linesRead_pcs (s := lineOf "if p, ok := x.Get%s().(*%s); ok {" [o, w]) [.k "if", .sp, .k "p", .o ",", .sp, .k "ok", .sp, .o ":=", .sp, .k "x", .o ".", .w ("Get".toList ++ o),
    .o "(", .o ")", .o ".", .o "(", .o "*", .w w, .o ")", .o ";", .sp, .k "ok", .sp, .o "{"] (by simp [render, lineOf, fill]) (by simp) (by rfl) (by pieces)
  have h2 := linesRead_pcs (s := lineOf "return p.%s" [n]) [.k "return", .sp, .k "p", .o ".", .w n] (by rfl) (by simp) (by rfl) (by pieces)
  exact (linesRead_cons h1 (linesRead_cons h2 line_brace)).cast (by rfl)

theorem line_retnil : LinesRead [lineOf "return nil" []] [gw "return", gw "nil", .semi] := linesRead_pcs [.k "return", .sp, .k "nil"] (by rfl) (by simp) (by rfl) (by pieces)

/-- A getter made of its lines. -/
theorem lines_getter {own m n : Str} {t : GoExpr} {l : List Str} {g : GetBody} {z : ZeroExpr} {r : Str} (hm : GoWord m) (hn : ExportedIdent n) (ht : ExprOk own t)
    (hl : LinesRead l (guardSyn g).toks) (hr : LinesRead [r] (gw "return" :: (zeroSyn own z).toks ++ [.semi])) :
    LinesRead (lineOf "func (x *%s) Get%s() %s {" [m, n, exprText own t] :: l ++ [r, lineOf "}" []])
      (getterDecl own m ⟨"Get".toList ++ n, t, g, z⟩).toks := by
  refine (linesRead_append (linesRead_cons (line_getter hm (getter_goWord hn) ht) hl) (linesRead_cons hr line_brace)).cast ?_
  simp only [getterDecl, GoDecl.toks, List.append_assoc, List.cons_append, List.nil_append]

theorem lines_fieldGetter {W : World} {p : Nat} {c : Chain} {f : FieldDecl} {n : Str} (hm : ExportedIdent (goTypeName c.path)) (h : FieldOk W p c f n) :
    LinesRead (fieldGetterLines W p c f n) (getterDecl (W.file p).goImport (goTypeName c.path) (fieldGetter W p c f n)).toks := by
  have hr := line_return h.zero
  have ht := h.type
  unfold fieldGetterLines fieldGetter
  dsimp only
  generalize fieldGoType W p c.msg f (fieldType W p c f) = t at ht
  generalize (fieldType W p c f).isMessage = b
  have other : LinesRead [lineOf "func (x *%s) Get%s() %s {" [goTypeName c.path, n, exprText (W.file p).goImport t], lineOf "if x != nil { return x.%s }" [n],
      lineOf "return %s" [zeroText (W.file p).goImport (fieldGoZero W p c.msg f (fieldType W p c f))], lineOf "}" []]
      (getterDecl (W.file p).goImport (goTypeName c.path) ⟨"Get".toList ++ n, t, .field n, fieldGoZero W p c.msg f (fieldType W p c f)⟩).toks :=
    lines_getter (l := [_]) (exported_goWord hm) h.name ht (line_field (exported_goWord h.name)) hr
  cases b with
  | true => exact other
  | false =>
    cases t with
    | ptr e => exact lines_getter (l := [_]) (exported_goWord hm) h.name (t := e) ht (line_deref (exported_goWord h.name)) hr
    | basic s => exact other
    | named pkg s => exact other
    | iface s => exact other
    | slice e => exact other
    | map k v => exact other

theorem lines_oneofGetter {c : Chain} {k : Nat} (own : Str) (hm : ExportedIdent (goTypeName c.path)) (ho : ExportedIdent (oneofFieldName c.msg k)) :
    LinesRead (oneofGetterLines c k) (getterDecl own (goTypeName c.path) (oneofGetter c k)).toks :=
  lines_getter (own := own) (t := .iface (oneofFieldType c k)) (l := [_]) (z := .nil) (exported_goWord hm) ho (iface_goWord hm ho) (line_field (exported_goWord ho)) line_retnil

theorem lines_memberGetter {W : World} {p : Nat} {c : Chain} {k : Nat} {f : FieldDecl} {n : Str} (hm : ExportedIdent (goTypeName c.path)) (ho : ExportedIdent (oneofFieldName c.msg k))
    (h : FieldOk W p c f n) :
    LinesRead (memberGetterLines W p c k f n) (getterDecl (W.file p).goImport (goTypeName c.path) (memberGetter W p c k f n)).toks :=
  lines_getter (l := [_, _, _]) (exported_goWord hm) h.name h.type (lines_guard (getter_goWord ho) (exported_goWord (wrapper_exported hm h.name)) (exported_goWord h.name))
    (line_return h.zero)

theorem lines_getters {W : World} {p : Nat} {notes : Notes} {q : List Nat} {c : Chain} (h : MessageOk W p notes q c) : ∀ (xs : List (FieldDecl × Str)) (seen : List Nat),
    (∀ x ∈ xs, x ∈ namedFields c.msg) →
    LinesRead (getterLines W p c seen xs) (((genGetters W p c seen xs).map (getterDecl (W.file p).goImport (goTypeName c.path))).flatMap GoDecl.toks)
  | [], _, _ => by
    rw [getterLines]
    exact linesRead_nil
  | (f, n) :: xs, seen, hx => by
    have hx' : ∀ y ∈ xs, y ∈ namedFields c.msg := fun y hy => hx y (List.mem_cons_of_mem _ hy)
    have hm := hx (f, n) (List.mem_cons_self ..)
    rw [getterLines, genGetters]
    refine linesRead_cons (ts := []) linesRead_empty ?_
    cases ho : f.oneof with
    | some k =>
      dsimp only
      have he := h.oneofs k (h.exist (f, n) hm k ho)
      have h2 := lines_memberGetter h.name he (h.fields (f, n) hm)
      have h3 := linesRead_append h2 (lines_getters h xs (k :: seen) hx')
      have h4 : LinesRead (if seen.contains k then [] else oneofGetterLines c k)
          (((if seen.contains k then [] else [oneofGetter c k]).map (getterDecl (W.file p).goImport (goTypeName c.path))).flatMap GoDecl.toks) := by
        split
        · exact linesRead_nil
        · exact (lines_oneofGetter (W.file p).goImport h.name he).cast (by simp)
      have h5 := linesRead_append h4 h3
      rw [← List.append_assoc] at h5
      exact h5.cast (by simp [List.flatMap])
    | none =>
      dsimp only
      simp only [List.map_cons, List.flatMap_cons]
      exact linesRead_append (lines_fieldGetter h.name (h.fields (f, n) hm)) (lines_getters h xs seen hx')

/-! ## Oneofs -/

theorem lines_wrappers {W : World} {p : Nat} {notes : Notes} {q : List Nat} {c : Chain} (h : MessageOk W p notes q c) :
    LinesRead (wrapperLines c)
      ((if (List.range c.msg.oneofs.length).map (fun k => (oneofFieldType c k, wrappersOf W p c k)) = [] then []
        else [GoDecl.wrappers (goTypeName c.path) ((genStruct W p c).wrappers.map GenWrapper.name)]).flatMap GoDecl.toks) := by
  unfold wrapperLines
  by_cases he : c.msg.oneofs = []
  · rw [if_neg (by simp [he]), if_pos (by simp [he])]
    exact linesRead_nil
  · rw [if_pos he, if_neg (by simp [he])]
    have hw : (Pc.w (goTypeName c.path)).Ok := exported_goWord h.name
    have h1 : LinesRead [lineOf "// XXX_OneofWrappers is for the internal use of the prutal package." []] [] :=
      line_comment (.line " XXX_OneofWrappers is for the internal use of the prutal package.".toList (by decide +kernel))
    have h2 := linesRead_pcs (s := lineOf "func (*%s) XXX_OneofWrappers() []interface{} {" [goTypeName c.path])
      [.k "func", .sp, .o "(", .o "*", .w (goTypeName c.path), .o ")", .sp, .k "XXX_OneofWrappers", .o "(", .o ")", .sp, .o "[", .o "]", .k "interface", .o "{", .o "}", .sp, .o "{"]
      (by rfl) (by simp) (by rfl) (by pieces)
    have h3 := linesRead_pcs (s := lineOf "return []interface{}{" []) [.k "return", .sp, .o "[", .o "]", .k "interface", .o "{", .o "}", .o "{"] (by rfl) (by simp) (by rfl) (by pieces)
    have h5 := linesRead_pcs (s := lineOf "}}" []) [.o "}", .o "}"] (by rfl) (by simp) (by rfl) (by pieces)
    have h4 : LinesRead ((List.range c.msg.oneofs.length).flatMap (fun k => ((namedFields c.msg).filter fun x => x.1.oneof = some k).map fun x =>
        lineOf "(*%s)(nil)," [oneofStructName (goTypeName c.path) (nestedNames c.path c.msg) x.2]))
        (((genStruct W p c).wrappers.map GenWrapper.name).flatMap fun w => [go "(", go "*", .word w, go ")", go "(", gw "nil", go ")", go ","]) := by
      have e : (genStruct W p c).wrappers.map GenWrapper.name = (List.range c.msg.oneofs.length).flatMap fun k =>
          ((namedFields c.msg).filter fun x => x.1.oneof = some k).map fun x => oneofStructName (goTypeName c.path) (nestedNames c.path c.msg) x.2 := by
        show List.map _ (genWrappers W p c) = _
        unfold genWrappers
        rw [List.map_flatMap]
        simp only [List.map_map]
        rfl
      rw [e, List.flatMap_assoc]
      refine linesRead_flatMap fun k _ => ?_
      rw [List.flatMap_map]
      refine linesRead_map fun x hx => ?_
      have hw : (Pc.w (oneofStructName (goTypeName c.path) (nestedNames c.path c.msg) x.2)).Ok :=
        exported_goWord (wrapper_exported h.name (h.fields x (List.mem_filter.1 hx).1).name)
      exact linesRead_pcs [.o "(", .o "*", .w (oneofStructName (goTypeName c.path) (nestedNames c.path c.msg) x.2), .o ")", .o "(", .k "nil", .o ")", .o ","]
        (by rfl) (by simp) (by rfl) (by pieces)
    refine (linesRead_append (linesRead_append (linesRead_cons h1 (linesRead_cons h2 h3)) h4) h5).cast ?_
    simp only [List.flatMap_cons, List.flatMap_nil, List.append_nil, GoDecl.toks, List.append_assoc, List.nil_append]
    rfl

theorem filter_noted (notes : Notes) (q : List Nat) (m : MsgDecl) (k : Nat) :
    ((notedFields notes q m).filter fun x => x.1.1.oneof = some k).map Prod.fst = (namedFields m).filter fun x => x.1.oneof = some k := by
  rw [← noted_fst notes q m, List.filter_map]
  rfl

theorem lines_oneof {W : World} {p : Nat} {notes : Notes} {q : List Nat} {c : Chain} (h : MessageOk W p notes q c) {k : Nat} (hk : k < c.msg.oneofs.length) :
    LinesRead (oneofGenLines W p c (notedFields notes q c.msg) k) ((oneofDecls (W.file p).goImport (oneofFieldType c k) (wrappersOf W p c k)).flatMap GoDecl.toks) := by
  have hw : (Pc.w (oneofFieldType c k)).Ok := iface_goWord h.name (h.oneofs k hk)
  have h1 := linesRead_pcs (s := lineOf "type %s interface {" [oneofFieldType c k]) [.k "type", .sp, .w (oneofFieldType c k), .sp, .k "interface", .sp, .o "{"] (by rfl) (by simp)
    (by rfl) (by pieces)
  have h2 := linesRead_pcs (s := lineOf "%s()" [oneofFieldType c k]) [.w (oneofFieldType c k), .o "(", .o ")"] (by rfl) (by simp) (by rfl) (by pieces)
  have h3 : LinesRead (((notedFields notes q c.msg).filter fun x => x.1.1.oneof = some k).flatMap fun x =>
      [[], lineOf "type %s struct {" [oneofStructName (goTypeName c.path) (nestedNames c.path c.msg) x.1.2]] ++ fieldLines W p c x ++
      [lineOf "}" [], [], lineOf "func (*%s) %s() {}" [oneofStructName (goTypeName c.path) (nestedNames c.path c.msg) x.1.2, oneofFieldType c k]])
      (((wrappersOf W p c k).flatMap fun w => [GoDecl.struct w.name [fieldSyn (W.file p).goImport w.field], .marker w.name w.method]).flatMap GoDecl.toks) := by
    unfold wrappersOf
    rw [← filter_noted notes q c.msg k, List.map_map, List.flatMap_assoc, List.flatMap_map]
    refine linesRead_flatMap fun x hx => ?_
    obtain ⟨hm, j, hj⟩ := noted_mem (List.mem_filter.1 hx).1
    have hf := h.fields x.1 hm
    have hw' : (Pc.w (oneofStructName (goTypeName c.path) (nestedNames c.path c.msg) x.1.2)).Ok := exported_goWord (wrapper_exported h.name hf.name)
    have g1 := linesRead_pcs (s := lineOf "type %s struct {" [oneofStructName (goTypeName c.path) (nestedNames c.path c.msg) x.1.2])
      [.k "type", .sp, .w (oneofStructName (goTypeName c.path) (nestedNames c.path c.msg) x.1.2), .sp, .k "struct", .sp, .o "{"] (by rfl) (by simp) (by rfl) (by pieces)
    have g2 := lines_field (x := x) hf (by rw [hj]; exact h.notes j)
    have g3 := linesRead_pcs (s := lineOf "func (*%s) %s() {}" [oneofStructName (goTypeName c.path) (nestedNames c.path c.msg) x.1.2, oneofFieldType c k])
      [.k "func", .sp, .o "(", .o "*", .w (oneofStructName (goTypeName c.path) (nestedNames c.path c.msg) x.1.2), .o ")", .sp, .w (oneofFieldType c k), .o "(", .o ")", .sp, .o "{", .o "}"]
      (by rfl) (by simp) (by rfl) (by pieces)
    refine (linesRead_append (linesRead_append (linesRead_cons linesRead_empty g1) g2) (linesRead_cons line_brace (linesRead_cons linesRead_empty g3))).cast ?_
    simp only [Function.comp, List.flatMap_cons, List.flatMap_nil, List.append_nil, GoDecl.toks, List.append_assoc, List.nil_append, fieldToks]
    rfl
  unfold oneofGenLines
  refine (linesRead_append (linesRead_cons h1 (linesRead_cons h2 line_brace)) h3).cast ?_
  rw [oneofDecls, List.flatMap_cons]
  rfl

theorem lines_message {W : World} {p : Nat} {notes : Notes} {q : List Nat} {c : Chain} (o : GenOptions) (h : MessageOk W p notes q c) :
    LinesRead (messageLines W o p notes q c)
      ((messageDecls o (genStruct W p c) (genGetters W p c [] (namedFields c.msg)) ((List.range c.msg.oneofs.length).map fun k => (oneofFieldType c k, wrappersOf W p c k))).flatMap
        GoDecl.toks) := by
  have h1 := lines_struct h
  have h2 := lines_methods o h.name
  have h3 : LinesRead (if o.getter then getterLines W p c [] (namedFields c.msg) else [])
      ((if o.getter then (genGetters W p c [] (namedFields c.msg)).map (getterDecl (W.file p).goImport (goTypeName c.path)) else []).flatMap GoDecl.toks) := by
    cases o.getter with
    | true => exact lines_getters h (namedFields c.msg) [] fun _ hx => hx
    | false => exact linesRead_nil
  have h4 := lines_wrappers h
  have h5 : LinesRead ((List.range c.msg.oneofs.length).flatMap fun k => [] :: oneofGenLines W p c (notedFields notes q c.msg) k)
      ((((List.range c.msg.oneofs.length).map fun k => (oneofFieldType c k, wrappersOf W p c k)).flatMap fun x => oneofDecls (W.file p).goImport x.1 x.2).flatMap GoDecl.toks) := by
    rw [List.flatMap_map, List.flatMap_assoc]
    exact linesRead_flatMap fun k hk => linesRead_cons (ts := []) linesRead_empty (lines_oneof h (List.mem_range.1 hk))
  unfold messageLines
  refine (linesRead_append (linesRead_append (linesRead_append (linesRead_append h1 h2) h3) h4) h5).cast ?_
  simp only [messageDecls, List.flatMap_append, List.append_assoc, List.flatMap_cons, List.flatMap_nil, List.nil_append, List.append_nil]
  rfl

end Gen
end Verif.Props
