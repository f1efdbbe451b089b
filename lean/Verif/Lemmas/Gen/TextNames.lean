import Verif.Lemmas.Gen.TextFile
import Verif.Props.Gen.Closed
/-!
# What the names of a file have to be
-/
namespace Verif.Props
open Verif.Model.Gen Verif.Spec.Gen
namespace Gen

theorem proto_chars {s : Str} (h : ProtoIdent s) : ∀ x ∈ s, IdentChar x := by
  obtain ⟨_, _, _, _, h⟩ := h
  exact h

theorem within_msg {ms : List MsgDecl} {c : Chain} (h : Around ms c) : Within ms c.msg := by
  cases c with
  | nil => cases h
  | cons a r => obtain ⟨o, m⟩ := a; exact around_within h

/-- The names of declarations are identifiers. -/
theorem path_named {ms : List MsgDecl} {es : List EnumDecl} {path : List Str} {k : Bool} (h : Declares ms es path k) :
    (∀ m, Within ms m → NamedMsg m) → (∀ e ∈ es, NamedEnum e) → path ≠ [] ∧ ∀ s ∈ path, ProtoIdent s := by
  induction h with
  | enum he =>
    intro _ h2
    refine ⟨by simp, fun s hs => ?_⟩
    rw [List.mem_singleton.1 hs]
    exact (h2 _ he).name
  | msg hm =>
    intro h1 _
    refine ⟨by simp, fun s hs => ?_⟩
    rw [List.mem_singleton.1 hs]
    exact (h1 _ (.here hm)).name
  | nested hm _ ih =>
    intro h1 _
    refine ⟨by simp, fun s hs => ?_⟩
    rcases List.mem_cons.1 hs with rfl | hs
    · exact (h1 _ (.here hm)).name
    · exact (ih (fun m h => h1 m (.deeper hm h)) (h1 _ (.here hm)).enums).2 s hs

theorem type_named {d : FileDecl} (hd : NamedFile d) {path : List Str} {k : Bool} (h : Declares d.messages d.enums path k) : ExportedIdent (goTypeName path) :=
  C46_nested path (path_named h hd.messages hd.enums).1 (path_named h hd.messages hd.enums).2

theorem chain_declared {d : FileDecl} {c : Chain} (h : Around d.messages c) : Declares d.messages d.enums c.path false := by
  rw [← around_path h]
  cases c with
  | nil => cases h
  | cons a r => obtain ⟨o, m⟩ := a; exact (around_self h).1

/-! ## Enums -/

theorem const_exported {p : FileDecl} {parent : List Str} {e : EnumDecl} {f : EnumField} (hp : parent ≠ [] → ExportedIdent (goTypeName parent)) (he : ProtoIdent e.name)
    (hf : ProtoIdent f.name) : ExportedIdent (enumConst p parent e f) := by
  have hc : ∀ x ∈ '_' :: f.name, IdentChar x := fun x hx => by
    rcases List.mem_cons.1 hx with rfl | hx
    · exact .inr (.inr (.inr rfl))
    · exact proto_chars hf x hx
  unfold enumConst
  split
  · exact C46_exported _ hf
  · split
    · rename_i h
      exact exported_append (hp h) hc
    · exact exported_append (C46_nested [e.name] (by simp) (fun s hs => by rw [List.mem_singleton.1 hs]; exact he)) hc

theorem enum_ok {d : FileDecl} {notes : Notes} {q : List Nat} {parent : List Str} {e : EnumDecl} (hp : ∀ s ∈ parent, ProtoIdent s) (he : NamedEnum e)
    (hn : ∀ q, GoNote (notes q)) (hc : ∀ c ∈ (notes q).inline, c ≠ '%') : EnumOk d notes q parent e where
  name := C46_nested _ (by simp) fun s hs => by
    rcases List.mem_append.1 hs with hs | hs
    · exact hp s hs
    · rw [List.mem_singleton.1 hs]
      exact he.name
  consts f hf := exported_goWord (const_exported (fun h => C46_nested _ h hp) he.name (he.values f hf))
  values f hf := proto_chars (he.values f hf)
  note := hn q
  percent := hc
  notes k := hn _

/-! ## Fields -/

theorem conflicts_named {m : MsgDecl} (hf : ∀ f ∈ m.fields, ProtoIdent f.name) : ∀ n ∈ (resolveFieldConflicts m).fields, ExportedIdent n := by
  obtain ⟨ks, hl, e⟩ := C45_shape m
  rw [e]
  intro n hn
  rw [List.mem_iff_getElem?] at hn
  obtain ⟨i, hi⟩ := hn
  rw [List.getElem?_zipWith] at hi
  split at hi
  · rename_i f k h1 h2
    cases hi
    refine exported_append (C46_exported _ (hf f (List.mem_of_getElem? h1))) fun x hx => ?_
    rw [(List.mem_replicate.1 hx).2]
    exact .inr (.inr (.inr rfl))
  · cases hi

theorem field_named {m : MsgDecl} (hf : ∀ f ∈ m.fields, ProtoIdent f.name) {x : FieldDecl × Str} (hx : x ∈ namedFields m) : ExportedIdent x.2 :=
  conflicts_named hf _ (List.of_mem_zip (a := x.1) (b := x.2) hx).2

theorem oneofs_named {on : Nat → Str} : ∀ (fs : List FieldDecl) (σ : Model.Gen.Names), (∀ f ∈ fs, ∀ k, f.oneof = some k → ExportedIdent (on k)) →
    (∀ x ∈ σ.oneofs, ExportedIdent x.2) → ∀ x ∈ (fs.foldl (nameField on) σ).oneofs, ExportedIdent x.2
  | [], _, _, h => h
  | f :: fs, σ, hf, h => by
    rw [List.foldl_cons]
    refine oneofs_named fs _ (fun g hg => hf g (List.mem_cons_of_mem _ hg)) ?_
    unfold nameField
    dsimp only
    split
    · rename_i k hk
      split
      · exact h
      · intro x hx
        rcases List.mem_append.1 hx with hx | hx
        · exact h x hx
        · rw [List.mem_singleton.1 hx]
          exact exported_dodge (hf f (List.mem_cons_self ..) k hk) _ _
    · exact h

theorem getD_mem {l : List Str} {k : Nat} (h : k < l.length) : l.getD k [] ∈ l := by
  rw [List.getD_eq_getElem?_getD, List.getElem?_eq_getElem h]
  exact List.getElem_mem h

theorem oneof_named {m : MsgDecl} (h : NamedMsg m) {k : Nat} (hk : k < m.oneofs.length) : ExportedIdent (oneofFieldName m k) := by
  have hon : ∀ k, k < m.oneofs.length → ExportedIdent (goCamelCase (m.oneofs.getD k [])) := fun k hk => C46_exported _ (h.oneofs _ (getD_mem hk))
  unfold oneofFieldName
  split
  · rename_i n hn
    exact oneofs_named m.fields ⟨methodNames, [], []⟩ (fun f hf k e => hon k (h.exist f hf k e)) (fun x hx => by cases hx) _ (lookup_mem hn)
  · exact hon k hk

/-! ## Types -/

theorem scalar_expr {own g : Str} (h : g ∈ scalarTypes.map Prod.snd) : ExprOk own (.basic g) := by
  have key : ∀ g ∈ scalarTypes.map Prod.snd, g = "[]byte".toList ∨ ((∃ c ∈ g.head?, wordStart c = true) ∧ (∀ x ∈ g.tail, wordChar x = true) ∧ goKeywords.contains g = false) := by
    decide +kernel
  rcases key g h with h | ⟨⟨c, hc, h1⟩, h2, h3⟩
  · exact .inl h
  · refine .inr ⟨?_, h3⟩
    cases g with
    | nil => cases hc
    | cons a r =>
      cases hc
      exact ⟨_, r, rfl, h1, h2⟩

theorem resolve_found {W : World} {f : Nat} {c : Chain} {typ : Str} {r : Ref} {q : Option Nat} {b : Bool} (ha : Around (W.file f).messages c)
    (h : typeResolve W f c b typ = some (.decl r q)) : Exists W r := by
  unfold typeResolve at h
  split at h
  · cases h
  · split at h
    · rename_i r' h'
      cases h
      have hs : searchMessages f c typ = some r := by
        cases c with
        | nil => cases h'
        | cons x rest =>
          obtain ⟨outer, m⟩ := x
          dsimp only at h'
          rw [searchMessages, h']
      exact (search_exists ha hs).2
    · split at h
      · rename_i r' h'
        cases h
        exact (search_exists ha h').2
      · dsimp only at h
        obtain ⟨x, hx, hg⟩ := firstRef_some h
        split at hg
        · rename_i r' h'
          cases hg
          exact (file_exists h').2
        · cases hg

theorem resolve_basic {W : World} {f : Nat} {c : Chain} {typ g : Str} {b : Bool} (h : typeResolve W f c b typ = some (.scalar g)) : g ∈ scalarTypes.map Prod.snd := by
  unfold typeResolve at h
  split at h
  · rename_i g' hg
    cases h
    split at hg
    · exact List.mem_map.2 ⟨_, lookup_mem hg, rfl⟩
    · cases hg
  · split at h
    · cases h
    · split at h
      · cases h
      · dsimp only at h
        obtain ⟨x, _, hg⟩ := firstRef_some h
        split at hg
        · cases hg
        · cases hg

/-- What is assumed about the names: identifiers everywhere, all types are found, and the packages of imported files end with identifiers. -/
structure NamesOk (W : World) (p : Nat) : Prop where
  named : ∀ f, NamedFile (W.file f)
  found : AllFound W
  bases : ∀ i ∈ W.imports p, (W.file i.1).goImport ≠ (W.file p).goImport → GoWord (pathBase (W.file i.1).goImport)

theorem import_word {W : World} {p : Nat} {c : Chain} {f : FieldDecl} (h : NamesOk W p) {r : Ref} {q : Option Nat} (e : fieldType W p c f = .decl r q) :
    resolvedImport W p q ≠ (W.file p).goImport → GoWord (pathBase (resolvedImport W p q)) := by
  cases q with
  | none => intro hne; exact absurd rfl hne
  | some x =>
    intro hne
    obtain ⟨_, i, hi, rfl⟩ := external e
    exact h.bases i hi hne

theorem fieldType_eq {W : World} {p : Nat} {c : Chain} {f : FieldDecl} (h : AllFound W) (ha : Around (W.file p).messages c) (hf : f ∈ c.msg.fields) :
    typeResolve W p c true f.typ = some (fieldType W p c f) := by
  obtain ⟨v, hv⟩ := Option.isSome_iff_exists.1 (h p c ha f hf)
  unfold fieldType
  rw [hv]
  rfl

theorem typeName_ok {W : World} {p : Nat} {c : Chain} {f : FieldDecl} (h : NamesOk W p) (ha : Around (W.file p).messages c) (hf : f ∈ c.msg.fields) :
    ExprOk (W.file p).goImport (typeGoName W p (fieldType W p c f)) := by
  have he := fieldType_eq h.found ha hf
  cases ht : fieldType W p c f with
  | scalar g =>
    rw [ht] at he
    exact scalar_expr (resolve_basic he)
  | decl r q =>
    rw [ht] at he
    exact ⟨exported_goWord (type_named (h.named r.file) (resolve_found ha he)), import_word h ht⟩

theorem elem_ok {own : Str} {W : World} {p : Nat} {t : Resolved} {b : Bool} (h : ExprOk own (typeGoName W p t)) : ExprOk own (elemTypeName W p t b) := by
  unfold elemTypeName
  split
  · exact h
  · exact h

theorem key_ok {own k : Str} (h : (["int32", "int64", "uint32", "uint64", "sint32", "sint64", "fixed32", "fixed64", "sfixed32", "sfixed64", "bool",
    "string"].map String.toList).contains k = true) : ExprOk own (keyGoName k) := by
  have key : ∀ k ∈ ["int32", "int64", "uint32", "uint64", "sint32", "sint64", "fixed32", "fixed64", "sfixed32", "sfixed64", "bool", "string"].map String.toList,
      (scalarTypes.lookup k).isSome = true := by decide +kernel
  obtain ⟨g, hg⟩ := Option.isSome_iff_exists.1 (key k (List.contains_iff_mem.1 h))
  unfold keyGoName
  rw [hg]
  exact scalar_expr (List.mem_map.2 ⟨_, lookup_mem hg, rfl⟩)

theorem fieldGoType_ok {W : World} {p : Nat} {c : Chain} {f : FieldDecl} (h : NamesOk W p) (ha : Around (W.file p).messages c) (hf : f ∈ c.msg.fields) :
    ExprOk (W.file p).goImport (fieldGoType W p c.msg f (fieldType W p c f)) := by
  have ht := typeName_ok h ha hf
  unfold fieldGoType
  split
  · rename_i k hk
    exact ⟨key_ok (((h.named p).messages _ (within_msg ha)).keys f hf k hk), elem_ok ht⟩
  · split
    · exact elem_ok (own := (W.file p).goImport) ht
    · split
      · exact ht
      · exact ht

/-! ## Zero values -/

theorem findEnum_named : ∀ {path : List Str} {ms : List MsgDecl} {es : List EnumDecl} {e : EnumDecl}, findEnum ms es path = some e → (∀ m, Within ms m → NamedMsg m) →
    (∀ e ∈ es, NamedEnum e) → NamedEnum e
  | [], _, _, _, h, _, _ => by
    rw [findEnum] at h
    cases h
  | [n], ms, es, e, h, _, h2 => by
    rw [findEnum] at h
    exact h2 e (List.mem_of_find?_eq_some h)
  | n :: m :: rest, ms, es, e, h, h1, h2 => by
    rw [findEnum] at h
    · split at h
      · rename_i x hx
        have hx := List.mem_of_find?_eq_some hx
        exact findEnum_named h (fun y hy => h1 y (.deeper hx hy)) (h1 x (.here hx)).enums
      · cases h
    · simp

theorem exported_ne {s t : Str} (h : ExportedIdent s) (ht : ∀ c ∈ t.head?, ¬ Upper c) : s ≠ t := by
  rintro rfl
  obtain ⟨c, r, rfl, hc, _⟩ := h
  exact ht c rfl hc

theorem fieldZero_ok {W : World} {p : Nat} {c : Chain} {f : FieldDecl} (h : NamesOk W p) (ha : Around (W.file p).messages c) (hf : f ∈ c.msg.fields) :
    ZeroOk (W.file p).goImport (fieldGoZero W p c.msg f (fieldType W p c f)) := by
  have hn := typeName_ok h ha hf
  have he := fieldType_eq h.found ha hf
  unfold fieldGoZero
  split
  · exact trivial
  · split
    · rename_i r q ht
      rw [ht] at he
      have hx := resolve_found ha he
      have hp := path_named hx (h.named r.file).messages (h.named r.file).enums
      split
      · split
        · exact trivial
        · rename_i e hfe
          have hne := findEnum_named hfe (h.named r.file).messages (h.named r.file).enums
          split
          · rename_i v hv
            have hex := const_exported (p := W.file r.file) (fun hne => C46_nested _ hne fun s hs => hp.2 s (List.dropLast_subset _ hs)) hne.name
              (hne.values v (List.mem_of_find?_eq_some hv))
            exact ⟨⟨exported_goWord hex, import_word h ht⟩, exported_ne hex (by decide +kernel), exported_ne hex (by decide +kernel)⟩
          · exact trivial
      · split
        · exact hn
        · exact trivial
    · split
      · exact trivial
      · split
        · exact trivial
        · split
          · exact trivial
          · exact trivial

/-! ## Tags -/

/-- May all characters stand in a raw string? -/
def rawText (s : Str) : Bool := s.all fun c => c != '`' && c != '\r' && decide (Legal c)

theorem raw_append (s t : Str) : rawText (s ++ t) = (rawText s && rawText t) := List.all_append

theorem raw_cons (c : Char) (t : Str) : rawText (c :: t) = (rawText [c] && rawText t) := by
  rw [← raw_append]
  rfl

theorem raw_app {s t : Str} (h1 : rawText s = true) (h2 : rawText t = true) : rawText (s ++ t) = true := by rw [raw_append, h1, h2]; rfl

theorem raw_con {c : Char} {t : Str} (h1 : rawText [c] = true) (h2 : rawText t = true) : rawText (c :: t) = true := by rw [raw_cons, h1, h2]; rfl

theorem raw_ident {s : Str} (h : ∀ x ∈ s, IdentChar x) : rawText s = true := by
  unfold rawText
  rw [List.all_eq_true]
  intro c hc
  have hw := identChar_word (h c hc)
  simp only [Bool.and_eq_true, bne_iff_ne, decide_eq_true_eq]
  refine ⟨⟨?_, ?_⟩, (ident_legal (h c hc)).2⟩ <;>
  · rintro rfl
    exact absurd hw (by decide)

theorem raw_digits (n : Nat) : rawText (Nat.toDigits 10 n) = true := by
  refine raw_ident fun c hc => .inr (.inr (.inl ?_))
  have := digits_all c hc
  unfold Char.isDigit at this
  simp only [Bool.and_eq_true, decide_eq_true_eq] at this
  exact ⟨this.1, this.2⟩

theorem raw_itoa (i : Int) : rawText (itoa i) = true := by
  unfold itoa
  split
  · rw [raw_cons, raw_digits]
    decide
  · exact raw_digits _

theorem raw_encoding (n : Str) (t : Resolved) : rawText (encodingType n t) = true := by
  unfold encodingType
  split
  · split
    · decide
    · decide
  · cases h : scalarEncodings.lookup (trimmedName n) with
    | none => rfl
    | some e =>
      have key : ∀ x ∈ scalarEncodings, rawText x.2 = true := by decide +kernel
      exact key _ (lookup_mem h)

theorem raw_tag {d : FileDecl} {f : FieldDecl} (t : Resolved) (h : ProtoIdent f.name) : (Pc.raw (fieldStructTag d f t)).Ok := by
  have key : rawText (fieldStructTag d f t) = true := by
    have hn := raw_ident (proto_chars h)
    have h1 : rawText (if f.key.isSome then "bytes".toList else encodingType f.typ t) = true := by
      split
      · decide
      · exact raw_encoding _ _
    have h2 : rawText (if f.repeated || f.key.isSome then "rep".toList ++ (if isPacked d f t then ",packed".toList else []) else if f.required then "req".toList else "opt".toList) = true := by
      split
      · split
        · decide
        · decide
      · split
        · decide
        · decide
    have e1 : rawText "protobuf:\"".toList = true := by decide +kernel
    have e2 : rawText [','] = true := by decide
    have e3 : rawText "name=".toList = true := by decide +kernel
    have e4 : rawText ['"'] = true := by decide
    have e5 : rawText " json:\"".toList = true := by decide +kernel
    have e6 : rawText ",omitempty".toList = true := by decide +kernel
    have e7 : rawText " protobuf_key:\"".toList = true := by decide +kernel
    have e8 : rawText " protobuf_val:\"".toList = true := by decide +kernel
    have e9 : rawText ",1,opt,name=key".toList = true := by decide +kernel
    have e10 : rawText ",2,opt,name=value".toList = true := by decide +kernel
    have e11 : rawText [] = true := rfl
    have h3 : ∀ k, rawText (" protobuf_key:\"".toList ++ encodingType k (.scalar []) ++ ",1,opt,name=key".toList ++ '"' ::
        " protobuf_val:\"".toList ++ encodingType f.typ t ++ ",2,opt,name=value".toList ++ ['"']) = true := by
      intro k
      repeat (first | with_reducible assumption | with_reducible exact raw_encoding _ _ | with_reducible refine raw_app ?_ ?_ | refine raw_con (by decide) ?_)
    unfold fieldStructTag
    repeat (first | with_reducible assumption | with_reducible exact raw_itoa _ | with_reducible refine raw_app ?_ ?_ | refine raw_con (by decide) ?_)
    split
    · exact h3 _
    · rfl
  intro c hc
  have := List.all_eq_true.1 key c hc
  simp only [Bool.and_eq_true, bne_iff_ne, decide_eq_true_eq] at this
  exact ⟨this.1.1, this.1.2, this.2⟩

/-! ## The file -/

theorem message_ok {W : World} {p : Nat} {c : Chain} {notes : Notes} {q : List Nat} (h : NamesOk W p) (ha : Around (W.file p).messages c) (hn : ∀ q, GoNote (notes q)) :
    MessageOk W p notes q c := by
  have hm := (h.named p).messages _ (within_msg ha)
  exact {
    name := type_named (h.named p) (chain_declared ha)
    fields := fun x hx => {
      name := field_named hm.fields hx
      type := fieldGoType_ok h ha (named_fst_mem hx)
      tag := raw_tag _ (hm.fields _ (named_fst_mem hx))
      zero := fieldZero_ok h ha (named_fst_mem hx) }
    oneofs := fun k hk => oneof_named hm hk
    tags := fun k hk => proto_chars (hm.oneofs _ (getD_mem hk))
    exist := fun x hx k e => hm.exist _ (named_fst_mem hx) k e
    note := hn q
    notes := fun k => hn _ }

theorem file_ok {W : World} {p : Nat} {notes : Notes} (h : NamesOk W p) (hn : ∀ q, GoNote (notes q)) (hc : ∀ q i, ∀ c ∈ (notes (q ++ [0, i])).inline, c ≠ '%') :
    FileOk W p notes where
  enums i e he := enum_ok (fun s hs => by cases hs) ((h.named p).enums e (List.mem_of_getElem? he)) hn (hc [] i)
  nested j m hm i e he := by
    have hw := (h.named p).messages m (.here (List.mem_of_getElem? hm))
    exact enum_ok (fun s hs => by rw [List.mem_singleton.1 hs]; exact hw.name) (hw.enums e (List.mem_of_getElem? he)) hn (hc [1, j] i)
  messages c hc q := message_ok h ((chains_iff _ _).1 hc) hn

end Gen
end Verif.Props
