import Verif.Lemmas.Gen.TextPlain
import Verif.Props.Gen.Code
/-!
# C76: generated files are Go source files with the declarations that were meant
-/
namespace Verif.Props
open Verif.Spec Verif.Spec.Gen Verif.Model Verif.Model.Gen Verif.Props.Gen

namespace Gen

/-! ## Names of packages -/

theorem quals_expr (own : Str) (L : List Str) : ∀ t : GoExpr, (exprSyn own t).quals = (exprMentions own L t).map Mention.qual
  | .basic s => by
    unfold exprSyn exprMentions
    split <;> rfl
  | .iface n => rfl
  | .named pkg n => by
    unfold exprSyn exprMentions
    split <;> rfl
  | .ptr t => quals_expr own L t
  | .slice t => quals_expr own L t
  | .map k v => by
    show (exprSyn own k).quals ++ (exprSyn own v).quals = (exprMentions own L k ++ exprMentions own L v).map Mention.qual
    rw [List.map_append, quals_expr own L k, quals_expr own L v]

theorem quals_zero (own : Str) (L : List Str) (z : ZeroExpr) : (zeroSyn own z).quals = (zeroMentions own L z).map Mention.qual := by
  cases z with
  | const pkg n =>
    by_cases h : pkg = own <;> simp [zeroSyn, zeroMentions, h, ZeroSyn.quals]
  | lit t => exact quals_expr own L t
  | _ => rfl

theorem quals_enum (p : FileDecl) (parent : List Str) (e : EnumDecl) :
    (enumDecls (enumGen p parent e)).flatMap GoDecl.quals = (enumMentions p e).map Mention.qual := by
  unfold enumDecls enumGen enumMentions
  dsimp only
  cases enumMapping p e <;> (split <;> rfl)

/-- The names of packages in a message. -/
theorem quals_message (W : World) (o : GenOptions) (p : Nat) (c : Chain) (q : Str) :
    q ∈ (messageDecls o (genStruct W p c) (genGetters W p c [] (namedFields c.msg)) ((List.range c.msg.oneofs.length).map fun k => (oneofFieldType c k, wrappersOf W p c k))).flatMap
      GoDecl.quals ↔ ∃ m ∈ messageMentions W o p c, m.qual = q := by
  have h1 : (GoDecl.struct (genStruct W p c).name ((genStruct W p c).fields.map (fieldSyn (genStruct W p c).pkg))).quals =
      ((genStruct W p c).fields.flatMap fun g => exprMentions (W.file p).goImport [] g.type).map Mention.qual := by
    show ((genStruct W p c).fields.map (fieldSyn (genStruct W p c).pkg)).flatMap (fun f => f.2.1.quals) = _
    rw [List.flatMap_map, List.map_flatMap]
    congr 1
    funext g
    exact quals_expr _ _ _
  have h2 : ((List.range c.msg.oneofs.length).flatMap fun k => (oneofDecls (genStruct W p c).pkg (oneofFieldType c k) (wrappersOf W p c k)).flatMap GoDecl.quals) =
      ((genStruct W p c).wrappers.flatMap fun w => exprMentions (W.file p).goImport [] w.field.type).map Mention.qual := by
    show _ = (((List.range c.msg.oneofs.length).flatMap (wrappersOf W p c)).flatMap _).map _
    rw [List.flatMap_assoc, List.map_flatMap]
    congr 1
    funext k
    unfold oneofDecls
    rw [List.flatMap_cons, List.flatMap_assoc, List.map_flatMap]
    show [] ++ _ = _
    rw [List.nil_append]
    congr 1
    funext w
    show ([fieldSyn (genStruct W p c).pkg w.field].flatMap fun f => f.2.1.quals) ++ ([] ++ []) = _
    rw [List.append_nil, List.append_nil, List.flatMap_cons, List.flatMap_nil, List.append_nil]
    exact quals_expr _ _ _
  have h3 : (genGetters W p c [] (namedFields c.msg)).flatMap (fun g => (getterDecl (genStruct W p c).pkg (genStruct W p c).name g).quals) =
      ((genGetters W p c [] (namedFields c.msg)).flatMap fun g =>
        exprMentions (W.file p).goImport [] g.type ++ zeroMentions (W.file p).goImport ["x".toList] g.zero).map Mention.qual := by
    rw [List.map_flatMap]
    congr 1
    funext g
    show (exprSyn _ g.type).quals ++ (zeroSyn _ g.zero).quals = _
    rw [List.map_append]
    exact congr (congrArg _ (quals_expr _ _ _)) (quals_zero _ _ _)
  have key : ∀ l : List Mention, (∃ m ∈ l, m.qual = q) ↔ q ∈ l.map Mention.qual := fun l => List.mem_map.symm
  rw [key]
  unfold messageDecls messageMentions
  rw [List.flatMap_append, List.flatMap_append, List.flatMap_append, List.flatMap_append, List.flatMap_map, List.flatMap_assoc]
  rw [List.map_append, List.map_append, List.map_append]
  dsimp only
  rw [h2]
  rw [List.flatMap_cons, List.flatMap_cons, List.flatMap_nil, List.append_nil, h1]
  have e1 : (GoDecl.reset (genStruct W p c).name).quals = [] := rfl
  have e2 : (if (List.range c.msg.oneofs.length).map (fun k => (oneofFieldType c k, wrappersOf W p c k)) = [] then []
      else [GoDecl.wrappers (genStruct W p c).name ((genStruct W p c).wrappers.map GenWrapper.name)]).flatMap GoDecl.quals = [] := by
    split <;> rfl
  have e3 : (if o.getter = true then (genGetters W p c [] (namedFields c.msg)).map (getterDecl (genStruct W p c).pkg (genStruct W p c).name) else []).flatMap GoDecl.quals =
      (if o.getter = true then (genGetters W p c [] (namedFields c.msg)).flatMap fun g =>
        exprMentions (W.file p).goImport [] g.type ++ zeroMentions (W.file p).goImport ["x".toList] g.zero else []).map Mention.qual := by
    split
    · rw [List.flatMap_map]
      exact h3
    · rfl
  rw [e1, e2, e3]
  simp only [List.append_nil, List.mem_append]
  have e4 : q ∈ (if o.marshaler = true then [GoDecl.marshal (genStruct W p c).name, GoDecl.unmarshal (genStruct W p c).name] else []).flatMap GoDecl.quals ↔
      q ∈ (if o.marshaler = true then [(⟨"prutal".toList, "github.com/cloudwego/prutal".toList, ["x".toList, "in".toList]⟩ : Mention)] else []).map Mention.qual := by
    split
    · simp [GoDecl.quals]
    · simp
  rw [e4]
  constructor
  · rintro (((h | h) | h) | h)
    · exact .inl (.inl (.inl h))
    · exact .inl (.inr h)
    · exact .inr h
    · exact .inl (.inl (.inr h))
  · rintro (((h | h) | h) | h)
    · exact .inl (.inl (.inl h))
    · exact .inr h
    · exact .inl (.inl (.inr h))
    · exact .inl (.inr h)

theorem quals_file (W : World) (o : GenOptions) (p : Nat) (q : Str) :
    (∃ d ∈ fileDecls W o p, q ∈ d.quals) ↔ ∃ m ∈ fileMentions W o p, m.qual = q := by
  rw [← List.mem_flatMap]
  unfold fileDecls fileMentions fileEnums
  rw [List.flatMap_append, List.flatMap_append, List.flatMap_assoc, List.flatMap_assoc, List.flatMap_assoc, List.flatMap_append, List.flatMap_assoc]
  have h1 : ∀ (es : List EnumDecl) (parent : List Str), (∃ e ∈ es, q ∈ (enumDecls (enumGen (W.file p) parent e)).flatMap GoDecl.quals) ↔
      ∃ m ∈ es.flatMap (enumMentions (W.file p)), m.qual = q := by
    intro es parent
    constructor
    · rintro ⟨e, he, h⟩
      rw [quals_enum] at h
      obtain ⟨m, hm, h⟩ := List.mem_map.1 h
      exact ⟨m, List.mem_flatMap.2 ⟨e, he, hm⟩, h⟩
    · rintro ⟨m, hm, h⟩
      obtain ⟨e, he, hm⟩ := List.mem_flatMap.1 hm
      refine ⟨e, he, ?_⟩
      rw [quals_enum]
      exact List.mem_map.2 ⟨m, hm, h⟩
  have hnest : q ∈ (W.file p).messages.flatMap (fun m => (m.enums.flatMap fun e => enumDecls (enumGen (W.file p) [m.name] e)).flatMap GoDecl.quals) ↔
      ∃ m ∈ (W.file p).messages.flatMap fun m => m.enums.flatMap (enumMentions (W.file p)), m.qual = q := by
    constructor
    · intro h
      obtain ⟨x, hx, h⟩ := List.mem_flatMap.1 h
      rw [List.flatMap_assoc] at h
      obtain ⟨m, hm, h⟩ := (h1 x.enums [x.name]).1 (List.mem_flatMap.1 h)
      exact ⟨m, List.mem_flatMap.2 ⟨x, hx, hm⟩, h⟩
    · rintro ⟨m, hm, h⟩
      obtain ⟨x, hx, hm⟩ := List.mem_flatMap.1 hm
      refine List.mem_flatMap.2 ⟨x, hx, ?_⟩
      rw [List.flatMap_assoc]
      exact List.mem_flatMap.2 ((h1 x.enums [x.name]).2 ⟨m, hm, h⟩)
  have hmsg : q ∈ (msgsChains [] (W.file p).messages).flatMap (fun c => (messageDecls o (genStruct W p c) (genGetters W p c [] (namedFields c.msg))
      ((List.range c.msg.oneofs.length).map fun k => (oneofFieldType c k, wrappersOf W p c k))).flatMap GoDecl.quals) ↔
      ∃ m ∈ (msgsChains [] (W.file p).messages).flatMap (messageMentions W o p), m.qual = q := by
    constructor
    · intro h
      obtain ⟨c, hc, h⟩ := List.mem_flatMap.1 h
      obtain ⟨m, hm, h⟩ := (quals_message W o p c q).1 h
      exact ⟨m, List.mem_flatMap.2 ⟨c, hc, hm⟩, h⟩
    · rintro ⟨m, hm, h⟩
      obtain ⟨c, hc, hm⟩ := List.mem_flatMap.1 hm
      exact List.mem_flatMap.2 ⟨c, hc, (quals_message W o p c q).2 ⟨m, hm, h⟩⟩
  rw [List.mem_append, List.mem_append, hnest, hmsg, List.mem_flatMap, h1]
  constructor
  · rintro ((⟨m, hm, h⟩ | ⟨m, hm, h⟩) | ⟨m, hm, h⟩)
    · exact ⟨m, List.mem_append_left _ (List.mem_append_left _ hm), h⟩
    · exact ⟨m, List.mem_append_left _ (List.mem_append_right _ hm), h⟩
    · exact ⟨m, List.mem_append_right _ hm, h⟩
  · rintro ⟨m, hm, h⟩
    rcases List.mem_append.1 hm with hm | hm
    · rcases List.mem_append.1 hm with hm | hm
      · exact .inl (.inl ⟨m, hm, h⟩)
      · exact .inl (.inr ⟨m, hm, h⟩)
    · exact .inr ⟨m, hm, h⟩

/-! ## Imports -/

/-- The imports of a file are the packages it uses, without names. -/
theorem mem_filePkgs {W : World} {o : GenOptions} {p : Nat} {e : Str × Str} : e ∈ filePkgs W o p ↔ e.1 ≠ [] ∧ e.2 = [] ∧ (e.1, []) ∈ fileUses W o p := by
  unfold filePkgs
  rw [mem_uses]
  constructor
  · rintro (⟨b, u, a, h1, h2, h3, _⟩ | ⟨h, _⟩)
    · have hu : u ∈ fileUses W o p := by
        rw [h1]
        exact List.mem_append_right _ (List.mem_cons_self ..)
      obtain ⟨_, _, _, _, h4⟩ := fileUses_mention hu
      obtain ⟨x, y⟩ := u
      have h4 : y = [] := h4
      subst h4
      subst h3
      refine ⟨h2, ?_, hu⟩
      show (if pathBase x = [] then [] else []) = []
      split <;> rfl
    · cases h
  · obtain ⟨x, y⟩ := e
    rintro ⟨h1, h2, h3⟩
    have h2 : y = [] := h2
    subst h2
    left
    obtain ⟨b, u, a, h4, h5, h6⟩ := last_use h3
    have hu : u ∈ fileUses W o p := by
      rw [h4]
      exact List.mem_append_right _ (List.mem_cons_self ..)
    obtain ⟨_, _, _, _, h7⟩ := fileUses_mention hu
    obtain ⟨x', y⟩ := u
    have h7 : y = [] := h7
    have h5 : x' = x := h5
    subst h7
    subst h5
    refine ⟨b, _, a, h4, h1, ?_, h6⟩
    show (x', []) = (x', if pathBase x' = [] then [] else [])
    split <;> rfl

end Gen

/-! ## Minus signs -/

def isInt : GTok → Bool
  | .int _ => true
  | _ => false

/-- Every minus sign is the sign of a number. -/
def signsOk : List GTok → Bool
  | [] => true
  | [t] => t ≠ go "-"
  | t :: u :: ts => (t ≠ go "-" || isInt u) && signsOk (u :: ts)

theorem signs_append : ∀ {a b : List GTok}, signsOk a = true → signsOk b = true → signsOk (a ++ b) = true
  | [], b, _, h => h
  | [t], [], h, _ => h
  | [t], u :: b, h, h' => by
    rw [signsOk] at h
    show signsOk (t :: u :: b) = true
    rw [signsOk, h, h']
    rfl
  | t :: u :: a, b, h, h' => by
    rw [signsOk, Bool.and_eq_true] at h
    show signsOk (t :: u :: (a ++ b)) = true
    rw [signsOk, h.1, show signsOk (u :: (a ++ b)) = true from signs_append h.2 h']
    rfl

theorem signs_cons {t : GTok} {b : List GTok} (h : t ≠ go "-") (h' : signsOk b = true) : signsOk (t :: b) = true :=
  signs_append (a := [t]) (by rw [signsOk]; exact decide_eq_true h) h'

theorem signs_flatMap {α : Type} {g : α → List GTok} : ∀ {l : List α}, (∀ a ∈ l, signsOk (g a) = true) → signsOk (l.flatMap g) = true
  | [], _ => rfl
  | a :: l, h => by
    rw [List.flatMap_cons]
    exact signs_append (h a (List.mem_cons_self ..)) (signs_flatMap fun x hx => h x (List.mem_cons_of_mem _ hx))

theorem signs_int (i : Int) : signsOk (intToks i) = true := by
  unfold intToks
  split <;> simp [signsOk, isInt, go]

/-- Tokens without minus signs, and numbers. -/
macro "signs" : tactic => `(tactic| repeat (first | rfl | apply signs_int | apply signs_cons (by simp [go, gw]) | apply signs_append | assumption | apply signs_flatMap; intro _ _))

theorem signs_type : ∀ t : TypeSyn, signsOk t.toks = true
  | .name s => by rw [TypeSyn.toks]; signs
  | .qual p s => by rw [TypeSyn.toks]; signs
  | .ptr t => by
    have := signs_type t
    rw [TypeSyn.toks]
    signs
  | .slice t => by
    have := signs_type t
    rw [TypeSyn.toks]
    signs
  | .map k v => by
    have := signs_type k
    have := signs_type v
    rw [TypeSyn.toks]
    signs

theorem signs_decl (d : GoDecl) : signsOk d.toks = true := by
  cases d with
  | struct n fs =>
    rw [GoDecl.toks]
    refine signs_append (signs_append (by signs) (signs_flatMap fun f _ => ?_)) (by signs)
    have := signs_type f.2.1
    signs
  | getter t n ty g z =>
    have h1 := signs_type ty
    have h2 : signsOk g.toks = true := by cases g <;> (rw [GuardSyn.toks]; signs)
    have h3 : signsOk z.toks = true := by
      cases z with
      | lit t =>
        have := signs_type t
        rw [ZeroSyn.toks]
        signs
      | _ => rw [ZeroSyn.toks]; signs
    rw [GoDecl.toks]
    unfold recvToks
    signs
  | _ =>
    rw [GoDecl.toks]
    try unfold recvToks
    signs

theorem signs_imports (l : List (Str × Str)) : signsOk (importToks l) = true := by
  have hi : ∀ i : Str × Str, signsOk ((if i.1 = [] then [] else [GTok.word i.1]) ++ [.str i.2, .semi]) = true := by
    intro i
    split <;> signs
  unfold importToks
  split
  · rfl
  · rename_i a p
    have := hi (a, p)
    exact signs_cons (by simp [go, gw]) this
  · exact signs_cons (by simp [go, gw]) (signs_cons (by simp [go]) (signs_append (signs_flatMap fun i _ => hi i) (by signs)))

theorem signs_file (f : GoFile) : signsOk f.toks = true := by
  unfold GoFile.toks
  exact signs_append (signs_cons (by simp [go, gw]) (signs_cons (by simp [go, gw]) (signs_cons (by simp [go, gw]) (signs_imports _)))) (signs_flatMap fun d _ => signs_decl d)

/-! ## C76 -/

/-- The file generated for a proto file is a Go source file: Go reads it as the package clause, imports, and the declarations of the enums and messages of
the file (types, constants, tables, methods and getters), whatever comments there are, and not as any other file.  A package is imported, once and without a name, if and only if
the declarations use its name; besides packages of imported files, only `strconv` and the runtime are imported.

Missing: packages whose import path does not end with an identifier (`C76_base_violated`), comments beside enums with `%` (C59), arguments
with newlines or braces (C61), and import paths with characters that Go would escape. -/
theorem C76_file_partial (W : World) (o : GenOptions) (p : Nat) (notes : Notes) (args : List Str)
    (hnamed : ∀ f, NamedFile (W.file f)) (hfound : AllFound W) (hpkg : GoWord (W.file p).goPackage)
    (hbases : ∀ i ∈ W.imports p, GoWord (pathBase (W.file i.1).goImport))
    (hpaths : ∀ i ∈ W.imports p, (W.file i.1).goImport ≠ [] ∧ ∀ c ∈ (W.file i.1).goImport, c ≠ '"' ∧ c ≠ '\\' ∧ c ≠ '\n' ∧ Legal c)
    (hnotes : ∀ q, GoNote (notes q)) (hpercent : ∀ q i, ∀ c ∈ (notes (q ++ [0, i])).inline, c ≠ '%')
    (hargs : ∀ a ∈ args, ∀ c ∈ a, c ≠ '\n' ∧ c ≠ '{' ∧ Legal c) :
    ∃ imports, (∀ f : GoFile, f.Plain → (ReadsAs (generatedText W o p notes args) f ↔ f = ⟨(W.file p).goPackage, imports, fileDecls W o p⟩)) ∧
      ReadsAs (generatedText W o p notes args) ⟨(W.file p).goPackage, imports, fileDecls W o p⟩ ∧
      (imports.map Prod.snd).Nodup ∧ (∀ i ∈ imports, i.1 = []) ∧
      (∀ i ∈ imports, i.2 ∈ "strconv".toList :: "github.com/cloudwego/prutal".toList :: (W.imports p).map (fun i => (W.file i.1).goImport)) ∧
      ∀ q, (∃ d ∈ fileDecls W o p, q ∈ d.quals) ↔ ∃ i ∈ imports, pathBase i.2 = q := by
  have hok := file_ok ⟨hnamed, hfound, fun i hi _ => hbases i hi⟩ hnotes hpercent
  have hpath : ∀ a ∈ "strconv".toList :: "github.com/cloudwego/prutal".toList :: (W.imports p).map (fun i => (W.file i.1).goImport),
      a ≠ [] ∧ ∀ c ∈ a, c ≠ '"' ∧ c ≠ '\\' ∧ c ≠ '\n' ∧ Legal c := by
    intro a ha
    rcases List.mem_cons.1 ha with rfl | ha
    · decide +kernel
    · rcases List.mem_cons.1 ha with rfl | ha
      · decide +kernel
      · obtain ⟨i, hi, rfl⟩ := List.mem_map.1 ha
        exact hpaths i hi
  have himp : ∀ e ∈ filePkgs W o p, ImportOk e := fun e he => by
    obtain ⟨_, h2, h3⟩ := mem_filePkgs.1 he
    exact ⟨(hpath _ (uses_paths _ h3)).2, .inl h2⟩
  obtain ⟨l, hperm, hl⟩ := lexes_file (l := filePkgs W o p) defaultGrouping hargs hpkg (lines_file o hok) himp
  have hmem : ∀ e, e ∈ l ↔ e.1 ≠ [] ∧ e.2 = [] ∧ (e.1, []) ∈ fileUses W o p := fun e => hperm.mem_iff.trans mem_filePkgs
  have hr : ReadsAs (generatedText W o p notes args) ⟨(W.file p).goPackage, l.map fun e : Str × Str => (e.2, e.1), fileDecls W o p⟩ := by
    unfold ReadsAs generatedText GoFile.toks
    exact hl
  refine ⟨l.map fun e : Str × Str => (e.2, e.1), fun f hf => ⟨fun h => ?_, fun h => ?_⟩, hr, ?_, ?_, ?_, fun q => ?_⟩
  · exact reads_unique hf (file_plain o hok) h hr
  · rw [h]
    exact hr
  · rw [List.map_map]
    exact ((hperm.map Prod.fst).nodup_iff).2 (uses_nodup _ [] List.nodup_nil)
  · intro i hi
    obtain ⟨e, he, rfl⟩ := List.mem_map.1 hi
    exact ((hmem e).1 he).2.1
  · intro i hi
    obtain ⟨e, he, rfl⟩ := List.mem_map.1 hi
    exact uses_paths (e.1, []) ((hmem e).1 he).2.2
  · rw [quals_file]
    have hk : OneofsExist (W.file p).messages := fun m hm => ((hnamed p).messages m hm).exist
    constructor
    · rintro ⟨m, hm, rfl⟩
      have ok := fileMentions_ok hk hm
      refine ⟨([], m.pkg), List.mem_map.2 ⟨(m.pkg, []), (hmem _).2 ⟨(hpath _ (uses_paths _ ok.used)).1, rfl, ok.used⟩, rfl⟩, ok.qual.symm⟩
    · rintro ⟨i, hi, rfl⟩
      obtain ⟨e, he, rfl⟩ := List.mem_map.1 hi
      obtain ⟨m, hm, h1, h2, _⟩ := fileUses_mention ((hmem e).1 he).2.2
      exact ⟨m, hm, h2⟩

/-! ## Comments -/

namespace Gen

theorem trimmed_slash {s u : Str} (h : Trimmed ('/' :: s) u) : ∃ v b, u = '/' :: v ∧ s = v ++ b ∧ ∀ c ∈ b, Blank c := by
  have hb : ¬ Blank '/' := by unfold Blank; decide
  obtain ⟨a, b, e, h1, h2, _, _⟩ := h
  cases a with
  | cons x a =>
    have e : '/' :: s = x :: (a ++ u ++ b) := e
    injection e with e1 _
    exact absurd (h1 x (List.mem_cons_self ..)) (e1 ▸ hb)
  | nil =>
    rw [List.nil_append] at e
    cases u with
    | nil =>
      have e : '/' :: s = b := e
      exact absurd (h2 '/' (e ▸ List.mem_cons_self ..)) hb
    | cons x u =>
      have e : '/' :: s = x :: (u ++ b) := e
      injection e with e1 e2
      exact ⟨u, b, by rw [e1], e2, h2⟩

theorem comment_of {toks : List Tok} (hc : CommentsOf toks) {j : Nat} {t : Tok} {u : Str} (hj : toks[j]? = some t) (hk : t.kind = .line ∨ t.kind = .block)
    (hu : Trimmed t.text u) : GoComment u := by
  have hm := List.mem_of_getElem? hj
  rcases hk with hk | hk
  · obtain ⟨body, e, hb⟩ := hc.line t hm hk
    rw [e] at hu
    obtain ⟨v, b, rfl, e1, h2⟩ := trimmed_slash hu
    cases v with
    | nil =>
      have e1 : '/' :: body = b := e1
      exact absurd (h2 '/' (e1 ▸ List.mem_cons_self ..)) (by unfold Blank; decide)
    | cons x v =>
      have e1 : '/' :: body = x :: (v ++ b) := e1
      injection e1 with e1 e2
      subst e1
      exact .line v fun c hcv => by
        have := hb c (by rw [e2]; exact List.mem_append_left _ hcv)
        exact ⟨this.1, this.2.2⟩
  · obtain ⟨body, e, h1, h2⟩ := hc.block t hm hk
    rw [e] at hu
    obtain ⟨v, b, rfl, e1, h3⟩ := trimmed_slash hu
    have hv : v = '*' :: (body ++ ['*', '/']) := by
      rcases List.eq_nil_or_concat b with rfl | ⟨b', x, rfl⟩
      · rw [List.append_nil] at e1
        exact e1.symm
      · have e2 : ('*' :: (body ++ ['*'])) ++ ['/'] = (v ++ b') ++ [x] := by simpa using e1
        have := (List.append_inj' e2 rfl).2
        injection this with this _
        exact absurd (h3 x (by simp)) (by rw [← this]; unfold Blank; decide)
    rw [hv]
    exact .block body h1 h2

theorem text_comments {toks : List Tok} (hc : CommentsOf toks) {ps : List Nat} {s : Str} (h : CommentText toks ps s) :
    (∀ j ∈ ps, CommentAt toks j) → ps = [] ∧ s = [] ∨ ps ≠ [] ∧ GoComments s := by
  induction h with
  | none => exact fun _ => .inl ⟨rfl, rfl⟩
  | one j t u hj hu =>
    intro h
    obtain ⟨t', e, hk⟩ := h j (List.mem_cons_self ..)
    cases hj.symm.trans e
    exact .inr ⟨by simp, .one _ (comment_of hc hj hk hu)⟩
  | more j t u js s hj hu hne _ ih =>
    intro h
    obtain ⟨t', e, hk⟩ := h j (List.mem_cons_self ..)
    cases hj.symm.trans e
    rcases ih (fun j hj => h j (List.mem_cons_of_mem _ hj)) with ⟨h1, _⟩ | ⟨_, h1⟩
    · exact absurd h1 hne
    · exact .inr ⟨by simp, .more _ _ (comment_of hc hj hk hu) h1⟩

/-- There is only one comment beside a declaration. -/
theorem beside_unique {toks : List Tok} {i j j' : Nat} (h : Beside toks i j) (h' : Beside toks i j') : ¬ j < j' := by
  intro hlt
  obtain ⟨t, e, hk⟩ := h.comment
  have := h'.between j t h.after hlt e
  rcases hk with hk | hk
  · exact this.2.1 hk
  · exact this.2.2.1 hk

end Gen

/-- The comments that the loader takes from a proto file are comments in Go as well: with them, `C76_file_partial` applies. -/
theorem C76_comments (toks : List Tok) (hl : Lexed toks) (hc : CommentsOf toks) (calls : List CommentCall)
    (hhead : ∀ i, .head i ∈ calls → VisibleAt toks i) (hinline : ∀ i, .inline i ∈ calls → VisibleAt toks i) (n : Nat) (k : CommentCall) (s : Str)
    (hk : calls[n]? = some k) (hs : (consumeAll toks [] calls)[n]? = some s) :
    (∀ i, k = .head i → s = [] ∨ GoComments s) ∧ ∀ i, k = .inline i → s = [] ∨ GoComment s := by
  obtain ⟨_, pss, hlen, h⟩ := C59_comments toks hl calls hhead hinline
  obtain ⟨hn, _⟩ := List.getElem?_eq_some_iff.1 hk
  have hp : pss[n]? = some (pss[n]'(by omega)) := List.getElem?_eq_getElem (by omega)
  obtain ⟨h1, h2, h3, h4⟩ := h n k s _ hk hs hp
  generalize pss[n]'(by omega) = ps at h1 h2 h3 h4
  constructor
  · intro i e
    rcases text_comments hc h1 (fun j hj => ((h3 i e j).1 hj).1.comment) with ⟨_, h5⟩ | ⟨_, h5⟩
    · exact .inl h5
    · exact .inr h5
  · intro i e
    cases h1 with
    | none => exact .inl rfl
    | one j t u hj hu =>
      obtain ⟨t', e', hk⟩ := ((h4 i e j).1 (List.mem_cons_self ..)).1.comment
      cases hj.symm.trans e'
      exact .inr (comment_of hc hj hk hu)
    | more j t u js s hj hu hne h' =>
      cases js with
      | nil => exact absurd rfl hne
      | cons j' js =>
        have hlt : j < j' := (List.pairwise_cons.1 h2).1 j' (List.mem_cons_self ..)
        exact absurd hlt (beside_unique ((h4 i e j).1 (List.mem_cons_self ..)).1 ((h4 i e j').1 (List.mem_cons_of_mem _ (List.mem_cons_self ..))).1)

/-! ### Concrete files -/

namespace TextSample

def identOk (s : Str) : Bool := decide (∀ x ∈ s, IdentChar x) && s.head?.any fun c => !decide (Digit c)

theorem ident_ok {s : Str} (h : identOk s = true) : ProtoIdent s := by
  unfold identOk at h
  rw [Bool.and_eq_true, decide_eq_true_eq] at h
  exact CodeSample.ident_of_test h.1 h.2

def enumNamed (e : EnumDecl) : Bool := identOk e.name && e.fields.all fun v => identOk v.name

theorem enum_named {e : EnumDecl} (h : enumNamed e = true) : NamedEnum e := by
  unfold enumNamed at h
  rw [Bool.and_eq_true] at h
  exact ⟨ident_ok h.1, fun v hv => ident_ok (List.all_eq_true.1 h.2 v hv)⟩

mutual
def msgNamed : MsgDecl → Bool
  | .mk n es ms fs os _ _ _ =>
    identOk n && fs.all (fun f => identOk f.name && f.key.all (fun k => (["int32", "int64", "uint32", "uint64", "sint32", "sint64", "fixed32", "fixed64", "sfixed32",
      "sfixed64", "bool", "string"].map String.toList).contains k) && f.oneof.all (fun k => decide (k < os.length))) && os.all identOk && es.all enumNamed && msgsNamed ms
def msgsNamed : List MsgDecl → Bool
  | [] => true
  | m :: ms => msgNamed m && msgsNamed ms
end

theorem msgs_mem : ∀ {ms : List MsgDecl} {m : MsgDecl}, msgsNamed ms = true → m ∈ ms → msgNamed m = true
  | m :: ms, _, h, .head _ => by
    rw [msgsNamed, Bool.and_eq_true] at h
    exact h.1
  | m :: ms, _, h, .tail _ h' => by
    rw [msgsNamed, Bool.and_eq_true] at h
    exact msgs_mem h.2 h'

theorem msg_inner {m : MsgDecl} (h : msgNamed m = true) : msgsNamed m.messages = true := by
  cases m
  rw [msgNamed, Bool.and_eq_true] at h
  exact h.2

theorem msg_named {m : MsgDecl} (h : msgNamed m = true) : NamedMsg m := by
  cases m with
  | mk n es ms fs os ds opts rs =>
    rw [msgNamed] at h
    simp only [Bool.and_eq_true] at h
    obtain ⟨⟨⟨⟨h1, h2⟩, h3⟩, h4⟩, _⟩ := h
    have h2 := List.all_eq_true.1 h2
    simp only [Bool.and_eq_true] at h2
    exact ⟨ident_ok h1, fun f hf => ident_ok (h2 f hf).1.1, fun o ho => ident_ok (List.all_eq_true.1 h3 o ho), fun e he => enum_named (List.all_eq_true.1 h4 e he),
      fun f hf k hk => by
        have := (h2 f hf).1.2
        rw [hk] at this
        exact this,
      fun f hf k hk => by
        have := (h2 f hf).2
        rw [hk] at this
        exact of_decide_eq_true this⟩

theorem within_named {ms : List MsgDecl} {m : MsgDecl} (h : Within ms m) : msgsNamed ms = true → NamedMsg m := by
  induction h with
  | here hm => exact fun h => msg_named (msgs_mem h hm)
  | deeper hm _ ih => exact fun h => ih (msg_inner (msgs_mem h hm))

theorem files_named {W : World} (h : W.files.all (fun d => d.enums.all enumNamed && msgsNamed d.messages) = true) (f : Nat) : NamedFile (W.file f) := by
  have hd : ((W.file f).enums.all enumNamed && msgsNamed (W.file f).messages) = true := by
    unfold World.file
    rw [List.getD_eq_getElem?_getD]
    cases hf : W.files[f]? with
    | none => rfl
    | some d => exact List.all_eq_true.1 h d (List.mem_of_getElem? hf)
  rw [Bool.and_eq_true] at hd
  exact ⟨fun e he => enum_named (List.all_eq_true.1 hd.1 e he), fun m hm => within_named hm hd.2⟩

def wordOk (s : Str) : Bool := s.head?.any wordStart && s.tail.all wordChar && !goKeywords.contains s

theorem word_ok {s : Str} (h : wordOk s = true) : GoWord s := by
  unfold wordOk at h
  simp only [Bool.and_eq_true] at h
  cases s with
  | nil => exact absurd h.1.1 (by decide)
  | cons c r => exact ⟨⟨c, r, rfl, h.1.1, List.all_eq_true.1 h.1.2⟩, by simpa using h.2⟩

/-- The files of `ClosedSample`, with the names of Go packages. -/
def world : World where
  files := [{ edition := .proto3, package := "geo".toList, goImport := "example.com/a".toList, goPackage := "a".toList, messages := [ClosedSample.shape] },
    { edition := .proto3, package := "geo".toList, goImport := "example.com/b".toList, goPackage := "b".toList, messages := [ClosedSample.point] }]
  imports := fun f => if f = 0 then [(1, false)] else []

/-- Comments of the message, and of its second field. -/
def notes : Notes := fun q =>
  if q = [1, 0] then { head := "// A shape.\n/* It has\n corners. */".toList }
  else if q = [1, 0, 2, 1] then { inline := "// By name".toList }
  else {}

theorem notes_ok (q : List Nat) : GoNote (notes q) := by
  unfold notes
  split
  · exact ⟨.inr (.more "// A shape.".toList "/* It has\n corners. */".toList (.line " A shape.".toList (by decide +kernel))
      (.one _ (.block " It has\n corners. ".toList (by unfold Unclosed; decide +kernel) (by decide +kernel)))), .inl rfl⟩
  · split
    · exact ⟨.inl rfl, .inr (.line " By name".toList (by decide +kernel))⟩
    · exact ⟨.inl rfl, .inl rfl⟩

/-- A file that imports a file of the package `x/go-bar`. -/
def dashed : World := ImportSample.world ["bar.N"] [ImportSample.file "x/go-bar" "bar"]

end TextSample

open TextSample in
/-- The hypotheses of `C76_file_partial` are met by the files above. -/
example : (∀ f, NamedFile (world.file f)) ∧ AllFound world ∧ GoWord (world.file 0).goPackage ∧ (∀ i ∈ world.imports 0, GoWord (pathBase (world.file i.1).goImport)) ∧
    (∀ i ∈ world.imports 0, (world.file i.1).goImport ≠ [] ∧ ∀ c ∈ (world.file i.1).goImport, c ≠ '"' ∧ c ≠ '\\' ∧ c ≠ '\n' ∧ Legal c) ∧
    (∀ q, GoNote (notes q)) ∧ (∀ q i, ∀ c ∈ (notes (q ++ [0, i])).inline, c ≠ '%') ∧
    (∀ a ∈ ["prutalgen".toList, "--getter".toList, "geo.proto".toList], ∀ c ∈ a, c ≠ '\n' ∧ c ≠ '{' ∧ Legal c) ∧
    (fileDecls world ⟨true, true⟩ 0).length = 17 := by
  refine ⟨files_named (by decide +kernel), ClosedSample.found_of (by decide +kernel), word_ok (by decide +kernel), ?_, by decide +kernel, notes_ok, ?_, by decide +kernel,
    by decide +kernel⟩
  · have : ∀ i ∈ world.imports 0, wordOk (pathBase (world.file i.1).goImport) = true := by decide +kernel
    exact fun i hi => word_ok (this i hi)
  · intro q i c hc
    unfold notes at hc
    split at hc
    · cases hc
    · split at hc
      · revert c
        decide +kernel
      · cases hc

/-- `// c` above and `/* d */` beside a declaration of one token. -/
example : ∃ toks : List Tok, Lexed toks ∧ CommentsOf toks ∧ VisibleAt toks 2 ∧
    consumeAll toks [] [.head 2, .inline 2] = ["// c".toList, "/* d */".toList] := by
  refine ⟨[⟨.line, "// c ".toList⟩, ⟨.ws, "\n".toList⟩, ⟨.visible, "x".toList⟩, ⟨.ws, " ".toList⟩, ⟨.block, "/* d */".toList⟩], ⟨by decide +kernel, ?_⟩, ⟨?_, ?_⟩,
    ⟨_, rfl, rfl⟩, by decide +kernel⟩
  · intro t ht hk
    have : ∀ t ∈ [(⟨.line, "// c ".toList⟩ : Tok), ⟨.ws, "\n".toList⟩, ⟨.visible, "x".toList⟩, ⟨.ws, " ".toList⟩, ⟨.block, "/* d */".toList⟩],
        t.kind = .line ∨ t.kind = .block → t.text.any (fun c => !Model.Gen.isSpace c) = true := by decide +kernel
    obtain ⟨c, hc, h⟩ := List.any_eq_true.1 (this t ht hk)
    exact ⟨c, hc, by simpa using h⟩
  · intro t ht hk
    simp only [List.mem_cons, List.not_mem_nil, or_false] at ht
    rcases ht with rfl | rfl | rfl | rfl | rfl <;> first | exact ⟨" c ".toList, rfl, by decide +kernel⟩ | cases hk
  · intro t ht hk
    simp only [List.mem_cons, List.not_mem_nil, or_false] at ht
    rcases ht with rfl | rfl | rfl | rfl | rfl <;> first | exact ⟨" d ".toList, rfl, by unfold Unclosed; decide +kernel, by decide +kernel⟩ | cases hk

/-! ### Violations -/

open TextSample in
/-- C76 (violated): when a file uses a message of a package whose import path ends with `go-bar`, the generated text is not a Go file. -/
theorem C76_base_violated : ∃ (W : World) (o : GenOptions) (p : Nat) (notes : Notes) (args : List Str),
    (∀ f, NamedFile (W.file f)) ∧ AllFound W ∧ GoWord (W.file p).goPackage ∧ (∃ i ∈ W.imports p, (W.file i.1).goImport = "x/go-bar".toList) ∧
    (∀ i ∈ W.imports p, (W.file i.1).goImport ≠ [] ∧ ∀ c ∈ (W.file i.1).goImport, c ≠ '"' ∧ c ≠ '\\' ∧ c ≠ '\n' ∧ Legal c) ∧
    (∀ q, GoNote (notes q)) ∧ (∀ q i, ∀ c ∈ (notes (q ++ [0, i])).inline, c ≠ '%') ∧ (∀ a ∈ args, ∀ c ∈ a, c ≠ '\n' ∧ c ≠ '{' ∧ Legal c) ∧
    ∀ f, ¬ ReadsAs (generatedText W o p notes args) f := by
  refine ⟨dashed, ⟨false, false⟩, 0, fun _ => {}, ["prutalgen".toList], files_named (by decide +kernel), ClosedSample.found_of (by decide +kernel), word_ok (by decide +kernel),
    by decide +kernel, by decide +kernel, fun _ => ⟨.inl rfl, .inl rfl⟩, (fun _ _ c hc => by cases hc), by decide +kernel, fun f h => ?_⟩
  have h1 := scan_complete h 1000 (by decide +kernel)
  have h2 : (scan 1000 false (generatedText dashed ⟨false, false⟩ 0 (fun _ => {}) ["prutalgen".toList])).all signsOk = false := by decide +kernel
  rw [h1] at h2
  exact absurd (signs_file f) (by rw [show signsOk f.toks = false from h2]; exact Bool.false_ne_true)

end Verif.Props
