import Verif.Lemmas.Gen.Antlr.Bound
import Verif.Model.Gen.Antlr.Input
import Verif.Props.Gen.Predict
import Verif.Props.Gen.Reader
/-!
# C85: a file is read from its bytes in a bounded depth of recursion, and what is read is a function of its text, whatever was read before

`readInput` runs the automaton of the lexer with its cache and the rule functions of the parser with the automata of its decisions; `readText` is what C79 speaks of, and
through it C72–C75.
-/
namespace Verif.Props
open Verif.Model.Gen Verif.Model.Gen.Antlr Verif.Spec.Gen
open Verif.Model.Gen.Antlr.Pred hiding DState addCfg
open Verif.Lemmas.Gen Verif.Lemmas.Gen.Antlr Verif.Lemmas.Gen.Antlr.Pred

/-- **C85, termination.** Whatever is predicted, 30 levels of recursion for each token and for the end of the file are enough: with more levels nothing changes, neither the tree nor that there is an
error. -/
theorem C85_terminates (predict : Predict) (w : List PTok) (n m : Nat) (hn : 30 * (w.length + 1) ≤ n) (hm : 30 * (w.length + 1) ≤ m) :
    parseTokens predict n w = parseTokens predict m w :=
  parse_stable predict w n m hn hm

/-- **C85, parser.** With that many levels, the parser with the automata of its decisions gives the tree of the grammar, and an error exactly if there is none. -/
theorem C85_parser (a : Atn) (ha : deserialize parserAtnData = some a) (steps : Nat) (hs : 10000 ≤ steps) (σ : PCache) (hσ : Warm (pnet a) steps σ) (w : List PTok)
    (ht : WellTyped w) (n : Nat) (hn : 30 * (w.length + 1) ≤ n) :
    (parseShared (pnet a) steps n σ w).map (fun x => astProto x.1) = parseProto (w.map PTok.text) := by
  have hw := Gen.types_of_typed ht
  have e := (Gen.shared_parse ha hs hσ hw n).1
  have e' : (parseShared (pnet a) steps n σ w).map (fun x => astProto x.1) = (parseTokens (Gen.simPredict steps) n w).map astProto := by
    rw [← e, Option.map_map]
    rfl
  rw [e']
  cases hp : parseProto (w.map PTok.text) with
  | none => rw [C83_rejects _ w ht hp n]; rfl
  | some p =>
    obtain ⟨m, ts, h1, h2⟩ := (C83_reads _ (Gen.simPredict_right hs) (Gen.simPredict_first hs) w ht p).1 hp
    have h3 := run_mono _ _ _ _ _ _ _ _ (Gen.parse_run h1) (max n m) (Nat.le_max_right _ _)
    have h4 : parseTokens (Gen.simPredict steps) (max n m) w = some ts := by rw [parseTokens, h3]
    rw [C85_terminates _ w n (max n m) hn (Nat.le_trans hn (Nat.le_max_left _ _)), h4, ← h2]
    rfl

namespace Gen

theorem filled_ok {D : Dfa} (h : Filled lexerNet D) : DfaOk D := by
  induction h with
  | empty => exact inv_empty
  | read _ hl ih =>
    obtain ⟨E, h1, h2⟩ := lexFile_spec ih _
    rw [hl] at h1
    cases h1
    exact h2

theorem tokOf_pairs : ∀ {l : List Tok} {out : List AToken}, Pairs IsToken l out → out.map tokOf = l
  | _, _, .nil => rfl
  | _, _, .cons (a := t) (b := x) h hs => by
    rw [List.map_cons, tokOf_pairs hs]
    obtain ⟨e, ht⟩ := h
    congr 1
    obtain ⟨k, s⟩ := t
    obtain ⟨ty, ch, tx⟩ := x
    simp only at e ht
    subst e
    unfold tokOf
    simp only
    cases ht with
    | keyword i _ hi =>
      have : i < 38 := by
        have := (List.getElem?_eq_some_iff.1 hi).1
        have hl : Keywords.length = 38 := by decide
        omega
      rw [if_neg (by omega), if_neg (by omega), if_neg (by omega)]
    | symbol i c hi =>
      have : i < 15 := by
        have := (List.getElem?_eq_some_iff.1 hi).1
        have hl : Symbols.length = 15 := by decide
        omega
      rw [if_neg (by omega), if_neg (by omega), if_neg (by omega)]
    | _ => rfl

/-- The tokens that the parser sees are at most as many as the characters. -/
theorem visible_le {l : List Tok} {out : List AToken} (h : Pairs IsToken l out) : (visibleTokens out).length ≤ l.length := by
  have : out.length = l.length := by
    induction h with
    | nil => rfl
    | cons _ _ ih => simp [ih]
  rw [← this, visibleTokens, List.length_map]
  exact List.length_filter_le _ _

theorem lexAll_le : ∀ (n : Nat) (s : Str), (lexAll n s).length ≤ n
  | 0, _ => Nat.le_refl _
  | _ + 1, [] => Nat.zero_le _
  | n + 1, c :: s => by
    have h := lexAll_le n (lexOne c s).2
    simp only [lexAll, List.length_append]
    cases (lexOne c s).1 <;> simp <;> omega

theorem lexed_le (s : Str) : (lex s).length ≤ s.length := lexAll_le _ _

theorem streamChars_le (bs : List Nat) : (streamChars bs).length ≤ bs.length := by
  unfold streamChars
  generalize bs.length = n
  induction n generalizing bs with
  | zero => simp [bytesChars]
  | succ n ih =>
    cases bs with
    | nil => simp [bytesChars]
    | cons b bs =>
      simp only [bytesChars]
      split
      · simp only [List.length_cons]
        exact Nat.succ_le_succ (ih _)
      · simp only [List.length_cons]
        exact Nat.succ_le_succ (ih _)

end Gen

/-- **C85.** A file is read from its bytes as its text says, whatever was read before: the result is that of C79, an error is reported exactly if there is none, and what is kept
is again what files leave behind.  The depth of recursion is at most 30 for each byte. -/
theorem C85_input (A : Net) (a : Atn) (hA : (deserialize lexerAtnData).bind Atn.net = some A) (ha : deserialize parserAtnData = some a) (steps : Nat)
    (hs : 10000 ≤ steps) (C : Caches) (hl : Filled A C.lexer) (hp : Warm (pnet a) steps C.parser) (bs : List Nat) (n : Nat) (hn : 30 * (bs.length + 1) ≤ n) :
    (readInput A (pnet a) steps n C bs).map Prod.fst = readText (streamChars bs) ∧
      ∀ t E, readInput A (pnet a) steps n C bs = some (t, E) → Filled A E.lexer ∧ Warm (pnet a) steps E.parser := by
  rw [lexerNet_eq] at hA
  cases hA
  obtain ⟨E, h1, h2⟩ := lexFile_spec (Gen.filled_ok hl) (streamChars bs)
  have hpairs : Pairs IsToken (lex (streamChars bs)) (toks ((streamChars bs).length + 1) (streamChars bs)) := toks_lex _ _ (by omega)
  obtain ⟨g1, g2⟩ := Gen.visible_pairs hpairs
  have hb : 30 * ((visibleTokens (toks ((streamChars bs).length + 1) (streamChars bs))).length + 1) ≤ n := by
    have := Gen.visible_le hpairs
    have := Gen.lexed_le (streamChars bs)
    have := Gen.streamChars_le bs
    omega
  have hparse := C85_parser a ha steps hs C.parser hp _ g1 n hb
  have hw := (Gen.shared_parse ha hs hp (Gen.types_of_typed g1) n).2
  unfold readInput
  rw [h1]
  simp only
  rw [g2] at hparse
  cases e : parseShared (pnet a) steps n C.parser (visibleTokens (toks ((streamChars bs).length + 1) (streamChars bs))) with
  | none =>
    rw [e] at hparse
    refine ⟨?_, fun t E h => by cases h⟩
    have : parseText (streamChars bs) = none := hparse.symm
    rw [readText, this]
    rfl
  | some x =>
    obtain ⟨ts, σ⟩ := x
    rw [e] at hparse
    have : parseText (streamChars bs) = some (astProto ts) := hparse.symm
    refine ⟨?_, fun t F h => ?_⟩
    · rw [readText, this, Option.map_some, Option.map_some, Gen.tokOf_pairs hpairs]
    · cases h
      exact ⟨hl.read h1, hw _ _ e⟩

/-- **C85, one after another.** Files that are read one after another by one process are read as if each were alone; the first error ends it. -/
theorem C85_files (A : Net) (a : Atn) (hA : (deserialize lexerAtnData).bind Atn.net = some A) (ha : deserialize parserAtnData = some a) (steps : Nat)
    (hs : 10000 ≤ steps) (n : Nat) (files : List (List Nat)) (hn : ∀ bs ∈ files, 30 * (bs.length + 1) ≤ n) :
    (readInputs A (pnet a) steps n Caches.cold files).map Prod.fst = files.mapM fun bs => readText (streamChars bs) := by
  suffices h : ∀ C : Caches, Filled A C.lexer → Warm (pnet a) steps C.parser →
      (readInputs A (pnet a) steps n C files).map Prod.fst = files.mapM fun bs => readText (streamChars bs) from h _ .empty .cold
  induction files with
  | nil => intro C _ _; rfl
  | cons b bs ih =>
    intro C hl hp
    obtain ⟨h1, h2⟩ := C85_input A a hA ha steps hs C hl hp b n (hn b (by simp))
    rw [List.mapM_cons, ← h1]
    unfold readInputs
    cases e : readInput A (pnet a) steps n C b with
    | none => rfl
    | some x =>
      obtain ⟨t, E⟩ := x
      obtain ⟨h3, h4⟩ := h2 t E e
      have := ih (fun b hb => hn b (by simp [hb])) E h3 h4
      simp only
      cases e' : readInputs A (pnet a) steps n E bs with
      | none =>
        rw [e'] at this
        simp only [Option.map_some, Option.bind_eq_bind, Option.bind_some, ← this]
        rfl
      | some y =>
        rw [e'] at this
        simp only [Option.map_some, Option.bind_eq_bind, Option.bind_some, ← this]
        rfl

/-- **C85, UTF-8.** The characters of a file that is written in UTF-8 are those that were written. -/
theorem C85_utf8 (s : Str) : streamChars (strBytes s) = s := by
  rw [streamChars, strBytes_eq]
  exact bytesChars_char s _ (Nat.le_refl _)

theorem Gen.texts_ext {x y : Texts} (h1 : x.cwd = y.cwd) (h2 : x.stat = y.stat) (h3 : x.read = y.read) (h4 : x.embedded = y.embedded) : x = y := by
  cases x
  cases y
  simp only at h1 h2 h3 h4
  subst h1 h2 h3 h4
  rfl

/-- **C85, loading.** Whatever the caches are when a file is read, `LoadProto` sees the same: what C72–C75 and C79 say of files by their characters (`Disk.texts`) holds of the
files by their bytes, with the lexer and the parser that are run. -/
theorem C85_texts (A : Net) (a : Atn) (hA : (deserialize lexerAtnData).bind Atn.net = some A) (ha : deserialize parserAtnData = some a) (steps : Nat)
    (hs : 10000 ≤ steps) (C : Str → Caches) (hC : ∀ f, Filled A (C f).lexer ∧ Warm (pnet a) steps (C f).parser) (B : ByteFiles) (n : Nat)
    (hn : ∀ f bs, B.read f = some bs ∨ B.embedded f = some (some bs) → 30 * (bs.length + 1) ≤ n) :
    B.texts A (pnet a) steps n C = B.disk.texts := by
  have key : ∀ f bs, B.read f = some bs ∨ B.embedded f = some (some bs) →
      (readInput A (pnet a) steps n (C f) bs).map Prod.fst = readText (streamChars bs) :=
    fun f bs h => (C85_input A a hA ha steps hs (C f) (hC f).1 (hC f).2 bs n (hn f bs h)).1
  refine Gen.texts_ext rfl rfl ?_ ?_
  · funext f
    simp only [ByteFiles.texts, Disk.texts, ByteFiles.disk]
    cases e : B.read f with
    | none => rfl
    | some bs => exact key f bs (.inl e)
  · funext f
    simp only [ByteFiles.texts, Disk.texts, ByteFiles.disk]
    cases e : B.embedded f with
    | none => rfl
    | some o =>
      cases o with
      | none => rfl
      | some bs => exact congrArg some (key f bs (.inr e))

section
open Verif.Model Verif.Spec

/-- **C85, from bytes to bytes.** For the bytes of the files on the disk and the embedded ones, read by the lexer and the parser that are run, with any caches: if the generator accepts a file,
then the code it generates, compiled, encodes and decodes the messages of the schema that the texts declare.  The other hypotheses are those of C79. -/
theorem C85_wire_partial (A : Net) (a : Atn) (hA : (deserialize lexerAtnData).bind Atn.net = some A) (ha : deserialize parserAtnData = some a) (steps : Nat)
    (hs : 10000 ≤ steps) (C : Str → Caches) (hC' : ∀ f, Filled A (C f).lexer ∧ Warm (pnet a) steps (C f).parser) (B : ByteFiles) (n : Nat)
    (hn : ∀ f bs, B.read f = some bs ∨ B.embedded f = some (some bs) → 30 * (bs.length + 1) ≤ n)
    {cwd includes : List Str} {m : Str → Option Str} {root : Str} {fuel : Nat} {st : LoaderState} {x : LoadedSet} (hc : Cwd B.disk.texts.files cwd)
    (hP : ∀ f bs p, B.embedded f = some (some bs) ∨ B.embedded f = none ∧ B.read f = some bs → parseText (streamChars bs) = some p → DecimalRanges p)
    (U : List Str) (hU : ∀ f, NeededText B.disk.texts cwd includes root f → f ∈ U) (hfuel : U.length < fuel)
    (hE : ∀ e, NeededText B.disk.texts cwd includes root e → B.embedded e ≠ none → ¬ ReachesText B.disk.texts cwd includes e e)
    (h : loadWhole (B.texts A (pnet a) steps n C) includes m fuel st root = some x) (pkg : Nat → List Str) (hS : Supported x.world pkg) (env : GoEnv)
    (hC : Compiles (genStructs x.world) (genEnums x.world) env) :
    WorldIs B.disk.texts cwd includes m root (x.protos.map (·.file)) x.world x.services ∧
    ∃ S, Implements env S ∧ S.WF ∧ Describes x.world pkg (allMessages x.world) S ∧
      (∀ id v, Typed S id v →
        match encode S false 1000 id v with
        | some bs => bs.length < 2 ^ 64 → marshal env (.ptr id (some v)) = .ok bs
        | none => marshal env (.ptr id (some v)) = .error .maxDepth) ∧
      ∀ id v, Typed S id v → ∀ b w, unmarshal env b (.ptr id (some v)) = .ok w ↔ Decodes S 1000 id b v w := by
  rw [C85_texts A a hA ha steps hs C hC' B n hn] at h
  refine C79_wire_partial hc (fun f s p hf hp => ?_) U hU hfuel (fun e he hne => hE e he fun hn' => hne ?_) h pkg hS env hC
  · rcases hf with hf | ⟨hf, hf'⟩
    · obtain ⟨o, ho, h⟩ := Option.map_eq_some_iff.1 hf
      obtain ⟨bs, rfl, rfl⟩ := Option.map_eq_some_iff.1 h
      exact hP f bs p (.inl ho) hp
    · obtain ⟨bs, hb, rfl⟩ := Option.map_eq_some_iff.1 hf'
      exact hP f bs p (.inr ⟨Option.map_eq_none_iff.1 hf, hb⟩) hp
  · simp only [ByteFiles.disk, hn', Option.map_none]

end

/-! ## Examples -/

namespace Gen

/-- The bytes of a file. -/
def someFile : List Nat := strBytes "message M{A x=1;}// π".toList

/-- The caches before the first file meet the conditions. -/
example : Filled lexerNet Caches.cold.lexer ∧ Warm predNet 10000 Caches.cold.parser := ⟨.empty, .cold⟩

/-- It is read twice by the lexer and the parser that are run; the second time the caches are used. -/
example : ((readInputs lexerNet (pnet parserAtn) 10000 1000 Caches.cold [someFile, someFile]).map Prod.fst).map (List.map fun t => t.tree.elems.length) = some [1, 1] := by
  rw [C85_files lexerNet parserAtn lexerNet_eq parserAtn_eq 10000 (Nat.le_refl _) 1000 [someFile, someFile] (by
    intro bs hb
    have : bs = someFile := by simpa using hb
    rw [this]
    decide +kernel)]
  decide +kernel

/-- An error is reported: a semicolon is missing. -/
example : (readInput lexerNet (pnet parserAtn) 10000 1000 Caches.cold (strBytes "message M { int32 x = 1 }".toList)).map Prod.fst = none := by
  rw [(C85_input lexerNet parserAtn lexerNet_eq parserAtn_eq 10000 (Nat.le_refl _) Caches.cold .empty .cold _ 1000 (by decide +kernel)).1]
  have : (readText (streamChars (strBytes "message M { int32 x = 1 }".toList))).isNone = true := by decide +kernel
  simpa using this

end Gen

end Verif.Props
