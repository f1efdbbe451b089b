import Verif.Model.Gen.Field
import Verif.Spec.Gen.Field
import Verif.Spec.Gen.Names
import Verif.Props.Tags
import Verif.Props.Gen.Options
import Verif.Props.Gen.Names
/-!
# The struct tags of generated fields (C42)
-/
namespace Verif.Props
open Verif.Spec Verif.Model.Gen Verif.Spec.Gen Verif.Lemmas
open Verif.Model (parseStructTag parseKVTag TagType)

namespace Gen

/-! ## Reading tags -/

/-- Text without quotes and escapes. -/
def Quiet (s : Str) : Prop := ∀ c ∈ s, c ≠ '"' ∧ c ≠ '\\' ∧ c ≠ '\n'

theorem scan_quiet : ∀ (s rest : Str), Quiet s → scanQuoted (s ++ '"' :: rest) = some (s, rest)
  | [], rest, _ => by simp [scanQuoted]
  | c :: s, rest, h => by
    have hc := h c (List.mem_cons_self ..)
    rw [List.cons_append, scanQuoted.eq_4 c (s ++ '"' :: rest) (fun h => hc.1 h) (fun _ _ h _ => hc.2.1 h),
      scan_quiet s rest (fun x hx => h x (List.mem_cons_of_mem _ hx))]
    rfl

theorem unquote_quiet {s : Str} (h : Quiet s) : unquote s = some s := by
  unfold unquote
  rw [if_neg]
  simp only [List.any_eq_true, Bool.or_eq_true, decide_eq_true_eq, not_exists, not_and]
  intro c hc
  have := h c hc
  simp [this.1, this.2.1, this.2.2]

/-- One entry of a tag. -/
def tagEntry (key value : Str) : Str := key ++ ':' :: '"' :: value ++ ['"']

theorem span_key (key rest : Str) (h : ∀ c ∈ key, isTagKey c = true) :
    (key ++ ':' :: rest).takeWhile isTagKey = key ∧ (key ++ ':' :: rest).dropWhile isTagKey = ':' :: rest := by
  rw [List.takeWhile_append_of_pos h, List.dropWhile_append_of_pos h]
  simp [isTagKey, List.takeWhile_cons, List.dropWhile_cons]

theorem lookup_entry (n : Nat) (pre : Str) (hpre : ∀ c ∈ pre, c = ' ') (key value rest want : Str) (hk : key ≠ []) (hkc : ∀ c ∈ key, isTagKey c = true)
    (hv : Quiet value) :
    tagLookup (n + 1) (pre ++ (tagEntry key value ++ rest)) want = if want = key then some value else tagLookup n rest want := by
  have e1 : (pre ++ (tagEntry key value ++ rest)).dropWhile (· = ' ') = key ++ ':' :: ('"' :: value ++ '"' :: rest) := by
    rw [List.dropWhile_append_of_pos (by simpa using hpre)]
    cases key with
    | nil => exact absurd rfl hk
    | cons c k =>
      have : c ≠ ' ' := fun e => by
        have := hkc c (List.mem_cons_self ..)
        rw [e] at this
        exact absurd this (by decide)
      simp [tagEntry, List.dropWhile_cons, this]
  rw [tagLookup, e1, (span_key _ _ hkc).1, (span_key _ _ hkc).2]
  simp only [List.cons_append, if_neg hk, scan_quiet value rest hv, unquote_quiet hv]

theorem tagLookup_nil (n : Nat) (want : Str) : tagLookup n [] want = none := by
  cases n with
  | zero => rfl
  | succ n => rfl

/-! ## The words of a tag -/

theorem decimal_toDigits : ∀ (k n : Nat), n ≤ k → IsDecimal (Nat.toDigits 10 n) n
  | k, n, h => by
    by_cases hn : n < 10
    · rw [Nat.toDigits_of_lt_base hn]
      have : n.digitChar = digitChar n := by
        have : ∀ m < 10, m.digitChar = digitChar m := by decide
        exact this n hn
      rw [this]
      exact .digit n hn
    · cases k with
      | zero => omega
      | succ k =>
        rw [Nat.toDigits_of_base_le (by decide) (by omega)]
        have h1 : (n % 10).digitChar = digitChar (n % 10) := by
          have : ∀ m < 10, m.digitChar = digitChar m := by decide
          exact this _ (Nat.mod_lt _ (by decide))
        have h2 := IsDecimal.snoc _ _ (n % 10) (decimal_toDigits k (n / 10) (by omega)) (Nat.mod_lt _ (by decide))
        rw [h1]
        have h3 : 10 * (n / 10) + n % 10 = n := by omega
        rw [h3] at h2
        exact h2

theorem itoa_nat {x : Int} (h : 0 ≤ x) : itoa x = Nat.toDigits 10 x.toNat := by
  unfold itoa
  rw [if_neg (by omega)]
  congr 1
  omega

theorem digit_of_itoa {x : Int} (h : 0 ≤ x) : ∀ c ∈ itoa x, c.isDigit = true := by
  rw [itoa_nat h]
  exact fun c hc => Nat.isDigit_of_mem_toDigits (b := 10) (by decide) (by decide) hc

theorem itoa_ne {x : Int} : itoa x ≠ [] := by
  unfold itoa
  split
  · simp
  · exact Nat.toDigits_ne_nil

theorem not_blank_of_toNat {c : Char} (h : 33 ≤ c.toNat ∧ c.toNat ≤ 126) : isBlank c = false := by
  simp only [isBlank, decide_eq_false_iff_not]
  simp only [List.mem_cons, List.not_mem_nil, or_false]
  omega

theorem plainWord {w : List Char} (h : ∀ c ∈ w, 33 ≤ c.toNat ∧ c.toNat ≤ 126 ∧ c ≠ ',') : IsWord w := by
  refine ⟨fun hm => (h _ hm).2.2 rfl, fun c hc => ?_, fun c hc => ?_⟩
  · have := h c (List.mem_of_mem_head? hc)
    exact not_blank_of_toNat ⟨this.1, this.2.1⟩
  · have := h c (List.mem_of_getLast? hc)
    exact not_blank_of_toNat ⟨this.1, this.2.1⟩

/-- Characters that need no care inside a tag. -/
def Tame (c : Char) : Prop := 33 ≤ c.toNat ∧ c.toNat ≤ 126 ∧ c ≠ ',' ∧ c ≠ '"' ∧ c ≠ '\\' ∧ c ≠ '`'

instance (c : Char) : Decidable (Tame c) := by unfold Tame; infer_instance

theorem tame_digit {c : Char} (h : c.isDigit = true) : Tame c := by
  simp only [Char.isDigit, Bool.and_eq_true, decide_eq_true_eq] at h
  have h1 : 48 ≤ c.toNat := h.1
  have h2 : c.toNat ≤ 57 := h.2
  refine ⟨by omega, by omega, ?_, ?_, ?_, ?_⟩ <;> (intro e; subst e; revert h1 h2; decide)

theorem tame_ident {c : Char} (h : IdentChar c) : Tame c := by
  rcases h with h | h | h | h
  · have := nat_of_lower h
    refine ⟨by omega, by omega, ?_, ?_, ?_, ?_⟩ <;> (intro e; subst e; revert this; decide)
  · have := nat_of_upper h
    refine ⟨by omega, by omega, ?_, ?_, ?_, ?_⟩ <;> (intro e; subst e; revert this; decide)
  · have := nat_of_digit h
    refine ⟨by omega, by omega, ?_, ?_, ?_, ?_⟩ <;> (intro e; subst e; revert this; decide)
  · subst h; decide

theorem tame_word {w : List Char} (h : ∀ c ∈ w, Tame c) : IsWord w := plainWord fun c hc => ⟨(h c hc).1, (h c hc).2.1, (h c hc).2.2.1⟩

theorem tame_enc {w : List Char} {T : TagType} (h : EncWord w T) : ∀ c ∈ w, Tame c := by cases h <;> decide

/-- A `protobuf` tag with the words that are generated. -/
def protobufTag (enc digits label name : Str) (packed : Bool) : Str :=
  joinComma ([enc, digits, label] ++ (if packed then ["packed".toList] else []) ++ ["name=".toList ++ name])

theorem not_enc_of {w : List Char} {c : Char} (hc : c ∈ w) (h : c = '=' ∨ c.isDigit = true ∧ (∀ x ∈ w, x.isDigit = true)) :
    isEncodingWord w = false ∧ w ≠ "rep".toList ∧ w ≠ "packed".toList := by
  have key : ∀ v ∈ ["varint".toList, "zigzag32".toList, "zigzag64".toList, "fixed32".toList, "fixed64".toList, "bytes".toList, "group".toList,
      "rep".toList, "packed".toList], w ≠ v := by
    intro v hv e
    subst e
    rcases h with h | ⟨_, h⟩
    · subst h; revert hc; revert hv; revert w; decide
    · revert h; revert hv; clear hc; revert w; decide
  refine ⟨?_, key _ (by decide), key _ (by decide)⟩
  simp only [isEncodingWord, decide_eq_false_iff_not]
  intro hm
  refine key w ?_ rfl
  revert hm
  simp only [List.mem_cons, List.not_mem_nil, or_false]
  rintro (h | h | h | h | h | h | h) <;> simp [h]

theorem tag_says {enc digits name : Str} {T : TagType} (hE : EncWord enc T) {n : Nat} (hd : IsDecimal digits n) (hdd : ∀ c ∈ digits, c.isDigit = true)
    (hd0 : digits ≠ []) (label : Str) (hl : label = "rep".toList ∨ label = "req".toList ∨ label = "opt".toList) (packed : Bool)
    (hname : ∀ c ∈ name, Tame c) :
    TagSays (protobufTag enc digits label name packed) enc n (label == "rep".toList) packed := by
  have hdig : isEncodingWord digits = false ∧ digits ≠ "rep".toList ∧ digits ≠ "packed".toList := by
    cases hdig : digits with
    | nil => exact absurd hdig hd0
    | cons c r =>
      rw [← hdig]
      have hc : c ∈ digits := by rw [hdig]; exact List.mem_cons_self ..
      exact not_enc_of hc (.inr ⟨hdd c hc, hdd⟩)
  have hnm := not_enc_of (w := "name=".toList ++ name) (c := '=') (by simp) (.inl rfl)
  have hnmt : ∀ c ∈ "name=".toList ++ name, Tame c := by
    intro c hc
    rcases List.mem_append.1 hc with hc | hc
    · exact (by decide : ∀ c ∈ "name=".toList, Tame c) c hc
    · exact hname c hc
  have hen : enc ≠ "rep".toList ∧ enc ≠ "packed".toList := by cases hE <;> decide
  have hlw : IsWord label := by rcases hl with h | h | h <;> (subst h; exact tame_word (by decide))
  have hlp : label ≠ "packed".toList := by rcases hl with h | h | h <;> (subst h; decide)
  refine ⟨_, rfl, ?_, ?_, by simp, ⟨digits, by simp, hd⟩, ?_, ?_⟩
  · intro w hw
    simp only [List.mem_append, List.mem_cons, List.not_mem_nil, or_false] at hw
    rcases hw with ((h | h | h) | h) | h
    · subst h; exact tame_word (tame_enc hE)
    · subst h; exact tame_word fun c hc => tame_digit (hdd c hc)
    · subst h; exact hlw
    · cases packed with
      | false => simp at h
      | true => simp only [if_true, List.mem_cons, List.not_mem_nil, or_false] at h; subst h; exact tame_word (by decide)
    · subst h; exact tame_word hnmt
  · intro w hw
    simp only [List.mem_append, List.mem_cons, List.not_mem_nil, or_false] at hw
    rcases hw with ((h | h | h) | h) | h
    · exact .inl h
    · subst h; exact .inr (.inl hd)
    · rcases hl with h' | h' | h'
      · exact .inr (.inr (.inl (h.trans h')))
      · refine .inr (.inr (.inr (.inr ?_))); rw [h, h']; exact ⟨by decide, by decide, by decide, by decide⟩
      · refine .inr (.inr (.inr (.inr ?_))); rw [h, h']; exact ⟨by decide, by decide, by decide, by decide⟩
    · cases packed with
      | false => simp at h
      | true => simp only [if_true, List.mem_cons, List.not_mem_nil, or_false] at h; exact .inr (.inr (.inr (.inl h)))
    · refine .inr (.inr (.inr (.inr ?_)))
      rw [h]
      exact ⟨hnm.1, hnm.2.1, hnm.2.2, .inr ⟨'=', by simp, by decide⟩⟩
  · simp only [List.mem_append, List.mem_cons, List.not_mem_nil, or_false, beq_iff_eq]
    constructor
    · rintro (((h | h | h) | h) | h)
      · exact absurd h.symm hen.1
      · exact absurd h.symm hdig.2.1
      · exact h.symm
      · cases packed with
        | false => simp at h
        | true => simp only [if_true, List.mem_cons, List.not_mem_nil, or_false] at h; exact absurd h (by decide)
      · exact absurd h.symm hnm.2.1
    · exact fun h => .inl (.inl (.inr (.inr h.symm)))
  · simp only [List.mem_append, List.mem_cons, List.not_mem_nil, or_false]
    constructor
    · rintro (((h | h | h) | h) | h)
      · exact absurd h.symm hen.2
      · exact absurd h.symm hdig.2.2
      · exact absurd h.symm hlp
      · cases packed with
        | false => simp at h
        | true => rfl
      · exact absurd h.symm hnm.2.2
    · rintro rfl
      exact .inl (.inr (by simp))

theorem kv_says {enc : Str} {T : TagType} (hE : EncWord enc T) (num name : Str)
    (h : num = "1".toList ∧ name = "key".toList ∨ num = "2".toList ∧ name = "value".toList) :
    KVSays (joinComma [enc, num, "opt".toList, "name=".toList ++ name]) enc := by
  refine ⟨_, rfl, ?_, by simp, ?_⟩
  · intro w hw
    simp only [List.mem_cons, List.not_mem_nil, or_false] at hw
    rcases h with ⟨h1, h2⟩ | ⟨h1, h2⟩ <;> subst h1 h2 <;> rcases hw with h | h | h | h <;> subst h <;>
      first | exact tame_word (tame_enc hE) | exact tame_word (by decide)
  · intro w hw
    simp only [List.mem_cons, List.not_mem_nil, or_false] at hw
    rcases h with ⟨h1, h2⟩ | ⟨h1, h2⟩ <;> subst h1 h2 <;> rcases hw with h | h | h | h <;> subst h <;>
      first | exact .inl rfl | exact .inr (by decide)

/-! ## Options -/

theorem sets_get {oo : List Opt} {n v : String} (h : Sets oo n v) : optGet oo n.toList = some v.toList := by
  cases hg : optGet oo n.toList with
  | none => exact absurd h.1 ((C47_absent oo _).1 hg _)
  | some w =>
    obtain ⟨a, b, e, _⟩ := (C47_last oo _ w).1 hg
    rw [h.2 w (by rw [e]; simp)]

theorem unset_get {oo : List Opt} {n : String} (h : Unset oo n) : optGet oo n.toList = none := (C47_absent oo _).2 h

/-! ## Kinds of types -/

/-- What kind of type a type name stands for, given what it resolves to. -/
def HasKind (typ : Str) (t : Resolved) : Kind → Prop
  | .scalar s => typ = keyword s ∧ ∃ g, t = .scalar g
  | .enum => (∀ s, typ ≠ keyword s) ∧ ∃ r p, t = .decl r p ∧ r.isEnum = true
  | .message => (∀ s, typ ≠ keyword s) ∧ ∃ r p, t = .decl r p ∧ r.isEnum = false

theorem lookup_mem {α β : Type} [BEq α] [LawfulBEq α] {l : List (α × β)} {a : α} {b : β} (h : l.lookup a = some b) : (a, b) ∈ l := by
  induction l with
  | nil => simp at h
  | cons e l ih =>
    obtain ⟨x, y⟩ := e
    rw [List.lookup_cons] at h
    split at h
    · next heq =>
      have := eq_of_beq heq
      subst this
      cases h
      exact List.mem_cons_self ..
    · exact List.mem_cons_of_mem _ (ih h)

theorem scalar_keyword {typ g : Str} (h : scalarTypes.lookup typ = some g) : ∃ s, typ = keyword s := by
  have := lookup_mem h
  simp only [scalarTypes, List.map_cons, List.map_nil, List.mem_cons, List.not_mem_nil, or_false, Prod.mk.injEq] at this
  rcases this with h | h | h | h | h | h | h | h | h | h | h | h | h | h | h
  · exact ⟨.double, h.1⟩
  · exact ⟨.float, h.1⟩
  · exact ⟨.int32, h.1⟩
  · exact ⟨.int64, h.1⟩
  · exact ⟨.uint32, h.1⟩
  · exact ⟨.uint64, h.1⟩
  · exact ⟨.sint32, h.1⟩
  · exact ⟨.sint64, h.1⟩
  · exact ⟨.fixed32, h.1⟩
  · exact ⟨.fixed64, h.1⟩
  · exact ⟨.sfixed32, h.1⟩
  · exact ⟨.sfixed64, h.1⟩
  · exact ⟨.bool, h.1⟩
  · exact ⟨.string, h.1⟩
  · exact ⟨.bytes, h.1⟩

theorem keyword_scalar (s : Scalar) : ∃ g, scalarTypes.lookup (keyword s) = some g := by
  cases s <;> exact ⟨_, rfl⟩

theorem keyword_trim (s : Scalar) : trimmedName (keyword s) = keyword s := by
  cases s <;> decide

theorem keyword_enc (s : Scalar) : scalarEncodings.lookup (keyword s) = some s.word := by
  cases s <;> decide +kernel

theorem keyword_packed (s : Scalar) : scalarPacked.contains (keyword s) = s.packable := by
  cases s <;> decide +kernel

theorem packed_keyword {w : Str} (h : scalarPacked.contains w = true) : ∃ s, w = keyword s := by
  rw [List.contains_iff_mem] at h
  simp only [scalarPacked, List.map_cons, List.map_nil, List.mem_cons, List.not_mem_nil, or_false] at h
  rcases h with h | h | h | h | h | h | h | h | h | h | h | h | h
  · exact ⟨.double, h⟩
  · exact ⟨.float, h⟩
  · exact ⟨.int32, h⟩
  · exact ⟨.int64, h⟩
  · exact ⟨.uint32, h⟩
  · exact ⟨.uint64, h⟩
  · exact ⟨.sint32, h⟩
  · exact ⟨.sint64, h⟩
  · exact ⟨.fixed32, h⟩
  · exact ⟨.fixed64, h⟩
  · exact ⟨.sfixed32, h⟩
  · exact ⟨.sfixed64, h⟩
  · exact ⟨.bool, h⟩

theorem kind_enc {typ : Str} {t : Resolved} {k : Kind} (h : HasKind typ t k) : encodingType typ t = k.word := by
  cases k with
  | scalar s =>
    obtain ⟨rfl, g, rfl⟩ := h
    simp only [encodingType, keyword_trim, keyword_enc, Option.getD_some, Kind.word]
  | enum =>
    obtain ⟨_, r, q, rfl, h⟩ := h
    simp only [encodingType, h, if_true, Kind.word]
  | message =>
    obtain ⟨_, r, q, rfl, h⟩ := h
    simp only [encodingType, h, Kind.word]
    rfl

theorem kind_word (k : Kind) : ∃ T, EncWord k.word T := by
  cases k with
  | scalar s => exact ⟨_, encWord_scalar s⟩
  | enum => exact ⟨_, .varint⟩
  | message => exact ⟨_, .bytes⟩

/-- Every type that resolves is of some kind. -/
theorem kind_exists {W : World} {f : Nat} {chain : List (List Str × MsgDecl)} {typ : Str} {t : Resolved}
    (h : typeResolve W f chain true typ = some t) : ∃ k, HasKind typ t k := by
  unfold typeResolve at h
  rw [if_pos rfl] at h
  cases hl : scalarTypes.lookup typ with
  | some g =>
    rw [hl] at h
    cases h
    obtain ⟨s, hs⟩ := scalar_keyword hl
    exact ⟨.scalar s, hs, g, rfl⟩
  | none =>
    have hk : ∀ s, typ ≠ keyword s := fun s e => by
      obtain ⟨g, hg⟩ := keyword_scalar s
      rw [← e, hl] at hg
      cases hg
    have hd : ∃ r p, t = .decl r p := by
      rw [hl] at h
      dsimp only at h
      split at h
      · cases h; exact ⟨_, _, rfl⟩
      · split at h
        · cases h; exact ⟨_, _, rfl⟩
        · generalize (searchFiles W f typ).1 = l at h
          induction l with
          | nil => simp [firstRef] at h
          | cons x l ih =>
            rw [firstRef] at h
            split at h
            · next hx =>
              cases h
              split at hx
              · cases hx; exact ⟨_, _, rfl⟩
              · cases hx
            · exact ih h
    obtain ⟨r, p, rfl⟩ := hd
    cases hr : r.isEnum with
    | true => exact ⟨.enum, hk, r, p, rfl, hr⟩
    | false => exact ⟨.message, hk, r, p, rfl, hr⟩

/-! ## Packing -/

theorem packed_rule {p : FileDecl} {f : FieldDecl} {t : Resolved} {k : Kind} {b : Bool} (hk : HasKind f.typ t k) (hb : Packs p f b)
    (h3 : ¬ (p.edition = .proto3 ∧ b = false)) (hkey : f.key = none) (hdot : k = .message → f.typ.head? ≠ some '.') :
    isPacked p f t = (k.packable && b) := by
  have hpk : (scalarPacked.contains (trimmedName f.typ) || t.isEnum) = k.packable := by
    cases k with
    | scalar s =>
      obtain ⟨e, g, rfl⟩ := hk
      rw [e, keyword_trim, keyword_packed]
      simp [Resolved.isEnum, Kind.packable]
    | enum =>
      obtain ⟨_, r, q, rfl, h⟩ := hk
      simp [Resolved.isEnum, h, Kind.packable]
    | message =>
      obtain ⟨hn, r, q, rfl, h⟩ := hk
      have : trimmedName f.typ = f.typ := by
        have hd := hdot rfl
        unfold trimmedName
        cases hf : f.typ with
        | nil => rfl
        | cons c s =>
          rw [hf] at hd
          simp only [List.head?_cons, ne_eq, Option.some.injEq] at hd
          simp [List.dropWhile_cons, hd]
      rw [this]
      have : scalarPacked.contains f.typ = false := by
        cases hc : scalarPacked.contains f.typ with
        | false => rfl
        | true =>
          obtain ⟨s, hs⟩ := packed_keyword hc
          exact absurd hs (hn s)
      rw [this]
      simp [Resolved.isEnum, h, Kind.packable]
  unfold isPacked
  rw [hkey, hpk]
  simp only [Option.isSome_none, Bool.false_eq_true, if_false]
  cases k.packable with
  | false => simp
  | true =>
    simp only [Bool.not_true, Bool.false_eq_true, if_false, Bool.true_and]
    cases hb with
    | on2 he hs => rw [he]; dsimp only [optIs]; rw [sets_get hs]; decide +kernel
    | off2 he hs => rw [he]; dsimp only [optIs]; rw [sets_get hs]; decide +kernel
    | default2 he hs => rw [he]; dsimp only [optIs]; rw [unset_get hs]
    | on3 he hs => rw [he]
    | off3 he hs => exact absurd ⟨he, rfl⟩ h3
    | default3 he hs => rw [he]
    | packed he hf =>
      rw [he]
      cases hf with
      | field _ h => dsimp only; rw [sets_get h]; dsimp only; decide +kernel
      | file _ h h' => dsimp only; rw [unset_get h, sets_get h']; decide +kernel
    | expanded he hf =>
      rw [he]
      cases hf with
      | field _ h => dsimp only; rw [sets_get h]; dsimp only; decide +kernel
      | file _ h h' => dsimp only; rw [unset_get h, sets_get h']; decide +kernel
    | default he hf =>
      rw [he]
      cases hf with
      | unset h h' => dsimp only; rw [unset_get h, unset_get h']

/-! ## The whole tag -/

/-- The label of a field. -/
def labelOf (f : FieldDecl) : Str :=
  if f.repeated || f.key.isSome then "rep".toList else if f.required then "req".toList else "opt".toList

/-- The tags for the key and the value of a map. -/
def kvTags (f : FieldDecl) (t : Resolved) : Str :=
  match f.key with
  | some k =>
    [' '] ++ (tagEntry "protobuf_key".toList (joinComma [encodingType k (.scalar []), "1".toList, "opt".toList, "name=".toList ++ "key".toList]) ++
    ([' '] ++ (tagEntry "protobuf_val".toList (joinComma [encodingType f.typ t, "2".toList, "opt".toList, "name=".toList ++ "value".toList]) ++ [])))
  | none => []

theorem text_eq (p : FileDecl) (f : FieldDecl) (t : Resolved) :
    fieldStructTag p f t =
    [] ++ (tagEntry "protobuf".toList (protobufTag (if f.key.isSome then "bytes".toList else encodingType f.typ t) (itoa f.number) (labelOf f) f.name
      (f.repeated && isPacked p f t)) ++
    ([' '] ++ (tagEntry "json".toList (f.name ++ ",omitempty".toList) ++ kvTags f t))) := by
  have hp : f.key.isSome = true → isPacked p f t = false := fun h => by simp [isPacked, h]
  unfold fieldStructTag labelOf kvTags protobufTag tagEntry
  cases hk : f.key with
  | none =>
    cases f.repeated <;> cases isPacked p f t <;> cases f.required <;> simp [joinComma]
  | some k =>
    have := hp (by simp [hk])
    rw [this]
    cases f.repeated <;> cases f.required <;> simp [joinComma]

theorem quiet_of_tame {s : Str} (h : ∀ c ∈ s, Tame c ∨ c = ',') : Quiet s := by
  intro c hc
  rcases h c hc with h | h
  · exact ⟨h.2.2.2.1, h.2.2.2.2.1, fun e => by have := h.1; rw [e] at this; revert this; decide⟩
  · subst h; decide

theorem join_tame : ∀ (ws : List Str), (∀ w ∈ ws, ∀ c ∈ w, Tame c) → ∀ c ∈ joinComma ws, Tame c ∨ c = ','
  | [], _, c, hc => by simp [joinComma] at hc
  | [w], h, c, hc => .inl (h w (List.mem_cons_self ..) c (by simpa [joinComma] using hc))
  | w :: v :: ws, h, c, hc => by
    rw [joinComma.eq_3 w (v :: ws) (by simp)] at hc
    simp only [List.mem_append, List.mem_cons] at hc
    rcases hc with hc | hc | hc
    · exact .inl (h w (List.mem_cons_self ..) c hc)
    · exact .inr hc
    · exact join_tame (v :: ws) (fun w hw => h w (List.mem_cons_of_mem _ hw)) c hc

theorem label_cases (f : FieldDecl) : (labelOf f = "rep".toList ∨ labelOf f = "req".toList ∨ labelOf f = "opt".toList) ∧
    (labelOf f == "rep".toList) = (f.repeated || f.key.isSome) := by
  unfold labelOf
  cases f.repeated || f.key.isSome <;> cases f.required <;> decide +kernel

/-- What the tag text consists of. -/
structure TagText (p : FileDecl) (f : FieldDecl) (t : Resolved) (k : Kind) (b : Bool) : Prop where
  raw : '`' ∉ fieldStructTag p f t
  main : tagGet (fieldStructTag p f t) "protobuf" =
    protobufTag (if f.key.isSome then "bytes".toList else k.word) (itoa f.number) (labelOf f) f.name (f.repeated && b)
  key : ∀ s, f.key = some (keyword s) →
    tagGet (fieldStructTag p f t) "protobuf_key" = joinComma [s.word, "1".toList, "opt".toList, "name=".toList ++ "key".toList] ∧
    tagGet (fieldStructTag p f t) "protobuf_val" = joinComma [k.word, "2".toList, "opt".toList, "name=".toList ++ "value".toList]
  noKey : f.key = none → tagGet (fieldStructTag p f t) "protobuf_key" = [] ∧ tagGet (fieldStructTag p f t) "protobuf_val" = []
  oneof : tagGet (fieldStructTag p f t) "protobuf_oneof" = []

theorem tag_text (p : FileDecl) (f : FieldDecl) (t : Resolved) (k : Kind) (hk : HasKind f.typ t k) (hname : ∀ c ∈ f.name, Tame c) (hnum : 0 ≤ f.number)
    (hkey : ∀ x, f.key = some x → ∃ s, x = keyword s) : TagText p f t k (isPacked p f t) := by
  obtain ⟨T, hT⟩ := kind_word k
  have hkw := tame_enc hT
  have hbytes : ∀ c ∈ "bytes".toList, Tame c := by decide
  have henc : ∀ c ∈ (if f.key.isSome then "bytes".toList else k.word), Tame c := by split <;> assumption
  have hlab : ∀ c ∈ labelOf f, Tame c := by
    rcases (label_cases f).1 with h | h | h <;> rw [h] <;> decide
  have hnm : ∀ c ∈ "name=".toList ++ f.name, Tame c := by
    intro c hc
    rcases List.mem_append.1 hc with hc | hc
    · exact (by decide : ∀ c ∈ "name=".toList, Tame c) c hc
    · exact hname c hc
  have q1 : ∀ c ∈ protobufTag (if f.key.isSome then "bytes".toList else k.word) (itoa f.number) (labelOf f) f.name (f.repeated && isPacked p f t),
      Tame c ∨ c = ',' := by
    refine join_tame _ ?_
    intro w hw
    simp only [List.mem_append, List.mem_cons, List.not_mem_nil, or_false] at hw
    rcases hw with ((h | h | h) | h) | h
    · rw [h]; exact henc
    · rw [h]; exact fun c hc => tame_digit (digit_of_itoa hnum c hc)
    · rw [h]; exact hlab
    · split at h
      · simp only [List.mem_cons, List.not_mem_nil, or_false] at h; rw [h]; decide
      · simp at h
    · rw [h]; exact hnm
  have q2 : ∀ c ∈ f.name ++ ",omitempty".toList, Tame c ∨ c = ',' := by
    intro c hc
    rcases List.mem_append.1 hc with hc | hc
    · exact .inl (hname c hc)
    · exact (by decide : ∀ c ∈ ",omitempty".toList, Tame c ∨ c = ',') c hc
  have hsp : ∀ c ∈ [' '], c = ' ' := by decide
  have k0 : "protobuf".toList ≠ [] ∧ ∀ c ∈ "protobuf".toList, isTagKey c = true := by decide
  have k1 : "json".toList ≠ [] ∧ ∀ c ∈ "json".toList, isTagKey c = true := by decide
  have k2 : "protobuf_key".toList ≠ [] ∧ ∀ c ∈ "protobuf_key".toList, isTagKey c = true := by decide
  have k3 : "protobuf_val".toList ≠ [] ∧ ∀ c ∈ "protobuf_val".toList, isTagKey c = true := by decide
  have hent : ∀ {key value : Str}, '`' ∉ key → (∀ c ∈ value, Tame c ∨ c = ',') → '`' ∉ tagEntry key value := by
    intro key value h1 h2 hm
    simp only [tagEntry, List.mem_append, List.mem_cons, List.not_mem_nil, or_false, List.cons_append] at hm
    rcases hm with (h | h | h | h) | h
    · exact h1 h
    · exact absurd h (by decide)
    · exact absurd h (by decide)
    · rcases h2 _ h with h | h
      · exact h.2.2.2.2.2 rfl
      · exact absurd h (by decide)
    · exact absurd h (by decide)
  have htext := text_eq p f t
  rw [kind_enc hk] at htext
  have hlen : ∃ n, (fieldStructTag p f t).length + 1 = n + 1 + 1 + 1 + 1 := by
    refine ⟨(fieldStructTag p f t).length - 3, ?_⟩
    have : 3 ≤ (fieldStructTag p f t).length := by
      rw [htext]
      simp [tagEntry]
    omega
  obtain ⟨n, hn⟩ := hlen
  -- the first two entries
  have step : ∀ want : Str, want ≠ "protobuf".toList → want ≠ "json".toList →
      tagLookup ((fieldStructTag p f t).length + 1) (fieldStructTag p f t) want = tagLookup (n + 1 + 1) (kvTags f t) want := by
    intro want h1 h2
    rw [hn, htext, lookup_entry _ [] (by simp) _ _ _ _ k0.1 k0.2 (quiet_of_tame q1), if_neg h1,
      lookup_entry _ [' '] hsp _ _ _ _ k1.1 k1.2 (quiet_of_tame q2), if_neg h2]
  have hmain : tagGet (fieldStructTag p f t) "protobuf" =
      protobufTag (if f.key.isSome then "bytes".toList else k.word) (itoa f.number) (labelOf f) f.name (f.repeated && isPacked p f t) := by
    rw [tagGet, hn, htext, lookup_entry _ [] (by simp) _ _ _ _ k0.1 k0.2 (quiet_of_tame q1), if_pos rfl]
    rfl
  cases hkv : f.key with
  | none =>
    have hnil : kvTags f t = [] := by unfold kvTags; rw [hkv]
    refine ⟨?_, hmain, (fun s h => by rw [hkv] at h; cases h), fun _ => ⟨?_, ?_⟩, ?_⟩
    · rw [htext, hnil]
      simp only [List.nil_append, List.append_nil, List.mem_append, List.mem_cons, List.not_mem_nil, or_false, not_or]
      exact ⟨hent (by decide) q1, by decide, hent (by decide) q2⟩
    · rw [tagGet, step _ (by decide) (by decide), hnil, tagLookup_nil]; rfl
    · rw [tagGet, step _ (by decide) (by decide), hnil, tagLookup_nil]; rfl
    · rw [tagGet, step _ (by decide) (by decide), hnil, tagLookup_nil]; rfl
  | some x =>
    obtain ⟨s, rfl⟩ := hkey x hkv
    have hes : encodingType (keyword s) (.scalar []) = s.word := kind_enc (k := .scalar s) ⟨rfl, [], rfl⟩
    have hkvt : kvTags f t = [' '] ++ (tagEntry "protobuf_key".toList (joinComma [s.word, "1".toList, "opt".toList, "name=".toList ++ "key".toList]) ++
        ([' '] ++ (tagEntry "protobuf_val".toList (joinComma [k.word, "2".toList, "opt".toList, "name=".toList ++ "value".toList]) ++ []))) := by
      unfold kvTags
      rw [hkv]
      dsimp only
      rw [hes, kind_enc hk]
    have q3 : ∀ c ∈ joinComma [s.word, "1".toList, "opt".toList, "name=".toList ++ "key".toList], Tame c ∨ c = ',' := by
      refine join_tame _ ?_
      intro w hw
      simp only [List.mem_cons, List.not_mem_nil, or_false] at hw
      rcases hw with h | h | h | h
      · rw [h]; exact tame_enc (encWord_scalar s)
      · rw [h]; decide
      · rw [h]; decide
      · rw [h]; decide
    have q4 : ∀ c ∈ joinComma [k.word, "2".toList, "opt".toList, "name=".toList ++ "value".toList], Tame c ∨ c = ',' := by
      refine join_tame _ ?_
      intro w hw
      simp only [List.mem_cons, List.not_mem_nil, or_false] at hw
      rcases hw with h | h | h | h
      · rw [h]; exact hkw
      · rw [h]; decide
      · rw [h]; decide
      · rw [h]; decide
    have step2 : ∀ want : Str, tagLookup (n + 1 + 1) (kvTags f t) want =
        if want = "protobuf_key".toList then some (joinComma [s.word, "1".toList, "opt".toList, "name=".toList ++ "key".toList])
        else if want = "protobuf_val".toList then some (joinComma [k.word, "2".toList, "opt".toList, "name=".toList ++ "value".toList]) else none := by
      intro want
      rw [hkvt, lookup_entry _ [' '] hsp _ _ _ _ k2.1 k2.2 (quiet_of_tame q3), lookup_entry _ [' '] hsp _ _ _ _ k3.1 k3.2 (quiet_of_tame q4),
        tagLookup_nil]
    refine ⟨?_, hmain, fun s' h => ?_, (fun h => by rw [hkv] at h; cases h), ?_⟩
    · rw [htext, hkvt]
      simp only [List.nil_append, List.append_nil, List.mem_append, List.mem_cons, List.not_mem_nil, or_false, not_or]
      exact ⟨hent (by decide) q1, by decide, hent (by decide) q2, by decide, hent (by decide) q3, by decide, hent (by decide) q4⟩
    · have hss : s'.word = s.word := by
        rw [hkv] at h
        have e := keyword_enc s
        rw [Option.some.inj h, keyword_enc s'] at e
        exact Option.some.inj e
      rw [hss]
      constructor
      · rw [tagGet, step _ (by decide) (by decide), step2, if_pos rfl]; rfl
      · rw [tagGet, step _ (by decide) (by decide), step2, if_neg (by decide), if_pos rfl]; rfl
    · rw [tagGet, step _ (by decide) (by decide), step2, if_neg (by decide), if_neg (by decide)]; rfl

theorem ident_tame {s : Str} (h : ProtoIdent s) : ∀ c ∈ s, Tame c := by
  obtain ⟨c, r, _, _, h⟩ := h
  exact fun c hc => tame_ident (h c hc)

end Gen

open Gen

/-- C42 (partial): the struct tag emitted for a field declaration is a Go raw string, from which `reflect` reads a `protobuf` tag that says the declared encoding,
number, and whether the field is repeated and packed; a map field has in addition tags for the encodings of key and value, and other fields have not.
Missing: fields of proto3 files with `[packed = false]` (`C42_unpacked_violated`), and types named like a scalar with a dot before (`C42_dot_violated`). -/
theorem C42_tag_partial (p : FileDecl) (f : FieldDecl) (t : Resolved) (k : Kind) (b : Bool) (hk : HasKind f.typ t k) (hname : ProtoIdent f.name)
    (hnum : 0 ≤ f.number) (hkey : ∀ x, f.key = some x → f.repeated = false ∧ ∃ s, x = keyword s)
    (hb : f.repeated = true → Packs p f b ∧ ¬ (p.edition = .proto3 ∧ b = false) ∧ (k = .message → f.typ.head? ≠ some '.')) :
    '`' ∉ fieldStructTag p f t ∧
    TagSays (tagGet (fieldStructTag p f t) "protobuf") (if f.key.isSome then "bytes".toList else k.word) f.number.toNat (f.repeated || f.key.isSome)
      (f.repeated && (k.packable && b)) ∧
    (∀ s, f.key = some (keyword s) → KVSays (tagGet (fieldStructTag p f t) "protobuf_key") s.word ∧
      KVSays (tagGet (fieldStructTag p f t) "protobuf_val") k.word) ∧
    (f.key = none → tagGet (fieldStructTag p f t) "protobuf_key" = [] ∧ tagGet (fieldStructTag p f t) "protobuf_val" = []) ∧
    tagGet (fieldStructTag p f t) "protobuf_oneof" = [] := by
  obtain ⟨h1, h2, h3, h4, h5⟩ := tag_text p f t k hk (ident_tame hname) hnum (fun x hx => (hkey x hx).2)
  obtain ⟨T, hT⟩ := kind_word k
  have hpk : (f.repeated && isPacked p f t) = (f.repeated && (k.packable && b)) := by
    cases hr : f.repeated with
    | false => rfl
    | true =>
      have hn : f.key = none := by
        cases hf : f.key with
        | none => rfl
        | some x => rw [(hkey x hf).1] at hr; cases hr
      rw [packed_rule hk (hb hr).1 (hb hr).2.1 hn (hb hr).2.2]
  refine ⟨h1, ?_, fun s hs => ?_, h4, h5⟩
  · rw [h2, hpk, ← (label_cases f).2]
    have hd := decimal_toDigits _ _ (Nat.le_refl f.number.toNat)
    rw [← itoa_nat hnum] at hd
    have hE : ∃ T, EncWord (if f.key.isSome then "bytes".toList else k.word) T := by
      split
      · exact ⟨_, .bytes⟩
      · exact ⟨T, hT⟩
    obtain ⟨T', hT'⟩ := hE
    exact tag_says hT' hd (digit_of_itoa hnum) itoa_ne _ (label_cases f).1 _ (ident_tame hname)
  · rw [(h3 s hs).1, (h3 s hs).2]
    exact ⟨kv_says (encWord_scalar s) _ _ (.inl ⟨rfl, rfl⟩), kv_says hT _ _ (.inr ⟨rfl, rfl⟩)⟩

/-- C42 (partial): what the runtime's tag parser makes of it. -/
theorem C42_read_partial (p : FileDecl) (f : FieldDecl) (t : Resolved) (k : Kind) (b : Bool) (hk : HasKind f.typ t k) (hname : ProtoIdent f.name)
    (hnum : 0 ≤ f.number ∧ f.number < 2 ^ 31) (hkey : ∀ x, f.key = some x → f.repeated = false ∧ ∃ s, x = keyword s)
    (hb : f.repeated = true → Packs p f b ∧ ¬ (p.edition = .proto3 ∧ b = false) ∧ (k = .message → f.typ.head? ≠ some '.'))
    (T : TagType) (hT : EncWord (if f.key.isSome then "bytes".toList else k.word) T) :
    (∃ i, parseStructTag (tagGet (fieldStructTag p f t) "protobuf") = .ok (i, T) ∧ (i.id.toNat : Int) = f.number ∧
      i.repeated = (f.repeated || f.key.isSome) ∧ i.packed = (f.repeated && (k.packable && b))) ∧
    (∀ s K V, f.key = some (keyword s) → EncWord s.word K → EncWord k.word V →
      parseKVTag (tagGet (fieldStructTag p f t) "protobuf_key") = .ok K ∧ parseKVTag (tagGet (fieldStructTag p f t) "protobuf_val") = .ok V) := by
  obtain ⟨_, h2, h3, _, _⟩ := C42_tag_partial p f t k b hk hname hnum.1 hkey hb
  obtain ⟨i, e1, e2, e3, e4⟩ := C34_tag_partial hT (by omega) h2
  refine ⟨⟨i, e1, by omega, e3, e4⟩, fun s K V hs hK hV => ?_⟩
  exact ⟨C34_kvtag hK (h3 s hs).1, C34_kvtag hV (h3 s hs).2⟩

/-- A map field with a message type as values; and a packed list. -/
example : HasKind "Point".toList (.decl ⟨false, 0, ["Point".toList]⟩ none) .message ∧ ProtoIdent "where".toList ∧
    fieldStructTag { edition := .proto3 } { name := "where".toList, key := some (keyword .sint64), typ := "Point".toList, number := 12 }
      (.decl ⟨false, 0, ["Point".toList]⟩ none) =
    "protobuf:\"bytes,12,rep,name=where\" json:\"where,omitempty\" protobuf_key:\"zigzag64,1,opt,name=key\" protobuf_val:\"bytes,2,opt,name=value\"".toList := by
  refine ⟨⟨fun s => by cases s <;> decide, _, _, rfl, rfl⟩, ⟨'w', "here".toList, rfl, by decide, ?_⟩, by decide +kernel⟩
  have : ∀ c ∈ "where".toList, Lower c := by decide
  exact fun c hc => .inl (this c hc)

example : Packs { edition := .ed2023, options := [("features.repeated_field_encoding".toList, "EXPANDED".toList)] }
      { name := "xs".toList, typ := keyword .sint32, number := 3, repeated := true,
        options := [("features.repeated_field_encoding".toList, "PACKED".toList)] } true ∧
    tagGet (fieldStructTag { edition := .ed2023, options := [("features.repeated_field_encoding".toList, "EXPANDED".toList)] }
      { name := "xs".toList, typ := keyword .sint32, number := 3, repeated := true,
        options := [("features.repeated_field_encoding".toList, "PACKED".toList)] } (.scalar "int32".toList)) "protobuf" =
      "zigzag32,3,rep,packed,name=xs".toList := by
  refine ⟨.packed rfl (.field _ ⟨by simp, by simp⟩), by decide +kernel⟩

/-- C42 (violated): in a proto3 file, `[packed = false]` is without effect. -/
theorem C42_unpacked_violated : ∃ (p : FileDecl) (f : FieldDecl), p.edition = .proto3 ∧ f.repeated = true ∧ f.typ = keyword .int32 ∧ Packs p f false ∧
    tagGet (fieldStructTag p f (.scalar "int32".toList)) "protobuf" = "varint,1,rep,packed,name=xs".toList :=
  ⟨{ edition := .proto3 }, { name := "xs".toList, typ := keyword .int32, number := 1, repeated := true, options := [("packed".toList, "false".toList)] },
    rfl, rfl, rfl, .off3 rfl ⟨by simp, by simp⟩, by decide +kernel⟩

/-- C42 (violated): a repeated field of a message type whose name is a keyword and is written with a dot before is tagged as packed. -/
theorem C42_dot_violated : ∃ (W : World) (m : MsgDecl) (f : FieldDecl) (r : Ref) (q : Option Nat), (W.file 0).edition = .proto3 ∧ m ∈ (W.file 0).messages ∧
    f ∈ m.fields ∧ typeResolve W 0 [([], m)] true f.typ = some (.decl r q) ∧ r.isEnum = false ∧
    tagGet (fieldStructTag (W.file 0) f (.decl r q)) "protobuf" = "bytes,1,rep,packed,name=xs".toList := by
  let fd : FieldDecl := { name := "xs".toList, typ := ".bool".toList, number := 1, repeated := true }
  let m : MsgDecl := .mk "M".toList [] [] [fd] [] [] [] []
  refine ⟨⟨[{ edition := .proto3, messages := [m, .mk "bool".toList [] [] [] [] [] [] []] }], fun _ => []⟩, m, fd, ⟨false, 0, ["bool".toList]⟩, none, rfl, ?_, ?_, ?_, rfl, ?_⟩
  · exact List.mem_cons_self ..
  · exact List.mem_cons_self ..
  · decide +kernel
  · decide +kernel

end Verif.Props
