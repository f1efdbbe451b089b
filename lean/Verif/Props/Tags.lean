import Verif.Lemmas.TagExact
import Verif.Props.Desc
/-!
# C34, C35: struct tags and accepted types
-/
namespace Verif.Props
open Verif.Spec Verif.Model Verif.Lemmas

/-! ## C34: struct tags -/

/-- A `protobuf` tag made of the word for an encoding, a field number, possibly `rep` and `packed`, and any words that mean
nothing to the codec, in any order, is parsed to that encoding, number and flags. -/
theorem C34_tag_partial {t enc : List Char} {T : TagType} {num : Nat} {rep packed : Bool} (hE : EncWord enc T) (hn : num < 2 ^ 31)
    (h : TagSays t enc num rep packed) :
    ∃ p, parseStructTag t = .ok (p, T) ∧ p.id.toNat = num ∧ p.repeated = rep ∧ p.packed = packed := by
  obtain ⟨p, h1, h2, h3, h4⟩ := parseStructTag_ok hE hn h
  exact ⟨p, h1, by rw [h2, ofNat32_toNat hn], h3, h4⟩

/-- The tags of the keys and values of maps. -/
theorem C34_kvtag {t enc : List Char} {T : TagType} (hE : EncWord enc T) (h : KVSays t enc) : parseKVTag t = .ok T := parseKVTag_ok hE h

/-- Every string, as a tag: it is accepted exactly if no word of it is `group` or a number of 2^32 or more, and some word names an encoding; then
the encoding is that of the last such word, the number is that of the last word made of digits (0 without one), and each flag is set exactly if its
word occurs. -/
theorem C34_exact {t : List Char} {ws : List (List Char)} (h : TagWords t ws) (p : TagInfo) (T : TagType) :
    parseStructTag t = .ok (p, T) ↔
      (∀ w ∈ ws, w ≠ "group".toList ∧ ∀ n, IsDecimal w n → n < 2 ^ 32) ∧ LastOf EncWord ws T ∧ p.typ = some T ∧
      (LastOf IsDecimal ws p.id.toNat ∨ (∀ w ∈ ws, ∀ n, ¬ IsDecimal w n) ∧ p.id = 0#32) ∧
      (p.repeated = true ↔ "rep".toList ∈ ws) ∧ (p.packed = true ↔ "packed".toList ∈ ws) ∧ (p.required = true ↔ "req".toList ∈ ws) := by
  have hf : (splitComma t).foldlM tagStep {} = ws.foldlM wordStep {} := by rw [fold_trim, tagWords_eq h]
  have hbad : (∀ w ∈ ws, ¬ BadWord w) ↔ ∀ w ∈ ws, w ≠ "group".toList ∧ ∀ n, IsDecimal w n → n < 2 ^ 32 := by
    constructor
    · intro hb w hw
      refine ⟨fun e => hb w hw (.inl e), fun n hn => ?_⟩
      by_cases hlt : n < 2 ^ 32
      · exact hlt
      · exact absurd (.inr ⟨n, hn, by omega⟩) (hb w hw)
    · rintro hb w hw (e | ⟨n, hn, hge⟩)
      · exact (hb w hw).1 e
      · have := (hb w hw).2 n hn; omega
  have hnum : ∀ n, LastOf IsDecimal ws n → (∀ w ∈ ws, ¬ BadWord w) → n < 2 ^ 32 := by
    rintro n ⟨a, w, b, rfl, hd, _⟩ hb
    exact (hbad.1 hb w (by simp)).2 n hd
  have key : ∀ p', ws.foldlM wordStep {} = .ok p' → (∀ w ∈ ws, ¬ BadWord w) ∧
      ((∃ T, LastOf EncWord ws T ∧ p'.typ = some T) ∨ ((∀ w ∈ ws, ∀ T, ¬ EncWord w T) ∧ p'.typ = none)) ∧
      (LastOf IsDecimal ws p'.id.toNat ∨ (∀ w ∈ ws, ∀ n, ¬ IsDecimal w n) ∧ p'.id = 0#32) ∧
      p'.repeated = decide ("rep".toList ∈ ws) ∧ p'.packed = decide ("packed".toList ∈ ws) ∧ p'.required = decide ("req".toList ∈ ws) := by
    intro p' hp'
    obtain ⟨hb, he⟩ := words_ok ws {} p' hp'
    refine ⟨hb, he.typ, ?_, by rw [he.rep]; simp, by rw [he.packed]; simp, by rw [he.req]; simp⟩
    rcases he.id with ⟨n, h1, h2⟩ | h1
    · left
      rw [h2, BitVec.toNat_ofNat, Nat.mod_eq_of_lt (hnum n h1 hb)]
      exact h1
    · exact .inr h1
  have hval : ∀ (w : List Char) (a b : Nat), IsDecimal w a → IsDecimal w b → a = b := fun w a b h1 h2 => by
    rw [decimal_val h1 rfl, decimal_val h2 rfl]
  constructor
  · intro hp
    unfold parseStructTag at hp
    rw [hf] at hp
    cases hw : ws.foldlM wordStep {} with
    | error e => rw [hw] at hp; cases hp
    | ok p' =>
      rw [hw] at hp
      obtain ⟨hb, ht, hi, h1, h2, h3⟩ := key p' hw
      cases hT : p'.typ with
      | none => simp only [bind, Except.bind, hT] at hp; cases hp
      | some T' =>
        simp only [bind, Except.bind, hT, pure, Except.pure] at hp
        cases hp
        refine ⟨hbad.1 hb, ?_, hT, hi, by rw [h1]; simp, by rw [h2]; simp, by rw [h3]; simp⟩
        rcases ht with ⟨T'', ht, e⟩ | ⟨_, e⟩
        · rw [hT] at e; cases e; exact ht
        · rw [hT] at e; cases e
  · rintro ⟨hb, ht, hpt, hi, h1, h2, h3⟩
    obtain ⟨p', hw⟩ := words_total ws {} (hbad.2 hb)
    obtain ⟨_, ht', hi', h1', h2', h3'⟩ := key p' hw
    have hT : p'.typ = some T := by
      rcases ht' with ⟨T'', ht', e⟩ | ⟨hn, _⟩
      · rw [e, lastOf_unique (fun w a b r1 r2 => by have := r1.word; rw [r2.word] at this; cases this; rfl) ht' ht]
      · exact (lastOf_not ht hn).elim
    have hI : p'.id = p.id := by
      rcases hi with hi | ⟨hn, e⟩ <;> rcases hi' with hi' | ⟨hn', e'⟩
      · exact BitVec.eq_of_toNat_eq (lastOf_unique hval hi' hi)
      · exact (lastOf_not hi hn').elim
      · exact (lastOf_not hi' hn).elim
      · rw [e, e']
    have hpp : p' = p := by
      obtain ⟨i', t', r', q', k'⟩ := p'
      obtain ⟨i, t, r, q, k⟩ := p
      simp only at hI hT h1 h2 h3 h1' h2' h3' hpt
      subst hI
      have e1 : q' = q := by rw [h1', Bool.eq_iff_iff, h1]; simp
      have e2 : k' = k := by rw [h2', Bool.eq_iff_iff, h2]; simp
      have e3 : r' = r := by rw [h3', Bool.eq_iff_iff, h3]; simp
      rw [e1, e2, e3, hT, hpt]
    unfold parseStructTag
    rw [hf, hw, ← hpp]
    simp only [bind, Except.bind, hT, pure, Except.pure]

/-- Every string, as the tag of the keys or values of a map: the first word that names an encoding or is `group` decides. -/
theorem C34_kv_exact {t : List Char} {ws : List (List Char)} (h : TagWords t ws) (T : TagType) :
    parseKVTag t = .ok T ↔
      ∃ before w after, ws = before ++ w :: after ∧ EncWord w T ∧ ∀ x ∈ before, x ≠ "group".toList ∧ ∀ T', ¬ EncWord x T' := by
  unfold parseKVTag
  rw [kvWords_iff, tagWords_eq h]
  constructor
  · rintro ⟨a, w, b, e, hw, hn⟩
    rcases hw with ⟨T', e', hE⟩ | ⟨e', _⟩
    · cases e'
      exact ⟨a, w, b, e, hE, fun x hx => ⟨fun e => hn x hx none (.inr ⟨rfl, e⟩), fun T' h' => hn x hx (some T') (.inl ⟨T', rfl, h'⟩)⟩⟩
    · cases e'
  · rintro ⟨a, w, b, e, hE, hn⟩
    refine ⟨a, w, b, e, .inl ⟨T, rfl, hE⟩, ?_⟩
    rintro x hx o (⟨T', _, h'⟩ | ⟨_, h'⟩)
    · exact (hn x hx).2 T' h'
    · exact (hn x hx).1 h'

/-- Every string has words, so C34_exact is about every tag. -/
theorem C34_words (t : List Char) : ∃ ws, TagWords t ws := ⟨_, tagWords_exists t⟩

/-- A tag with a number that does not fit 32 bits is refused, whatever else it says. -/
theorem C34_number {t : List Char} {ws : List (List Char)} (h : TagWords t ws) {w : List Char} (hw : w ∈ ws) {n : Nat} (hn : IsDecimal w n)
    (hbig : 2 ^ 32 ≤ n) : ¬ ∃ r, parseStructTag t = .ok r := by
  rintro ⟨⟨p, T⟩, hr⟩
  have := (((C34_exact h p T).1 hr).1 w hw).2 n hn
  omega

/-- A tag with blanks, two numbers, two encodings and all flags: the last number and the last encoding count. -/
example : TagWords " varint, 12 ,req,rep,\tfixed32,packed,7".toList
    ["varint".toList, "12".toList, "req".toList, "rep".toList, "fixed32".toList, "packed".toList, "7".toList] ∧
    parseStructTag " varint, 12 ,req,rep,\tfixed32,packed,7".toList = .ok (⟨7#32, some .fixed32, true, true, true⟩, .fixed32) ∧
    parseStructTag "varint,4294967296".toList = .error .badType := by
  refine ⟨?_, by decide, by decide⟩
  have := tagWords_exists " varint, 12 ,req,rep,\tfixed32,packed,7".toList
  have e : (splitComma " varint, 12 ,req,rep,\tfixed32,packed,7".toList).map trimSpace =
      ["varint".toList, "12".toList, "req".toList, "rep".toList, "fixed32".toList, "packed".toList, "7".toList] := by decide
  exact e ▸ this

/-- An option such as `name=…`, `json=…`, `enum=…` or `def=…` is without effect, whatever its text, (as a word of a
tag, that is, without commas). -/
theorem C34_option (key val : List Char) : Harmless (key ++ '=' :: val) := by
  have hm : '=' ∈ key ++ '=' :: val := by simp
  have key' : ∀ w : List Char, '=' ∉ w → key ++ '=' :: val ≠ w := by
    rintro w hw e
    rw [e] at hm
    exact hw hm
  refine ⟨?_, key' _ (by decide), key' _ (by decide), Or.inr ⟨'=', hm, by decide⟩⟩
  simp only [isEncodingWord, List.mem_cons, List.not_mem_nil, or_false, decide_eq_false_iff_not, not_or]
  exact ⟨key' _ (by decide), key' _ (by decide), key' _ (by decide), key' _ (by decide), key' _ (by decide), key' _ (by decide),
    key' _ (by decide)⟩

theorem isWord_all (ws : List (List Char)) (h : ws.all (fun w => !w.contains ',' && !w.head?.any isBlank && !w.getLast?.any isBlank) = true) :
    ∀ w ∈ ws, IsWord w := by
  intro w hw
  have := List.all_eq_true.1 h w hw
  simp only [Bool.and_eq_true, Bool.not_eq_true', List.contains_eq_mem, decide_eq_false_iff_not] at this
  refine ⟨this.1.1, fun c hc => ?_, fun c hc => ?_⟩
  · have h2 := this.1.2
    rw [Option.mem_def.1 hc] at h2
    exact h2
  · have h2 := this.2
    rw [Option.mem_def.1 hc] at h2
    exact h2

/-- A realistic tag. -/
example : ∃ p, parseStructTag "varint,16383,rep,packed,name=state_code,json=stateCode,proto3,enum=a.State,def=x y".toList = .ok (p, .varint) ∧
    p.id.toNat = 16383 ∧ p.repeated = true ∧ p.packed = true := by
  refine C34_tag_partial .varint (by decide) ⟨["varint".toList, "16383".toList, "rep".toList, "packed".toList, "name=state_code".toList,
    "json=stateCode".toList, "proto3".toList, "enum=a.State".toList, "def=x y".toList], by decide, isWord_all _ (by decide), ?_, by decide, ?_, by decide, by decide⟩
  · intro w hw
    simp only [List.mem_cons, List.not_mem_nil, or_false] at hw
    rcases hw with rfl | rfl | rfl | rfl | rfl | rfl | rfl | rfl | rfl
    · exact .inl rfl
    · exact .inr (.inl (.snoc ['1', '6', '3', '8'] 1638 3 (.snoc ['1', '6', '3'] 163 8 (.snoc ['1', '6'] 16 3 (.snoc ['1'] 1 6
        (.digit 1 (by decide)) (by decide)) (by decide)) (by decide)) (by decide)))
    · exact .inr (.inr (.inl rfl))
    · exact .inr (.inr (.inr (.inl rfl)))
    · exact .inr (.inr (.inr (.inr (C34_option "name".toList "state_code".toList))))
    · exact .inr (.inr (.inr (.inr (C34_option "json".toList "stateCode".toList))))
    · exact .inr (.inr (.inr (.inr ⟨by decide, by decide, by decide, by decide⟩)))
    · exact .inr (.inr (.inr (.inr (C34_option "enum".toList "a.State".toList))))
    · exact .inr (.inr (.inr (.inr (C34_option "def".toList "x y".toList))))
  · exact ⟨_, .tail _ (.head _), .snoc ['1', '6', '3', '8'] 1638 3 (.snoc ['1', '6', '3'] 163 8 (.snoc ['1', '6'] 16 3 (.snoc ['1'] 1 6
        (.digit 1 (by decide)) (by decide)) (by decide)) (by decide)) (by decide)⟩

/-- C34 is false for defaults with commas (protobuf's own generator puts the default last for this reason): the field declared with number 1
and a string encoding gets number 7, and with another default another encoding. -/
theorem C34_default_violated :
    (parseStructTag "bytes,1,opt,name=s,def=3,7".toList).map (fun r => (r.1.id.toNat, r.2)) = .ok (7, .bytes) ∧
    (parseStructTag "bytes,1,opt,name=s,def=a, varint".toList).map (fun r => (r.1.id.toNat, r.2)) = .ok (1, .varint) ∧
    (parseStructTag "bytes,1,opt,name=s,def=a,group".toList).map (fun r => (r.1.id.toNat, r.2)) = .error .badType := by
  decide

/-! ## C35, C23: types that are accepted although the codec cannot handle them -/

/-- A struct with one field. -/
def oneField (t : GoType) (zero : Val) (tag : String) (size : Nat := 24) (key val : String := "") : GoEnv where
  structs := [{ fields := [{ name := "F".toList, type := t, tag := tag.toList, keyTag := key.toList, valTag := val.toList }]
                size := size, zero := .struct [zero] }]

/-- Field numbers are not checked.  Without a number (or with number 0) the type is accepted, and what Marshal writes is no protobuf message: Unmarshal
of the same type refuses it.  A number above 2^29-1 is accepted, too, although no tag may have it.  A number of 2^31 or more panics when the type is
first used. -/
theorem C34_number_violated :
    marshal (oneField .int32 (.w32 0#32) "varint,opt,name=f" 4) (.ptr 0 (some (.struct [.w32 5#32]))) = .ok [0#8, 5#8] ∧
    unmarshal (oneField .int32 (.w32 0#32) "varint,opt,name=f" 4) [0#8, 5#8] (.ptr 0 (some (.struct [.w32 0#32]))) = .error (.parse .fieldNumber) ∧
    marshal (oneField .int32 (.w32 0#32) "varint,536870912,opt" 4) (.ptr 0 (some (.struct [.w32 5#32]))) =
      .ok [0x80#8, 0x80#8, 0x80#8, 0x80#8, 0x10#8, 5#8] ∧
    marshal (oneField .int32 (.w32 0#32) "varint,2147483648,opt" 4) (.ptr 0 (some (.struct [.w32 5#32]))) = .error .panic := ⟨rfl, rfl, rfl, rfl⟩

/-- `F []int32` without `rep`: accepted, and Marshal reads the slice header as an `int32`. -/
theorem C35_slice_violated : (parseDescs (oneField (.slice .int32) (.slice []) "varint,1,opt")).isOk = true ∧
    marshal (oneField (.slice .int32) (.slice []) "varint,1,opt") (.ptr 0 (some (.struct [.slice [.w32 5#32]]))) = .error .ub := ⟨rfl, rfl⟩

/-- `F []*int32` with `rep`: accepted, and Marshal reads the pointers as `int32`s. -/
theorem C35_pointers_violated : (parseDescs (oneField (.slice (.ptr .int32)) (.slice []) "varint,1,rep")).isOk = true ∧
    marshal (oneField (.slice (.ptr .int32)) (.slice []) "varint,1,rep") (.ptr 0 (some (.struct [.slice [.ptr (some (.w32 5#32))]]))) = .error .ub :=
  ⟨rfl, rfl⟩

/-- `F []*int64` with `rep,packed`: accepted, and Unmarshal stores numbers from the input where pointers belong. -/
theorem C35_packed_pointers_violated : (parseDescs (oneField (.slice (.ptr .int64)) (.slice []) "varint,1,rep,packed")).isOk = true ∧
    unmarshal (oneField (.slice (.ptr .int64)) (.slice []) "varint,1,rep,packed") [0x0a#8, 1#8, 5#8] (.ptr 0 (some (.struct [.slice []]))) =
      .error .ub := ⟨rfl, rfl⟩

/-- `F map[int32]*int32`: accepted, and Marshal reads the pointers as `int32`s. -/
theorem C35_map_pointers_violated :
    (parseDescs (oneField (.map .int32 (.ptr .int32)) (.map none) "bytes,1,rep" 8 "varint,1,opt" "varint,2,opt")).isOk = true ∧
    marshal (oneField (.map .int32 (.ptr .int32)) (.map none) "bytes,1,rep" 8 "varint,1,opt" "varint,2,opt")
      (.ptr 0 (some (.struct [.map (some [(.w32 1#32, .ptr (some (.w32 5#32)))])]))) = .error .ub := ⟨rfl, rfl⟩

/-- `F *map[int32]int32`: accepted, and Unmarshal panics on every record of the field. -/
theorem C23_pointer_to_map_violated :
    (parseDescs (oneField (.ptr (.map .int32 .int32)) (.ptr none) "bytes,1,opt" 8)).isOk = true ∧
    unmarshal (oneField (.ptr (.map .int32 .int32)) (.ptr none) "bytes,1,opt" 8) [0x0a#8, 0#8] (.ptr 0 (some (.struct [.ptr none]))) = .error .panic :=
  ⟨rfl, rfl⟩

/-- `F []map[int32]int32` without `rep`: accepted, and Marshal panics ("not struct") on non-empty lists. -/
theorem C35_list_of_maps_violated : (parseDescs (oneField (.slice (.map .int32 .int32)) (.slice []) "bytes,1,opt")).isOk = true ∧
    marshal (oneField (.slice (.map .int32 .int32)) (.slice []) "bytes,1,opt") (.ptr 0 (some (.struct [.slice [.map none]]))) = .error .panic :=
  ⟨rfl, rfl⟩

end Verif.Props
