import Verif.Spec.EncWord
import Verif.Lemmas.DescOf
/-! Helper lemmas: struct tags. -/
namespace Verif.Lemmas
open Verif.Model Verif.Spec

theorem splitComma_word {w : List Char} (h : ',' ∉ w) : splitComma w = [w] := by
  induction w with
  | nil => rfl
  | cons c cs ih =>
    simp only [List.mem_cons, not_or] at h
    simp only [splitComma]
    rw [if_neg (Ne.symm h.1), ih h.2]

theorem splitComma_app {w rest : List Char} (h : ',' ∉ w) :
    splitComma (w ++ ',' :: rest) = w :: splitComma rest := by
  induction w with
  | nil => simp [splitComma]
  | cons c cs ih =>
    simp only [List.mem_cons, not_or] at h
    simp only [List.cons_append, splitComma]
    rw [if_neg (Ne.symm h.1), ih h.2]

theorem splitComma_join : ∀ {ws : List (List Char)}, ws ≠ [] → (∀ w ∈ ws, ',' ∉ w) →
    splitComma (joinComma ws) = ws
  | [], h, _ => absurd rfl h
  | [w], _, h => splitComma_word (h w (by simp))
  | w :: w' :: ws, _, h => by
    rw [joinComma, splitComma_app (h w (by simp)),
      splitComma_join (by simp) (fun x hx => h x (List.mem_cons_of_mem _ hx))]
    simp

theorem isBlank_eq (c : Char) : isBlank c = isSpace c := by
  unfold isBlank isSpace
  rw [Bool.eq_iff_iff]
  simp only [List.mem_cons, List.not_mem_nil, or_false, decide_eq_true_eq, Bool.or_eq_true,
    Bool.and_eq_true, beq_iff_eq]
  generalize c.toNat = n
  omega

theorem dropWhile_head {p : Char → Bool} {w : List Char} (h : ∀ c ∈ w.head?, p c = false) :
    w.dropWhile p = w := by
  cases w with
  | nil => rfl
  | cons c cs => rw [List.dropWhile_cons, if_neg]; simp [h c (by simp)]

theorem trimSpace_word {w : List Char} (h : IsWord w) : trimSpace w = w := by
  have h1 : w.dropWhile isSpace = w :=
    dropWhile_head (fun c hc => by rw [← isBlank_eq]; exact h.2.1 c hc)
  have h2 : w.reverse.dropWhile isSpace = w.reverse :=
    dropWhile_head (fun c hc => by
      rw [← isBlank_eq]; rw [List.head?_reverse] at hc; exact h.2.2 c hc)
  unfold trimSpace
  rw [h1, h2, List.reverse_reverse]

theorem digitChar_toNat {d : Nat} (h : d < 10) : (digitChar d).toNat = 48 + d := by
  have : d = 0 ∨ d = 1 ∨ d = 2 ∨ d = 3 ∨ d = 4 ∨ d = 5 ∨ d = 6 ∨ d = 7 ∨ d = 8 ∨ d = 9 := by omega
  rcases this with rfl | rfl | rfl | rfl | rfl | rfl | rfl | rfl | rfl | rfl <;> rfl

theorem isDigit_iff (c : Char) : isDigit c = true ↔ 48 ≤ c.toNat ∧ c.toNat ≤ 57 := by
  unfold isDigit
  rw [Bool.and_eq_true, decide_eq_true_eq, decide_eq_true_eq]
  exact Iff.rfl

theorem isDigit_digitChar {d : Nat} (h : d < 10) : isDigit (digitChar d) = true := by
  rw [isDigit_iff, digitChar_toNat h]
  omega

theorem decimal_props {w : List Char} {n : Nat} (h : IsDecimal w n) :
    w ≠ [] ∧ w.all isDigit = true ∧ digitsVal w = n := by
  induction h with
  | digit d hd =>
    refine ⟨by simp, by simp [isDigit_digitChar hd], ?_⟩
    simp only [digitsVal, List.foldl_cons, List.foldl_nil]
    rw [digitChar_toNat hd]
    show 10 * 0 + (48 + d - 48) = d
    omega
  | snoc w n d _ hd ih =>
    refine ⟨by simp, ?_, ?_⟩
    · rw [List.all_append, ih.2.1]; simp [isDigit_digitChar hd]
    · unfold digitsVal at ih ⊢
      rw [List.foldl_append, ih.2.2]
      simp only [List.foldl_cons, List.foldl_nil]
      rw [digitChar_toNat hd]
      show 10 * n + (48 + d - 48) = _
      omega

theorem isDigit_std (c : Char) : isDigit c = c.isDigit := by
  rw [Bool.eq_iff_iff, isDigit_iff]
  unfold Char.isDigit
  rw [Bool.and_eq_true, decide_eq_true_eq, decide_eq_true_eq]
  exact Iff.rfl

theorem ne_of_digits {w l : List Char} (hw : w.all isDigit = true) (hl : l.all isDigit = false) :
    w ≠ l := by
  rintro rfl; rw [hw] at hl; cases hl

/-- The effect of one word. -/
structure StepOK (enc : List Char) (T : TagType) (num : Nat) (p p' : TagInfo) (w : List Char) : Prop where
  typ : p'.typ = if w = enc then some T else p.typ
  id : (IsDecimal w num → p'.id = BitVec.ofNat 32 num) ∧ (¬ IsDecimal w num → p'.id = p.id)
  rep : p'.repeated = (p.repeated || decide (w = "rep".toList))
  packed : p'.packed = (p.packed || decide (w = "packed".toList))

theorem not_decimal {w : List Char} {n : Nat} (h : w.all isDigit = false ∨ w = []) : ¬ IsDecimal w n := by
  intro hd
  have := decimal_props hd
  rcases h with h | h
  · rw [this.2.1] at h; cases h
  · exact this.1 h

theorem tagTypeWord_none {w : List Char} (h : isEncodingWord w = false) :
    tagTypeWord w = none ∧ w ≠ "group".toList := by
  unfold isEncodingWord at h
  simp only [List.mem_cons, List.not_mem_nil, or_false, decide_eq_false_iff_not, not_or] at h
  obtain ⟨h1, h2, h3, h4, h5, h6, h7⟩ := h
  refine ⟨?_, h7⟩
  unfold tagTypeWord
  rw [if_neg h1, if_neg h2, if_neg h3, if_neg h4, if_neg h5, if_neg h6]

theorem tagTypeWord_digits {w : List Char} (h : w.all isDigit = true) : tagTypeWord w = none := by
  unfold tagTypeWord
  rw [if_neg (ne_of_digits h (by decide)), if_neg (ne_of_digits h (by decide)),
    if_neg (ne_of_digits h (by decide)), if_neg (ne_of_digits h (by decide)),
    if_neg (ne_of_digits h (by decide)), if_neg (ne_of_digits h (by decide))]

theorem encWord_scalar (s : Scalar) : EncWord s.word (tagTypeOf s) :=
  match s with
  | .int32 | .int64 | .uint32 | .uint64 | .bool => .varint
  | .sint32 => .zigzag32
  | .sint64 => .zigzag64
  | .fixed32 | .sfixed32 | .float => .fixed32
  | .fixed64 | .sfixed64 | .double => .fixed64
  | .string | .bytes => .bytes
theorem encWord_shape (s : Shape) : EncWord s.word (tagTypeOfShape s) := by
  match s with
  | .single s | .optional s | .list s _ => exact encWord_scalar s
  | .msg _ _ | .msgList _ _ | .map _ _ | .mapMsg _ _ _ => exact .bytes

theorem _root_.Verif.Spec.EncWord.isEnc {w : List Char} {T : TagType} (h : EncWord w T) : isEncodingWord w = true := by
  cases h <;> decide
theorem _root_.Verif.Spec.EncWord.word {w : List Char} {T : TagType} (h : EncWord w T) : tagTypeWord w = some T := by
  cases h <;> rfl
theorem _root_.Verif.Spec.EncWord.facts {w : List Char} {T : TagType} (h : EncWord w T) :
    w.all isDigit = false ∧ w ≠ "rep".toList ∧ w ≠ "packed".toList := by
  cases h <;> decide
theorem _root_.Verif.Spec.EncWord.facts2 {w : List Char} {T : TagType} (h : EncWord w T) :
    w ≠ [] ∧ w ≠ "opt".toList ∧ w ≠ "req".toList := by
  cases h <;> decide
theorem _root_.Verif.Spec.EncWord.step {w : List Char} {T : TagType} (h : EncWord w T) (hw : IsWord w) (p : TagInfo) :
    tagStep p w = .ok { p with typ := some T } := by
  have h2 := h.facts2
  unfold tagStep
  simp only [trimSpace_word hw]
  rw [if_neg h2.1, if_neg h2.2.1, if_neg h2.2.2, if_neg h.facts.2.1, h.word]

theorem tagStep_ok {enc : List Char} {T : TagType} (hE : EncWord enc T) {num : Nat}
    (hn : num < 2 ^ 31) (p : TagInfo) {w : List Char} (hw : IsWord w)
    (h : w = enc ∨ IsDecimal w num ∨ w = "rep".toList ∨ w = "packed".toList ∨ Harmless w) :
    ∃ p', tagStep p w = .ok p' ∧ StepOK enc T num p p' w := by
  have hf := hE.facts
  rcases h with rfl | h | rfl | rfl | h
  · refine ⟨_, hE.step hw p, ?_, ⟨?_, ?_⟩, ?_, ?_⟩
    · rw [if_pos rfl]
    · intro hd; exact absurd hd (not_decimal (Or.inl hf.1))
    · intro _; rfl
    · rw [decide_eq_false hf.2.1, Bool.or_false]
    · rw [decide_eq_false hf.2.2, Bool.or_false]
  · have hd := decimal_props h
    have hne : ∀ l : List Char, l.all isDigit = false → w ≠ l := fun l hl => ne_of_digits hd.2.1 hl
    refine ⟨{ p with id := BitVec.ofNat 32 num }, ?_, ?_, ⟨fun _ => rfl, fun h' => absurd h h'⟩, ?_, ?_⟩
    · unfold tagStep
      simp only [trimSpace_word hw]
      rw [if_neg hd.1, if_neg (hne _ (by decide)), if_neg (hne _ (by decide)),
        if_neg (hne _ (by decide)), tagTypeWord_digits hd.2.1]
      simp only
      rw [if_neg (hne _ (by decide)), if_neg (hne _ (by decide)), if_pos hd.2.1,
        if_pos (by rw [hd.2.2]; omega), hd.2.2]
    · rw [if_neg (hne _ hf.1)]
    · rw [decide_eq_false (hne _ (by decide)), Bool.or_false]
    · rw [decide_eq_false (hne _ (by decide)), Bool.or_false]
  · refine ⟨{ p with repeated := true }, rfl, ?_, ⟨fun h' => ?_, fun _ => rfl⟩, ?_, ?_⟩
    · rw [if_neg (Ne.symm hf.2.1)]
    · exact absurd h' (not_decimal (Or.inl (by decide)))
    · simp
    · rw [decide_eq_false (by decide), Bool.or_false]
  · refine ⟨{ p with packed := true }, rfl, ?_, ⟨fun h' => ?_, fun _ => rfl⟩, ?_, ?_⟩
    · rw [if_neg (Ne.symm hf.2.2)]
    · exact absurd h' (not_decimal (Or.inl (by decide)))
    · rw [decide_eq_false (by decide), Bool.or_false]
    · simp
  · obtain ⟨h1, h2, h3, h4⟩ := h
    have hne : w ≠ enc := by rintro rfl; rw [hE.isEnc] at h1; cases h1
    have hnd : ¬ IsDecimal w num := by
      refine not_decimal ?_
      rcases h4 with h4 | ⟨c, hc, hd⟩
      · exact Or.inr h4
      · left
        rw [List.all_eq_false]
        exact ⟨c, hc, by rw [isDigit_std, hd]; simp⟩
    have key : ∀ p', p'.typ = p.typ → p'.id = p.id → p'.repeated = p.repeated → p'.packed = p.packed →
        StepOK enc T num p p' w := by
      intro p' e1 e2 e3 e4
      refine ⟨by rw [if_neg hne, e1], ⟨fun h => absurd h hnd, fun _ => e2⟩, ?_, ?_⟩
      · rw [decide_eq_false h2, Bool.or_false, e3]
      · rw [decide_eq_false h3, Bool.or_false, e4]
    unfold tagStep
    simp only [trimSpace_word hw]
    rw [(tagTypeWord_none h1).1]
    dsimp only
    rw [if_neg (tagTypeWord_none h1).2, if_neg h3, if_neg h2]
    split
    · exact ⟨p, rfl, key p rfl rfl rfl rfl⟩
    · rename_i hne0
      split
      · exact ⟨p, rfl, key p rfl rfl rfl rfl⟩
      · split
        · exact ⟨_, rfl, key _ rfl rfl rfl rfl⟩
        · rw [if_neg]
          · exact ⟨p, rfl, key p rfl rfl rfl rfl⟩
          · rcases h4 with h4 | ⟨c, hc, hd⟩
            · exact absurd h4 hne0
            · rw [Bool.not_eq_true, List.all_eq_false]
              exact ⟨c, hc, by rw [isDigit_std, hd]; simp⟩

theorem tagFold_ok {enc : List Char} {T : TagType} (hE : EncWord enc T) {num : Nat}
    (hn : num < 2 ^ 31) : ∀ (ws : List (List Char)) (p : TagInfo), (∀ w ∈ ws, IsWord w) →
    (∀ w ∈ ws, w = enc ∨ IsDecimal w num ∨ w = "rep".toList ∨ w = "packed".toList ∨ Harmless w) →
    ∃ p', ws.foldlM tagStep p = .ok p' ∧
      ((enc ∈ ws ∨ p.typ = some T) → p'.typ = some T) ∧
      (((∃ w ∈ ws, IsDecimal w num) ∨ p.id = BitVec.ofNat 32 num) → p'.id = BitVec.ofNat 32 num) ∧
      p'.repeated = (p.repeated || decide ("rep".toList ∈ ws)) ∧
      p'.packed = (p.packed || decide ("packed".toList ∈ ws))
  | [], p, _, _ => ⟨p, rfl, by simp, by simp, by simp, by simp⟩
  | w :: ws, p, hw, h => by
    obtain ⟨p1, h1, hs⟩ := tagStep_ok hE hn p (hw w (by simp)) (h w (by simp))
    obtain ⟨p2, h2, ht, hi, hr, hp⟩ := tagFold_ok hE hn ws p1 (fun x hx => hw x (by simp [hx]))
      (fun x hx => h x (by simp [hx]))
    refine ⟨p2, by rw [List.foldlM_cons, h1]; exact h2, ?_, ?_, ?_, ?_⟩
    · intro h'
      apply ht
      rw [hs.typ]
      by_cases he : w = enc
      · right; rw [if_pos he]
      · rw [if_neg he]
        rcases h' with h' | h'
        · left
          rcases List.mem_cons.1 h' with h' | h'
          · exact absurd h'.symm he
          · exact h'
        · exact Or.inr h'
    · intro h'
      apply hi
      by_cases hd : IsDecimal w num
      · exact Or.inr (hs.id.1 hd)
      · rw [hs.id.2 hd]
        rcases h' with ⟨x, hx, hxd⟩ | h'
        · left
          rcases List.mem_cons.1 hx with rfl | hx
          · exact absurd hxd hd
          · exact ⟨x, hx, hxd⟩
        · exact Or.inr h'
    · rw [hr, hs.rep, Bool.or_assoc]
      congr 1
      rw [Bool.eq_iff_iff, Bool.or_eq_true, decide_eq_true_eq, decide_eq_true_eq, decide_eq_true_eq,
        List.mem_cons, eq_comm]
    · rw [hp, hs.packed, Bool.or_assoc]
      congr 1
      rw [Bool.eq_iff_iff, Bool.or_eq_true, decide_eq_true_eq, decide_eq_true_eq, decide_eq_true_eq,
        List.mem_cons, eq_comm]

theorem parseStructTag_ok {t enc : List Char} {T : TagType} {num : Nat} {rep packed : Bool}
    (hE : EncWord enc T) (hn : num < 2 ^ 31) (h : TagSays t enc num rep packed) :
    ∃ p, parseStructTag t = .ok (p, T) ∧ p.id = BitVec.ofNat 32 num ∧ p.repeated = rep ∧
      p.packed = packed := by
  obtain ⟨ws, rfl, hw, hc, he, hd, hr, hp⟩ := h
  obtain ⟨p, h1, h2, h3, h4, h5⟩ := tagFold_ok hE hn ws {} hw hc
  refine ⟨p, ?_, h3 (Or.inl hd), ?_, ?_⟩
  · unfold parseStructTag
    rw [splitComma_join (by rintro rfl; cases he) (fun w hx => (hw w hx).1), h1]
    simp only [bind, Except.bind]
    rw [h2 (Or.inl he)]
    rfl
  · rw [h4]; simp only [Bool.false_or]
    rw [Bool.eq_iff_iff, decide_eq_true_iff]; exact hr
  · rw [h5]; simp only [Bool.false_or]
    rw [Bool.eq_iff_iff, decide_eq_true_iff]; exact hp

theorem parseKVTag_ok {t enc : List Char} {T : TagType} (hE : EncWord enc T) (h : KVSays t enc) :
    parseKVTag t = .ok T := by
  obtain ⟨ws, rfl, hw, he, ha⟩ := h
  unfold parseKVTag
  rw [splitComma_join (by rintro rfl; cases he) (fun w hx => (hw w hx).1)]
  induction ws with
  | nil => cases he
  | cons w ws ih =>
    simp only [parseKVWords, trimSpace_word (hw w (by simp))]
    by_cases h : w = enc
    · rw [h, hE.word]
    · have hn := (ha w (by simp)).resolve_left h
      rw [(tagTypeWord_none hn).1]
      simp only
      rw [if_neg (tagTypeWord_none hn).2]
      refine ih (fun x hx => hw x (by simp [hx])) ?_ (fun x hx => ha x (by simp [hx]))
      rcases List.mem_cons.1 he with h' | h'
      · exact absurd h'.symm h
      · exact h'

end Verif.Lemmas
