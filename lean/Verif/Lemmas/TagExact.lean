import Verif.Spec.TagWords
import Verif.Lemmas.TagParse
/-! Helper lemmas: what the parser of struct tags does with any string. -/
namespace Verif.Lemmas
open Verif.Model Verif.Spec

theorem dropWhile_blank {a w : List Char} (ha : ∀ c ∈ a, isBlank c = true) (hw : ∀ c ∈ w.head?, isBlank c = false) :
    (a ++ w).dropWhile isSpace = w := by
  induction a with
  | nil => exact dropWhile_head (fun c hc => by rw [← isBlank_eq]; exact hw c hc)
  | cons x a ih =>
    rw [List.cons_append, List.dropWhile_cons, if_pos (by rw [← isBlank_eq]; exact ha x (by simp))]
    exact ih (fun c hc => ha c (by simp [hc]))

theorem trimSpace_eq {s w : List Char} (h : TrimmedWord s w) : trimSpace s = w := by
  obtain ⟨a, b, rfl, ha, hb, h1, h2⟩ := h
  unfold trimSpace
  by_cases hw : w = []
  · subst hw
    have : (a ++ [] ++ b).dropWhile isSpace = [] := by
      have := dropWhile_blank (a := a ++ b) (w := []) (fun c hc => by
        rcases List.mem_append.1 hc with h | h
        · exact ha c h
        · exact hb c h) (by simp)
      simpa using this
    rw [this]; rfl
  · rw [List.append_assoc, dropWhile_blank ha (fun c hc => by
      cases w with
      | nil => exact absurd rfl hw
      | cons x w => exact h1 c (by simpa using hc))]
    rw [List.reverse_append, dropWhile_blank (fun c hc => hb c (by simpa using hc)) (fun c hc => by
      rw [List.head?_reverse] at hc; exact h2 c hc), List.reverse_reverse]

theorem takeWhile_blank (s : List Char) : ∀ c ∈ s.takeWhile isSpace, isBlank c = true := by
  intro c hc
  rw [isBlank_eq]
  exact List.all_eq_true.1 (List.all_takeWhile (p := isSpace) (l := s)) c hc

theorem dropWhile_head_not (s : List Char) : ∀ c ∈ (s.dropWhile isSpace).head?, isSpace c = false := by
  intro c hc
  have := List.head?_dropWhile_not isSpace s
  rw [Option.mem_def.1 hc] at this
  simpa using this

/-- Every text has a trimmed form. -/
theorem trimmed_exists (s : List Char) : TrimmedWord s (trimSpace s) := by
  have e1 : s = s.takeWhile isSpace ++ s.dropWhile isSpace := (List.takeWhile_append_dropWhile (p := isSpace)).symm
  refine ⟨s.takeWhile isSpace, ((s.dropWhile isSpace).reverse.takeWhile isSpace).reverse, ?_, takeWhile_blank s, ?_, ?_, ?_⟩
  · unfold trimSpace
    rw [List.append_assoc, ← List.reverse_append, List.takeWhile_append_dropWhile, List.reverse_reverse]
    exact e1
  · intro c hc
    exact takeWhile_blank _ c (by simpa using hc)
  · intro c hc
    rw [isBlank_eq]
    refine dropWhile_head_not s c ?_
    have e2 : s.dropWhile isSpace = trimSpace s ++ ((s.dropWhile isSpace).reverse.takeWhile isSpace).reverse := by
      unfold trimSpace
      rw [← List.reverse_append, List.takeWhile_append_dropWhile, List.reverse_reverse]
    rw [e2]
    cases ht : trimSpace s with
    | nil => rw [ht] at hc; cases hc
    | cons x w => rw [ht] at hc; simpa using hc
  · intro c hc
    rw [isBlank_eq]
    unfold trimSpace at hc
    rw [List.getLast?_reverse] at hc
    exact dropWhile_head_not _ c hc

theorem splitComma_ne (s : List Char) : splitComma s ≠ [] := by
  cases s with
  | nil => simp [splitComma]
  | cons c s =>
    rw [splitComma]
    split
    · simp
    · split <;> simp

theorem splitComma_comma : ∀ s : List Char, ∀ w ∈ splitComma s, ',' ∉ w
  | [], w, h => by simp [splitComma] at h; simp [h]
  | c :: s, w, h => by
    have ih := splitComma_comma s
    rw [splitComma] at h
    split at h
    · rcases List.mem_cons.1 h with rfl | h
      · simp
      · exact ih w h
    · rename_i hc
      split at h
      · rename_i he
        exact absurd he (splitComma_ne s)
      · rename_i w' ws he
        rcases List.mem_cons.1 h with rfl | h
        · intro hm
          rcases List.mem_cons.1 hm with e | hm
          · exact hc e.symm
          · exact ih w' (by rw [he]; simp) hm
        · exact ih w (by rw [he]; simp [h])

theorem join_splitComma : ∀ s : List Char, joinComma (splitComma s) = s
  | [] => rfl
  | c :: s => by
    have ih := join_splitComma s
    rw [splitComma]
    split
    · rename_i hc
      subst hc
      have hne := splitComma_ne s
      cases hs : splitComma s with
      | nil => exact absurd hs hne
      | cons w ws => rw [hs] at ih; rw [joinComma, ih]; · rfl
                     · simp
    · split
      · rename_i he
        exact absurd he (splitComma_ne s)
      · rename_i w ws he
        rw [he] at ih
        rw [← ih]
        cases ws with
        | nil => rfl
        | cons w' ws => rfl

/-- Every tag has words. -/
theorem tagWords_exists (t : List Char) : TagWords t ((splitComma t).map trimSpace) := by
  refine ⟨(splitComma t).map (fun w => (w, trimSpace w)), ?_, ?_, ?_, ?_⟩
  · simp [splitComma_ne]
  · rw [List.map_map]
    have : (Prod.fst ∘ fun w : List Char => (w, trimSpace w)) = id := rfl
    rw [this, List.map_id, join_splitComma]
  · rw [List.map_map]; rfl
  · intro p hp
    obtain ⟨w, hw, rfl⟩ := List.mem_map.1 hp
    exact ⟨splitComma_comma t w hw, trimmed_exists w⟩

theorem tagWords_eq {t : List Char} {ws : List (List Char)} (h : TagWords t ws) : (splitComma t).map trimSpace = ws := by
  obtain ⟨ps, hne, rfl, rfl, hp⟩ := h
  rw [splitComma_join (by simpa using hne) (fun w hw => by
    obtain ⟨p, hpm, rfl⟩ := List.mem_map.1 hw
    exact (hp p hpm).1), List.map_map]
  apply List.map_congr_left
  intro p hpm
  exact trimSpace_eq (hp p hpm).2

/-- The loop body on a word without white space around it. -/
def wordStep (p : TagInfo) (s : List Char) : Res TagInfo :=
  if s = [] then .ok p
  else if s = "opt".toList then .ok p
  else if s = "req".toList then .ok { p with required := true }
  else if s = "rep".toList then .ok { p with repeated := true }
  else match tagTypeWord s with
  | some t => .ok { p with typ := some t }
  | none =>
    if s = "group".toList then .error .badType
    else if s = "packed".toList then .ok { p with packed := true }
    else if s.all isDigit then
      if digitsVal s < 2 ^ 32 then .ok { p with id := BitVec.ofNat 32 (digitsVal s) }
      else .error .badType
    else .ok p

theorem tagStep_eq (p : TagInfo) (s : List Char) : tagStep p s = wordStep p (trimSpace s) := rfl

theorem fold_trim (ws : List (List Char)) (p : TagInfo) : ws.foldlM tagStep p = (ws.map trimSpace).foldlM wordStep p := by
  induction ws generalizing p with
  | nil => rfl
  | cons w ws ih =>
    rw [List.map_cons, List.foldlM_cons, List.foldlM_cons, tagStep_eq]
    cases wordStep p (trimSpace w) with
    | error e => rfl
    | ok p' => exact ih p'

theorem decimal_of : ∀ (n : Nat) (w : List Char), w.length = n → w ≠ [] → w.all isDigit = true → IsDecimal w (digitsVal w)
  | 0, w, h, h1, _ => absurd (List.length_eq_zero_iff.1 h) h1
  | n + 1, w, h, h1, h2 => by
    obtain rfl | ⟨w', c, rfl⟩ := List.eq_nil_or_concat w
    · exact absurd rfl h1
    · rw [List.concat_eq_append] at *
      rw [List.all_append, Bool.and_eq_true] at h2
      obtain ⟨h2, h3⟩ := h2
      simp only [List.all_cons, List.all_nil, Bool.and_true] at h3
      have hc := (isDigit_iff c).1 h3
      have hd : c = digitChar (c.toNat - 48) := by
        unfold digitChar
        rw [show 48 + (c.toNat - 48) = c.toNat from by omega, Char.ofNat_toNat]
      have hv : digitsVal (w' ++ [c]) = 10 * digitsVal w' + (c.toNat - 48) := by
        unfold digitsVal
        rw [List.foldl_append]
        rfl
      rw [hv]
      by_cases hw : w' = []
      · subst hw
        have := IsDecimal.digit (c.toNat - 48) (by omega)
        rw [← hd] at this
        have e0 : digitsVal [] = 0 := rfl
        rw [e0, Nat.mul_zero, Nat.zero_add]
        exact this
      · have ih := decimal_of n w' (by simp at h; exact h) hw h2
        have := IsDecimal.snoc w' _ (c.toNat - 48) ih (by omega)
        rw [← hd] at this
        exact this

/-- What one word does. -/
structure WordEffect (p p' : TagInfo) (w : List Char) : Prop where
  typ : (∀ T, EncWord w T → p'.typ = some T) ∧ ((∀ T, ¬ EncWord w T) → p'.typ = p.typ)
  id : (∀ n, IsDecimal w n → p'.id = BitVec.ofNat 32 n) ∧ ((∀ n, ¬ IsDecimal w n) → p'.id = p.id)
  rep : p'.repeated = (p.repeated || decide (w = "rep".toList))
  packed : p'.packed = (p.packed || decide (w = "packed".toList))
  req : p'.required = (p.required || decide (w = "req".toList))

/-- The words that are refused. -/
def BadWord (w : List Char) : Prop := w = "group".toList ∨ ∃ n, IsDecimal w n ∧ 2 ^ 32 ≤ n

theorem encWord_of_word {w : List Char} {T : TagType} (h : tagTypeWord w = some T) : EncWord w T := by
  unfold tagTypeWord at h
  split at h
  · cases h; rename_i e; subst e; exact .varint
  split at h
  · cases h; rename_i e; subst e; exact .zigzag32
  split at h
  · cases h; rename_i e; subst e; exact .zigzag64
  split at h
  · cases h; rename_i e; subst e; exact .fixed32
  split at h
  · cases h; rename_i e; subst e; exact .fixed64
  split at h
  · cases h; rename_i e; subst e; exact .bytes
  · cases h

theorem no_decimal {w : List Char} (h : w.all isDigit = false ∨ w = []) : ∀ n, ¬ IsDecimal w n := fun _ => not_decimal h

theorem no_enc {w : List Char} (h : tagTypeWord w = none) : ∀ T, ¬ EncWord w T := by
  intro T hT; rw [hT.word] at h; cases h

theorem decimal_val {w : List Char} {n m : Nat} (h : IsDecimal w n) (h' : digitsVal w = m) : n = m := by
  rw [← (decimal_props h).2.2]; exact h'

theorem wordStep_ok (p p' : TagInfo) (w : List Char) :
    wordStep p w = .ok p' → ¬ BadWord w ∧ WordEffect p p' w := by
  intro h
  unfold wordStep at h
  split at h
  · rename_i e; subst e; cases h
    refine ⟨?_, ⟨(fun T h => by cases h), fun _ => rfl⟩, ⟨fun n h => absurd h (no_decimal (.inr rfl) n), fun _ => rfl⟩, by simp, by simp, by simp⟩
    rintro (h | ⟨n, h, _⟩)
    · cases h
    · exact no_decimal (.inr rfl) n h
  rename_i h0
  split at h
  · rename_i e; subst e; cases h
    refine ⟨?_, ⟨(fun T h => absurd h (no_enc rfl T)), fun _ => rfl⟩, ⟨fun n h => absurd h (no_decimal (.inl rfl) n), fun _ => rfl⟩, by simp, by simp, by simp⟩
    rintro (h | ⟨n, h, _⟩)
    · exact absurd h (by decide)
    · exact no_decimal (.inl rfl) n h
  rename_i h1
  split at h
  · rename_i e; subst e; cases h
    refine ⟨?_, ⟨(fun T h => absurd h (no_enc rfl T)), fun _ => rfl⟩, ⟨fun n h => absurd h (no_decimal (.inl rfl) n), fun _ => rfl⟩, by simp, by simp, by simp⟩
    rintro (h | ⟨n, h, _⟩)
    · exact absurd h (by decide)
    · exact no_decimal (.inl rfl) n h
  rename_i h2
  split at h
  · rename_i e; subst e; cases h
    refine ⟨?_, ⟨(fun T h => absurd h (no_enc rfl T)), fun _ => rfl⟩, ⟨fun n h => absurd h (no_decimal (.inl rfl) n), fun _ => rfl⟩, by simp, by simp, by simp⟩
    rintro (h | ⟨n, h, _⟩)
    · exact absurd h (by decide)
    · exact no_decimal (.inl rfl) n h
  rename_i h3
  split at h
  · rename_i T hT
    cases h
    have hE := encWord_of_word hT
    have hf := hE.facts
    refine ⟨?_, ⟨fun T' h => ?_, fun hn => absurd hE (hn T)⟩, ⟨fun n h => absurd h (no_decimal (.inl hf.1) n), fun _ => rfl⟩, ?_, ?_, ?_⟩
    · rintro (h | ⟨n, h, _⟩)
      · subst h; rw [show tagTypeWord "group".toList = none from rfl] at hT; cases hT
      · exact no_decimal (.inl hf.1) n h
    · have := h.word; rw [hT] at this; exact this
    · rw [decide_eq_false h3, Bool.or_false]
    · rw [decide_eq_false hf.2.2, Bool.or_false]
    · rw [decide_eq_false h2, Bool.or_false]
  rename_i hT
  have hne := no_enc hT
  split at h
  · cases h
  rename_i h4
  split at h
  · rename_i e; subst e; cases h
    refine ⟨?_, ⟨(fun T h => absurd h (hne T)), fun _ => rfl⟩, ⟨fun n h => absurd h (no_decimal (.inl rfl) n), fun _ => rfl⟩, by simp, by simp, by simp⟩
    rintro (h | ⟨n, h, _⟩)
    · exact h4 h
    · exact no_decimal (.inl rfl) n h
  rename_i h5
  split at h
  · rename_i hd
    split at h
    · rename_i hlt
      cases h
      have hD := decimal_of _ w rfl h0 hd
      refine ⟨?_, ⟨(fun T h => absurd h (hne T)), fun _ => rfl⟩, ⟨fun n h => ?_, fun hn => absurd hD (hn _)⟩, ?_, ?_, ?_⟩
      · rintro (h | ⟨n, h, hge⟩)
        · exact h4 h
        · rw [decimal_val h rfl] at hge; omega
      · rw [decimal_val h rfl]
      · rw [decide_eq_false h3, Bool.or_false]
      · rw [decide_eq_false h5, Bool.or_false]
      · rw [decide_eq_false h2, Bool.or_false]
    · cases h
  · rename_i hd
    cases h
    rw [Bool.not_eq_true] at hd
    refine ⟨?_, ⟨(fun T h => absurd h (hne T)), fun _ => rfl⟩, ⟨fun n h => absurd h (no_decimal (.inl hd) n), fun _ => rfl⟩, ?_, ?_, ?_⟩
    · rintro (h | ⟨n, h, _⟩)
      · exact h4 h
      · exact no_decimal (.inl hd) n h
    · rw [decide_eq_false h3, Bool.or_false]
    · rw [decide_eq_false h5, Bool.or_false]
    · rw [decide_eq_false h2, Bool.or_false]

theorem wordStep_total (p : TagInfo) (w : List Char) (h : ¬ BadWord w) : ∃ p', wordStep p w = .ok p' := by
  unfold wordStep
  split
  · exact ⟨_, rfl⟩
  rename_i h0
  split
  · exact ⟨_, rfl⟩
  split
  · exact ⟨_, rfl⟩
  split
  · exact ⟨_, rfl⟩
  split
  · exact ⟨_, rfl⟩
  split
  · rename_i e; exact absurd (.inl e) h
  split
  · exact ⟨_, rfl⟩
  split
  · rename_i hd
    split
    · exact ⟨_, rfl⟩
    · rename_i hlt
      exact absurd (.inr ⟨_, decimal_of _ w rfl h0 hd, by omega⟩) h
  · exact ⟨_, rfl⟩

/-- What several words do. -/
structure WordsEffect (p p' : TagInfo) (ws : List (List Char)) : Prop where
  typ : (∃ T, LastOf EncWord ws T ∧ p'.typ = some T) ∨ ((∀ w ∈ ws, ∀ T, ¬ EncWord w T) ∧ p'.typ = p.typ)
  id : (∃ n, LastOf IsDecimal ws n ∧ p'.id = BitVec.ofNat 32 n) ∨ ((∀ w ∈ ws, ∀ n, ¬ IsDecimal w n) ∧ p'.id = p.id)
  rep : p'.repeated = (p.repeated || decide ("rep".toList ∈ ws))
  packed : p'.packed = (p.packed || decide ("packed".toList ∈ ws))
  req : p'.required = (p.required || decide ("req".toList ∈ ws))

theorem lastOf_cons {R : List Char → α → Prop} {ws : List (List Char)} {a : α} (w : List Char) (h : LastOf R ws a) : LastOf R (w :: ws) a := by
  obtain ⟨b, x, c, rfl, h1, h2⟩ := h
  exact ⟨w :: b, x, c, rfl, h1, h2⟩

theorem flag_cons (b : Bool) (w k : List Char) (ws : List (List Char)) :
    ((b || decide (w = k)) || decide (k ∈ ws)) = (b || decide (k ∈ w :: ws)) := by
  by_cases h : w = k
  · subst h; simp
  · by_cases h' : k ∈ ws
    · simp [h']
    · simp [h, h', Ne.symm h]

theorem words_ok : ∀ (ws : List (List Char)) (p p' : TagInfo), ws.foldlM wordStep p = .ok p' →
    (∀ w ∈ ws, ¬ BadWord w) ∧ WordsEffect p p' ws
  | [], p, p', h => by cases h; exact ⟨by simp, .inr ⟨by simp, rfl⟩, .inr ⟨by simp, rfl⟩, by simp, by simp, by simp⟩
  | w :: ws, p, p', h => by
    rw [List.foldlM_cons] at h
    cases hs : wordStep p w with
    | error e => rw [hs] at h; cases h
    | ok p1 =>
      rw [hs] at h
      obtain ⟨hb, he⟩ := wordStep_ok p p1 w hs
      obtain ⟨hbs, hes⟩ := words_ok ws p1 p' h
      refine ⟨?_, ?_, ?_, ?_, ?_, ?_⟩
      · intro x hx
        rcases List.mem_cons.1 hx with rfl | hx
        · exact hb
        · exact hbs x hx
      · rcases hes.typ with ⟨T, h1, h2⟩ | ⟨h1, h2⟩
        · exact .inl ⟨T, lastOf_cons w h1, h2⟩
        · by_cases hw : ∃ T, EncWord w T
          · obtain ⟨T, hT⟩ := hw
            exact .inl ⟨T, ⟨[], w, ws, rfl, hT, h1⟩, by rw [h2, he.typ.1 T hT]⟩
          · have hw' : ∀ T, ¬ EncWord w T := fun T hT => hw ⟨T, hT⟩
            refine .inr ⟨?_, by rw [h2, he.typ.2 hw']⟩
            intro x hx
            rcases List.mem_cons.1 hx with rfl | hx
            · exact hw'
            · exact h1 x hx
      · rcases hes.id with ⟨n, h1, h2⟩ | ⟨h1, h2⟩
        · exact .inl ⟨n, lastOf_cons w h1, h2⟩
        · by_cases hw : ∃ n, IsDecimal w n
          · obtain ⟨n, hn⟩ := hw
            exact .inl ⟨n, ⟨[], w, ws, rfl, hn, h1⟩, by rw [h2, he.id.1 n hn]⟩
          · have hw' : ∀ n, ¬ IsDecimal w n := fun n hn => hw ⟨n, hn⟩
            refine .inr ⟨?_, by rw [h2, he.id.2 hw']⟩
            intro x hx
            rcases List.mem_cons.1 hx with rfl | hx
            · exact hw'
            · exact h1 x hx
      · rw [hes.rep, he.rep, flag_cons]
      · rw [hes.packed, he.packed, flag_cons]
      · rw [hes.req, he.req, flag_cons]

theorem words_total : ∀ (ws : List (List Char)) (p : TagInfo), (∀ w ∈ ws, ¬ BadWord w) → ∃ p', ws.foldlM wordStep p = .ok p'
  | [], p, _ => ⟨p, rfl⟩
  | w :: ws, p, h => by
    obtain ⟨p1, h1⟩ := wordStep_total p w (h w (by simp))
    obtain ⟨p2, h2⟩ := words_total ws p1 (fun x hx => h x (by simp [hx]))
    exact ⟨p2, by rw [List.foldlM_cons, h1]; exact h2⟩

theorem lastOf_unique {R : List Char → α → Prop} (hR : ∀ w a b, R w a → R w b → a = b) {ws : List (List Char)} {a b : α}
    (h : LastOf R ws a) (h' : LastOf R ws b) : a = b := by
  obtain ⟨x1, w1, y1, e1, r1, n1⟩ := h
  obtain ⟨x2, w2, y2, e2, r2, n2⟩ := h'
  rw [e1] at e2
  rcases List.append_eq_append_iff.1 e2 with ⟨m, h1, h2⟩ | ⟨m, h1, h2⟩
  · cases m with
    | nil => simp at h2; rw [h2.1] at r1; exact hR _ _ _ r1 r2
    | cons z m =>
      simp only [List.cons_append, List.cons.injEq] at h2
      exact absurd r2 (n1 w2 (by rw [h2.2]; simp) b)
  · cases m with
    | nil => simp at h2; rw [← h2.1] at r1; exact hR _ _ _ r1 r2
    | cons z m =>
      simp only [List.cons_append, List.cons.injEq] at h2
      exact absurd r1 (n2 w1 (by rw [h2.2]; simp) a)

theorem lastOf_not {R : List Char → α → Prop} {ws : List (List Char)} {a : α} (h : LastOf R ws a) (h' : ∀ w ∈ ws, ∀ b, ¬ R w b) : False := by
  obtain ⟨x, w, y, rfl, h1, _⟩ := h
  exact h' w (by simp) a h1

/-- What a word means for the keys and values of maps: an encoding, or (`none`) that the tag is refused. -/
def KVWord (w : List Char) (o : Option TagType) : Prop := (∃ T, o = some T ∧ EncWord w T) ∨ (o = none ∧ w = "group".toList)

theorem kvWords_iff : ∀ (ws : List (List Char)) (T : TagType),
    parseKVWords ws = .ok T ↔ FirstOf KVWord (ws.map trimSpace) (some T)
  | [], T => by
    constructor
    · intro h; cases h
    · rintro ⟨a, w, b, e, _⟩; simp at e
  | w :: ws, T => by
    have ih := kvWords_iff ws T
    rw [parseKVWords, List.map_cons]
    cases hw : tagTypeWord (trimSpace w) with
    | some T' =>
      have hE := encWord_of_word hw
      constructor
      · intro h; cases h
        exact ⟨[], _, _, rfl, .inl ⟨T, rfl, hE⟩, by simp⟩
      · rintro ⟨a, x, b, e, hx, hn⟩
        cases a with
        | nil =>
          simp only [List.nil_append, List.cons.injEq] at e
          rcases hx with ⟨T1, e1, h1⟩ | ⟨e1, _⟩
          · cases e1
            rw [← e.1] at h1
            have := h1.word
            rw [hw] at this; cases this; rfl
          · cases e1
        | cons y a =>
          simp only [List.cons_append, List.cons.injEq] at e
          exact absurd (.inl ⟨T', rfl, e.1 ▸ hE⟩) (hn y (by simp) (some T'))
    | none =>
      dsimp only
      split
      · rename_i hg
        constructor
        · intro h; cases h
        · rintro ⟨a, x, b, e, hx, hn⟩
          cases a with
          | nil =>
            simp only [List.nil_append, List.cons.injEq] at e
            rcases hx with ⟨T1, e1, h1⟩ | ⟨e1, _⟩
            · rw [← e.1] at h1
              exact absurd h1 (no_enc hw T1)
            · cases e1
          | cons y a =>
            simp only [List.cons_append, List.cons.injEq] at e
            exact absurd (.inr ⟨rfl, e.1 ▸ hg⟩) (hn y (by simp) none)
      · rename_i hg
        have hno : ∀ o, ¬ KVWord (trimSpace w) o := by
          rintro o (⟨T1, _, h1⟩ | ⟨_, h1⟩)
          · exact no_enc hw T1 h1
          · exact hg h1
        rw [ih]
        constructor
        · rintro ⟨a, x, b, e, hx, hn⟩
          refine ⟨trimSpace w :: a, x, b, by rw [e]; rfl, hx, ?_⟩
          intro y hy
          rcases List.mem_cons.1 hy with rfl | hy
          · exact hno
          · exact hn y hy
        · rintro ⟨a, x, b, e, hx, hn⟩
          cases a with
          | nil =>
            simp only [List.nil_append, List.cons.injEq] at e
            exact absurd (e.1 ▸ hx) (hno _)
          | cons y a =>
            simp only [List.cons_append, List.cons.injEq] at e
            exact ⟨a, x, b, e.2, hx, fun z hz => hn z (by simp [hz])⟩

end Verif.Lemmas
