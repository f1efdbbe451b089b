import Verif.Lemmas.Gen.Lexer
import Verif.Spec.Gen.ProtoGrammar
/-! Helper lemmas: the parser. -/
namespace Verif.Lemmas.Gen
open Verif.Model.Gen Verif.Spec.Gen

/-! ## Types of tokens -/

theorem isNameTok_iff (s : Str) : isNameTok s = true ↔ NameTok s := by
  cases s with
  | nil =>
    constructor
    · intro h; cases h
    · rintro ⟨⟨c, r, e, _⟩, _⟩; cases e
  | cons c r =>
    simp only [isNameTok, NameTok, Bool.and_eq_true, Bool.not_eq_true', Bool.or_eq_false_iff, beq_eq_false_iff_ne, List.all_eq_true]
    constructor
    · rintro ⟨⟨h1, h2⟩, ⟨h3, h4⟩, h5⟩
      refine ⟨⟨c, r, rfl, ?_, ?_⟩, h3, h4, h5⟩
      · rw [digit_num]; rw [isLetter_num] at h1; omega
      · intro x hx
        rcases List.mem_cons.1 hx with rfl | hx
        · rw [identChar_num]; rw [isLetter_num] at h1; omega
        · exact (word_ident x).1 (h2 x hx)
    · rintro ⟨h, h3, h4, h5⟩
      obtain ⟨h1, h2⟩ := protoIdent_head h
      exact ⟨⟨h1, fun x hx => h2 x (by simp [hx])⟩, ⟨h3, h4⟩, h5⟩

theorem intLit_int {c : Char} {s : Str} {v : Nat} (h : IntLit (c :: s) v) : intLit c s = c :: s := by
  generalize e : c :: s = t at h
  cases h with
  | decimal c' s' v' hne hd =>
    cases e
    have hall := digits_dec (by omega) hd
    have := takeWhile_app (p := isDecChar) (w := s) (r := []) (fun x hx => hall x (by simp [hx])) (notHead_nil _)
    rw [List.append_nil] at this
    rw [intLit, if_neg hne, this]
  | octal s' v' hd =>
    cases e
    have hoct := digits_oct hd
    have := takeWhile_app (p := isOctChar) (w := s) (r := []) hoct (notHead_nil _)
    rw [List.append_nil] at this
    rw [intLit, if_pos rfl]
    cases s with
    | nil => rfl
    | cons x s =>
      rw [zeroLit, if_neg, this]
      rintro ⟨hx, _⟩
      have := (isOctChar_num x).1 (hoct x (by simp))
      rw [charEq, charEq] at hx
      simp only [Char.reduceToNat] at hx
      omega
  | hex x s' v' hx hne hd =>
    cases e
    have := takeWhile_app (p := isHexChar) (w := s') (r := []) (digits_hex hd) (notHead_nil _)
    rw [List.append_nil] at this
    rw [intLit, if_pos rfl, zeroLit, if_pos ⟨hx, by rw [this]; exact hne⟩, this]

theorem isIntTok_iff (s : Str) : isIntTok s = true ↔ IntTok s := by
  cases s with
  | nil =>
    constructor
    · intro h; cases h
    · rintro ⟨v, h⟩; cases h
  | cons c r =>
    simp only [isIntTok, IntTok, Bool.and_eq_true, beq_iff_eq]
    constructor
    · rintro ⟨h1, h2⟩
      have := (intLit_sound (s := r) h1).1
      rwa [h2] at this
    · rintro ⟨v, h⟩
      exact ⟨(numberLit_int h ⟨notHead_nil _, by simp⟩).1, intLit_int h⟩

theorem afterNumber_nil : AfterNumber [] := ⟨notHead_nil _, by simp⟩

theorem isNumTok_iff (s : Str) : isNumTok s = true ↔ IntTok s ∨ FloatTok s := by
  cases s with
  | nil =>
    constructor
    · intro h; cases h
    · rintro (⟨v, h⟩ | h | h | h)
      · cases h
      · generalize e : ([] : Str) = t at h
        cases h with
        | point ds fs ex => exact absurd e.symm (by simp)
        | exp ds ex hd _ => exact absurd e.symm (by simp [hd.1])
        | dot fs ex => cases e
      · cases h
      · cases h
  | cons c r =>
    simp only [isNumTok, Bool.or_eq_true, Bool.and_eq_true, beq_iff_eq, bne_iff_ne]
    constructor
    · rintro (((⟨h1, h2⟩ | ⟨⟨h1, h2⟩, h3⟩) | h) | h)
      · rcases (numberLit_sound (s := r) h1).1 with h | h
        · rw [h2] at h; exact .inl h
        · rw [h2] at h; exact .inr (.inl h)
      · rcases (dotLit_sound r).1 with h | h
        · rw [h2] at h; exact absurd (List.cons.inj h).2 h3
        · rw [h2] at h; exact .inr (.inl h)
      · exact .inr (.inr (.inl h))
      · exact .inr (.inr (.inr h))
    · rintro (⟨v, h⟩ | h | h | h)
      · have := numberLit_int h afterNumber_nil
        rw [List.append_nil] at this
        exact .inl (.inl (.inl this))
      · generalize e : c :: r = t at h
        cases h with
        | point ds fs ex hd hf he =>
          obtain ⟨c', s', e', h1, h2⟩ := numberLit_point hd hf he afterNumber_nil
          rw [e'] at e; cases e
          rw [List.append_nil] at h2
          rw [e']
          exact .inl (.inl (.inl ⟨h1, h2⟩))
        | exp ds ex hd he =>
          obtain ⟨c', s', e', h1, h2⟩ := numberLit_exp hd he afterNumber_nil
          rw [e'] at e; cases e
          rw [List.append_nil] at h2
          rw [e']
          exact .inl (.inl (.inl ⟨h1, h2⟩))
        | dot fs ex hf he =>
          cases e
          have := dotLit_some hf he afterNumber_nil
          rw [List.append_nil] at this
          exact .inl (.inl (.inr ⟨⟨rfl, this⟩, by simp [hf.1]⟩))
      · exact .inl (.inr h)
      · exact .inr h

theorem isStrTok_iff (s : Str) : isStrTok s = true ↔ StrTok s := by
  cases s with
  | nil =>
    constructor
    · intro h; cases h
    · rintro ⟨q, r, e, _⟩; cases e
  | cons q r =>
    simp only [isStrTok, StrTok, Bool.and_eq_true, Bool.or_eq_true, beq_iff_eq]
    constructor
    · rintro ⟨h1, h2⟩
      split at h2
      · rename_i a hs
        obtain ⟨h3, h4⟩ := strScan_sound r .body a [] trivial hs
        rw [List.append_nil] at h4
        subst h4
        exact ⟨q, a, rfl, h1, h3⟩
      · cases h2
    · rintro ⟨q', r', e, h1, h2⟩
      cases e
      have := strScan_body h1 h2 []
      rw [List.append_nil] at this
      rw [this]
      exact ⟨h1, rfl⟩

/-! ## Rules -/

/-- What a rule reads is what `sp` writes, and `wf`. -/
def Sound {α : Type} (p : Rule α) (sp : α → List Str) (wf : α → Prop) : Prop := ∀ ts x r, p ts = some (x, r) → ts = sp x ++ r ∧ wf x

/-- What `sp` writes is read again, whatever follows. -/
def Complete {α : Type} (p : Rule α) (sp : α → List Str) (ok : α → Prop) (fol : List Str → Prop) : Prop :=
  ∀ x r, ok x → fol r → p (sp x ++ r) = some (x, r)

@[simp] theorem eat_iff {k : Str} {ts r : List Str} : eat k ts = some r ↔ ts = k :: r := by
  cases ts with
  | nil => simp [eat]
  | cons t ts =>
    rw [eat]
    split
    · rename_i h; subst h; simp
    · rename_i h; simp [h]

theorem eat_self (k : Str) (r : List Str) : eat k (k :: r) = some r := eat_iff.2 rfl

theorem eat_ne {k t : Str} (r : List Str) (h : t ≠ k) : eat k (t :: r) = none := by rw [eat, if_neg h]

@[simp] theorem takeIf_iff {p : Str → Bool} {ts r : List Str} {t : Str} : takeIf p ts = some (t, r) ↔ ts = t :: r ∧ p t = true := by
  cases ts with
  | nil => simp [takeIf]
  | cons t' ts =>
    rw [takeIf]
    split
    · rename_i h
      constructor
      · intro e; cases e; exact ⟨rfl, h⟩
      · rintro ⟨e, _⟩; cases e; rfl
    · rename_i h
      constructor
      · intro e; cases e
      · rintro ⟨e, h'⟩; cases e; exact absurd h' h

theorem takeIf_self {p : Str → Bool} {t : Str} (r : List Str) (h : p t = true) : takeIf p (t :: r) = some (t, r) := takeIf_iff.2 ⟨rfl, h⟩

theorem Sound.as {α β : Type} {p : Rule α} {sp : α → List Str} {wf : α → Prop} {f : α → β} {sp' : β → List Str} {wf' : β → Prop} (h : Sound p sp wf)
    (h1 : ∀ x, sp' (f x) = sp x) (h2 : ∀ x, wf x → wf' (f x)) : Sound (p.as f) sp' wf' := by
  intro ts y r e
  rw [Rule.as] at e
  split at e
  · cases e
  · rename_i x r' he
    cases e
    obtain ⟨h3, h4⟩ := h ts x r he
    exact ⟨by rw [h1]; exact h3, h2 x h4⟩

theorem Sound.orElse {α : Type} {p q : Rule α} {sp : α → List Str} {wf : α → Prop} (h : Sound p sp wf) (h' : Sound q sp wf) : Sound (p.orElse q) sp wf := by
  intro ts y r e
  rw [Rule.orElse] at e
  split at e
  · rename_i x he
    cases e
    exact h ts y r he
  · exact h' ts y r e

theorem as_some {α β : Type} {p : Rule α} {f : α → β} {ts r : List Str} {x : α} (h : p ts = some (x, r)) : (p.as f) ts = some (f x, r) := by
  rw [Rule.as, h]
theorem as_none {α β : Type} {p : Rule α} {f : α → β} {ts : List Str} (h : p ts = none) : (p.as f) ts = none := by
  rw [Rule.as, h]
theorem orElse_left {α : Type} {p q : Rule α} {ts : List Str} {y : α × List Str} (h : p ts = some y) : (p.orElse q) ts = some y := by
  rw [Rule.orElse, h]
theorem orElse_right {α : Type} {p q : Rule α} {ts : List Str} (h : p ts = none) : (p.orElse q) ts = q ts := by
  rw [Rule.orElse, h]

theorem commaSep_cons {α : Type} (f : α → List Str) (x : α) (xs : List α) (h : xs ≠ []) : commaSep f (x :: xs) = f x ++ ",".toList :: commaSep f xs := by
  cases xs with
  | nil => exact absurd rfl h
  | cons y ys => rfl

theorem sepBy_sound {α : Type} {p : Rule α} {sp : α → List Str} {wf : α → Prop} (h : Sound p sp wf) :
    ∀ n, Sound (sepBy p n) (commaSep sp) (fun xs => xs ≠ [] ∧ ∀ x ∈ xs, wf x)
  | 0, ts, xs, r, e => by cases e
  | n + 1, ts, xs, r, e => by
    rw [sepBy] at e
    split at e
    · cases e
    · rename_i x r1 hx
      obtain ⟨h1, h2⟩ := h ts x r1 hx
      split at e
      · cases e
        exact ⟨h1, by simp, by simpa using h2⟩
      · rename_i r2 hr
        rw [eat_iff] at hr
        split at e
        · cases e
        · rename_i ys r3 hy
          cases e
          obtain ⟨h3, h4, h5⟩ := sepBy_sound h n r2 ys r hy
          refine ⟨?_, by simp, ?_⟩
          · rw [commaSep_cons _ _ _ h4, h1, hr, h3]; simp
          · intro z hz
            rcases List.mem_cons.1 hz with rfl | hz
            · exact h2
            · exact h5 z hz

theorem sepBy_complete {α : Type} {p : Rule α} {sp : α → List Str} {ok : α → Prop} {fol : List Str → Prop} (h : Complete p sp ok fol)
    (hf : ∀ r, fol (",".toList :: r)) : ∀ n xs r, xs ≠ [] → (∀ x ∈ xs, ok x) → fol r → r.head? ≠ some ",".toList → xs.length ≤ n →
    sepBy p n (commaSep sp xs ++ r) = some (xs, r)
  | n, [], r, hne, _, _, _, _ => absurd rfl hne
  | 0, _ :: _, r, _, _, _, _, hn => by simp at hn
  | n + 1, [x], r, _, hx, hr, hc, _ => by
    rw [sepBy]
    have := h x r (hx x (by simp)) hr
    simp only [commaSep, this]
    cases r with
    | nil => rfl
    | cons t r =>
      rw [eat_ne r (by simpa using hc)]
  | n + 1, x :: y :: xs, r, _, hx, hr, hc, hn => by
    rw [sepBy, commaSep_cons _ _ _ (by simp), List.append_assoc, List.cons_append, h x _ (hx x (by simp)) (hf _)]
    dsimp only
    rw [eat_self]
    dsimp only
    rw [sepBy_complete h hf n (y :: xs) r (by simp) (fun z hz => hx z (by simp [hz])) hr hc (by simp at hn ⊢; omega)]

theorem manyUntil_sound {α : Type} {p : Rule α} {sp : α → List Str} {wf : α → Prop} (h : Sound p sp wf) :
    ∀ n, Sound (manyUntil p n) (fun xs => xs.flatMap sp ++ ["}".toList]) (fun xs => ∀ x ∈ xs, wf x)
  | 0, ts, xs, r, e => by cases e
  | n + 1, ts, xs, r, e => by
    rw [manyUntil] at e
    split at e
    · rename_i r' hr
      cases e
      rw [eat_iff] at hr
      exact ⟨by rw [hr]; rfl, by simp⟩
    · split at e
      · cases e
      · rename_i x r1 hx
        obtain ⟨h1, h2⟩ := h ts x r1 hx
        split at e
        · cases e
        · rename_i ys r3 hy
          cases e
          obtain ⟨h3, h4⟩ := manyUntil_sound h n r1 ys r hy
          refine ⟨?_, ?_⟩
          · rw [h1, h3]; simp
          · intro z hz
            rcases List.mem_cons.1 hz with rfl | hz
            · exact h2
            · exact h4 z hz

/-- The first token of what `sp` writes is not a closing brace. -/
def Opens {α : Type} (sp : α → List Str) (x : α) : Prop := ∃ t r, sp x = t :: r ∧ t ≠ "}".toList

theorem manyUntil_complete {α : Type} {p : Rule α} {sp : α → List Str} : ∀ (n : Nat) (xs : List α) (r : List Str),
    (∀ x ∈ xs, Opens sp x ∧ ∀ r', p (sp x ++ r') = some (x, r')) → xs.length < n →
    manyUntil p n (xs.flatMap sp ++ ("}".toList :: r)) = some (xs, r)
  | 0, _, _, _, hn => by simp at hn
  | n + 1, [], r, _, _ => by rw [manyUntil, List.flatMap_nil, List.nil_append, eat_self]
  | n + 1, x :: xs, r, h, hn => by
    obtain ⟨⟨t, s, hs, ht⟩, hp⟩ := h x (by simp)
    rw [manyUntil, List.flatMap_cons, List.append_assoc]
    have : eat "}".toList (sp x ++ (xs.flatMap sp ++ ("}".toList :: r))) = none := by rw [hs, List.cons_append]; exact eat_ne _ ht
    rw [this]
    dsimp only
    rw [hp]
    dsimp only
    rw [manyUntil_complete n xs r (fun y hy => h y (by simp [hy])) (by simp at hn; omega)]

theorem manyToEnd_sound {α : Type} {p : Rule α} {sp : α → List Str} {wf : α → Prop} (h : Sound p sp wf) :
    ∀ n ts xs, manyToEnd p n ts = some xs → ts = xs.flatMap sp ∧ ∀ x ∈ xs, wf x
  | 0, [], xs, e => by cases e; simp
  | n + 1, [], xs, e => by cases e; simp
  | 0, _ :: _, xs, e => by cases e
  | n + 1, t :: ts, xs, e => by
    rw [manyToEnd] at e
    split at e
    · cases e
    · rename_i x r1 hx
      obtain ⟨h1, h2⟩ := h _ x r1 hx
      split at e
      · cases e
      · rename_i ys hy
        cases e
        obtain ⟨h3, h4⟩ := manyToEnd_sound h n r1 ys hy
        refine ⟨?_, ?_⟩
        · rw [h1, h3]; simp
        · intro z hz
          rcases List.mem_cons.1 hz with rfl | hz
          · exact h2
          · exact h4 z hz

theorem manyToEnd_complete {α : Type} {p : Rule α} {sp : α → List Str} : ∀ (n : Nat) (xs : List α),
    (∀ x ∈ xs, sp x ≠ [] ∧ ∀ r', p (sp x ++ r') = some (x, r')) → xs.length ≤ n → manyToEnd p n (xs.flatMap sp) = some xs
  | n, [], _, _ => by cases n <;> rfl
  | 0, _ :: _, _, hn => by simp at hn
  | n + 1, x :: xs, h, hn => by
    obtain ⟨hne, hp⟩ := h x (by simp)
    rw [List.flatMap_cons]
    match hs : sp x with
    | [] => exact absurd hs hne
    | t :: s =>
      rw [List.cons_append, manyToEnd, ← List.cons_append, ← hs, hp]
      dsimp only
      rw [manyToEnd_complete n xs (fun y hy => h y (by simp [hy])) (by simp at hn; omega)]

/-! ## Names and types -/

theorem takeTail_eq : ∀ ts, (takeTail ts).1 ++ (takeTail ts).2 = ts
  | [] => rfl
  | [_] => rfl
  | d :: t :: ts => by
    rw [takeTail]
    split
    · simp [takeTail_eq ts]
    · rfl

theorem takeTail_path : ∀ (ts : List Str) (n : Str), NameTok n → PathToks (n :: (takeTail ts).1)
  | [], n, h => .one n h
  | [_], n, h => .one n h
  | d :: t :: ts, n, h => by
    rw [takeTail]
    split
    · rename_i hd
      simp only [Bool.and_eq_true, decide_eq_true_eq] at hd
      obtain ⟨rfl, ht⟩ := hd
      exact .dot n _ h (takeTail_path ts t ((isNameTok_iff t).1 ht))
    · exact .one n h

theorem takePath_sound : Sound takePath id PathToks := by
  intro ts p r e
  cases ts with
  | nil => cases e
  | cons t ts =>
    rw [takePath] at e
    split at e
    · rename_i ht
      cases e
      exact ⟨by show t :: ts = t :: ((takeTail ts).1 ++ (takeTail ts).2); rw [takeTail_eq], takeTail_path ts t ((isNameTok_iff t).1 ht)⟩
    · cases e

theorem takeTail_none {r : List Str} (h : r.head? ≠ some ".".toList) : takeTail r = ([], r) := by
  match r with
  | [] => rfl
  | [_] => rfl
  | d :: t :: ts =>
    rw [takeTail, if_neg]
    simp only [Bool.and_eq_true, decide_eq_true_eq]
    rintro ⟨rfl, _⟩
    exact h rfl

theorem takeTail_some {n : Str} {p r : List Str} (h : PathToks (n :: p)) (hr : r.head? ≠ some ".".toList) : takeTail (p ++ r) = (p, r) := by
  generalize e : n :: p = q at h
  induction h generalizing n p with
  | one n' _ => cases e; exact takeTail_none hr
  | dot n' q' _ hq ih =>
    cases e
    cases q' with
    | nil => cases hq
    | cons m q'' =>
      have hm : NameTok m := by cases hq <;> assumption
      rw [List.cons_append, List.cons_append, takeTail, if_pos (by simp [(isNameTok_iff m).2 hm]), ih rfl]

theorem takePath_complete : Complete takePath id PathToks (fun r => r.head? ≠ some ".".toList) := by
  intro p r hp hr
  cases p with
  | nil => cases hp
  | cons n p =>
    have hn : NameTok n := by cases hp <;> assumption
    show takePath (n :: (p ++ r)) = _
    rw [takePath, if_pos ((isNameTok_iff n).2 hn), takeTail_some hp hr]

theorem path_head {p : List Str} (h : PathToks p) : ∃ n q, p = n :: q ∧ NameTok n := by
  cases h with
  | one n hn => exact ⟨n, [], rfl, hn⟩
  | dot n q hn _ => exact ⟨n, _, rfl, hn⟩

theorem name_ne {n : Str} (h : NameTok n) {c : Char} (hc : isLetter c = false) (s : Str) : n ≠ c :: s := by
  rintro rfl
  have := (protoIdent_head h.1).1
  rw [hc] at this; cases this

theorem takeType_sound : Sound takeType id TypeToks := by
  intro ts p r e
  rw [takeType] at e
  split at e
  · rename_i r1 h1
    rw [eat_iff] at h1
    split at e
    · cases e
    · rename_i q r2 h2
      cases e
      obtain ⟨h3, h4⟩ := takePath_sound _ _ _ h2
      exact ⟨by rw [h1, h3]; rfl, .rooted q h4⟩
  · obtain ⟨h3, h4⟩ := takePath_sound _ _ _ e
    exact ⟨h3, .plain p h4⟩

theorem takeType_complete : Complete takeType id TypeToks (fun r => r.head? ≠ some ".".toList) := by
  intro p r hp hr
  show takeType (p ++ r) = _
  cases hp with
  | plain _ hp =>
    obtain ⟨n, q, rfl, hn⟩ := path_head hp
    have : eat ".".toList (n :: q ++ r) = none := eat_ne _ (name_ne hn rfl [])
    rw [takeType, this]
    exact takePath_complete _ r hp hr
  | rooted q hp =>
    have : takePath (q ++ r) = some (q, r) := takePath_complete _ r hp hr
    rw [takeType, List.cons_append, eat_self]
    dsimp only
    rw [this]

theorem takeOptName_sound : Sound takeOptName id OptNameToks := by
  intro ts p r e
  rw [takeOptName] at e
  split at e
  · obtain ⟨h3, h4⟩ := takePath_sound _ _ _ e
    exact ⟨h3, .plain p h4⟩
  · rename_i r1 h1
    rw [eat_iff] at h1
    split at e
    · cases e
    · rename_i q r2 h2
      obtain ⟨h3, h4⟩ := takePath_sound _ _ _ h2
      split at e
      · cases e
      · rename_i r3 h5
        rw [eat_iff] at h5
        rw [takeOptSuffix] at e
        split at e
        · cases e
          exact ⟨by rw [h1, h3, h5]; simp, .ext q h4⟩
        · rename_i r4 h6
          rw [eat_iff] at h6
          split at e
          · cases e
          · rename_i q' r5 h7
            cases e
            obtain ⟨h8, h9⟩ := takePath_sound _ _ _ h7
            exact ⟨by rw [h1, h3, h5, h6, h8]; simp, .extDot q q' h4 h9⟩

theorem takeOptName_complete : Complete takeOptName id OptNameToks (fun r => r.head? ≠ some ".".toList) := by
  intro p r hp hr
  show takeOptName (p ++ r) = _
  cases hp with
  | plain _ hp =>
    obtain ⟨n, q, rfl, hn⟩ := path_head hp
    have : eat "(".toList (n :: q ++ r) = none := eat_ne _ (name_ne hn rfl [])
    rw [takeOptName, this]
    exact takePath_complete _ r hp hr
  | ext q hq =>
    have h1 : takePath (q ++ (")".toList :: r)) = some (q, ")".toList :: r) := takePath_complete _ _ hq (by simp)
    have h2 : eat ".".toList r = none := by
      cases r with
      | nil => rfl
      | cons t r => exact eat_ne _ (by simpa using hr)
    rw [takeOptName, List.cons_append, eat_self]
    dsimp only
    rw [List.append_assoc, List.singleton_append, h1]
    dsimp only
    rw [eat_self]
    dsimp only
    rw [takeOptSuffix, h2]
  | extDot q q' hq hq' =>
    have h1 : takePath (q ++ (")".toList :: ".".toList :: (q' ++ r))) = some (q, ")".toList :: ".".toList :: (q' ++ r)) := takePath_complete _ _ hq (by simp)
    have h2 : takePath (q' ++ r) = some (q', r) := takePath_complete _ _ hq' hr
    rw [takeOptName, List.cons_append, eat_self]
    dsimp only
    rw [List.append_assoc, List.cons_append, List.cons_append, h1]
    dsimp only
    rw [eat_self]
    dsimp only
    rw [takeOptSuffix, eat_self]
    dsimp only
    rw [h2]

/-! ## Constants -/

theorem name_notStr {n : Str} (h : NameTok n) : isStrTok n = false := by
  rw [← Bool.not_eq_true, isStrTok_iff]
  rintro ⟨q, r, rfl, hq, _⟩
  rcases hq with rfl | rfl
  · exact name_ne h (c := '"') rfl r rfl
  · exact name_ne h (c := '\'') rfl r rfl

theorem num_cases {s : Str} (h : isNumTok s = true) : (∃ c r, s = c :: r ∧ (isDecChar c = true ∨ c = '.' ∧ r ≠ [])) ∨ s = "inf".toList ∨ s = "nan".toList := by
  cases s with
  | nil => cases h
  | cons c r =>
    simp only [isNumTok, Bool.or_eq_true, Bool.and_eq_true, beq_iff_eq, bne_iff_ne] at h
    rcases h with (((h | h) | h) | h)
    · exact .inl ⟨c, r, rfl, .inl h.1⟩
    · exact .inl ⟨c, r, rfl, .inr ⟨h.1.1, h.2⟩⟩
    · exact .inr (.inl h)
    · exact .inr (.inr h)

theorem num_notName {s : Str} (h : isNumTok s = true) : isNameTok s = false := by
  rw [← Bool.not_eq_true, isNameTok_iff]
  intro hn
  rcases num_cases h with ⟨c, r, rfl, hc⟩ | rfl | rfl
  · refine name_ne hn ?_ r rfl
    rcases hc with hc | ⟨rfl, _⟩
    · rw [← Bool.not_eq_true, isLetter_num]; rw [isDecChar_num] at hc; omega
    · rfl
  · exact hn.2.2.1 rfl
  · exact hn.2.2.2 rfl

theorem str_notName {s : Str} (h : isStrTok s = true) : isNameTok s = false := by
  rw [← Bool.not_eq_true, isNameTok_iff]
  intro hn
  rw [name_notStr hn] at h; cases h

theorem str_notNum {s : Str} (h : isStrTok s = true) : isNumTok s = false := by
  rw [← Bool.not_eq_true]
  intro hn
  rw [isStrTok_iff] at h
  obtain ⟨q, r, rfl, hq, _⟩ := h
  rcases num_cases hn with ⟨c, r', e, hc⟩ | e | e
  · cases e
    rcases hc with hc | ⟨rfl, _⟩
    · rcases hq with rfl | rfl <;> cases hc
    · rcases hq with hq | hq <;> cases hq
  · rcases hq with rfl | rfl <;> cases e
  · rcases hq with rfl | rfl <;> cases e

theorem str_ne {s : Str} (h : isStrTok s = true) {c : Char} (h1 : c ≠ '"') (h2 : c ≠ '\'') (r : Str) : s ≠ c :: r := by
  rintro rfl
  rw [isStrTok_iff] at h
  obtain ⟨q, r', e, hq, _⟩ := h
  cases e
  rcases hq with hq | hq
  · exact h1 hq
  · exact h2 hq

theorem takeWhile_strs {ss r : List Str} (hs : ∀ s ∈ ss, isStrTok s = true) (hr : ∀ t ∈ r.head?, isStrTok t = false) :
    (ss ++ r).takeWhile isStrTok = ss ∧ (ss ++ r).dropWhile isStrTok = r := by
  induction ss with
  | nil =>
    cases r with
    | nil => exact ⟨rfl, rfl⟩
    | cons t r =>
      have := hr t (by simp)
      simp [this]
  | cons s ss ih =>
    have h1 := hs s (by simp)
    have h2 := ih (fun x hx => hs x (by simp [hx]))
    simp [h1, h2]

theorem takeWhile_strs_all (ts : List Str) : ∀ s ∈ ts.takeWhile isStrTok, isStrTok s = true := by
  induction ts with
  | nil => simp
  | cons t ts ih =>
    rw [List.takeWhile_cons]
    split
    · intro s hs
      rcases List.mem_cons.1 hs with rfl | hs
      · assumption
      · exact ih s hs
    · simp

theorem takeStrs_sound : Sound takeStrs id StrLitToks := by
  intro ts p r e
  cases ts with
  | nil => cases e
  | cons t ts =>
    rw [takeStrs] at e
    split at e
    · rename_i ht
      cases e
      refine ⟨by show t :: ts = t :: (_ ++ _); rw [List.takeWhile_append_dropWhile], by simp, fun s hs => ?_⟩
      rcases List.mem_cons.1 hs with rfl | hs
      · exact (isStrTok_iff s).1 ht
      · exact (isStrTok_iff s).1 (takeWhile_strs_all ts s hs)
    · cases e

/-- What follows is not a string. -/
def NoStr (r : List Str) : Prop := ∀ t ∈ r.head?, isStrTok t = false

theorem takeStrs_complete : Complete takeStrs id StrLitToks NoStr := by
  intro p r hp hr
  cases p with
  | nil => exact absurd rfl hp.1
  | cons s ss =>
    have h1 : ∀ x ∈ s :: ss, isStrTok x = true := fun x hx => (isStrTok_iff x).2 (hp.2 x hx)
    have := takeWhile_strs (ss := ss) (fun x hx => h1 x (by simp [hx])) hr
    show takeStrs (s :: (ss ++ r)) = _
    rw [takeStrs, if_pos (h1 s (by simp)), this.1, this.2]

theorem takeSep_eq (ts : List Str) : (takeSep ts).1 ++ (takeSep ts).2 = ts ∧ ((takeSep ts).1 = [] ∨ (takeSep ts).1 = [";".toList] ∨ (takeSep ts).1 = [",".toList]) := by
  cases ts with
  | nil => exact ⟨rfl, .inl rfl⟩
  | cons t ts =>
    rw [takeSep]
    split
    · rename_i h
      simp only [Bool.or_eq_true, decide_eq_true_eq] at h
      rcases h with rfl | rfl
      · exact ⟨rfl, .inr (.inl rfl)⟩
      · exact ⟨rfl, .inr (.inr rfl)⟩
    · exact ⟨rfl, .inl rfl⟩

theorem const_sound : ∀ n, (∀ ts c r, takeConst n ts = some (c, r) → ts = c ++ r ∧ ConstToks c) ∧
    (∀ ts c r, takeEntries n ts = some (c, r) → ∃ es, c = es ++ ["}".toList] ∧ ts = c ++ r ∧ EntriesToks es)
  | 0 => ⟨fun ts c r e => (by rw [takeConst] at e; cases e), fun ts c r e => (by rw [takeEntries] at e; cases e)⟩
  | n + 1 => by
    obtain ⟨ih1, ih2⟩ := const_sound n
    constructor
    · intro ts c r e
      cases ts with
      | nil => rw [takeConst] at e; cases e
      | cons t ts =>
        rw [takeConst] at e
        split at e
        · obtain ⟨h1, h2⟩ := takePath_sound _ _ _ e
          exact ⟨h1, .path c h2⟩
        · split at e
          · rename_i h
            cases e
            exact ⟨rfl, .num t ((isNumTok_iff t).1 h)⟩
          · split at e
            · rename_i hs
              simp only [Bool.or_eq_true, decide_eq_true_eq] at hs
              cases ts with
              | nil => cases e
              | cons u ts =>
                rw [takeSigned] at e
                split at e
                · rename_i h
                  cases e
                  exact ⟨rfl, .signed t u hs ((isNumTok_iff u).1 h)⟩
                · cases e
            · split at e
              · obtain ⟨h1, h2⟩ := takeStrs_sound _ _ _ e
                exact ⟨h1, .str c h2⟩
              · split at e
                · rename_i ht
                  split at e
                  · cases e
                  · rename_i a r' ha
                    cases e
                    obtain ⟨es, h1, h2, h3⟩ := ih2 ts a r ha
                    subst h1 ht
                    exact ⟨by rw [h2]; simp, .block es h3⟩
                · cases e
    · intro ts c r e
      rw [takeEntries] at e
      split at e
      · rename_i r' hr
        cases e
        rw [eat_iff] at hr
        exact ⟨[], rfl, hr, .nil⟩
      · split at e
        · cases e
        · rename_i k r1 h1
          rw [takeIf_iff] at h1
          split at e
          · cases e
          · rename_i r2 h2
            rw [eat_iff] at h2
            split at e
            · cases e
            · rename_i c' r3 h3
              split at e
              · cases e
              · rename_i a r4 h4
                cases e
                obtain ⟨h5, h6⟩ := ih1 _ _ _ h3
                obtain ⟨es, h7, h8, h9⟩ := ih2 _ _ _ h4
                obtain ⟨h10, h11⟩ := takeSep_eq r3
                refine ⟨k :: ":".toList :: (c' ++ ((takeSep r3).1 ++ es)), by rw [h7]; simp, ?_, .cons k c' _ es ((isNameTok_iff k).1 h1.2) h6 h11 h9⟩
                rw [h1.1, h2, h5]
                simp only [List.cons_append, List.append_assoc]
                rw [← h8, h10]

theorem takeConst_sound (n : Nat) : Sound (takeConst n) id ConstToks := fun ts c r e => (const_sound n).1 ts c r e

/-- What may follow a constant. -/
structure FolConst (r : List Str) : Prop where
  dot : r.head? ≠ some ".".toList
  str : NoStr r

theorem folConst_cons {t : Str} {r : List Str} (h1 : t ≠ ".".toList) (h2 : isStrTok t = false) : FolConst (t :: r) :=
  ⟨by simpa using h1, fun x hx => by cases hx; exact h2⟩

theorem folConst_name {t : Str} {r : List Str} (h : NameTok t) : FolConst (t :: r) := folConst_cons (name_ne h rfl []) (name_notStr h)

theorem const_ne {c : List Str} (h : ConstToks c) : c ≠ [] := by
  cases h with
  | path p hp => obtain ⟨n, q, rfl, _⟩ := path_head hp; simp
  | str _ h => exact h.1
  | num | signed | block => simp

theorem entries_fol {es r : List Str} (h : EntriesToks es) : FolConst (es ++ "}".toList :: r) ∧ ∃ t s, es ++ "}".toList :: r = t :: s ∧ t ≠ ";".toList ∧ t ≠ ",".toList := by
  cases h with
  | nil => exact ⟨folConst_cons (by decide) (by decide), _, _, rfl, by decide, by decide⟩
  | cons n c sep es hn _ _ _ => exact ⟨folConst_name hn, n, _, rfl, name_ne hn rfl [], name_ne hn rfl []⟩

theorem takeSep_none {t : Str} {s : List Str} (h1 : t ≠ ";".toList) (h2 : t ≠ ",".toList) : takeSep (t :: s) = ([], t :: s) := by
  rw [takeSep, if_neg]
  simp only [Bool.or_eq_true, decide_eq_true_eq, not_or]
  exact ⟨h1, h2⟩

theorem sign_notName (s : Str) : isNameTok ('-' :: s) = false ∧ isNameTok ('+' :: s) = false := by
  constructor <;> rfl

theorem const_complete : ∀ n, (∀ c r, ConstToks c → c.length ≤ n → FolConst r → takeConst n (c ++ r) = some (c, r)) ∧
    (∀ es r, EntriesToks es → es.length + 1 ≤ n → takeEntries n (es ++ "}".toList :: r) = some (es ++ ["}".toList], r))
  | 0 => by
    constructor
    · intro c r h hn _
      exact absurd (List.eq_nil_of_length_eq_zero (by omega)) (const_ne h)
    · intro es r _ hn; omega
  | n + 1 => by
    obtain ⟨ih1, ih2⟩ := const_complete n
    constructor
    · intro c r h hn hr
      cases h with
      | path p hp =>
        obtain ⟨m, q, rfl, hm⟩ := path_head hp
        rw [List.cons_append, takeConst, if_pos ((isNameTok_iff m).2 hm)]
        exact takePath_complete _ r hp hr.dot
      | num s hs =>
        rw [← isNumTok_iff] at hs
        rw [List.singleton_append, takeConst, if_neg (by simp [num_notName hs]), if_pos hs]
      | signed sign s hsg hs =>
        rw [← isNumTok_iff] at hs
        show takeConst (n + 1) (sign :: (s :: r)) = _
        have h4 : isNameTok sign = false ∧ isNumTok sign = false ∧ (sign = "-".toList || sign = "+".toList) = true := by
          rcases hsg with rfl | rfl <;> decide
        rw [takeConst, if_neg (by simp [h4.1]), if_neg (by simp [h4.2.1]), if_pos h4.2.2, takeSigned, if_pos hs]
      | str _ hs =>
        have hc := takeStrs_complete _ r hs hr.str
        cases c with
        | nil => exact absurd rfl hs.1
        | cons s ss =>
          have h1 := (isStrTok_iff s).2 (hs.2 s (by simp))
          rw [List.cons_append, takeConst, if_neg (by simp [str_notName h1]), if_neg (by simp [str_notNum h1]), if_neg, if_pos h1]
          · exact hc
          · have h2 : s ≠ "-".toList := str_ne h1 (by decide) (by decide) []
            have h3 : s ≠ "+".toList := str_ne h1 (by decide) (by decide) []
            simp only [Bool.or_eq_true, decide_eq_true_eq, not_or]
            exact ⟨h2, h3⟩
      | block es hes =>
        simp only [List.length_cons, List.length_append, List.length_nil] at hn
        have := ih2 es r hes (by omega)
        rw [List.cons_append, takeConst, if_neg (by decide), if_neg (by decide), if_neg (by decide), if_neg (by decide), if_pos rfl, List.append_assoc,
          List.singleton_append, this]
    · intro es r h hn
      cases h with
      | nil => rw [takeEntries, List.nil_append, eat_self]; rfl
      | cons k c sep es hk hc hsep hes =>
        simp only [List.length_cons, List.length_append] at hn
        have hne : 0 < c.length := List.length_pos_iff.2 (const_ne hc)
        obtain ⟨hf, t, s, hts, ht1, ht2⟩ := entries_fol (r := r) hes
        rw [takeEntries, List.cons_append, eat_ne _ (show k ≠ "}".toList from name_ne hk (c := '}') rfl [])]
        dsimp only
        rw [takeIf_self _ ((isNameTok_iff k).2 hk)]
        dsimp only
        rw [List.cons_append, eat_self]
        dsimp only
        rw [List.append_assoc, List.append_assoc]
        have hfol : FolConst (sep ++ (es ++ "}".toList :: r)) := by
          rcases hsep with rfl | rfl | rfl
          · exact hf
          · exact folConst_cons (by decide) (by decide)
          · exact folConst_cons (by decide) (by decide)
        have hsp : takeSep (sep ++ (es ++ "}".toList :: r)) = (sep, es ++ "}".toList :: r) := by
          rcases hsep with rfl | rfl | rfl
          · rw [List.nil_append, hts]; exact takeSep_none ht1 ht2
          · rfl
          · rfl
        rw [ih1 c _ hc (by omega) hfol]
        dsimp only
        rw [hsp]
        dsimp only
        rw [ih2 es r hes (by omega)]
        dsimp only
        simp

theorem takeConst_complete {n : Nat} {c r : List Str} (h : ConstToks c) (hn : c.length ≤ n) (hr : FolConst r) : takeConst n (c ++ r) = some (c, r) :=
  (const_complete n).1 c r h hn hr

/-! ## Options -/

theorem parseOption_sound : Sound parseOption spellOption WFOption := by
  intro ts o r e
  simp only [parseOption, bind, Option.bind_eq_some_iff, Prod.exists, eat_iff, pure, Option.some.injEq, Prod.mk.injEq] at e
  obtain ⟨n, r1, h1, r2, rfl, v, r3, h3, rfl, rfl⟩ := e
  obtain ⟨h4, h5⟩ := takeOptName_sound _ _ _ h1
  obtain ⟨h6, h7⟩ := takeConst_sound _ _ _ _ h3
  exact ⟨by rw [h4, h6]; simp [spellOption], h5, h7⟩

theorem parseOption_complete : Complete parseOption spellOption WFOption FolConst := by
  intro o r ho hr
  have h1 : takeOptName (o.name ++ ("=".toList :: (o.value ++ r))) = some (o.name, "=".toList :: (o.value ++ r)) :=
    takeOptName_complete _ _ ho.1 (by simp)
  have h2 := takeConst_complete (n := (o.value ++ r).length) ho.2 (by simp) hr
  simp only [parseOption, spellOption, List.append_assoc, List.cons_append, h1, bind, Option.bind_some, eat_self, h2, pure]

theorem parseOptionStmt_sound : Sound parseOptionStmt spellOptionStmt WFOption := by
  intro ts o r e
  simp only [parseOptionStmt, bind, Option.bind_eq_some_iff, Prod.exists, eat_iff, pure, Option.some.injEq, Prod.mk.injEq] at e
  obtain ⟨r1, rfl, o', r2, h2, r3, rfl, rfl, rfl⟩ := e
  obtain ⟨h4, h5⟩ := parseOption_sound _ _ _ h2
  exact ⟨by rw [h4]; simp [spellOptionStmt], h5⟩

theorem parseOptionStmt_complete : Complete parseOptionStmt spellOptionStmt WFOption (fun _ => True) := by
  intro o r ho _
  have h1 := parseOption_complete o (";".toList :: r) ho (folConst_cons (by decide) (by decide))
  simp only [parseOptionStmt, spellOptionStmt, List.append_assoc, List.cons_append, List.nil_append, h1, bind, Option.bind_some, eat_self, pure]

theorem length_commaSep {α : Type} (f : α → List Str) : ∀ xs : List α, (∀ x ∈ xs, f x ≠ []) → xs.length ≤ (commaSep f xs).length
  | [], _ => by simp [commaSep]
  | [x], h => by
    have := List.length_pos_iff.2 (h x (by simp))
    simp only [commaSep, List.length_cons, List.length_nil]; omega
  | x :: y :: xs, h => by
    have := length_commaSep f (y :: xs) (fun z hz => h z (by simp [hz]))
    rw [commaSep_cons _ _ _ (by simp)]
    simp only [List.length_cons, List.length_append] at this ⊢
    omega

theorem parseBrackets_sound : Sound parseBrackets spellBrackets (fun os => ∀ o ∈ os, WFOption o) := by
  intro ts os r e
  rw [parseBrackets] at e
  split at e
  · cases e
    exact ⟨rfl, by simp⟩
  · rename_i r1 h1
    rw [eat_iff] at h1
    simp only [bind, Option.bind_eq_some_iff, Prod.exists, eat_iff, pure, Option.some.injEq, Prod.mk.injEq] at e
    obtain ⟨os', r2, h2, r3, rfl, rfl, rfl⟩ := e
    obtain ⟨h3, h4, h5⟩ := sepBy_sound parseOption_sound _ _ _ _ h2
    exact ⟨by rw [h1, h3, spellBrackets, if_neg h4]; simp, h5⟩

theorem parseBrackets_complete {os : List RawOption} {r : List Str} (h : ∀ o ∈ os, WFOption o) (hr : r.head? ≠ some "[".toList) :
    parseBrackets (spellBrackets os ++ r) = some (os, r) := by
  rw [spellBrackets]
  split
  · rename_i hos
    subst hos
    rw [List.nil_append, parseBrackets]
    cases r with
    | nil => rfl
    | cons t r => rw [eat_ne _ (by simpa using hr)]
  · rename_i hos
    rw [List.cons_append, parseBrackets, eat_self]
    dsimp only
    rw [List.append_assoc, List.singleton_append]
    have := sepBy_complete parseOption_complete (fun r => folConst_cons (by decide) (by decide)) (commaSep spellOption os ++ ("]".toList :: r)).length os
      ("]".toList :: r) hos h (folConst_cons (by decide) (by decide)) (by simp) (by
        have := length_commaSep spellOption os (fun o _ => by simp [spellOption])
        rw [List.length_append]; omega)
    simp only [bind, this, Option.bind_some, List.cons_append, List.nil_append, eat_self, pure]

end Verif.Lemmas.Gen
