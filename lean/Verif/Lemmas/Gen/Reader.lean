import Verif.Spec.Gen.Reads
import Verif.Model.Gen.Reader
import Verif.Props.Gen.StrLit
import Verif.Lemmas.Gen.Grammar
/-! Helper lemmas: from parse trees to what is taken from them. -/
namespace Verif.Lemmas.Gen
open Verif.Model.Gen Verif.Spec.Gen

/-! ## Numbers of tokens -/

theorem commaWidth_eq {α : Type} {w : α → Nat} {f : α → List Str} : ∀ {l : List α}, (∀ x ∈ l, w x = (f x).length) → commaWidth w l = (commaSep f l).length
  | [], _ => rfl
  | [x], h => h x (by simp)
  | x :: y :: xs, h => by
    have ih := commaWidth_eq (l := y :: xs) fun z hz => h z (List.mem_cons_of_mem _ hz)
    rw [commaWidth, commaSep, ih, h x (by simp)]
    simp only [List.length_append, List.length_cons]
    omega

theorem sum_eq {α : Type} {w : α → Nat} {f : α → List Str} : ∀ {l : List α}, (∀ x ∈ l, w x = (f x).length) → (l.map w).sum = (l.flatMap f).length
  | [], _ => rfl
  | x :: xs, h => by
    have ih := sum_eq (l := xs) fun z hz => h z (List.mem_cons_of_mem _ hz)
    simp only [List.map_cons, List.sum_cons, List.flatMap_cons, List.length_append, ih, h x (by simp)]

theorem optionWidth_eq (o : RawOption) : optionWidth o = (spellOption o).length := by
  simp only [optionWidth, spellOption, List.length_append, List.length_cons]
  omega

theorem optionStmtWidth_eq (o : RawOption) : optionStmtWidth o = (spellOptionStmt o).length := by
  simp only [optionStmtWidth, optionWidth_eq, spellOptionStmt, List.length_append, List.length_cons, List.length_nil]
  omega

theorem bracketsWidth_eq (os : List RawOption) : bracketsWidth os = (spellBrackets os).length := by
  unfold bracketsWidth spellBrackets
  split
  · rfl
  · rw [commaWidth_eq (f := spellOption) fun o _ => optionWidth_eq o]
    simp only [List.length_append, List.length_cons, List.length_nil]

theorem fieldWidth_eq (f : RawField) : fieldWidth f = (spellField f).length := by
  unfold fieldWidth spellField
  rw [bracketsWidth_eq]
  rcases f with ⟨label, key, typ, name, number, options⟩
  dsimp only
  have h1 : (if label = none then 0 else 1) = (spellLabel label).length := by
    cases label with
    | none => rfl
    | some l => cases l <;> rfl
  rw [h1]
  cases key with
  | none =>
    simp only [List.length_append, List.length_cons, List.length_nil, if_true]
    omega
  | some k =>
    simp only [List.length_append, List.length_cons, List.length_nil, reduceCtorEq, if_false]
    omega

theorem rangeWidth_eq (r : RangeNode) : rangeWidth r = (spellRange r).length := by
  rcases r with ⟨lo, hi⟩
  cases hi <;> rfl

theorem reservedWidth_eq (rr : List RangeNode) : reservedWidth rr = (spellReserved rr).length := by
  unfold reservedWidth spellReserved
  rw [commaWidth_eq (f := spellRange) fun o _ => rangeWidth_eq o]
  simp only [List.length_append, List.length_cons, List.length_nil]

theorem reservedNamesWidth_eq (ss : List (List Str)) : reservedNamesWidth ss = (spellReservedNames ss).length := by
  unfold reservedNamesWidth spellReservedNames
  rw [commaWidth_eq (w := List.length) (f := id) fun o _ => rfl]
  simp only [List.length_append, List.length_cons, List.length_nil]

theorem extensionsWidth_eq (rr : List RangeNode) (os : List RawOption) : extensionsWidth rr os = (spellExtensions rr os).length := by
  unfold extensionsWidth spellExtensions
  rw [commaWidth_eq (f := spellRange) fun o _ => rangeWidth_eq o, bracketsWidth_eq]
  simp only [List.length_append, List.length_cons, List.length_nil]
  omega

theorem enumValueWidth_eq (v : RawEnumValue) : enumValueWidth v = (spellEnumValue v).length := by
  unfold enumValueWidth spellEnumValue
  rw [bracketsWidth_eq]
  split <;> simp only [List.length_append, List.length_cons, List.length_nil] <;> omega

theorem enumElemWidth_eq (e : RawEnumElem) : enumElemWidth e = (spellEnumElem e).length := by
  cases e with
  | option o => exact optionStmtWidth_eq o
  | value v => exact enumValueWidth_eq v
  | reserved rr => exact reservedWidth_eq rr
  | reservedNames ss => exact reservedNamesWidth_eq ss
  | empty => rfl

theorem spellBlock_length (k n : Str) (b : List Str) : (spellBlock k n b).length = b.length + 4 := by
  simp only [spellBlock, List.length_append, List.length_cons, List.length_nil]

theorem enumWidth_eq (e : RawEnum) : enumWidth e = (spellEnum e).length := by
  rw [enumWidth, spellEnum, spellBlock_length, sum_eq (f := spellEnumElem) fun x _ => enumElemWidth_eq x]

theorem oneofElemWidth_eq (e : RawOneofElem) : oneofElemWidth e = (spellOneofElem e).length := by
  cases e with
  | option o => exact optionStmtWidth_eq o
  | field f => exact fieldWidth_eq f
  | empty => rfl

theorem extendWidth_eq (t : List Str) (fs : List (Option RawField)) : extendWidth t fs = (spellExtend t fs).length := by
  rw [extendWidth, spellExtend, sum_eq (f := spellExtendElem) fun x _ => by cases x with | none => rfl | some f => exact fieldWidth_eq f]
  simp only [List.length_append, List.length_cons, List.length_nil]
  omega

mutual
theorem elemWidth_eq : ∀ e : RawElem, elemWidth e = (spellElem e).length
  | .field f => by rw [elemWidth, spellElem, fieldWidth_eq]
  | .enum e => by rw [elemWidth, spellElem, enumWidth_eq]
  | .message n es => by rw [elemWidth, spellElem, spellBlock_length, elemsWidth_eq es]
  | .extend t fs => by rw [elemWidth, spellElem, extendWidth_eq]
  | .option o => by rw [elemWidth, spellElem, optionStmtWidth_eq]
  | .oneof n es => by rw [elemWidth, spellElem, spellBlock_length, sum_eq (f := spellOneofElem) fun x _ => oneofElemWidth_eq x]
  | .mapField f => by rw [elemWidth, spellElem, fieldWidth_eq]
  | .reserved rr => by rw [elemWidth, spellElem, reservedWidth_eq]
  | .reservedNames ss => by rw [elemWidth, spellElem, reservedNamesWidth_eq]
  | .extensions rr os => by rw [elemWidth, spellElem, extensionsWidth_eq]
  | .empty => by rw [elemWidth, spellElem]; rfl
theorem elemsWidth_eq : ∀ es : List RawElem, elemsWidth es = (spellElems es).length
  | [] => by rw [elemsWidth, spellElems]; rfl
  | e :: es => by rw [elemsWidth, spellElems, List.length_append, elemWidth_eq e, elemsWidth_eq es]
end

theorem rpcWidth_eq (r : RawRpc) : rpcWidth r = (spellRpc r).length := by
  rcases r with ⟨name, rs, rq, ts, rt, body⟩
  have h : rpcBodyWidth body = (spellRpcBody body).length := by
    cases body with
    | none => rfl
    | some es =>
      rw [rpcBodyWidth, spellRpcBody, sum_eq (f := spellRpcElem) fun x _ => by cases x with | none => rfl | some f => exact optionStmtWidth_eq f]
      simp only [List.length_append, List.length_cons, List.length_nil]
  rw [rpcWidth, spellRpc, h]
  cases rs <;> cases ts <;>
    simp only [returnAt, requestAt, spellRpcType, Bool.false_eq_true, if_true, if_false, List.length_append, List.length_cons, List.length_nil] <;> omega

theorem serviceElemWidth_eq (e : RawServiceElem) : serviceElemWidth e = (spellServiceElem e).length := by
  cases e with
  | option o => exact optionStmtWidth_eq o
  | rpc r => exact rpcWidth_eq r
  | empty => rfl

theorem topWidth_eq (e : RawTop) : topWidth e = (spellTop e).length := by
  cases e with
  | importStmt k p =>
    cases k <;> simp only [topWidth, spellTop, spellImportKind, reduceCtorEq, if_true, if_false, List.length_append, List.length_cons, List.length_nil] <;> omega
  | package p => simp only [topWidth, spellTop, List.length_append, List.length_cons, List.length_nil]
  | option o => exact optionStmtWidth_eq o
  | message n es => rw [topWidth, spellTop, spellBlock_length, elemsWidth_eq es]
  | enum e => exact enumWidth_eq e
  | extend t fs => exact extendWidth_eq t fs
  | service n es => rw [topWidth, spellTop, spellBlock_length, sum_eq (f := spellServiceElem) fun x _ => serviceElemWidth_eq x]
  | empty => rfl

theorem editionWidth_eq (e : Option RawEdition) : editionWidth e = (spellEditionOpt e).length := by
  cases e with
  | none => rfl
  | some e => simp only [editionWidth, spellEditionOpt, spellEdition, List.length_append, List.length_cons, List.length_nil]

/-! ## Constants -/

theorem strBytes_eq (s : Str) : strBytes s = CharBytes s := by
  unfold strBytes CharBytes
  simp only [Props.Gen.encodeRune_eq]

theorem char_scalar (c : Char) : IsScalar c.toNat := by
  have h := c.valid
  unfold IsScalar
  rcases h with h | ⟨h1, h2⟩
  · exact .inl h
  · refine .inr ⟨?_, h2⟩
    have : 57343 < c.toNat := h1
    omega

theorem charBytes_cons (c : Char) (s : Str) : CharBytes (c :: s) = utf8 c.toNat ++ CharBytes s := by
  simp only [CharBytes, List.flatMap_cons]

theorem charBytes_append (s r : Str) : CharBytes (s ++ r) = CharBytes s ++ CharBytes r := by
  simp only [CharBytes, List.flatMap_append]

theorem bytesChars_char : ∀ (v : Str) (n : Nat), (CharBytes v).length ≤ n → bytesChars n (CharBytes v) = v
  | [], 0, _ => rfl
  | [], n + 1, _ => rfl
  | c :: v, n, hn => by
    have hd := Props.Gen.decode_utf8 (char_scalar c) (CharBytes v)
    have hl := Props.Gen.utf8_len c.toNat
    rw [charBytes_cons, List.length_append] at hn
    cases n with
    | zero => omega
    | succ n =>
      rw [charBytes_cons]
      match hu : utf8 c.toNat ++ CharBytes v with
      | [] =>
        have := congrArg List.length hu
        rw [List.length_append, List.length_nil] at this
        omega
      | b :: bs =>
        rw [hu] at hd
        simp only [bytesChars, hd]
        rw [← hu, List.drop_left, bytesChars_char v n (by omega), Char.ofNat_toNat]

theorem quoted_bytes {t : Str} (h : Quoted t) : (CharBytes t).head? = some 34 ∨ (CharBytes t).head? = some 39 := by
  cases t with
  | nil => rcases h with h | h <;> cases h
  | cons c r =>
    rw [charBytes_cons]
    rcases h with h | h <;> (cases h; first | exact .inl rfl | exact .inr rfl)

theorem unmarshalChars_lit {t v r : Str} (h : IsLit (CharBytes t) (CharBytes v)) : unmarshalChars (t ++ r) = some v := by
  rw [unmarshalChars, strBytes_eq, charBytes_append, Props.C48_decode _ _ _ h, Option.map_some, bytesChars_char v _ (Nat.le_refl _)]

theorem utf8_split {c d : Char} {r s : List Nat} (h : utf8 c.toNat ++ r = utf8 d.toNat ++ s) : c = d ∧ r = s := by
  have h1 := Props.Gen.decode_utf8 (char_scalar c) r
  have h2 := Props.Gen.decode_utf8 (char_scalar d) s
  rw [h, h2] at h1
  simp only [Option.some.injEq, Prod.mk.injEq] at h1
  have e : c = d := by rw [← Char.ofNat_toNat c, ← h1.1, Char.ofNat_toNat]
  subst e
  exact ⟨rfl, List.append_cancel_left h⟩

theorem utf8_ascii {n : Nat} (h : n < 128) : utf8 n = [n] := by
  unfold utf8
  rw [if_pos h]

theorem number_head {base : Nat} {ds : List Nat} {n : Nat} (h : NumberIs base ds n) : ∃ c r v, ds = c :: r ∧ DigitIs c v ∧ v < base := by
  induction h with
  | one c v h1 h2 => exact ⟨c, [], v, rfl, h1, h2⟩
  | more ds n c v _ _ _ ih =>
    obtain ⟨c', r, v', e, h1, h2⟩ := ih
    exact ⟨c', r ++ [c], v', by rw [e]; rfl, h1, h2⟩

theorem char_digit {c : Char} {v : Nat} (h : IsDigit c v) : DigitIs c.toNat v ∧ c.toNat < 128 := by
  unfold IsDigit at h
  simp only [Char.reduceToNat] at h
  rcases h with ⟨h1, h2⟩ | ⟨h1, h2, h3⟩ | ⟨h1, h2, h3⟩
  · have := DigitIs.dec v (by omega)
    rw [← h1] at this
    exact ⟨this, by omega⟩
  · have := DigitIs.lower v (by omega) (by omega)
    rw [show 87 + v = c.toNat by omega] at this
    exact ⟨this, by omega⟩
  · have := DigitIs.upper v (by omega) (by omega)
    rw [show 55 + v = c.toNat by omega] at this
    exact ⟨this, by omega⟩

theorem digitIs_range {c v : Nat} (h : DigitIs c v) : 48 ≤ c ∧ c ≤ 57 ∧ v < 10 ∨ 97 ≤ c ∧ c ≤ 102 ∧ 10 ≤ v ∨ 65 ≤ c ∧ c ≤ 70 ∧ 10 ≤ v := by
  cases h <;> omega

theorem lit_escape {q : Nat} {t v rest X : List Nat} (hq : q = 34 ∨ q = 39) (h : LitBody q t v) (e : t ++ rest = 92 :: X) : ∃ r v', LitBody q r v' ∧
    ((∃ c x, (c, x) ∈ letterEscapes ∧ X = c :: (r ++ rest)) ∨
      (∃ ds n, NumberIs 8 ds n ∧ ds.length ≤ 3 ∧ (ds.length = 3 ∨ NoDigit 8 r) ∧ X = ds ++ (r ++ rest)) ∨
      (∃ ds n, NumberIs 16 ds n ∧ ds.length ≤ 2 ∧ (ds.length = 2 ∨ NoDigit 16 r) ∧ X = 120 :: (ds ++ (r ++ rest))) ∨
      ∃ l Y, (l = 117 ∨ l = 85) ∧ X = l :: Y) := by
  cases h with
  | done =>
    simp only [List.cons_append, List.cons.injEq] at e
    omega
  | char c r v' _ _ _ h92 _ _ =>
    rw [List.append_assoc] at e
    exact absurd (Props.Gen.utf8_plain e (by omega)).1 h92
  | letter c x r v' hl hb =>
    simp only [List.cons_append, List.cons.injEq, true_and] at e
    exact ⟨r, v', hb, .inl ⟨c, x, hl, e.symm⟩⟩
  | oct ds n r v' hn hl _ hd hb =>
    simp only [List.cons_append, List.cons.injEq, true_and, List.append_assoc] at e
    exact ⟨r, v', hb, .inr (.inl ⟨ds, n, hn, hl, hd, e.symm⟩)⟩
  | hex ds n r v' hn hl hd hb =>
    simp only [List.cons_append, List.cons.injEq, true_and, List.append_assoc] at e
    exact ⟨r, v', hb, .inr (.inr (.inl ⟨ds, n, hn, hl, hd, e.symm⟩))⟩
  | uni l ds n r v' _ hl _ hb =>
    simp only [List.cons_append, List.cons.injEq, true_and, List.append_assoc] at e
    exact ⟨r, v', hb, .inr (.inr (.inr ⟨l, _, by omega, e.symm⟩))⟩
  | pair l ds es hi lo r v' _ hl _ _ _ _ hb =>
    simp only [List.cons_append, List.cons.injEq, true_and, List.append_assoc] at e
    exact ⟨r, v', hb, .inr (.inr (.inr ⟨l, _, by omega, e.symm⟩))⟩

/-- Digits that must be followed by no digit: there are as many as there can be. -/
theorem digits_all {base q : Nat} {ds r rest as Y v' : List Nat} {k : Nat} (hl : ds.length ≤ k) (hd : ds.length = k ∨ NoDigit base r)
    (hb : LitBody q r v') (e : as ++ Y = ds ++ (r ++ rest)) (hk : as.length = k) (ha : ∀ a ∈ as, ∃ v, DigitIs a v ∧ v < base) : r ++ rest = Y := by
  rcases List.append_eq_append_iff.1 e with ⟨c, e1, e2⟩ | ⟨c, e1, e2⟩
  · have : c = [] := by
      have := congrArg List.length e1
      rw [List.length_append] at this
      exact List.length_eq_zero_iff.1 (by omega)
    rw [this, List.nil_append] at e2
    exact e2.symm
  · cases c with
    | nil => rw [List.nil_append] at e2; exact e2
    | cons x c =>
      exfalso
      rcases hd with hd | hd
      · have := congrArg List.length e1
        rw [List.length_append, List.length_cons] at this
        omega
      · have hne := Props.Gen.body_ne hb
        cases r with
        | nil => exact hne rfl
        | cons y r =>
          rw [List.cons_append, List.cons_append] at e2
          injection e2 with e3 e4
          subst e3
          obtain ⟨v, hv1, hv2⟩ := ha y (by rw [e1]; simp)
          have := hd y r v rfl hv1
          omega

/-- The end of a literal is where the lexer sees it. -/
theorem strBody_whole {q : Char} (hq : q = '"' ∨ q = '\'') {s : Str} (h : StrBody q s) :
    ∀ t v rest, LitBody q.toNat t v → t ++ rest = CharBytes s → rest = [] := by
  have hqn : q.toNat = 34 ∨ q.toNat = 39 := by rcases hq with rfl | rfl <;> decide
  have hq92 : q.toNat ≠ 92 := by omega
  induction h with
  | done =>
    intro t v rest hb e
    have hne := Props.Gen.body_ne hb
    have e' := congrArg List.length e
    rw [charBytes_cons, utf8_ascii (by omega), List.length_append] at e'
    have := List.length_pos_iff.2 hne
    exact List.length_eq_zero_iff.1 (by simp [CharBytes] at e'; omega)
  | char c s h1 h2 h3 h4 _ ih =>
    intro t v rest hb e
    rw [charBytes_cons] at e
    have hc : c.toNat ≠ 92 := fun e => h2 (by rw [← Char.ofNat_toNat c, e])
    have bad : ∀ X, 92 :: X ≠ utf8 c.toNat ++ CharBytes s := fun X e => hc (Props.Gen.utf8_plain e.symm (by omega)).1
    cases hb with
    | done =>
      exfalso
      have := (Props.Gen.utf8_plain e.symm (by omega)).1
      exact h1 (by rw [← Char.ofNat_toNat c, this, Char.ofNat_toNat])
    | char c' r v' hs _ _ _ _ hb =>
      rw [List.append_assoc] at e
      have d1 := Props.Gen.decode_utf8 hs (r ++ rest)
      have d2 := Props.Gen.decode_utf8 (char_scalar c) (CharBytes s)
      rw [e, d2] at d1
      simp only [Option.some.injEq, Prod.mk.injEq] at d1
      rw [← d1.1] at e
      exact ih r v' rest hb (List.append_cancel_left e)
    | letter => exact absurd e (bad _)
    | oct => exact absurd e (bad _)
    | hex => exact absurd e (bad _)
    | uni => exact absurd e (bad _)
    | pair => exact absurd e (bad _)
  | escape c s hc _ ih =>
    intro t v rest hb e
    have hb92 : CharBytes ('\\' :: c :: s) = 92 :: c.toNat :: CharBytes s := by
      rw [charBytes_cons, charBytes_cons, utf8_ascii (n := c.toNat) (by revert hc; simp; rintro (rfl | rfl | rfl | rfl | rfl | rfl | rfl | rfl | rfl | rfl) <;> decide)]
      rfl
    have hcn : c.toNat ∈ [97, 98, 102, 110, 114, 116, 118, 92, 39, 34] := by
      simp at hc
      rcases hc with rfl | rfl | rfl | rfl | rfl | rfl | rfl | rfl | rfl | rfl <;> decide
    simp only [List.mem_cons, List.not_mem_nil, or_false] at hcn
    rw [hb92] at e
    obtain ⟨r, v', hb', h | h | h | h⟩ := lit_escape hqn hb e
    · obtain ⟨c', x, _, e'⟩ := h
      injection e' with _ e2
      exact ih r v' rest hb' e2.symm
    · obtain ⟨ds, n, hn, _, _, e'⟩ := h
      obtain ⟨d, ds', w, rfl, hd1, hd2⟩ := number_head hn
      rw [List.cons_append] at e'
      injection e' with e1 _
      have := digitIs_range hd1
      omega
    · obtain ⟨ds, n, _, _, _, e'⟩ := h
      injection e' with e1 _
      omega
    · obtain ⟨l, Y, _, e'⟩ := h
      injection e' with e1 _
      omega
  | hex x a b s hx ha hb _ ih =>
    intro t v rest hl e
    obtain ⟨va, hva, ha⟩ := ha
    obtain ⟨vb, hvb, hb⟩ := hb
    obtain ⟨da, la⟩ := char_digit ha
    obtain ⟨db, lb⟩ := char_digit hb
    have hxn : x.toNat = 120 ∨ x.toNat = 88 := by rcases hx with rfl | rfl <;> decide
    have hb92 : CharBytes ('\\' :: x :: a :: b :: s) = 92 :: x.toNat :: a.toNat :: b.toNat :: CharBytes s := by
      rw [charBytes_cons, charBytes_cons, charBytes_cons, charBytes_cons, utf8_ascii la, utf8_ascii lb, utf8_ascii (n := x.toNat) (by omega)]
      rfl
    rw [hb92] at e
    obtain ⟨r, v', hb', h | h | h | h⟩ := lit_escape hqn hl e
    · obtain ⟨c', y, hm, e'⟩ := h
      injection e' with e1 _
      simp [letterEscapes] at hm
      omega
    · obtain ⟨ds, n, hn, _, _, e'⟩ := h
      obtain ⟨d, ds', w, rfl, hd1, hd2⟩ := number_head hn
      rw [List.cons_append] at e'
      injection e' with e1 _
      have := digitIs_range hd1
      omega
    · obtain ⟨ds, n, hn, h1, h2, e'⟩ := h
      injection e' with _ e2
      refine ih r v' rest hb' (digits_all (as := [a.toNat, b.toNat]) h1 h2 hb' e2 rfl ?_)
      intro y hy
      simp only [List.mem_cons, List.not_mem_nil, or_false] at hy
      rcases hy with rfl | rfl
      · exact ⟨va, da, hva⟩
      · exact ⟨vb, db, hvb⟩
    · obtain ⟨l, Y, _, e'⟩ := h
      injection e' with e1 _
      omega
  | oct a b c s ha hb hc _ ih =>
    intro t v rest hl e
    obtain ⟨va, hva, ha⟩ := ha
    obtain ⟨vb, hvb, hb⟩ := hb
    obtain ⟨vc, hvc, hc⟩ := hc
    obtain ⟨da, la⟩ := char_digit ha
    obtain ⟨db, lb⟩ := char_digit hb
    obtain ⟨dc, lc⟩ := char_digit hc
    have hb92 : CharBytes ('\\' :: a :: b :: c :: s) = 92 :: a.toNat :: b.toNat :: c.toNat :: CharBytes s := by
      rw [charBytes_cons, charBytes_cons, charBytes_cons, charBytes_cons, utf8_ascii la, utf8_ascii lb, utf8_ascii lc]
      rfl
    rw [hb92] at e
    have ra := digitIs_range da
    obtain ⟨r, v', hb', h | h | h | h⟩ := lit_escape hqn hl e
    · obtain ⟨c', y, hm, e'⟩ := h
      injection e' with e1 _
      simp [letterEscapes] at hm
      omega
    · obtain ⟨ds, n, hn, h1, h2, e'⟩ := h
      refine ih r v' rest hb' (digits_all (as := [a.toNat, b.toNat, c.toNat]) h1 h2 hb' e' rfl ?_)
      intro y hy
      simp only [List.mem_cons, List.not_mem_nil, or_false] at hy
      rcases hy with rfl | rfl | rfl
      · exact ⟨va, da, hva⟩
      · exact ⟨vb, db, hvb⟩
      · exact ⟨vc, dc, hvc⟩
    · obtain ⟨ds, n, _, _, _, e'⟩ := h
      injection e' with e1 _
      omega
    · obtain ⟨l, Y, _, e'⟩ := h
      injection e' with e1 _
      omega

theorem strTok_quoted {s : Str} (h : StrTok s) : Quoted s := by
  obtain ⟨q, r, rfl, hq, _⟩ := h
  rcases hq with rfl | rfl
  · exact .inl rfl
  · exact .inr rfl

theorem unmarshalChars_is {t : Str} (ht : StrTok t) (hu : ∀ b, IsLit (CharBytes t) b → ∃ v, b = CharBytes v) : ConstIs [t] (unmarshalChars t) := by
  have hQ := strTok_quoted ht
  cases hm : unmarshalChars t with
  | some x =>
    rw [unmarshalChars, strBytes_eq] at hm
    cases hb : unmarshalString (CharBytes t) with
    | none => rw [hb] at hm; cases hm
    | some b =>
      rw [hb] at hm
      obtain ⟨lit, rest, e, hl⟩ := Props.C48_reject _ b (quoted_bytes hQ) hb
      obtain ⟨q, r, rfl, hq, hs⟩ := ht
      have hqn : q.toNat < 128 := by rcases hq with rfl | rfl <;> decide
      cases hl with
      | mk q' text value hq' hbody =>
        rw [charBytes_cons, utf8_ascii hqn] at e
        simp only [List.cons_append, List.nil_append, List.cons.injEq] at e
        rw [← e.1] at hbody
        have hr := strBody_whole hq hs text b rest hbody e.2.symm
        have hlit : IsLit (CharBytes (q :: r)) b := by
          rw [charBytes_cons, utf8_ascii hqn, e.2, hr, List.append_nil]
          exact .mk q.toNat text b (by rcases hq with rfl | rfl <;> decide) hbody
        obtain ⟨v, rfl⟩ := hu b hlit
        rw [Option.map_some, bytesChars_char v _ (Nat.le_refl _)] at hm
        cases hm
        exact .lit _ _ hQ hlit
  | none =>
    refine .bad t hQ fun b hb => ?_
    obtain ⟨v, rfl⟩ := hu b hb
    have := unmarshalChars_lit (r := []) hb
    rw [List.append_nil, hm] at this
    cases this

end Verif.Lemmas.Gen
