import Verif.Lemmas.Gen.Pipeline
/-!
# Texts describe one set of files
-/
namespace Verif.Props
open Verif.Model.Gen Verif.Spec.Gen

namespace Gen

theorem all2_unique {α β : Type} {R : α → β → Prop} (h : ∀ x y z, R x y → R x z → y = z) {xs : List α} {ys : List β} (hy : All2 R xs ys) :
    ∀ {zs : List β}, All2 R xs zs → ys = zs := by
  induction hy with
  | nil => intro zs hz; cases hz; rfl
  | cons h1 _ ih =>
    intro zs hz
    cases hz with
    | cons h2 h3 => rw [h _ _ _ h1 h2, ih h3]

theorem digits_unique {b : Nat} (hb : b ≤ 16) {s : List Char} {v w : Nat} (h : Digits b s v) (h' : Digits b s w) : v = w := by
  rw [← parseDigits_iff hb] at h h'
  rw [h] at h'
  exact Option.some.inj h'

theorem digits_first {b : Nat} {c : Char} {s : List Char} {v : Nat} (h : Digits b (c :: s) v) : ∃ d, IsDigit c d ∧ d < b := by
  generalize e : c :: s = l at h
  induction h generalizing s with
  | nil => cases e
  | snoc l v c' d h1 h2 h3 ih =>
    cases l with
    | nil =>
      rw [List.nil_append] at e
      injection e with e1 e2
      subst e1
      exact ⟨d, h2, h3⟩
    | cons c0 l =>
      rw [List.cons_append] at e
      injection e with e1 e2
      subst e1
      exact ih rfl

theorem intLit_unique {s : List Char} {v w : Nat} (h : IntLit s v) (h' : IntLit s w) : v = w := by
  have no : ∀ x : Char, x = 'x' ∨ x = 'X' → ∀ r u, ¬ Digits 8 (x :: r) u := by
    intro x hx r u hd
    obtain ⟨d, h1, h2⟩ := digits_first hd
    rcases hx with rfl | rfl <;> rcases h1 with ⟨e, _⟩ | ⟨e, _⟩ | ⟨e, _⟩ <;> simp at e <;> omega
  cases h with
  | decimal c s v hc hd =>
    cases h' with
    | decimal _ _ _ _ hd' => exact digits_unique (by omega) hd hd'
    | octal _ _ _ => exact absurd rfl hc
    | hex _ _ _ _ _ _ => exact absurd rfl hc
  | octal s v hd =>
    cases h' with
    | decimal _ _ _ hc _ => exact absurd rfl hc
    | octal _ _ hd' => exact digits_unique (by omega) hd hd'
    | hex x _ _ hx _ _ => exact absurd hd (no x hx _ _)
  | hex x s v hx hs hd =>
    cases h' with
    | decimal _ _ _ hc _ => exact absurd rfl hc
    | octal _ _ hd' => exact absurd hd' (no x hx _ _)
    | hex _ _ _ _ _ hd' => exact digits_unique (by omega) hd hd'

theorem decimal_unique {s : List Char} {v w : Nat} (h : Decimal s v) (h' : Decimal s w) : v = w := digits_unique (by omega) h.2 h'.2

theorem options_unique {nodes : List OptionNode} {oo oo' : List Opt} (h : OptionsAre nodes oo) (h' : OptionsAre nodes oo') : oo = oo' := by
  unfold OptionsAre at h h'
  have := h.trans h'.symm
  refine List.map_inj_right (fun x y e => ?_) |>.1 this
  injection e with e1 e2
  exact Prod.ext e1 (Option.some.inj e2)

theorem range_unique (n : RangeNode) (r r' : Range) (h : RangeIs n r) (h' : RangeIs n r') : r = r' := by
  obtain ⟨⟨a, h1, e1⟩, h2⟩ := h
  obtain ⟨⟨a', h1', e1'⟩, h2'⟩ := h'
  have e : r.1 = r'.1 := by rw [e1, e1', decimal_unique h1 h1']
  refine Prod.ext e ?_
  revert h2 h2'
  cases n.hi with
  | single => intro h h'; rw [h, h', e]
  | max => intro h h'; rw [h, h']
  | lit s =>
    rintro ⟨b, h, e⟩ ⟨b', h', e'⟩
    rw [e, e', decimal_unique h h']

theorem bool_eq {a b : Bool} {p : Prop} (h : a = true ↔ p) (h' : b = true ↔ p) : a = b := by
  cases a <;> cases b <;> simp_all

theorem field_unique (x : Option Label × FieldNode × Option Nat) (d d' : FieldDecl) (h : FieldIs x d) (h' : FieldIs x d') : d = d' := by
  obtain ⟨a1, a2, a3, ⟨v, a4, a5⟩, a6, a7, a8, a9, a10, a11⟩ := h
  obtain ⟨b1, b2, b3, ⟨w, b4, b5⟩, b6, b7, b8, b9, b10, b11⟩ := h'
  cases intLit_unique a4 b4
  have c7 := options_unique a7 b7
  have c9 := bool_eq a9 b9
  have c10 := bool_eq a10 b10
  have c11 := bool_eq a11 b11
  cases d
  cases d'
  simp_all

theorem value_unique (n : EnumValueNode) (f f' : EnumField) (h : ValueIs n f) (h' : ValueIs n f') : f = f' := by
  obtain ⟨a1, ⟨v, a2, a3⟩, a4, a5⟩ := h
  obtain ⟨b1, ⟨w, b2, b3⟩, b4, b5⟩ := h'
  cases intLit_unique a2 b2
  have c5 := options_unique a5 b5
  cases f
  cases f'
  simp_all

theorem enum_unique (n : EnumNode) (e e' : EnumDecl) (h : EnumIs n e) (h' : EnumIs n e') : e = e' := by
  obtain ⟨a1, a2, a3, a4, a5⟩ := h
  obtain ⟨b1, b2, b3, b4, b5⟩ := h'
  have c3 := all2_unique value_unique a3 b3
  have c4 := options_unique a4 b4
  have c5 := all2_unique range_unique a5 b5
  cases e
  cases e'
  simp_all

theorem message_unique {x : Str × List Str × List MsgElem} {m m' : MsgDecl} (h : MessageIs x m) : MessageIs x m' → m = m' := by
  induction h generalizing m' with
  | mk h1 h2 h3 h4 h5 h6 ih =>
    rename_i name directives elems enums messages fields options reserved
    intro h'
    cases h' with
    | mk k1 k2 k3 k4 k5 k6 =>
      rename_i enums' messages' fields' options' reserved'
      have e1 := all2_unique enum_unique h1 k1
      have e4 := all2_unique field_unique h4 k4
      have e5 := options_unique h5 k5
      have e6 := all2_unique range_unique h6 k6
      have e2 : messages.map (fun m => m) = messages' := map_get (by omega) fun k y z hy hz => by
        obtain ⟨w, hw⟩ := get_some (xs := messagesOf elems) (k := k) (by have := (List.getElem?_eq_some_iff.1 hy).1; omega)
        exact ih k w y hw hy (k3 k w z hw hz)
      rw [List.map_id'] at e2
      rw [e1, e2, e4, e5, e6]

theorem file_unique {t : Text} {p p' : FileDecl} (h : FileIs t p) (h' : FileIs t p') (h1 : p.goImport = p'.goImport) (h2 : p.goPackage = p'.goPackage) : p = p' := by
  have e1 := edition_unique h.edition h'.edition
  have e2 := h.package.trans h'.package.symm
  have e3 := h.directives.trans h'.directives.symm
  have e4 := options_unique h.options h'.options
  have e5 := all2_unique enum_unique h.enums h'.enums
  have e6 := all2_unique (R := MessageIs) (fun x y z a b => message_unique a b) h.messages h'.messages
  cases p
  cases p'
  simp_all

theorem method_unique (n : RpcNode) (m m' : MethodRec) (h : MethodIs n m) (h' : MethodIs n m') : m = m' := by
  obtain ⟨a1, a2, a3, a4, a5, a6, a7⟩ := h
  obtain ⟨b1, b2, b3, b4, b5, b6, b7⟩ := h'
  have c5 := options_unique a5 b5
  have c6 := bool_eq a6 b6
  have c7 := bool_eq a7 b7
  cases m
  cases m'
  simp_all

theorem service_unique (n : Str × List Str × List ServiceElem) (s s' : ServiceRec) (h : ServiceIs n s) (h' : ServiceIs n s') : s = s' := by
  obtain ⟨a1, a2, a3, a4⟩ := h
  obtain ⟨b1, b2, b3, b4⟩ := h'
  have c3 := options_unique a3 b3
  have c4 := all2_unique method_unique a4 b4
  cases s
  cases s'
  simp_all

end Gen
end Verif.Props
