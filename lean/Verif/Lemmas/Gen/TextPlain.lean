import Verif.Lemmas.Gen.TextNames
import Verif.Lemmas.Gen.GoUnique
/-!
# The names in generated declarations are not keywords
-/
namespace Verif.Props
open Verif.Model.Gen Verif.Spec.Gen
namespace Gen

theorem goWord_map {s : Str} (h : GoWord s) : s ≠ "map".toList := by
  rintro rfl
  exact absurd h.notKeyword (by decide +kernel)

theorem expr_plain {own : Str} : ∀ {t : GoExpr}, ExprOk own t → (exprSyn own t).Plain
  | .basic s, h => by
    unfold exprSyn
    split
    · show "byte".toList ≠ "map".toList
      decide +kernel
    · rename_i hs
      exact goWord_map (h.resolve_left hs)
  | .iface n, h => goWord_map h
  | .named pkg n, h => by
    unfold exprSyn
    split
    · exact goWord_map h.1
    · rename_i hp
      exact goWord_map (h.2 hp)
  | .ptr t, h => expr_plain (t := t) h
  | .slice t, h => expr_plain (t := t) h
  | .map k v, h => ⟨expr_plain h.1, expr_plain h.2⟩

theorem zero_plain {own : Str} {z : ZeroExpr} (h : ZeroOk own z) : (zeroSyn own z).Plain := by
  cases z with
  | const pkg n =>
    by_cases hp : pkg = own
    · rw [zeroSyn, if_pos hp]
      exact h.2
    · rw [zeroSyn, if_neg hp]
      exact trivial
  | lit t => exact expr_plain (t := t) h
  | _ => exact trivial

theorem slots_plain {W : World} {p : Nat} {notes : Notes} {q : List Nat} {c : Chain} (h : MessageOk W p notes q c) : ∀ (xs : List (FieldDecl × Str)) (seen : List Nat),
    (∀ x ∈ xs, x ∈ namedFields c.msg) → ∀ f ∈ genSlots W p c seen xs, ExprOk (W.file p).goImport f.type
  | [], _, _, f, hf => by cases hf
  | (g, n) :: xs, seen, hx, f, hf => by
    have hx' : ∀ y ∈ xs, y ∈ namedFields c.msg := fun y hy => hx y (List.mem_cons_of_mem _ hy)
    have hm := hx (g, n) (List.mem_cons_self ..)
    rw [genSlots] at hf
    split at hf
    · rename_i k ho
      split at hf
      · exact slots_plain h xs _ hx' f hf
      · rcases List.mem_cons.1 hf with rfl | hf
        · exact iface_goWord h.name (h.oneofs k (h.exist (g, n) hm k ho))
        · exact slots_plain h xs _ hx' f hf
    · rcases List.mem_cons.1 hf with rfl | hf
      · exact (h.fields (g, n) hm).type
      · exact slots_plain h xs _ hx' f hf

theorem fieldGetter_names {W : World} {p : Nat} {c : Chain} {f : FieldDecl} {n : Str} (h : FieldOk W p c f n) :
    ExprOk (W.file p).goImport (fieldGetter W p c f n).type ∧ ZeroOk (W.file p).goImport (fieldGetter W p c f n).zero := by
  have ht := h.type
  unfold fieldGetter
  dsimp only
  split
  · rename_i e he
    rw [he] at ht
    exact ⟨ht, h.zero⟩
  · exact ⟨ht, h.zero⟩

theorem getters_plain {W : World} {p : Nat} {notes : Notes} {q : List Nat} {c : Chain} (h : MessageOk W p notes q c) : ∀ (xs : List (FieldDecl × Str)) (seen : List Nat),
    (∀ x ∈ xs, x ∈ namedFields c.msg) → ∀ g ∈ genGetters W p c seen xs, ExprOk (W.file p).goImport g.type ∧ ZeroOk (W.file p).goImport g.zero
  | [], _, _, g, hg => by cases hg
  | (f, n) :: xs, seen, hx, g, hg => by
    have hx' : ∀ y ∈ xs, y ∈ namedFields c.msg := fun y hy => hx y (List.mem_cons_of_mem _ hy)
    have hm := hx (f, n) (List.mem_cons_self ..)
    rw [genGetters] at hg
    split at hg
    · rename_i k ho
      rcases List.mem_append.1 hg with hg | hg
      · split at hg
        · cases hg
        · rw [List.mem_singleton] at hg
          subst hg
          exact ⟨iface_goWord h.name (h.oneofs k (h.exist (f, n) hm k ho)), trivial⟩
      · rcases List.mem_cons.1 hg with rfl | hg
        · exact ⟨(h.fields (f, n) hm).type, (h.fields (f, n) hm).zero⟩
        · exact getters_plain h xs _ hx' g hg
    · rcases List.mem_cons.1 hg with rfl | hg
      · exact fieldGetter_names (h.fields (f, n) hm)
      · exact getters_plain h xs _ hx' g hg

theorem enum_plain (g : GoEnum) : ∀ d ∈ enumDecls g, d.Plain := by
  intro d hd
  unfold enumDecls at hd
  rcases List.mem_cons.1 hd with rfl | hd
  · exact trivial
  · rcases List.mem_append.1 hd with hd | hd
    · split at hd
      · cases hd
      · rw [List.mem_singleton] at hd
        subst hd
        exact trivial
    · split at hd
      · rcases List.mem_cons.1 hd with rfl | hd
        · exact trivial
        · rcases List.mem_cons.1 hd with rfl | hd
          · exact trivial
          · rw [List.mem_singleton] at hd
            subst hd
            exact trivial
      · cases hd

theorem message_plain {W : World} {p : Nat} {notes : Notes} {q : List Nat} {c : Chain} (o : GenOptions) (h : MessageOk W p notes q c) :
    ∀ d ∈ messageDecls o (genStruct W p c) (genGetters W p c [] (namedFields c.msg)) ((List.range c.msg.oneofs.length).map fun k => (oneofFieldType c k, wrappersOf W p c k)),
      d.Plain := by
  intro d hd
  unfold messageDecls at hd
  rcases List.mem_append.1 hd with hd | hd
  · rcases List.mem_append.1 hd with hd | hd
    · rcases List.mem_append.1 hd with hd | hd
      · rcases List.mem_append.1 hd with hd | hd
        · rcases List.mem_cons.1 hd with rfl | hd
          · intro f hf
            obtain ⟨g, hg, rfl⟩ := List.mem_map.1 hf
            refine expr_plain ?_
            rcases List.mem_append.1 hg with hg | hg
            · exact slots_plain h _ _ (fun _ hx => hx) g hg
            · split at hg
              · rw [List.mem_singleton] at hg
                subst hg
                exact .inl rfl
              · cases hg
          · rw [List.mem_singleton] at hd
            subst hd
            exact trivial
        · split at hd
          · rcases List.mem_cons.1 hd with rfl | hd
            · exact trivial
            · rw [List.mem_singleton] at hd
              subst hd
              exact trivial
          · cases hd
      · split at hd
        · obtain ⟨g, hg, rfl⟩ := List.mem_map.1 hd
          obtain ⟨h1, h2⟩ := getters_plain h _ _ (fun _ hx => hx) g hg
          exact ⟨expr_plain h1, zero_plain h2⟩
        · cases hd
    · split at hd
      · cases hd
      · rw [List.mem_singleton] at hd
        subst hd
        exact trivial
  · obtain ⟨x, hx, hd⟩ := List.mem_flatMap.1 hd
    obtain ⟨k, _, rfl⟩ := List.mem_map.1 hx
    unfold oneofDecls at hd
    rcases List.mem_cons.1 hd with rfl | hd
    · exact trivial
    · obtain ⟨w, hw, hd⟩ := List.mem_flatMap.1 hd
      obtain ⟨y, hy, rfl⟩ := List.mem_map.1 hw
      rcases List.mem_cons.1 hd with rfl | hd
      · intro f hf
        rw [List.mem_singleton] at hf
        subst hf
        exact expr_plain (h.fields y (List.mem_filter.1 hy).1).type
      · rw [List.mem_singleton] at hd
        subst hd
        exact trivial

theorem file_plain {W : World} {p : Nat} {notes : Notes} (o : GenOptions) (h : FileOk W p notes) : ∀ d ∈ fileDecls W o p, d.Plain := by
  intro d hd
  unfold fileDecls at hd
  rcases List.mem_append.1 hd with hd | hd
  · rcases List.mem_append.1 hd with hd | hd
    · obtain ⟨e, _, hd⟩ := List.mem_flatMap.1 hd
      exact enum_plain _ d hd
    · obtain ⟨m, _, hd⟩ := List.mem_flatMap.1 hd
      obtain ⟨e, _, hd⟩ := List.mem_flatMap.1 hd
      exact enum_plain _ d hd
  · obtain ⟨c, hc, hd⟩ := List.mem_flatMap.1 hd
    exact message_plain (q := []) o (h.messages c hc []) d hd

end Gen
end Verif.Props
