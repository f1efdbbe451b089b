import Verif.Lemmas.Mem.Size
import Verif.Props.MemEncode
/-!
# C90: Size on memory with sharing

`sizeP` (`Model/MemSizer.lean`) reads the message in memory, one access at a time.
-/
namespace Verif.Props
open Verif.Model Verif.Model.Mem Verif.Spec Verif.Lemmas Verif.Lemmas.Mem

section
variable {env : GoEnv} {S : Schema} {h : Store} {π : Order} {K : Blocks} {a : MArg} {t : Arg}

theorem size_call (hI : Implements env S) (hW : S.WF) (hz : ∀ id, flat (S id).zero = true)
    (hs : ArgShows h π K a t) : Get h K (sizeP env π a) (size env t) Eq := by
  obtain ⟨D, hp, hD⟩ := parseDescs_ok hI hW
  have hreg := regular_of hD hW hz
  cases hs with
  | nil => exact get_done rfl
  | nonPtr => exact get_fail _
  | other isNil => cases isNil <;> first | exact get_done rfl | exact get_fail _
  | ptrNil id => exact get_done rfl
  | ptr id a v t hm hk hs =>
    unfold sizeP size
    rw [hp]
    exact get_bind (t := fun t => sizeStruct D defaultRecursionMaxDepth (some t) id) (get_object hm hk hs)
      (fun v t _ hr => get_struct hreg.zero _ _ _ id (.some hr))

/-- `Size` returns what `size` computes from the message that memory shows, and changes nothing. -/
theorem C90_size (hI : Implements env S) (hW : S.WF) (hz : ∀ id, flat (S id).zero = true)
    (hs : ArgShows h π K a t) : (sizeP env π a).run h = (size env t, h) := by
  have hr := wp_run _ _ (size_call hI hW hz hs)
  obtain ⟨h1, h2⟩ := hr
  refine Prod.ext ?_ h1
  cases hq : size env t with
  | error e =>
    rw [hq] at h2
    exact h2
  | ok n =>
    rw [hq] at h2
    obtain ⟨m, h2, rfl⟩ := h2
    exact h2

/-- Step by step, `Size` writes nothing and reads only the message, and of strings and `[]byte` values
only the headers. -/
theorem C90_accesses (hI : Implements env S) (hW : S.WF) (hz : ∀ id, flat (S id).zero = true)
    (hs : ArgShows h π K a t) : KeepsTo (fun _ => False) (Headers h K) (sizeP env π a) h :=
  wp_keeps _ _ (size_call hI hW hz hs)

/-- `Size` returns the number of bytes that `Marshal` returns, also if the two calls iterate over maps
in different orders. -/
theorem C90_marshal (hI : Implements env S) (hW : S.WF) (hz : ∀ id, flat (S id).zero = true) {id x : Nat} {v : MVal}
    {t : Val} (ht : Typed S id t) (hm : h.mem x = .object v) (hx : K x) (hs : MemShows h stored K v t)
    (hk : ∀ x, K x → ¬ Coming h x) {π π' : Order} (hπ : ∀ a es, (π a es).Perm es)
    (hπ' : ∀ a es, (π' a es).Perm es) (r : Bytes) (hr : marshal env (.ptr id (some t)) = .ok r)
    (hl : (encode S false 1000 id t).all (·.length < 2 ^ 64)) :
    ∃ r' dst', (sizeP env π (.ptr id (some x))).run h = (.ok r'.length, h) ∧
      ((marshalAppendP env π' none (.ptr id (some x))).run h).1 = .ok dst' ∧
      Holds ((marshalAppendP env π' none (.ptr id (some x))).run h).2 dst' r' := by
  obtain ⟨t1, g1, g2⟩ := shows_order hπ hs
  obtain ⟨t2, r2, d, g3, g4, g5, g6, g7⟩ := C89_order hI hW hz ht hm hx hs hk hπ' r hr hl
  obtain ⟨r1, g8, g9⟩ := C36_length hI hW id t t1 ht g2 r hr hl
  refine ⟨r2, d, ?_, g6, g7⟩
  rw [C90_size hI hW hz (.ptr id x v t1 hm hx g1), C02_size hI hW id t1 (typed_perm ht g2) ?_, g8, g5, ← g9]
  · rfl
  · intro bs he
    have hp := encode_perm hW false 1000 id t t1 g2 ht (typed_perm ht g2)
    rw [he] at hp
    cases he' : encode S false 1000 id t with
    | none => rw [he'] at hp; cases hp
    | some bs' =>
      rw [he'] at hp hl
      simp only [Option.all_some, decide_eq_true_eq] at hl
      have hp : bs'.length = bs.length := Option.some.inj hp
      omega

end

/-! ## Examples -/

namespace Items

theorem shared_arg : ArgShows sharedStore stored (fun x => 1 ≤ x ∧ x < 6) (.ptr 0 (some 1)) (.ptr 0 (some sharedTree)) :=
  .ptr 0 1 _ _ rfl (by decide) shared_shows

/-- `C90_size` applies to a message with sharing. -/
example : (sizeP env stored (.ptr 0 (some 1))).run sharedStore = (.ok 20, sharedStore) := by
  have hs : size env (.ptr 0 (some sharedTree)) = .ok 20 := by decide +kernel
  rw [← hs]
  exact C90_size env_implements schema_wf zero_flat shared_arg

/-- `C90_accesses` applies to it: the note (3) and the unknown fields (5) are not read. -/
example : KeepsTo (fun _ => False) (fun x => x = 1 ∨ x = 2 ∨ x = 4) (sizeP env stored (.ptr 0 (some 1))) sharedStore := by
  refine keepsTo_mono (fun _ hx => hx) ?_ _ _ (C90_accesses env_implements schema_wf zero_flat shared_arg)
  rintro x ⟨⟨h1, h2⟩, h3⟩
  obtain rfl | rfl | rfl | rfl | rfl : x = 1 ∨ x = 2 ∨ x = 3 ∨ x = 4 ∨ x = 5 := by omega
  · exact .inl rfl
  · exact .inr (.inl rfl)
  · exact (h3 _ rfl).elim
  · exact .inr (.inr rfl)
  · exact (h3 _ rfl).elim

end Items

namespace Sample

/-- `C90_marshal` applies: `Size` goes through maps forwards, `Marshal` backwards. -/
example : ∃ r' dst', (sizeP env stored (.ptr 0 (some 0))).run mapStore = (.ok r'.length, mapStore) ∧
      ((marshalAppendP env (fun _ es => es.reverse) none (.ptr 0 (some 0))).run mapStore).1 = .ok dst' ∧
      Holds ((marshalAppendP env (fun _ es => es.reverse) none (.ptr 0 (some 0))).run mapStore).2 dst' r' := by
  have hk : ∀ x, x < 2 → ¬ Coming mapStore x := by
    intro x hx hc
    have : 2 ≤ x := coming_le hc
    omega
  have hl : (encode schema false 1000 0 mapTree).all (·.length < 2 ^ 64) = true := by
    rw [show encode schema false 1000 0 mapTree = some [0x82, 0x7d, 4, 8, 5, 0x10, 1, 0x82, 0x7d, 4, 8, 6, 0x10, 0] by decide +kernel]
    rfl
  exact C90_marshal (h := mapStore) (K := fun x => x < 2) (π := stored) (π' := fun _ es => es.reverse) (x := 0)
    env_implements schema_wf msg_flat map_typed rfl (show 0 < 2 by decide) map_shows hk (fun _ es => .refl es)
    (fun _ es => List.reverse_perm es) _ map_marshal hl

end Sample

end Verif.Props
