import Verif.Lemmas.Mem.Top
import Verif.Props.SampleItems
/-!
# Unmarshal and memory

The decoder on memory with sharing (`Model/MemDecoder.lean`): what it writes, what the decoded
message refers to, and that it computes what the decoder on trees computes.
-/
namespace Verif.Props
open Verif.Model Verif.Model.Mem Verif.Spec Verif.Lemmas Verif.Lemmas.Mem

section
variable {env : GoEnv} {S : Schema}

/-! ## C68: the decoded message does not share memory with the input -/

/-- Whatever can be reached from the message after `Unmarshal` could be reached from it before, or is
new memory.  Nothing is assumed about sharing or cycles. -/
theorem C68_isolation (hI : Implements env S) (hW : S.WF) (hz : ∀ id, flat (S id).zero = true)
    (h h' : Store) (b : View) (id a : Nat) (v v' : MVal) (hu : Unused h)
    (hm : h.mem a = .object v)
    (hr : unmarshalM env b (.ptr id (some a)) h = (.ok (), h')) (hm' : h'.mem a = .object v')
    (x : Nat) (hx : MemReaches h' v' x) : MemReaches h v x ∨ h.next ≤ x := by
  obtain ⟨D, hp, hD⟩ := parseDescs_ok hI hW
  have hreg := regular_of hD hW hz
  rw [unmarshalM_eq hp] at hr
  let R : Blocks := fun x => MemReaches h v x ∨ h.next ≤ x
  have hinv : Inv (fun _ => True) R h := by
    refine ⟨fun x hx => ⟨trivial, .inr (coming_le hx)⟩, fun a _ => ⟨fun _ _ => trivial, fun _ _ _ _ _ _ _ _ => trivial⟩,
      fun a ha x hx => ?_⟩
    by_cases hn : h.next ≤ a
    · rw [hu a hn] at hx; cases hx
    · rcases ha with ha | ha
      · exact .inl (.step a x ha hx)
      · exact absurd ha hn
  have hheld : Held (fun _ => True) R D (.struct id) v :=
    ⟨ownD_of_loc _ _ (fun _ _ => trivial), fun x hx => .inl (.here x hx)⟩
  obtain ⟨k1, -, -, k4⟩ := tri_struct hreg (b.len + 1) defaultRecursionMaxDepth b v id hheld h hinv
  cases hc : decodeStructM D (b.len + 1) defaultRecursionMaxDepth b v id h with
  | mk r h1 =>
    rw [hc] at k1 k4
    rw [decodeInto_eq hm b id hc] at hr
    cases r with
    | error e => injection hr with hr _; cases hr
    | ok w =>
      injection hr with _ hr
      subst hr
      have hw := (k4 w rfl).loc
      rw [set_mem] at hm'
      injection hm' with hm'
      have hv' : w = v' := hm'
      subst hv'
      clear hc
      induction hx with
      | here x hx => exact hw x hx
      | step a' x _ hbr ih =>
        by_cases he : a' = a
        · subst he
          rw [set_mem] at hbr
          cases hbr with
          | object _ _ hbr => exact hw x hbr
        · rw [set_mem_ne _ _ _ he] at hbr
          exact k1.loc a' ih x hbr

/-! ## C69: only the message is changed -/

theorem ownD_mono {W W' : Blocks} {D : Descs} {t : GoType} {v : MVal} (hs : OwnD W D t v)
    (hw : ∀ x, W x → W' x) : OwnD W' D t v := by
  induction hs with
  | list te v h1 => exact .list _ _ (fun a len he => hw _ (h1 a len he))
  | map k e v h1 => exact .map _ _ _ (fun a he => hw _ (h1 a he))
  | struct id v _ h2 h3 ih =>
    exact .struct _ _ ih (fun fs he slot u h4 h5 => hw _ (h2 fs he slot u h4 h5))
      (fun fs he slot u h4 h5 => hw _ (h3 fs he slot u h4 h5))
  | other t v h1 h2 h3 => exact .other _ _ h1 h2 h3

/-- `Unmarshal` into the message at `a` writes to the message, to the memory that belongs to it (the
arrays of its lists, its maps, its storage for unknown fields) and to new memory, and to nothing
else, also if it fails.  In particular it does not write to the input, nor to strings, `[]byte`
values and messages behind pointers that the message referred to.  Nothing is assumed about sharing
or cycles. -/
theorem C69_frame (hI : Implements env S) (hW : S.WF) (hz : ∀ id, flat (S id).zero = true)
    (h : Store) (b : View) (id a : Nat) (v : MVal) (hu : Unused h) (hm : h.mem a = .object v)
    (W : Blocks) (hc : OwnClosed W h) (ho : OwnIn W S (.struct id) v)
    (x : Nat) (hx : x < h.next) (ha : x ≠ a) (hw : ¬ W x) :
    (unmarshalM env b (.ptr id (some a)) h).2.mem x = h.mem x := by
  obtain ⟨D, hp, hD⟩ := parseDescs_ok hI hW
  have hreg := regular_of hD hW hz
  rw [unmarshalM_eq hp]
  let W' : Blocks := fun x => W x ∨ h.next ≤ x
  have hinv : Inv W' (fun _ => True) h := by
    refine ⟨fun x hx => ⟨.inr (coming_le hx), trivial⟩, fun a ha => ?_, fun _ _ _ _ => trivial⟩
    by_cases hn : h.next ≤ a
    · rw [hu a hn]; exact fine_bytes _
    · have ha : W a := ha.resolve_right hn
      refine ⟨fun u he => .inl (hc.1 a u ha he), fun ys he y hy fs hfs z hz => ?_⟩
      subst hfs
      exact .inl (hc.2 a ys ha he fs hy z hz)
  have hheld : Held W' (fun _ => True) D (.struct id) v :=
    ⟨ownD_mono (ownD_of hD ho) (fun _ hx => .inl hx), fun _ _ => trivial⟩
  obtain ⟨-, k2, -, -⟩ := tri_struct hreg (b.len + 1) defaultRecursionMaxDepth b v id hheld h hinv
  cases hc : decodeStructM D (b.len + 1) defaultRecursionMaxDepth b v id h with
  | mk r h1 =>
    rw [hc] at k2
    rw [decodeInto_eq hm b id hc]
    refine (set_mem_ne _ _ _ ha).trans (k2 x ?_)
    rintro (hh | hh)
    · exact hw hh
    · omega

/-- With any other argument than a pointer to a struct variable no memory is changed. -/
theorem C69_other (h : Store) (b : View) (arg : MArg) (ha : ∀ id a, arg ≠ .ptr id (some a)) :
    (unmarshalM env b arg h).2 = h := by
  cases arg with
  | nil => rfl
  | nonPtr => rfl
  | ptrOther _ => rfl
  | ptr id a =>
    cases a with
    | some a => exact absurd rfl (ha id a)
    | none =>
      unfold unmarshalM
      cases hp : parseDescs env with
      | error e =>
        have : lift (α := Descs) (.error e) h = (.error e, h) := rfl
        dsimp only
        rw [bind_err this]
      | ok D =>
        have : lift (α := Descs) (.ok D) h = (.ok D, h) := rfl
        dsimp only
        rw [bind_ok this]
        rfl

/-! ## C70: the result depends only on the content of the message and of the input -/

/-- The decoder on memory does what the decoder on trees does, provided that the message is a tree
in memory (no block is referred to twice), the input is not part of it, and the spare capacity of
lists of inline structs is zero (without this it is false, see `C70_stale_violated`).  So all
theorems about `unmarshal` hold for messages in memory, and addresses and capacities do not matter.
The blocks of the result are those of the old message and new ones. -/
theorem C70_content_partial (hI : Implements env S) (hW : S.WF) (hz : ∀ id, flat (S id).zero = true)
    (h : Store) (b : View) (bs : Bytes) (id a : Nat) (v : MVal) (t : Val) (F : Blocks)
    (hm : h.mem a = .object v) (hr : MemRep h v t F)
    (hF : ∀ x, F x → x < h.next ∧ x ≠ a ∧ x ≠ b.addr) (ha : a < h.next)
    (hb : b.addr < h.next ∧ b.addr ≠ a) (hbs : h.read b = .ok bs)
    (hs : SpareZero h S (.struct id) v) :
    (∀ t', unmarshal env bs (.ptr id (some t)) = .ok t' →
      ∃ (h' : Store) (v' : MVal) (F' : Blocks),
        unmarshalM env b (.ptr id (some a)) h = (.ok (), h') ∧
        h'.mem a = .object v' ∧ MemRep h' v' t' F' ∧
        (∀ x, F' x → (F x ∨ h.next ≤ x) ∧ x < h'.next ∧ x ≠ a ∧ x ≠ b.addr) ∧
        h.next ≤ h'.next ∧ h'.read b = .ok bs ∧ SpareZero h' S (.struct id) v') ∧
    (∀ e, unmarshal env bs (.ptr id (some t)) = .error e →
      (unmarshalM env b (.ptr id (some a)) h).1 = .error e) := by
  obtain ⟨D, hp, hD⟩ := parseDescs_ok hI hW
  have hreg := regular_of hD hW hz
  rw [unmarshalM_eq hp]
  have hin : Input h b bs F := ⟨hbs, hb.1, fun hx => (hF _ hx).2.2 rfl⟩
  have hsim := sim_struct hreg (b.len + 1) h F defaultRecursionMaxDepth b bs v t id hin
    (fun x hx => (hF x hx).1) hr (clean_of_spare hD hs)
  have hun : unmarshal env bs (.ptr id (some t)) =
      decodeStruct D (b.len + 1) defaultRecursionMaxDepth bs t id := by
    unfold unmarshal
    rw [hp, ← input_len hin]
    rfl
  rw [hun]
  obtain ⟨k1, k2⟩ := hsim
  cases hc : decodeStructM D (b.len + 1) defaultRecursionMaxDepth b v id h with
  | mk r h1 =>
    rw [hc] at k1 k2
    rw [decodeInto_eq hm b id hc]
    refine ⟨fun t' ht => ?_, fun e he => ?_⟩
    · rw [ht] at k2
      cases r with
      | error e => exact k2.elim
      | ok w =>
        obtain ⟨k3, k4⟩ := k2
        have hn : h.next ≤ h1.next := k1.next
        have hout : ∀ x, grow F h h1 x → (F x ∨ h.next ≤ x) ∧ x < h1.next ∧ x ≠ a ∧ x ≠ b.addr := by
          rintro x (hx | hx)
          · obtain ⟨g1, g2, g3⟩ := hF x hx
            exact ⟨.inl hx, by omega, g2, g3⟩
          · exact ⟨.inr hx.1, hx.2, by omega, by have := hb.1; omega⟩
        have hsame : ∀ x, grow F h h1 x → (h1.set a (.object w)).mem x = h1.mem x :=
          fun x hx => set_mem_ne _ _ _ (hout x hx).2.2.1
        refine ⟨_, w, grow F h h1, rfl, set_mem _ _ _, rep_frame k3 hsame, hout, hn, ?_, ?_⟩
        · rw [← hbs]
          refine read_congr ((set_mem_ne _ _ _ hb.2).trans (k1.frame _ hb.1 hin.out))
        · exact spare_of_clean hD (clean_frame k4 k3 hsame)
    · rw [he] at k2
      cases r with
      | error e' => exact congrArg Except.error k2
      | ok w => exact k2.elim

/-- After `Unmarshal` into a new message, the message consists of new memory only and is the one
which `unmarshal` computes from the bytes; it stays the same whatever is done to the input buffer,
or to any other memory that existed before, afterwards. -/
theorem C68_fresh (hI : Implements env S) (hW : S.WF) (hz : ∀ id, flat (S id).zero = true)
    (h : Store) (b : View) (bs : Bytes) (id a : Nat) (hm : h.mem a = .object (ofFlat (S id).zero))
    (ha : a < h.next) (hb : b.addr < h.next ∧ b.addr ≠ a) (hbs : h.read b = .ok bs) (t' : Val)
    (ht : unmarshal env bs (.ptr id (some (S id).zero)) = .ok t') :
    ∃ (h' : Store) (v' : MVal) (F' : Blocks),
      unmarshalM env b (.ptr id (some a)) h = (.ok (), h') ∧ h'.mem a = .object v' ∧
      (∀ x, F' x → h.next ≤ x ∧ x < h'.next) ∧ MemRep h' v' t' F' ∧
      ∀ h'' : Store, (∀ x, h.next ≤ x → h''.mem x = h'.mem x) → MemRep h'' v' t' F' := by
  obtain ⟨D, hp, hD⟩ := parseDescs_ok hI hW
  have hsp : SpareZero h S (.struct id) (ofFlat (S id).zero) :=
    spare_of_clean hD (clean_flat h D (S id).zero (hz id) _)
  obtain ⟨h1, -⟩ := C70_content_partial hI hW hz h b bs id a _ (S id).zero (fun _ => False) hm
    (rep_flat h _ _ (hz id)) (fun _ hx => hx.elim) ha hb hbs hsp
  obtain ⟨h', v', F', g1, g2, g3, g4, g5, -⟩ := h1 t' ht
  have hF' : ∀ x, F' x → h.next ≤ x ∧ x < h'.next := fun x hx =>
    ⟨(g4 x hx).1.resolve_left (fun hh => hh), (g4 x hx).2.1⟩
  exact ⟨h', v', F', g1, g2, hF', g3, fun h'' hs => rep_frame g3 (fun x hx => hs x (hF' x hx).1)⟩

/-! ## C71: values taken from a message before stay as they are -/

/-- A value the caller holds (for example a string, a `[]byte` or a submessage taken from the message)
keeps its content when the message is decoded into again, if it does not contain the message itself
or memory that belongs to it.  Missing: the storage of unknown fields is reused, see
`C71_copy_violated`. -/
theorem C71_held_partial (hI : Implements env S) (hW : S.WF) (hz : ∀ id, flat (S id).zero = true)
    (h : Store) (b : View) (id a : Nat) (v : MVal) (hu : Unused h) (hm : h.mem a = .object v)
    (W : Blocks) (hc : OwnClosed W h) (ho : OwnIn W S (.struct id) v)
    (w : MVal) (t : Val) (F : Blocks) (hr : MemRep h w t F)
    (hF : ∀ x, F x → x < h.next ∧ x ≠ a ∧ ¬ W x) :
    MemRep (unmarshalM env b (.ptr id (some a)) h).2 w t F :=
  rep_frame hr (fun x hx => C69_frame hI hW hz h b id a v hu hm W hc ho x (hF x hx).1 (hF x hx).2.1
    (hF x hx).2.2)

end

/-! ## Examples, and what is false -/

namespace Items
open Verif.Props.Sample (inner)

/-- Memory with the given blocks. -/
def heap (bs : List Block) : Store := ⟨fun x => bs.getD x (.bytes []), bs.length, fun _ => 0, fun _ => 0⟩

theorem heap_unused (bs : List Block) : Unused (heap bs) := by
  intro x hx
  show bs.getD x (.bytes []) = _
  rw [List.getD_eq_getElem?_getD, List.getElem?_eq_none hx]
  rfl

/-- `Items = [{5}]`, `Note = "hi"`, `Next = {}`, and an unknown field 4. -/
def input : Bytes := [0x0a, 2, 8, 5, 0x12, 2, 0x68, 0x69, 0x1a, 0, 0x20, 9]

/-- A message that is in use: `Items = [{1}]` with room for one more, `Note = "x"`, a submessage, and
an unknown field. -/
def used : MVal :=
  .struct [.slice (some 2) 1, .str (some ⟨3, 0, 1⟩), .ptr (some 4), .bytes (some ⟨5, 0, 2⟩)]

def store : Store := heap [.bytes input, .object used,
  .array [.struct [.w32 1], .struct [.w32 0]], .bytes [0x78], .object (ofFlat (.struct zero)),
  .bytes [0x20, 1]]

/-- The same message as a tree. -/
def usedTree : Val :=
  .struct [.slice [.struct [.w32 1]], .str [0x78], .ptr (some (.struct zero)), .bytes (some [0x20, 1])]

theorem used_rep : MemRep store used usedTree (fun x => 2 ≤ x ∧ x < 6) := by
  have hz : MemRep store (ofFlat (.struct zero)) (.struct zero) (fun _ => False) :=
    rep_flat _ _ _ rfl
  refine .struct _ _ _ (.cons _ _ _ _ (fun x => x = 2) (fun x => 3 ≤ x ∧ x < 6) _ ?_
    (.cons _ _ _ _ (fun x => x = 3) (fun x => 4 ≤ x ∧ x < 6) _ ?_
      (.cons _ _ _ _ (fun x => x = 4) (fun x => x = 5) _ ?_
        (.cons _ _ _ _ (fun x => x = 5) (fun _ => False) _ ?_ (.nil _) ?_ ?_ ?_) ?_ ?_ ?_) ?_ ?_ ?_)
    ?_ ?_ ?_)
  · refine .slice 2 1 [.struct [.w32 1], .struct [.w32 0]] _ (fun _ => False) _ rfl (by decide) ?_
      id rfl (fun _ h => h.elim)
    exact .cons _ _ _ _ (fun _ => False) (fun _ => False) _ (.struct _ _ _ (.cons _ _ _ _
      (fun _ => False) (fun _ => False) _ (.w32 _ _) (.nil _) (fun _ h => h.elim) (fun _ h => h.elim)
      (fun _ h => h.elim))) (.nil _) (fun _ h => h.elim) (fun _ h => h.elim) (fun _ h => h.elim)
  · exact .str _ _ _ rfl rfl
  · exact .ptr 4 _ _ (fun _ => False) _ rfl hz id rfl (fun _ h => h.elim)
  · exact .bytes _ _ _ rfl rfl
  all_goals intro x hx
  all_goals first | exact hx.elim | omega | (intro hx'; omega) | (intro hx'; exact hx')

theorem used_spare_of {h : Store} (hm : h.mem 2 = store.mem 2) : SpareZero h schema (.struct 0) used := by
  refine .struct _ _ (fun fs he f hf _ x hx => ?_)
  injection he with he
  subst he
  simp only [schema, msg, List.mem_cons, List.not_mem_nil, or_false] at hf
  rcases hf with rfl | rfl | rfl <;> cases hx
  · refine .list _ _ (fun a len xs id h1 h2 h3 x hx => ?_)
    injection h1 with h1 h4
    injection h1 with h1
    subst h1 h4
    have h3 : Block.array [.struct [.w32 1], .struct [.w32 0]] = .array xs := hm.symm.trans h3
    injection h3 with h3
    subst h3
    have h2 : GoType.struct 1 = .struct id := h2
    injection h2 with h2
    subst h2
    exact (List.mem_singleton.1 hx).trans rfl
  · exact .other _ _ (fun _ h => (by cases h)) (fun _ h => (by cases h))
  · exact .other _ _ (fun _ h => (by cases h)) (fun _ h => (by cases h))

theorem used_spare : SpareZero store schema (.struct 0) used := used_spare_of rfl

/-- The memory that belongs to the message: the array of the list, and the unknown fields. -/
def usedOwn : Blocks := fun x => x = 2 ∨ x = 5

theorem used_own : OwnIn usedOwn schema (.struct 0) used := by
  refine .struct _ _ (fun fs he f hf _ x hx => ?_) (fun fs he slot u hu hx => ?_)
    (fun fs he slot a hu hx => ?_)
  · injection he with he
    subst he
    simp only [schema, msg, List.mem_cons, List.not_mem_nil, or_false] at hf
    rcases hf with rfl | rfl | rfl <;> cases hx
    · exact .list _ _ (fun a len h => by cases h; exact .inl rfl)
    · exact .other _ _ (fun _ h => (by cases h)) (fun _ _ h => (by cases h)) (fun _ h => (by cases h))
    · exact .other _ _ (fun _ h => (by cases h)) (fun _ _ h => (by cases h)) (fun _ h => (by cases h))
  · injection he with he
    subst he
    cases hu
    cases hx
    exact .inr rfl
  · cases hu

theorem used_closed_of {h : Store} (h2 : h.mem 2 = store.mem 2) (h5 : h.mem 5 = store.mem 5) :
    OwnClosed usedOwn h := by
  refine ⟨?_, ?_⟩
  · rintro a u (rfl | rfl) h
    · rw [h2] at h; cases h
    · rw [h5] at h; cases h
  · rintro a ys (rfl | rfl) h fs hfs x hx
    · have h : Block.array [.struct [.w32 1], .struct [.w32 0]] = .array ys := h2.symm.trans h
      injection h with h
      subst h
      simp only [List.mem_cons, MVal.struct.injEq, List.not_mem_nil, or_false] at hfs
      rcases hfs with rfl | rfl
      · cases hx with
        | field _ v _ h1 h2 =>
          simp only [List.mem_cons, List.not_mem_nil, or_false] at h1
          subst h1; cases h2
      · cases hx with
        | field _ v _ h1 h2 =>
          simp only [List.mem_cons, List.not_mem_nil, or_false] at h1
          subst h1; cases h2
    · rw [h5] at h; cases h

theorem used_closed : OwnClosed usedOwn store := used_closed_of rfl rfl

/-- The message after decoding. -/
def decodedTree : Val :=
  .struct [.slice [.struct [.w32 1], .struct [.w32 5]], .str [0x68, 0x69], .ptr (some (.struct zero)),
    .bytes (some [0x20, 9])]

set_option maxRecDepth 20000 in
theorem decoded : unmarshal env input (.ptr 0 (some usedTree)) = .ok decodedTree := by rfl

/-- `C69_frame` and `C70_content_partial` apply to this message: the input (0), the string (3) and
the submessage (4) are not changed, and the result is `decodedTree`. -/
example : ((unmarshalM env ⟨0, 0, 12⟩ (.ptr 0 (some 1)) store).2.mem 0 = store.mem 0 ∧
    (unmarshalM env ⟨0, 0, 12⟩ (.ptr 0 (some 1)) store).2.mem 3 = store.mem 3 ∧
    (unmarshalM env ⟨0, 0, 12⟩ (.ptr 0 (some 1)) store).2.mem 4 = store.mem 4) ∧
    ∃ h' v' F', unmarshalM env ⟨0, 0, 12⟩ (.ptr 0 (some 1)) store = (.ok (), h') ∧
      h'.mem 1 = .object v' ∧ MemRep h' v' decodedTree F' := by
  have fr := fun x hx ha hw => C69_frame env_implements schema_wf zero_flat store ⟨0, 0, 12⟩ 0 1 used
    (heap_unused _) rfl usedOwn used_closed used_own x hx ha hw
  refine ⟨⟨fr 0 (by decide) (by decide) (by simp [usedOwn]), fr 3 (by decide) (by decide)
    (by simp [usedOwn]), fr 4 (by decide) (by decide) (by simp [usedOwn])⟩, ?_⟩
  obtain ⟨h1, -⟩ := C70_content_partial env_implements schema_wf zero_flat store ⟨0, 0, 12⟩ input 0 1
    used usedTree _ rfl used_rep (fun x hx => ⟨hx.2, by omega, by show x ≠ 0; omega⟩) (by decide)
    ⟨by decide, by decide⟩ rfl used_spare
  obtain ⟨h', v', F', g1, g2, g3, -⟩ := h1 _ decoded
  exact ⟨h', v', F', g1, g2, g3⟩

/-- `C71_held_partial` applies to the string and the submessage that the message held before. -/
example : MemRep (unmarshalM env ⟨0, 0, 12⟩ (.ptr 0 (some 1)) store).2 (.str (some ⟨3, 0, 1⟩))
    (.str [0x78]) (fun x => x = 3) :=
  C71_held_partial env_implements schema_wf zero_flat store ⟨0, 0, 12⟩ 0 1 used (heap_unused _) rfl
    usedOwn used_closed used_own _ _ _ (.str _ _ _ rfl rfl)
    (fun x hx => by subst hx; exact ⟨by decide, by decide, by simp [usedOwn]⟩)

/-- A new message and the input. -/
def fresh : Store := heap [.bytes input, .object (ofFlat (.struct zero))]

set_option maxRecDepth 20000 in
/-- `C68_fresh` applies: the buffer can be overwritten. -/
example : ∃ h' v' F' t', unmarshalM env ⟨0, 0, 12⟩ (.ptr 0 (some 1)) fresh = (.ok (), h') ∧
    h'.mem 1 = .object v' ∧ t' ≠ .struct zero ∧ MemRep (h'.set 0 (.bytes [])) v' t' F' := by
  obtain ⟨h', v', F', g1, g2, g3, -, g5⟩ := C68_fresh env_implements schema_wf zero_flat fresh
    ⟨0, 0, 12⟩ input 0 1 rfl (by decide) ⟨by decide, by decide⟩ rfl
    (.struct [.slice [.struct [.w32 5]], .str [0x68, 0x69], .ptr (some (.struct zero)),
      .bytes (some [0x20, 9])]) rfl
  refine ⟨h', v', F', _, g1, g2, fun h => (by cases h), g5 _ (fun x hx => set_mem_ne _ _ _ ?_)⟩
  have : 2 ≤ x := hx
  omega

set_option maxRecDepth 20000 in
/-- `C68_isolation` applies: what the decoded message reaches is new, or one of the blocks 2 to 5. -/
example : ∃ h' v', unmarshalM env ⟨0, 0, 12⟩ (.ptr 0 (some 1)) store = (.ok (), h') ∧
    h'.mem 1 = .object v' ∧ (∀ x, MemReaches h' v' x → MemReaches store used x ∨ 6 ≤ x) := by
  obtain ⟨h1, -⟩ := C70_content_partial env_implements schema_wf zero_flat store ⟨0, 0, 12⟩ input 0 1
    used usedTree _ rfl used_rep (fun x hx => ⟨hx.2, by omega, by show x ≠ 0; omega⟩) (by decide)
    ⟨by decide, by decide⟩ rfl used_spare
  obtain ⟨h', v', F', g1, g2, -⟩ := h1 _ decoded
  exact ⟨h', v', g1, g2, C68_isolation env_implements schema_wf zero_flat store h' ⟨0, 0, 12⟩ 0 1 used
    v' (heap_unused _) rfl g1 g2⟩

/-! ### Stale memory -/

/-- A message with an empty list that has room for one element; the memory of that element holds
`{x}` (after `m.Items = m.Items[:0]`). -/
def stale (x : BitVec 32) : Store := heap [.bytes [0x0a, 0],
  .object (.struct [.slice (some 2) 0, .str none, .ptr none, .bytes none]), .array [.struct [.w32 x]]]

theorem stale_rep (x : BitVec 32) : MemRep (stale x)
    (.struct [.slice (some 2) 0, .str none, .ptr none, .bytes none]) (.struct zero) (fun y => y = 2) := by
  refine .struct _ _ _ (.cons _ _ _ _ (fun y => y = 2) (fun _ => False) _ ?_
    (.cons _ _ _ _ (fun _ => False) (fun _ => False) _ (.strNil _)
      (.cons _ _ _ _ (fun _ => False) (fun _ => False) _ (.ptrNil _)
        (.cons _ _ _ _ (fun _ => False) (fun _ => False) _ (.bytesNil _) (.nil _) ?_ ?_ ?_) ?_ ?_ ?_)
      ?_ ?_ ?_) ?_ ?_ ?_)
  · exact .slice 2 0 [.struct [.w32 x]] _ (fun _ => False) _ rfl (Nat.zero_le _) (.nil _) id rfl
      (fun _ h => h.elim)
  all_goals intro y hy
  all_goals first | exact hy.elim | exact hy | exact fun h => h

/-- What the message is after decoding `Items = [{}]`. -/
theorem stale_result (x : BitVec 32) : ∃ h', unmarshalM env ⟨0, 0, 2⟩ (.ptr 0 (some 1)) (stale x) =
    (.ok (), h') ∧ h'.mem 1 = .object (.struct [.slice (some 2) 1, .str none, .ptr none, .bytes none]) ∧
    h'.mem 2 = .array [.struct [.w32 x]] := ⟨_, rfl, rfl, rfl⟩

end Items

/-- The result of `Unmarshal` depends on the content of spare capacity: a list of inline structs that
was cut to length 0 gets elements with old content (internal/prutal/decoder.go:162-177 takes the next
element of the array as it is).  Two messages with the same content (no items) and the same input
(one item without fields) become different messages. -/
theorem C70_stale_violated : ∃ (env : GoEnv) (S : Schema) (h1 h2 h1' h2' : Store) (b : View)
    (bs : Bytes) (a : Nat) (v v' : MVal) (t t1 t2 : Val) (F : Blocks),
    Implements env S ∧ S.WF ∧
    h1.mem a = .object v ∧ h2.mem a = .object v ∧ MemRep h1 v t F ∧ MemRep h2 v t F ∧
    h1.read b = .ok bs ∧ h2.read b = .ok bs ∧
    unmarshalM env b (.ptr 0 (some a)) h1 = (.ok (), h1') ∧
    unmarshalM env b (.ptr 0 (some a)) h2 = (.ok (), h2') ∧
    h1'.mem a = .object v' ∧ h2'.mem a = .object v' ∧
    MemRep h1' v' t1 F ∧ MemRep h2' v' t2 F ∧ t1 ≠ t2 := by
  obtain ⟨h1', p1, p2, p3⟩ := Items.stale_result 7
  obtain ⟨h2', q1, q2, q3⟩ := Items.stale_result 0
  have rep : ∀ (h : Store) (x : BitVec 32), h.mem 2 = .array [.struct [.w32 x]] →
      MemRep h (.struct [.slice (some 2) 1, .str none, .ptr none, .bytes none])
        (.struct [.slice [.struct [.w32 x]], .str [], .ptr none, .bytes none]) (fun y => y = 2) := by
    intro h x hm
    refine .struct _ _ _ (.cons _ _ _ _ (fun y => y = 2) (fun _ => False) _ ?_
      (.cons _ _ _ _ (fun _ => False) (fun _ => False) _ (.strNil _)
        (.cons _ _ _ _ (fun _ => False) (fun _ => False) _ (.ptrNil _)
          (.cons _ _ _ _ (fun _ => False) (fun _ => False) _ (.bytesNil _) (.nil _) ?_ ?_ ?_) ?_ ?_ ?_)
        ?_ ?_ ?_) ?_ ?_ ?_)
    · refine .slice 2 1 [.struct [.w32 x]] _ (fun _ => False) _ hm (Nat.le_refl _) ?_ id rfl
        (fun _ h => h.elim)
      exact .cons _ _ _ _ (fun _ => False) (fun _ => False) _ (.struct _ _ _ (.cons _ _ _ _
        (fun _ => False) (fun _ => False) _ (.w32 _ _) (.nil _) (fun _ h => h.elim)
        (fun _ h => h.elim) (fun _ h => h.elim))) (.nil _) (fun _ h => h.elim) (fun _ h => h.elim)
        (fun _ h => h.elim)
    all_goals intro y hy
    all_goals first | exact hy.elim | exact hy | exact fun h => h
  refine ⟨Items.env, Items.schema, Items.stale 7, Items.stale 0, h1', h2', ⟨0, 0, 2⟩, [0x0a, 0], 1, _,
    _, _, _, _, _, Items.env_implements, Items.schema_wf, rfl, rfl, Items.stale_rep 7,
    Items.stale_rep 0, rfl, rfl, p1, q1, p2, q2, rep h1' 7 p3, rep h2' 0 q3, ?_⟩
  intro h
  simp at h

/-- Decoding into a message changes the unknown fields of a copy of the struct made before
(`old := *m`): the bytes of the unknown fields are overwritten in place
(internal/prutal/decoder.go:66-88 sets the length to 0 and appends). -/
theorem C71_copy_violated : ∃ (env : GoEnv) (S : Schema) (h h' : Store) (b : View) (bs : Bytes)
    (a : Nat) (v : MVal) (t t' : Val) (F : Blocks),
    Implements env S ∧ S.WF ∧
    h.mem a = .object v ∧ MemRep h v t F ∧ SpareZero h S (.struct 0) v ∧
    h.read b = .ok bs ∧ ¬ F b.addr ∧
    unmarshalM env b (.ptr 0 (some a)) h = (.ok (), h') ∧
    MemRep h' v t' F ∧ t ≠ t' := by
  have rep : ∀ (h : Store) (x : BitVec 8), h.mem 2 = .bytes [0x20, x] →
      MemRep h (.struct [.slice none 0, .str none, .ptr none, .bytes (some ⟨2, 0, 2⟩)])
        (.struct [.slice [], .str [], .ptr none, .bytes (some [0x20, x])]) (fun y => y = 2) := by
    intro h x hm
    refine .struct _ _ _ (.cons _ _ _ _ (fun _ => False) (fun y => y = 2) _ (.sliceNil _)
      (.cons _ _ _ _ (fun _ => False) (fun y => y = 2) _ (.strNil _)
        (.cons _ _ _ _ (fun _ => False) (fun y => y = 2) _ (.ptrNil _)
          (.cons _ _ _ _ (fun y => y = 2) (fun _ => False) _ ?_ (.nil _) ?_ ?_ ?_) ?_ ?_ ?_)
        ?_ ?_ ?_) ?_ ?_ ?_)
    · exact .bytes _ _ _ (read_ok_iff.2 ⟨_, hm, Nat.le_refl _, rfl⟩) rfl
    all_goals intro y hy
    all_goals first | exact hy.elim | exact hy | exact fun h => h
  refine ⟨Items.env, Items.schema, Items.heap [.bytes [0x20, 9], .object (.struct [.slice none 0,
    .str none, .ptr none, .bytes (some ⟨2, 0, 2⟩)]), .bytes [0x20, 1]], _, ⟨0, 0, 2⟩, [0x20, 9], 1, _,
    _, _, fun y => y = 2, Items.env_implements, Items.schema_wf, rfl, rep _ 1 rfl, ?_, rfl,
    by decide, rfl, rep _ 9 rfl, ?_⟩
  · refine .struct _ _ (fun fs he f hf _ x hx => ?_)
    injection he with he
    subst he
    simp only [Items.schema, Items.msg, List.mem_cons, List.not_mem_nil, or_false] at hf
    rcases hf with rfl | rfl | rfl <;> cases hx
    · exact .list _ _ (fun a len xs id h1 => by cases h1)
    · exact .other _ _ (fun _ h => (by cases h)) (fun _ h => (by cases h))
    · exact .other _ _ (fun _ h => (by cases h)) (fun _ h => (by cases h))
  · intro h
    simp at h

end Verif.Props
