import Verif.Lemmas.Mem.EncStruct
import Verif.Lemmas.Mem.Shows
import Verif.Props.Memory
import Verif.Props.Marshal
import Verif.Lemmas.DecTyped
/-!
# C89: Marshal and MarshalAppend on memory with sharing

`marshalAppendP` (`Model/MemEncoder.lean`) reads the message and writes its output in memory, one access
at a time.  `MemShows` says which message the memory shows; blocks may be shared.
-/
namespace Verif.Props
open Verif.Model Verif.Model.Mem Verif.Spec Verif.Lemmas Verif.Lemmas.Mem

section
variable {env : GoEnv} {S : Schema} {h : Store} {π : Order} {K : Blocks} {dst : Out} {b : Bytes} {a : MArg} {t : Arg}

/-- Where the call starts. -/
def siteOf (hc : AppendCall h π K dst b a t) : Site :=
  ⟨h, dst, b, K, hc.buffer, fun _ hx v hv he => hc.old v hv (he ▸ hx), hc.apart⟩

theorem encode_call (hI : Implements env S) (hW : S.WF) (hz : ∀ id, flat (S id).zero = true)
    (hc : AppendCall h π K dst b a t) :
    Wp (OutBlocks h dst) (fun x => K x ∨ OutBlocks h dst x) ((siteOf hc).Post (marshalAppend env b t))
      (marshalAppendP env π dst a) h := by
  obtain ⟨D, hp, hD⟩ := parseDescs_ok hI hW
  have hreg := regular_of hD hW hz
  have hw : (siteOf hc).Writing h dst b := writing_start (s := siteOf hc)
  have go : ∀ v t sid, OptRel ((siteOf hc).Sh π) v t → Wp (OutBlocks h dst) (fun x => K x ∨ OutBlocks h dst x)
      ((siteOf hc).Post (appendStruct D defaultRecursionMaxDepth b t sid false))
      (appendStructP D π defaultRecursionMaxDepth dst v sid false) h := fun v t sid hv =>
    (enc_struct hreg.zero defaultRecursionMaxDepth false v t sid hv).at_ b (List.prefix_refl _) h dst hw
  cases hc.arg with
  | nil => exact ⟨rfl, frame_start (s := siteOf hc)⟩
  | nonPtr => exact ⟨rfl, frame_start (s := siteOf hc)⟩
  | other => exact ⟨rfl, frame_start (s := siteOf hc)⟩
  | ptrNil id =>
    unfold marshalAppendP marshalAppend
    rw [hp]
    exact go none none id .none
  | ptr id a v t hm hk hs =>
    unfold marshalAppendP marshalAppend
    rw [hp]
    refine ⟨.inl hk, ?_⟩
    rw [hm]
    exact go (some v) (some t) id (.some hs)

/-- `MarshalAppend` returns what `marshalAppend` computes from the message and the bytes of the buffer:
the result is in the memory of the buffer if its capacity suffices, else in new memory. -/
theorem C89_append (hI : Implements env S) (hW : S.WF) (hz : ∀ id, flat (S id).zero = true)
    (hc : AppendCall h π K dst b a t) :
    (∀ out, marshalAppend env b t = .ok out → ∃ dst', ((marshalAppendP env π dst a).run h).1 = .ok dst' ∧
      Holds ((marshalAppendP env π dst a).run h).2 dst' out ∧ AppendedTo h dst dst' out.length) ∧
    (∀ e, marshalAppend env b t = .error e → ((marshalAppendP env π dst a).run h).1 = .error e) := by
  have hr := wp_run _ _ (encode_call hI hW hz hc)
  constructor
  · intro out ho
    rw [ho] at hr
    obtain ⟨d, h1, h2⟩ := hr
    exact ⟨d, h1, h2.holds, h2.place⟩
  · intro e he
    rw [he] at hr
    exact hr.1

/-- `MarshalAppend` changes no memory but that of the buffer and new memory; the bytes of the buffer
(up to its length) stay.  So the message is not changed, also if the call fails. -/
theorem C89_frame (hI : Implements env S) (hW : S.WF) (hz : ∀ id, flat (S id).zero = true)
    (hc : AppendCall h π K dst b a t) :
    (∀ x, ¬ OutBlocks h dst x → ((marshalAppendP env π dst a).run h).2.mem x = h.mem x) ∧
    KeptUpTo h ((marshalAppendP env π dst a).run h).2 dst := by
  have hr := wp_run _ _ (encode_call hI hW hz hc)
  cases hm : marshalAppend env b t with
  | error e =>
    rw [hm] at hr
    exact ⟨hr.2.same, hr.2.kept⟩
  | ok out =>
    rw [hm] at hr
    obtain ⟨d, -, h2⟩ := hr
    exact ⟨h2.frame.same, h2.frame.kept⟩

/-- Step by step, the call reads only the message, the buffer and new memory, and writes only the buffer
and new memory. -/
theorem C89_accesses (hI : Implements env S) (hW : S.WF) (hz : ∀ id, flat (S id).zero = true)
    (hc : AppendCall h π K dst b a t) :
    KeepsTo (OutBlocks h dst) (fun x => K x ∨ OutBlocks h dst x) (marshalAppendP env π dst a) h :=
  wp_keeps _ _ (encode_call hI hW hz hc)

/-- `Marshal` changes no memory that was there, and the bytes it returns are in new memory. -/
theorem C89_marshal (hI : Implements env S) (hW : S.WF) (hz : ∀ id, flat (S id).zero = true)
    (hs : ArgShows h π K a t) (hk : ∀ x, K x → ¬ Coming h x) :
    (∀ out, marshal env t = .ok out → ∃ dst', ((marshalAppendP env π none a).run h).1 = .ok dst' ∧
      Holds ((marshalAppendP env π none a).run h).2 dst' out ∧ ∀ v, dst' = some v → Coming h v.addr) ∧
    (∀ e, marshal env t = .error e → ((marshalAppendP env π none a).run h).1 = .error e) ∧
    (∀ x, ¬ Coming h x → ((marshalAppendP env π none a).run h).2.mem x = h.mem x) := by
  have hc : AppendCall h π K none [] a t := by
    refine ⟨hs, rfl, nofun, fun x hx ho => ?_⟩
    rcases ho with ⟨v, hv, -⟩ | ho
    · cases hv
    · exact hk x hx ho
  obtain ⟨h1, h2⟩ := C89_append hI hW hz hc
  refine ⟨fun out ho => ?_, h2, fun x hx => (C89_frame hI hW hz hc).1 x ?_⟩
  · obtain ⟨d, g1, g2, g3⟩ := h1 out ho
    refine ⟨d, g1, g2, fun v hv => ?_⟩
    unfold AppendedTo at g3
    dsimp only at g3
    split at g3
    · rw [g3] at hv; cases hv
    · obtain ⟨v', g3, g4⟩ := g3
      rw [g3] at hv
      cases hv
      exact g4
  · rintro (⟨v, hv, -⟩ | ho)
    · cases hv
    · exact hx ho

/-- In whatever order a call iterates over maps, it writes the bytes of a message that differs only in
the order of the entries of maps, and as many. -/
theorem C89_order (hI : Implements env S) (hW : S.WF) (hz : ∀ id, flat (S id).zero = true) {id x : Nat} {v : MVal}
    {t : Val} (ht : Typed S id t) (hm : h.mem x = .object v) (hx : K x) (hs : MemShows h stored K v t)
    (hk : ∀ x, K x → ¬ Coming h x) (hπ : ∀ a es, (π a es).Perm es) (r : Bytes)
    (hr : marshal env (.ptr id (some t)) = .ok r) (hl : (encode S false 1000 id t).all (·.length < 2 ^ 64)) :
    ∃ t' r' dst', MapPerm t t' ∧ marshal env (.ptr id (some t')) = .ok r' ∧ r'.length = r.length ∧
      ((marshalAppendP env π none (.ptr id (some x))).run h).1 = .ok dst' ∧
      Holds ((marshalAppendP env π none (.ptr id (some x))).run h).2 dst' r' := by
  obtain ⟨t', g1, g2⟩ := shows_order hπ hs
  obtain ⟨r', g3, g4⟩ := C36_length hI hW id t t' ht g2 r hr hl
  obtain ⟨g5, -⟩ := C89_marshal hI hW hz (.ptr id x v t' hm hx g1) hk
  obtain ⟨d, g6, g7, -⟩ := g5 r' g3
  exact ⟨t', r', d, g2, g3, g4, g6, g7⟩

/-- The message that `Unmarshal` leaves in memory is one that `Marshal` can encode. -/
theorem C89_shown {v : MVal} {t : Val} {F : Blocks} {id x : Nat} (hm : h.mem x = .object v)
    (hr : MemRep h v t F) : ArgShows h stored (fun y => y = x ∨ F y) (.ptr id (some x)) (.ptr id (some t)) :=
  .ptr id x v t hm (.inl rfl) (shows_of_rep hr (fun _ hy => .inr hy))

end

/-! ## Examples -/

namespace Items

/-- A message in memory with sharing: the message at 1 and its submessage (4) have the same list of
items (2) and the same note (3).  There is a buffer with two bytes and room for 16 at 6, and one with
room for 8 at 7. -/
def shared : MVal :=
  .struct [.slice (some 2) 1, .str (some ⟨3, 0, 1⟩), .ptr (some 4), .bytes (some ⟨5, 0, 2⟩)]

def sharedSub : MVal := .struct [.slice (some 2) 2, .str (some ⟨3, 0, 1⟩), .ptr none, .bytes none]

def sharedStore : Store := heap [.bytes [], .object shared, .array [.struct [.w32 1], .struct [.w32 0]],
  .bytes [0x78], .object sharedSub, .bytes [0x20, 1], .bytes [9, 9, 1, 1, 1, 1, 1, 1, 1, 1, 1, 1, 1, 1, 1, 1, 1, 1, 1, 1, 1, 1, 1, 1],
  .bytes [9, 9, 1, 1, 1, 1, 1, 1]]

def sharedTree : Val :=
  .struct [.slice [.struct [.w32 1]], .str [0x78],
    .ptr (some (.struct [.slice [.struct [.w32 1], .struct [.w32 0]], .str [0x78], .ptr none, .bytes none])),
    .bytes (some [0x20, 1])]

def sharedBytes : Bytes := [0x0a, 2, 8, 1, 0x12, 1, 0x78, 0x1a, 9, 0x0a, 2, 8, 1, 0x0a, 0, 0x12, 1, 0x78, 0x20, 1]

theorem shared_shows : MemShows sharedStore stored (fun x => 1 ≤ x ∧ x < 6) shared sharedTree := by
  refine .struct _ _ (.cons _ _ _ _ ?_ (.cons _ _ _ _ (.str _ _ rfl (by decide)) (.cons _ _ _ _ ?_
    (.cons _ _ _ _ (.bytes _ _ rfl (by decide)) .nil))))
  · exact .slice 2 1 _ _ rfl (by decide) (by decide) (.cons _ _ _ _ (.struct _ _ (.cons _ _ _ _ (.w32 _) .nil)) .nil)
  · refine .ptr 4 _ _ rfl (by decide) (.struct _ _ (.cons _ _ _ _ ?_ (.cons _ _ _ _ (.str _ _ rfl (by decide))
      (.cons _ _ _ _ .ptrNil (.cons _ _ _ _ .bytesNil .nil)))))
    exact .slice 2 2 _ _ rfl (by decide) (by decide) (.cons _ _ _ _ (.struct _ _ (.cons _ _ _ _ (.w32 _) .nil))
      (.cons _ _ _ _ (.struct _ _ (.cons _ _ _ _ (.w32 _) .nil)) .nil))

/-- Calls with the buffers at 6 and 7. -/
theorem shared_call (d : Nat) (hd : d = 6 ∨ d = 7) : AppendCall sharedStore stored (fun x => 1 ≤ x ∧ x < 6)
    (some ⟨d, 0, 2⟩) [9, 9] (.ptr 0 (some 1)) (.ptr 0 (some sharedTree)) := by
  refine ⟨.ptr 0 1 _ _ rfl (by decide) shared_shows, ?_, fun v hv hc => ?_, fun x hx ho => ?_⟩
  · rcases hd with rfl | rfl <;> rfl
  · cases hv
    have : 8 ≤ d := coming_le hc
    omega
  · rcases ho with ⟨v, hv, rfl⟩ | ho
    · cases hv
      dsimp only at hx
      omega
    · have : 8 ≤ x := coming_le ho
      omega

/-- The hypotheses are met: `C89_append` for the buffer with enough room (the result is in its memory)
and for the other one (the result is in new memory). -/
example : marshalAppend env [9, 9] (.ptr 0 (some sharedTree)) = .ok (9 :: 9 :: sharedBytes) ∧
    (∃ v, ((marshalAppendP env stored (some ⟨6, 0, 2⟩) (.ptr 0 (some 1))).run sharedStore).1 = .ok (some v) ∧
      v.addr = 6 ∧ ((marshalAppendP env stored (some ⟨6, 0, 2⟩) (.ptr 0 (some 1))).run sharedStore).2.read v =
        .ok (9 :: 9 :: sharedBytes)) ∧
    (∃ v, ((marshalAppendP env stored (some ⟨7, 0, 2⟩) (.ptr 0 (some 1))).run sharedStore).1 = .ok (some v) ∧
      8 ≤ v.addr ∧ ((marshalAppendP env stored (some ⟨7, 0, 2⟩) (.ptr 0 (some 1))).run sharedStore).2.read v =
        .ok (9 :: 9 :: sharedBytes)) := by
  have hr : marshalAppend env [9, 9] (.ptr 0 (some sharedTree)) = .ok (9 :: 9 :: sharedBytes) := by decide +kernel
  refine ⟨hr, ?_, ?_⟩
  · obtain ⟨d, h1, h2, h3⟩ := (C89_append env_implements schema_wf zero_flat (shared_call 6 (.inl rfl))).1 _ hr
    unfold AppendedTo at h3
    dsimp only at h3
    rw [if_pos (by decide)] at h3
    obtain ⟨v, rfl, h3, -⟩ := h3
    exact ⟨v, h1, h3, h2⟩
  · obtain ⟨d, h1, h2, h3⟩ := (C89_append env_implements schema_wf zero_flat (shared_call 7 (.inr rfl))).1 _ hr
    unfold AppendedTo at h3
    dsimp only at h3
    rw [if_neg (by decide)] at h3
    obtain ⟨v, rfl, h3⟩ := h3
    exact ⟨v, h1, coming_le h3, h2⟩

/-- `C89_marshal` applies to this message. -/
example : ∃ dst', ((marshalAppendP env stored none (.ptr 0 (some 1))).run sharedStore).1 = .ok dst' ∧
    Holds ((marshalAppendP env stored none (.ptr 0 (some 1))).run sharedStore).2 dst' sharedBytes := by
  obtain ⟨h1, -⟩ := C89_marshal (π := stored) env_implements schema_wf zero_flat
    (.ptr 0 1 _ _ rfl (show 1 ≤ 1 ∧ 1 < 6 by decide) shared_shows) (fun x hx hc => by
      have : 8 ≤ x := coming_le hc
      omega)
  obtain ⟨d, g1, g2, -⟩ := h1 sharedBytes (by decide +kernel)
  exact ⟨d, g1, g2⟩

/-- The buffer must not be a part of the message: with the memory of the unknown fields as the buffer,
the unknown fields are overwritten before they are written. -/
example : (marshalAppendP env stored (some ⟨5, 0, 0⟩) (.ptr 0 (some 1))).run sharedStore |>.1.toOption.bind
    (fun d => d.bind (fun v => ((marshalAppendP env stored (some ⟨5, 0, 0⟩) (.ptr 0 (some 1))).run sharedStore).2.read v |>.toOption))
    = some (sharedBytes.take 18 ++ [0x0a, 0]) := by decide +kernel

end Items

namespace Sample

/-- A message with a map of two entries. -/
def mapStore : Store := ⟨fun x => [.object (.struct ((ofFlats msgZero).set 8 (.map (some 1)))),
  .table [(.w32 5, .bool true), (.w32 6, .bool false)]].getD x (.bytes []), 2, fun _ => 0, fun _ => 0⟩

def mapTree : Val := .struct (msgZero.set 8 (.map (some [(.w32 5, .bool true), (.w32 6, .bool false)])))

theorem map_shows : MemShows mapStore stored (fun x => x < 2) (.struct ((ofFlats msgZero).set 8 (.map (some 1)))) mapTree := by
  have hm : MemShows mapStore stored (fun x => x < 2) (.map (some 1))
      (.map (some [(.w32 5, .bool true), (.w32 6, .bool false)])) :=
    .map 1 _ _ rfl (by decide) (.cons _ _ _ _ _ _ (.w32 _) (.bool _) (.cons _ _ _ _ _ _ (.w32 _) (.bool _) .nil))
  exact .struct _ _ (.cons _ _ _ _ (.w32 _) (.cons _ _ _ _ .ptrNil (.cons _ _ _ _ .sliceNil (.cons _ _ _ _ .ptrNil
    (.cons _ _ _ _ .mapNil (.cons _ _ _ _ .ifaceNil (.cons _ _ _ _ (.struct _ _ (.cons _ _ _ _ (.w32 _) .nil))
    (.cons _ _ _ _ .sliceNil (.cons _ _ _ _ hm (.cons _ _ _ _ .sliceNil (.cons _ _ _ _ .bytesNil
    (.cons _ _ _ _ .bytesNil .nil))))))))))))

theorem msg_flat : ∀ id, flat (schema id).zero = true
  | 0 => rfl
  | 1 => rfl
  | _ + 2 => rfl

theorem map_typed : Typed schema 0 mapTree :=
  typed_set_field (schema_wf 0) (typed_zero schema_wf 0) (f := ⟨2000, 8, none, .map .int32 .bool⟩)
    (List.mem_of_getElem? (i := 11) rfl) (.plain _ _ rfl (.map _ _ _ (by decide) (by
      intro e he
      simp only [List.mem_cons, List.not_mem_nil, or_false] at he
      rcases he with rfl | rfl <;> exact ⟨rfl, rfl⟩))) (.inl rfl)

theorem map_marshal : marshal env (.ptr 0 (some mapTree)) =
    .ok [0x82, 0x7d, 4, 8, 5, 0x10, 1, 0x82, 0x7d, 4, 8, 6, 0x10, 0] := rfl

/-- `C89_order` applies: a call that iterates over maps backwards. -/
example : ∃ t' r' dst', MapPerm mapTree t' ∧ marshal env (.ptr 0 (some t')) = .ok r' ∧ r'.length = 14 ∧
      ((marshalAppendP env (fun _ es => es.reverse) none (.ptr 0 (some 0))).run mapStore).1 = .ok dst' ∧
      Holds ((marshalAppendP env (fun _ es => es.reverse) none (.ptr 0 (some 0))).run mapStore).2 dst' r' := by
  have hk : ∀ x, x < 2 → ¬ Coming mapStore x := by
    intro x hx hc
    have : 2 ≤ x := coming_le hc
    omega
  have hl : (encode schema false 1000 0 mapTree).all (·.length < 2 ^ 64) = true := by
    rw [show encode schema false 1000 0 mapTree = some [0x82, 0x7d, 4, 8, 5, 0x10, 1, 0x82, 0x7d, 4, 8, 6, 0x10, 0] by decide +kernel]
    rfl
  exact C89_order (h := mapStore) (K := fun x => x < 2) (π := fun _ es => es.reverse) (x := 0) env_implements schema_wf
    msg_flat map_typed rfl (show 0 < 2 by decide) map_shows hk (fun _ es => List.reverse_perm es) _ map_marshal hl

end Sample

end Verif.Props
