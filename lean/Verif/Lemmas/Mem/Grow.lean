import Verif.Model.Encoder
/-!
# The helpers of package wire only append
-/
namespace Verif.Lemmas.Mem
open Verif.Model

/-- The function keeps what it is given and appends to it. -/
def Grows (f : Bytes → Bytes) : Prop := ∀ b, b <+: f b

/-- The same for a function that may fail. -/
def GrowsR (f : Bytes → Res Bytes) : Prop := ∀ b b', f b = .ok b' → b <+: b'

theorem grows_id : Grows id := fun b => List.prefix_refl b

theorem grows_append (e : Bytes → Bytes) : Grows (fun b => b ++ e b) := fun _ => List.prefix_append _ _

theorem Grows.comp {f g : Bytes → Bytes} (hf : Grows f) (hg : Grows g) : Grows (fun b => f (g b)) :=
  fun b => (hg b).trans (hf (g b))

theorem Grows.ok {f : Bytes → Bytes} (hf : Grows f) : GrowsR (fun b => .ok (f b)) := by
  rintro b b' ⟨⟩
  exact hf b

theorem GrowsR.comp {f : Bytes → Res Bytes} {g : Bytes → Bytes} (hf : GrowsR f) (hg : Grows g) :
    GrowsR (fun b => f (g b)) := fun b _ h => (hg b).trans (hf _ _ h)

theorem GrowsR.bind {f g : Bytes → Res Bytes} (hf : GrowsR f) (hg : GrowsR g) :
    GrowsR (fun b => f b >>= g) := by
  intro b b' h
  dsimp only at h
  cases hb : f b with
  | error e => rw [hb] at h; cases h
  | ok b1 => rw [hb] at h; exact (hf b b1 hb).trans (hg b1 b' h)

theorem growsR_map {α : Type} {r : Res α} {f : Bytes → α → Bytes} (hf : ∀ x, Grows (fun b => f b x)) :
    GrowsR (fun b => f b <$> r) := by
  intro b b' h
  cases r with
  | error e => cases h
  | ok x => cases h; exact hf x b

theorem growsR_error (e : Fault) : GrowsR (fun _ => .error e) := fun _ _ h => by cases h

theorem growsR_foldlM {α : Type} {f : Bytes → α → Res Bytes} (hf : ∀ x, GrowsR (fun b => f b x)) :
    ∀ xs : List α, GrowsR (fun b => xs.foldlM f b)
  | [], b, _, h => by cases h; exact List.prefix_refl b
  | x :: xs, b, b', h => by
    replace h : List.foldlM f b (x :: xs) = .ok b' := h
    rw [List.foldlM_cons] at h
    exact (hf x).bind (growsR_foldlM hf xs) b b' h

theorem grows_foldl {α : Type} {f : Bytes → α → Bytes} (hf : ∀ x, Grows (fun b => f b x)) :
    ∀ xs : List α, Grows (fun b => xs.foldl f b)
  | [], b => List.prefix_refl b
  | x :: xs, b => (hf x b).trans (grows_foldl hf xs (f b x))

theorem grows_varintLoop {n : Nat} (m : Nat) (x : BitVec n) : Grows (fun b => varintLoop m b x) := by
  intro b
  induction m generalizing b x with
  | zero => exact List.prefix_append _ _
  | succ m ih =>
    simp only [varintLoop]
    split
    · exact (List.prefix_append _ _).trans (ih _ _)
    · exact List.prefix_append _ _

theorem grows_appendVarint (x : BitVec 64) : Grows (fun b => appendVarint b x) := grows_varintLoop 10 x

theorem grows_small (x : BitVec 64) : Grows (fun b => appendVarintSmall b x) := by
  intro b
  unfold appendVarintSmall
  repeat' split
  all_goals first | exact List.prefix_append _ _ | exact grows_varintLoop 10 x b

theorem grows_u64 (x : BitVec 64) : Grows (fun b => appendU64 b x) := by
  intro b
  unfold appendU64
  repeat' split
  all_goals exact List.prefix_append _ _

theorem grows_u32 (x : BitVec 32) : Grows (fun b => appendU32 b x) := by
  intro b
  unfold appendU32
  repeat' split
  all_goals exact List.prefix_append _ _

theorem grows_i32 (x : BitVec 32) : Grows (fun b => appendI32 b x) := by
  intro b
  unfold appendI32
  dsimp only
  repeat' split
  all_goals exact List.prefix_append _ _

theorem grows_zigzag32 (x : BitVec 32) : Grows (fun b => appendZigZag32 b x) := by
  intro b
  unfold appendZigZag32
  dsimp only
  repeat' split
  all_goals exact List.prefix_append _ _

theorem grows_string (s : Bytes) : Grows (fun b => appendString b s) :=
  fun b => (grows_appendVarint _ b).trans (List.prefix_append _ _)

theorem copyWithin_take (b : Bytes) {dst src pos : Nat} (h : pos ≤ dst) :
    (copyWithin b dst src).take (min pos b.length) = b.take pos := by
  unfold copyWithin
  dsimp only
  rw [List.append_assoc, List.take_append_of_le_length (by rw [List.length_take]; omega), List.take_take]
  by_cases hb : pos ≤ b.length
  · rw [Nat.min_eq_left hb, Nat.min_eq_left h]
  · rw [Nat.min_eq_right (by omega : b.length ≤ pos), List.take_of_length_le (by omega : b.length ≤ pos),
      List.take_of_length_le (by omega)]

theorem copyWithin_length (b : Bytes) {dst src : Nat} (h : src ≤ dst) :
    (copyWithin b dst src).length = b.length := by
  unfold copyWithin
  simp only [List.length_append, List.length_take, List.length_drop]
  omega

theorem overwrite_length (b : Bytes) (pos : Nat) (x : Bytes) : b.length ≤ (overwrite b pos x).length := by
  unfold overwrite
  simp only [List.length_append, List.length_take, List.length_drop]
  omega

theorem sizeVarint_pos (x : BitVec 64) : 1 ≤ sizeVarint x := by
  unfold sizeVarint
  omega

/-- `LenPack` keeps what was there before `LenReserve`. -/
theorem prefix_lenPack (b e : Bytes) : b <+: lenPack (lenReserve b ++ e) e.length := by
  unfold lenPack lenReserve
  split
  · have hl : (b ++ [0#8] ++ e).length - 1 - e.length = b.length := by
      simp only [List.length_append, List.length_cons, List.length_nil]; omega
    rw [hl]
    rw [List.append_assoc, List.set_append_right _ _ (Nat.le_refl _)]
    exact List.prefix_append _ _
  · unfold lenPackSlow
    dsimp only
    have hs := sizeVarint_pos (BitVec.ofNat 64 e.length)
    generalize sizeVarint (BitVec.ofNat 64 e.length) = m at hs ⊢
    have hl : (b ++ [0#8] ++ e ++ List.replicate (m - 1) 0#8).length - e.length - m = b.length := by
      simp only [List.length_append, List.length_cons, List.length_nil, List.length_replicate]; omega
    rw [hl]
    unfold overwrite
    rw [List.append_assoc]
    have hc := copyWithin_take (b ++ [0#8] ++ e ++ List.replicate (m - 1) 0#8) (dst := b.length + m)
      (src := b.length + 1) (pos := b.length) (by omega)
    rw [Nat.min_eq_left (by simp only [List.length_append]; omega)] at hc
    rw [hc, List.append_assoc, List.append_assoc, List.take_left]
    exact List.prefix_append _ _

theorem lenPack_length (b : Bytes) (sz : Nat) : b.length ≤ (lenPack b sz).length := by
  unfold lenPack
  split
  · rw [List.length_set]; exact Nat.le_refl _
  · unfold lenPackSlow
    dsimp only
    refine Nat.le_trans ?_ (overwrite_length _ _ _)
    rw [copyWithin_length]
    · simp only [List.length_append]; omega
    · have := sizeVarint_pos (BitVec.ofNat 64 sz)
      omega

theorem grows_packedFrame {body : Bytes → Bytes} (hb : Grows body) : Grows (fun b => packedFrame b body) := by
  intro b
  unfold packedFrame
  dsimp only
  obtain ⟨e, he⟩ := hb (lenReserve b)
  rw [← he, List.length_append, Nat.add_sub_cancel_left]
  exact prefix_lenPack b e

theorem growsR_appendCoder (c : Coder) (v : Val) : GrowsR (fun b => appendCoder c b v) := by
  unfold appendCoder
  cases c <;> first
    | exact growsR_error _
    | exact growsR_map grows_u32
    | exact growsR_map grows_i32
    | exact growsR_map grows_u64
    | exact growsR_map grows_zigzag32
    | exact growsR_map (fun x => grows_u64 (zigzag64 x))
    | exact growsR_map grows_string
    | exact growsR_map (fun x => grows_append _)

theorem growsR_bindVal {α : Type} {r : Res α} {g : Bytes → α → Res Bytes} (hg : ∀ x, GrowsR (fun b => g b x)) :
    GrowsR (fun b => r >>= g b) := by
  intro b b' h
  cases r with
  | error e => cases h
  | ok x => exact hg x b b' h

theorem growsR_appendPackedCoder (c : Coder) (v : Val) : GrowsR (fun b => appendPackedCoder c b v) := by
  unfold appendPackedCoder
  refine growsR_bindVal fun xs => ?_
  have h1 : ∀ (ys : List (BitVec 32)), Grows (fun b => appendPackedU32 b ys) := fun ys =>
    grows_packedFrame (grows_foldl (fun x => grows_varintLoop 10 _) ys)
  have h2 : ∀ (ys : List (BitVec 32)), Grows (fun b => appendPackedI32 b ys) := fun ys =>
    grows_packedFrame (grows_foldl (fun x => grows_varintLoop 10 _) ys)
  have h3 : ∀ (ys : List (BitVec 64)), Grows (fun b => appendPackedU64 b ys) := fun ys =>
    grows_packedFrame (grows_foldl (fun x => grows_varintLoop 10 _) ys)
  have h4 : ∀ (ys : List (BitVec 32)), Grows (fun b => appendPackedZigZag32 b ys) := fun ys =>
    grows_packedFrame (grows_foldl (fun x => grows_varintLoop 10 _) ys)
  have h5 : ∀ (ys : List (BitVec 64)), Grows (fun b => appendPackedZigZag64 b ys) := fun ys =>
    grows_packedFrame (grows_foldl (fun x => grows_varintLoop 10 _) ys)
  have h6 : ∀ (ys : List (BitVec 32)), Grows (fun b => appendPackedFixed32 b ys) := fun ys =>
    (grows_foldl (fun x => grows_append _) ys).comp (grows_appendVarint _)
  have h7 : ∀ (ys : List (BitVec 64)), Grows (fun b => appendPackedFixed64 b ys) := fun ys =>
    (grows_foldl (fun x => grows_append _) ys).comp (grows_appendVarint _)
  have h8 : ∀ (ys : List Bool), Grows (fun b => appendPackedBool b ys) := fun ys b =>
    (grows_appendVarint _ b).trans (List.prefix_append _ _)
  cases c <;> first
    | exact growsR_error _
    | exact growsR_map h1
    | exact growsR_map h2
    | exact growsR_map h3
    | exact growsR_map h4
    | exact growsR_map h5
    | exact growsR_map h6
    | exact growsR_map h7
    | exact growsR_map h8

theorem growsR_appendListCoder (c : Coder) (tag : BitVec 64) (v : Val) :
    GrowsR (fun b => appendListCoder c b tag v) := by
  unfold appendListCoder
  refine growsR_bindVal fun xs => ?_
  have hv : ∀ {n : Nat} (x : BitVec n), Grows (fun b => varintLoop 10 (appendVarintSmall b tag) x) :=
    fun x => (grows_varintLoop 10 x).comp (grows_small tag)
  have ha : ∀ e : Bytes, Grows (fun b => appendVarintSmall b tag ++ e) :=
    fun e b => (grows_small tag b).trans (List.prefix_append _ _)
  have hs : ∀ s : Bytes, Grows (fun b => appendVarint (appendVarintSmall b tag) (BitVec.ofNat 64 s.length) ++ s) :=
    fun s b => ((grows_appendVarint _).comp (grows_small tag) b).trans (List.prefix_append _ _)
  cases c <;> first
    | exact growsR_error _
    | exact growsR_map (fun ys => grows_foldl (fun x => hv _) ys)
    | exact growsR_map (fun ys => grows_foldl (fun x => ha _) ys)
    | exact growsR_map (fun ys => grows_foldl (fun x => hs _) ys)

theorem growsR_callAppend (f : Option AppendFn) (v : Val) : GrowsR (fun b => callAppend f b v) := by
  unfold callAppend
  split
  · exact growsR_appendCoder _ v
  · exact growsR_appendPackedCoder _ v
  · exact growsR_error _

theorem growsR_appendMapKey (c : Coder) (v : Val) : GrowsR (fun b => appendMapKey c b v) := by
  unfold appendMapKey
  have hv : ∀ {n : Nat} (x : BitVec n) (t : Bytes), Grows (fun b => varintLoop 10 (b ++ t) x) :=
    fun x t b => (List.prefix_append b t).trans (grows_varintLoop 10 x (b ++ t))
  have ha : ∀ t e : Bytes, Grows (fun b => b ++ t ++ e) :=
    fun t e b => (List.prefix_append b t).trans (List.prefix_append _ _)
  have hs : ∀ t s : Bytes, Grows (fun b => appendVarint (b ++ t) (BitVec.ofNat 64 s.length) ++ s) :=
    fun t s b => ((List.prefix_append b t).trans (grows_appendVarint _ (b ++ t))).trans (List.prefix_append _ _)
  cases c <;> first
    | exact growsR_error _
    | exact growsR_map (fun x => hv _ _)
    | exact growsR_map (fun x => ha _ _)
    | exact growsR_map (fun x => hs _ _)

theorem growsR_appendMapValue (c : Coder) (v : Val) : GrowsR (fun b => appendMapValue c b v) := by
  unfold appendMapValue
  have hv : ∀ {n : Nat} (x : BitVec n) (t : Bytes), Grows (fun b => varintLoop 10 (b ++ t) x) :=
    fun x t b => (List.prefix_append b t).trans (grows_varintLoop 10 x (b ++ t))
  have ha : ∀ t e : Bytes, Grows (fun b => b ++ t ++ e) :=
    fun t e b => (List.prefix_append b t).trans (List.prefix_append _ _)
  have hs : ∀ t s : Bytes, Grows (fun b => appendVarint (b ++ t) (BitVec.ofNat 64 s.length) ++ s) :=
    fun t s b => ((List.prefix_append b t).trans (grows_appendVarint _ (b ++ t))).trans (List.prefix_append _ _)
  cases c <;> first
    | exact growsR_error _
    | exact growsR_map (fun x => hv _ _)
    | exact growsR_map (fun x => ha _ _)
    | exact growsR_map (fun x => hs _ _)

/-- The length is reserved, something is appended, the length is filled in. -/
theorem growsR_framed {f : Bytes → Res Bytes} {g : Bytes → Bytes} (hf : GrowsR f) (hg : Grows g) :
    GrowsR (fun b => f (lenReserve (g b)) >>= fun b' => .ok (lenPack b' (b'.length - (lenReserve (g b)).length))) := by
  intro b b' h
  dsimp only at h
  cases hr : f (lenReserve (g b)) with
  | error e => rw [hr] at h; cases h
  | ok b1 =>
    rw [hr] at h
    cases h
    obtain ⟨e, rfl⟩ := hf _ _ hr
    rw [List.length_append, Nat.add_sub_cancel_left]
    exact (hg b).trans (prefix_lenPack _ _)

theorem growsR_appendMapEntry (kc vc : Coder) (tag : BitVec 64) (e : Key × Val) :
    GrowsR (fun b => appendMapEntry kc vc tag b e) := by
  have h := growsR_framed ((growsR_appendMapKey kc e.1.toVal).bind (growsR_appendMapValue vc e.2)) (grows_small tag)
  intro b b' hb
  refine h b b' ?_
  rw [← hb]
  unfold appendMapEntry
  dsimp only
  cases appendMapKey kc (lenReserve (appendVarintSmall b tag)) e.1.toVal <;> rfl

end Verif.Lemmas.Mem
