import Verif.Lemmas.Pool
/-!
# C93: reused temporary variables are not observable
-/
namespace Verif.Props
open Verif.Model Verif.Spec Verif.Lemmas.Pool

section
variable {env : GoEnv}

/-- Whatever the variables that Unmarshal takes from the pools contain, whichever of them it gets, and whatever other
goroutines do with the pools meanwhile: the message or the error is the one it computes without pools (`unmarshal`), every
variable it gives back is in the pool it belongs to, and it does not touch the variables that others use. -/
theorem C93_result (hm : PlainMaps env) (E : PoolEnv) (hE : Others E) (p : Pools) (hp : PoolsOK p) (b : Bytes) (a : Arg) :
    (unmarshalP env b a E p).1 = unmarshal env b a ∧ PoolsOK (unmarshalP env b a E p).2 ∧
      ∀ c ∈ p.owned, c ∈ (unmarshalP env b a E p).2.owned ∧ (unmarshalP env b a E p).2.vars c = p.vars c := by
  have h : Agrees p.owned (fun _ => True) Eq (fun _ _ => True) (unmarshalP env b a) (unmarshal env b a) := by
    cases a with
    | nil => exact agrees_error _
    | nonPtr => exact agrees_error _
    | ptrOther _ => exact agrees_error _
    | ptr sid v =>
      unfold unmarshalP unmarshal
      cases hd : parseDescs env with
      | error e => exact agrees_error _
      | ok D =>
        refine agrees_bind (R := fun a b => a = D ∧ b = D) (S := fun _ _ => True) (agrees_ok ⟨rfl, rfl⟩ (fun _ _ => trivial)) ?_
        rintro _ _ ⟨rfl, rfl⟩
        cases v with
        | none => exact agrees_error _
        | some v => exact poolStruct_ok (fun i n f hf => parseDescs_ready hd hm i n f hf) _ _ _ _ _ _
  obtain ⟨h1, h2, h3⟩ := h E p hE hp (fun _ ha => ha) trivial
  refine ⟨?_, h1, h2⟩
  generalize (unmarshalP env b a E p).1 = x at h3
  generalize unmarshal env b a = y at h3
  cases x <;> cases y <;> first | exact congrArg _ h3 | exact congrArg _ h3.1 | exact h3.elim

/-- In any sequence of calls, successful or not, on any types and inputs, every call has the result it has by itself. -/
theorem C93_history (hm : PlainMaps env) (E : PoolEnv) (hE : Others E) (cs : List (Bytes × Arg)) : ∀ (p : Pools), PoolsOK p →
    (callsP env E cs p).1 = cs.map (fun c => unmarshal env c.1 c.2) := by
  induction cs with
  | nil => intro p _; rfl
  | cons c cs ih =>
    intro p hp
    obtain ⟨h1, h2, _⟩ := C93_result hm E hE p hp c.1 c.2
    show (unmarshalP env c.1 c.2 E p).1 :: (callsP env E cs (unmarshalP env c.1 c.2 E p).2).1 = _
    rw [h1, ih _ h2]
    rfl

/-- Message types with ordinary fields have only such maps. -/
theorem regular_plainMaps (h : Regular env) : PlainMaps env := by
  intro d hd gf hgf k v ht
  have hr := h d hd
  rcases hgf with ⟨h1, h2⟩ | ⟨w, h1, h2⟩
  · have := (hr.types gf h1 h2).1
    rw [ht] at this
    simp only [regularType, Bool.and_eq_true, Bool.or_eq_true] at this
    refine ⟨this.1, ?_⟩
    cases v <;> first | rfl | (rcases this.2 with h | h <;> cases h)
  · have := (hr.members w h1 gf h2).1
    rw [ht] at this
    rcases this with h | ⟨id, h⟩ | ⟨id, h⟩ <;> cases h

end

/-! ## An example

```
type Shelf struct {
	Items map[string]Item   `protobuf:"bytes,1,rep,name=items" protobuf_key:"bytes,1,opt,name=key" protobuf_val:"bytes,2,opt,name=value"`
	Notes map[string]string `protobuf:"bytes,2,rep,name=notes" protobuf_key:"bytes,1,opt,name=key" protobuf_val:"bytes,2,opt,name=value"`
	Inner map[string]*Shelf `protobuf:"bytes,3,rep,name=inner" protobuf_key:"bytes,1,opt,name=key" protobuf_val:"bytes,2,opt,name=value"`
}
type Item struct { X int32 `protobuf:"varint,1,opt,name=x"`; Y int32 `protobuf:"varint,2,opt,name=y"` }
```
-/
namespace Shelf

def mapField (name : String) (v : GoType) (tag : String) : GoField :=
  { name := name.toList, type := .map .string v, tag := tag.toList, keyTag := "bytes,1,opt,name=key".toList,
    valTag := "bytes,2,opt,name=value".toList }

abbrev env : GoEnv where
  structs := [
    { fields := [mapField "Items" (.struct 1) "bytes,1,rep,name=items", mapField "Notes" .string "bytes,2,rep,name=notes",
        mapField "Inner" (.ptr (.struct 0)) "bytes,3,rep,name=inner"]
      size := 24
      zero := .struct [.map none, .map none, .map none] },
    { fields := [
        { name := "X".toList, type := .int32, tag := "varint,1,opt,name=x".toList },
        { name := "Y".toList, type := .int32, tag := "varint,2,opt,name=y".toList }]
      size := 8
      zero := .struct [.w32 0, .w32 0] }]

theorem env_plain : PlainMaps env := by
  intro d hd gf hgf k v ht
  simp only [env, List.mem_cons, List.not_mem_nil, or_false] at hd
  rcases hd with rfl | rfl
  · rcases hgf with ⟨h, _⟩ | ⟨w, h, _⟩
    · simp only [List.mem_cons, List.not_mem_nil, or_false] at h
      rcases h with rfl | rfl | rfl <;> cases ht <;> exact ⟨rfl, rfl⟩
    · cases h
  · rcases hgf with ⟨h, _⟩ | ⟨w, h, _⟩
    · simp only [List.mem_cons, List.not_mem_nil, or_false] at h
      rcases h with rfl | rfl <;> cases ht
    · cases h

/-- Pools in which earlier calls have left their last entries: variables 0 and 1 are in the pools, variables 2 are in use by
another call. -/
def used : Pools where
  vars a := if a = 0 then ⟨.map .string (.struct 1), .str [0x7a#8], .struct [.w32 7, .w32 7]⟩
    else if a = 1 then ⟨.map .string .string, .str [0x7a#8], .str [0x7a#8]⟩
    else ⟨.map .string (.struct 1), .str [0x7b#8], .struct [.w32 8, .w32 8]⟩
  cells t := if t = .map .string (.struct 1) then [0] else if t = .map .string .string then [1] else []
  next := 3
  clock := 0
  owned := [2]

theorem used_ok : PoolsOK used := by
  constructor
  · intro t a ha
    simp only [used] at ha
    split at ha
    · rename_i h; rw [List.mem_singleton.1 ha, h]; rfl
    · split at ha
      · rename_i h; rw [List.mem_singleton.1 ha, h]; rfl
      · cases ha
  · intro t
    simp only [used]
    split
    · simp
    · split <;> simp
  · intro t a ha
    simp only [used] at ha ⊢
    split at ha
    · rw [List.mem_singleton.1 ha]; decide
    · split at ha
      · rw [List.mem_singleton.1 ha]; decide
      · cases ha
  · intro a ha
    rw [List.mem_singleton.1 ha]; decide
  · simp [used]

/-- Another goroutine gives back new variables of type `map[string]Item`. -/
def giveBack (p : Pools) : Pools :=
  { (p.setVar p.next ⟨.map .string (.struct 1), .str [], .struct [.w32 9, .w32 9]⟩).setCells (.map .string (.struct 1))
      (p.next :: p.cells (.map .string (.struct 1))) with next := p.next + 1 }

/-- Another goroutine does so before each `Get`; every other `Get` returns the variables given back last. -/
def busy : PoolEnv where
  pick n := if n % 2 = 1 then some 0 else none
  adv _ := giveBack

theorem busy_ok : Others busy := by
  intro n p hp
  have hvars : ∀ a, a < p.next → (giveBack p).vars a = p.vars a := fun a ha => if_neg (Nat.ne_of_lt ha)
  have hcells : ∀ t, ∀ a ∈ (giveBack p).cells t, a ∈ p.cells t ∨ (a = p.next ∧ t = .map .string (.struct 1)) := by
    intro t a ha
    simp only [giveBack, Pools.setCells] at ha
    split at ha
    · subst t
      rcases List.mem_cons.1 ha with rfl | ha
      · exact .inr ⟨rfl, rfl⟩
      · exact .inl ha
    · exact .inl ha
  refine ⟨⟨?_, ?_, ?_, ?_, hp.nodup⟩, rfl, fun a ha => hvars a (hp.owned a ha)⟩
  · intro t a ha
    rcases hcells t a ha with h | ⟨rfl, rfl⟩
    · show ((giveBack p).vars a).type = t
      rw [hvars a (hp.free t a h).1]
      exact hp.type t a h
    · exact congrArg Tmp.type (if_pos rfl)
  · intro t
    show ((giveBack p).cells t).Nodup
    simp only [giveBack, Pools.setCells]
    split
    · exact List.nodup_cons.2 ⟨fun h => Nat.lt_irrefl _ (hp.free _ _ h).1, hp.once _⟩
    · exact hp.once t
  · intro t a ha
    rcases hcells t a ha with h | ⟨rfl, rfl⟩
    · exact ⟨Nat.lt_succ_of_lt (hp.free t a h).1, (hp.free t a h).2⟩
    · exact ⟨Nat.lt_succ_self _, fun h => Nat.lt_irrefl _ (hp.owned _ h)⟩
  · exact fun a ha => Nat.lt_succ_of_lt (hp.owned a ha)

/-- Two entries of `Items`, the second with an empty message, then one of `Notes`, then a third of `Items`. -/
def input : Bytes :=
  [0x0a#8, 7#8, 0x0a#8, 1#8, 0x61#8, 0x12#8, 2#8, 0x08#8, 5#8,  0x0a#8, 5#8, 0x0a#8, 1#8, 0x62#8, 0x12#8, 0#8,
   0x12#8, 6#8, 0x0a#8, 1#8, 0x63#8, 0x12#8, 1#8, 0x64#8,  0x0a#8, 5#8, 0x0a#8, 1#8, 0x65#8, 0x12#8, 0#8]

/-- Nothing of what the variables held appears in the message. -/
example : (unmarshalP env input (.ptr 0 (some (.struct [.map none, .map none, .map none]))) busy used).1
    = .ok (.struct [.map (some [(.str [0x61#8], .struct [.w32 5, .w32 0]), (.str [0x62#8], .struct [.w32 0, .w32 0]),
        (.str [0x65#8], .struct [.w32 0, .w32 0])]), .map (some [(.str [0x63#8], .str [0x64#8])]), .map none]) := by
  rw [(C93_result env_plain busy busy_ok used used_ok _ _).1]
  rfl

/-- `Inner` within `Inner`: the inner call needs variables of the type that the outer call is using. -/
def nested : Bytes :=
  [0x1a#8, 12#8, 0x0a#8, 1#8, 0x61#8, 0x12#8, 7#8, 0x1a#8, 5#8, 0x0a#8, 1#8, 0x62#8, 0x12#8, 0#8]

/-- The key of the outer entry is still "a" when the inner entry has been decoded. -/
example : (unmarshalP env nested (.ptr 0 (some (.struct [.map none, .map none, .map none]))) busy used).1
    = .ok (.struct [.map none, .map none, .map (some [(.str [0x61#8], .ptr (some (.struct [.map none, .map none,
        .map (some [(.str [0x62#8], .ptr (some (.struct [.map none, .map none, .map none])))])])))])]) := by
  rw [(C93_result env_plain busy busy_ok used used_ok _ _).1]
  rfl

/-- A failing call between others. -/
example (a : Arg) : (callsP env busy [(input, a), ([0x0a#8, 7#8, 0x0a#8], a), (input, a)] used).1
    = [unmarshal env input a, unmarshal env [0x0a#8, 7#8, 0x0a#8] a, unmarshal env input a] :=
  C93_history env_plain busy busy_ok _ used used_ok

end Shelf

end Verif.Props
