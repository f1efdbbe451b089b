import Verif.Spec.Types
import Verif.Spec.Output
/-!
# A sample set of Go struct types and its schema

Used by the non-vacuity examples beside the theorems.  In Go:

```
type Msg struct {
	A int32             `protobuf:"varint,1,opt,name=a,proto3"`
	B *string           `protobuf:"bytes,2,opt,name=b"`
	C []int64           `protobuf:"zigzag64,3,rep,packed,name=c"`
	D *Msg              `protobuf:"bytes,4,opt,name=d"`
	E map[string]*Msg   `protobuf:"bytes,5,rep,name=e" protobuf_key:"bytes,1,opt,name=key" protobuf_val:"bytes,2,opt,name=value"`
	F isMsg_F           `protobuf_oneof:"f"`     // wrappers: F1 string = 6; F2 *Msg = 7
	G Inner             `protobuf:"bytes,8,opt,name=g"`
	H []string          `protobuf:"bytes,9,rep,name=h"`
	I map[int32]bool    `protobuf:"bytes,2000,rep,name=i" protobuf_key:"varint,1,opt,name=key" protobuf_val:"varint,2,opt,name=value"`
	J []*Msg            `protobuf:"bytes,10,rep,name=j"`
	K []byte            `protobuf:"bytes,11,opt,name=k"`
	unknownFields []byte
}
type Inner struct { X int32 `protobuf:"varint,1,opt,name=x"` }
```
-/
namespace Verif.Props.Sample
open Verif.Spec Verif.Model

def msgZero : List Val :=
  [.w32 0, .ptr none, .slice [], .ptr none, .map none, .iface none, .struct [.w32 0], .slice [],
   .map none, .slice [], .bytes none, .bytes none]

def msg : Message where
  fields := [
    ⟨1, 0, none, .single .int32⟩,
    ⟨2, 1, none, .optional .string⟩,
    ⟨3, 2, none, .list .sint64 true⟩,
    ⟨4, 3, none, .msg 0 true⟩,
    ⟨5, 4, none, .mapMsg .string 0 true⟩,
    ⟨6, 5, some 100, .single .string⟩,
    ⟨7, 5, some 101, .msg 0 true⟩,
    ⟨8, 6, none, .msg 1 false⟩,
    ⟨9, 7, none, .list .string false⟩,
    ⟨10, 9, none, .msgList 0 true⟩,
    ⟨11, 10, none, .single .bytes⟩,
    ⟨2000, 8, none, .map .int32 .bool⟩]
  nslots := 12
  unknown := some (11, false)
  small := false
  zero := .struct msgZero

def inner : Message where
  fields := [⟨1, 0, none, .single .int32⟩]
  nslots := 1
  unknown := none
  small := true
  zero := .struct [.w32 0]

def schema : Schema
  | 0 => msg
  | 1 => inner
  | _ => default

theorem schema_wf : schema.WF
  | 0 => {
      nums := by decide
      sorted := by decide
      slots := by decide
      disjoint := by
        have h : ∀ f ∈ (schema 0).fields, ∀ g ∈ (schema 0).fields, f.num ≠ g.num → f.slot = g.slot →
            f.member.isSome ∧ g.member.isSome ∧ f.member ≠ g.member := by decide
        intro f hf g hg h1 h2
        obtain ⟨a, b, c⟩ := h f hf g hg h1 h2
        obtain ⟨w, hw⟩ := Option.isSome_iff_exists.1 a
        obtain ⟨w', hw'⟩ := Option.isSome_iff_exists.1 b
        exact ⟨w, w', hw, hw', fun e => c (by rw [hw, hw', e])⟩
      legal := by decide
      members := by
        intro f hf hm
        simp only [schema, msg, List.mem_cons, List.not_mem_nil, or_false] at hf
        rcases hf with rfl | rfl | rfl | rfl | rfl | rfl | rfl | rfl | rfl | rfl | rfl | rfl <;>
          first | exact absurd rfl hm | exact .inl ⟨_, rfl⟩ | exact .inr ⟨_, _, rfl⟩
      unknown := by
        intro s p h
        simp only [schema, msg, Option.some.injEq, Prod.mk.injEq] at h
        obtain ⟨rfl, rfl⟩ := h
        decide
      zero := by
        refine ⟨msgZero, rfl, rfl, ?_, ?_, ?_⟩
        · intro f hf
          simp only [schema, msg, List.mem_cons, List.not_mem_nil, or_false] at hf
          rcases hf with rfl | rfl | rfl | rfl | rfl | rfl | rfl | rfl | rfl | rfl | rfl | rfl <;> rfl
        · intro s h
          simp only [schema, msg, Option.some.injEq, Prod.mk.injEq] at h
          obtain ⟨rfl, -⟩ := h
          rfl
        · intro s h; simp [schema, msg] at h }
  | 1 => {
      nums := by decide
      sorted := by decide
      slots := by decide
      disjoint := by
        intro f hf g hg h1 h2
        simp only [schema, inner, List.mem_singleton] at hf hg
        subst hf hg
        exact absurd rfl h1
      legal := by decide
      members := by
        intro f hf hm
        simp only [schema, inner, List.mem_singleton] at hf
        subst hf
        exact absurd rfl hm
      unknown := by intro s p h; cases h
      zero := by
        refine ⟨[.w32 0], rfl, rfl, ?_, ?_, ?_⟩
        · intro f hf
          simp only [schema, inner, List.mem_singleton] at hf
          subst hf; rfl
        · intro s h; cases h
        · intro s h; cases h }
  | _ + 2 => {
      nums := by intro f hf; cases hf
      sorted := .nil
      slots := by intro f hf; cases hf
      disjoint := by intro f hf; cases hf
      legal := by intro f hf; cases hf
      members := by intro f hf; cases hf
      unknown := by intro s p h; cases h
      zero := ⟨[], rfl, rfl, nofun, nofun, nofun⟩ }

/-! ## The Go types -/

def env : GoEnv where
  structs := [
    { fields := [
        { name := "A".toList, type := .int32, tag := "varint,1,opt,name=a,proto3".toList },
        { name := "B".toList, type := .ptr .string, tag := "bytes,2,opt,name=b".toList },
        { name := "C".toList, type := .slice .int64, tag := "zigzag64,3,rep,packed,name=c".toList },
        { name := "D".toList, type := .ptr (.struct 0), tag := "bytes,4,opt,name=d".toList },
        { name := "E".toList, type := .map .string (.ptr (.struct 0)),
          tag := "bytes,5,rep,name=e".toList, keyTag := "bytes,1,opt,name=key".toList,
          valTag := "bytes,2,opt,name=value".toList },
        { name := "F".toList, type := .iface, oneofTag := "f".toList },
        { name := "G".toList, type := .struct 1, tag := "bytes,8,opt,name=g".toList },
        { name := "H".toList, type := .slice .string, tag := "bytes,9,rep,name=h".toList },
        { name := "I".toList, type := .map .int32 .bool, tag := "bytes,2000,rep,name=i".toList,
          keyTag := "varint,1,opt,name=key".toList, valTag := "varint,2,opt,name=value".toList },
        { name := "J".toList, type := .slice (.ptr (.struct 0)), tag := "bytes,10,rep,name=j".toList },
        { name := "K".toList, type := .bytes, tag := "bytes,11,opt,name=k".toList },
        { name := "unknownFields".toList, type := .bytes }]
      wrappers := [
        { id := 100, implements := [5],
          fields := [{ name := "F1".toList, type := .string, tag := "bytes,6,opt,name=f1,oneof".toList }] },
        { id := 101, implements := [5],
          fields := [{ name := "F2".toList, type := .ptr (.struct 0),
                       tag := "bytes,7,opt,name=f2,oneof".toList }] }]
      size := 208
      zero := .struct msgZero },
    { fields := [{ name := "X".toList, type := .int32, tag := "varint,1,opt,name=x".toList }]
      size := 4
      zero := .struct [.w32 0] }]

/-- A word with a character that is not a digit, and that is not one of the special words. -/
def harmlessB (w : List Char) : Bool :=
  !isEncodingWord w && w != "rep".toList && w != "packed".toList &&
    (w.isEmpty || w.any (fun c => !c.isDigit))

def isWordB (w : List Char) : Bool :=
  !w.contains ',' && (w.head?.all (fun c => !isBlank c)) && (w.getLast?.all (fun c => !isBlank c))

theorem isWord_of {w : List Char} (h : isWordB w = true) : IsWord w := by
  simp only [isWordB, Bool.and_eq_true, Bool.not_eq_true', Option.all_eq_true] at h
  refine ⟨by simpa using h.1.1, fun c hc => by simpa using h.1.2 c hc, fun c hc => by simpa using h.2 c hc⟩

theorem harmless_of {w : List Char} (h : harmlessB w = true) : Harmless w := by
  simp only [harmlessB, Bool.and_eq_true, Bool.not_eq_true', bne_iff_ne, Bool.or_eq_true,
    List.isEmpty_iff, List.any_eq_true] at h
  refine ⟨h.1.1.1, h.1.1.2, h.1.2, h.2.imp id (fun ⟨c, h1, h2⟩ => ⟨c, h1, by simpa using h2⟩)⟩

/-- A checked way to read a tag: the list of its words, the position of the number. -/
theorem tagSays_of {t : List Char} (ws : List (List Char)) (dec enc : List Char) (num : Nat)
    (rep packed : Bool) (hd : IsDecimal dec num)
    (h : (decide (t = joinComma ws) && ws.all isWordB &&
      ws.all (fun w => w == enc || w == dec || w == "rep".toList || w == "packed".toList || harmlessB w) &&
      ws.contains enc && ws.contains dec && (ws.contains "rep".toList == rep) &&
      (ws.contains "packed".toList == packed)) = true) : TagSays t enc num rep packed := by
  simp only [Bool.and_eq_true, decide_eq_true_eq, List.all_eq_true, beq_iff_eq] at h
  obtain ⟨⟨⟨⟨⟨⟨h1, h2⟩, h3⟩, h4⟩, h5⟩, h6⟩, h7⟩ := h
  refine ⟨ws, h1, fun w hw => isWord_of (h2 w hw), fun w hw => ?_, by simpa using h4,
    ⟨dec, by simpa using h5, hd⟩, ?_, ?_⟩
  · have := h3 w hw
    simp only [Bool.or_eq_true, beq_iff_eq] at this
    rcases this with (((h | h) | h) | h) | h
    · exact .inl h
    · exact .inr (.inl (h ▸ hd))
    · exact .inr (.inr (.inl h))
    · exact .inr (.inr (.inr (.inl h)))
    · exact .inr (.inr (.inr (.inr (harmless_of h))))
  · rw [← h6]; simp
  · rw [← h7]; simp

theorem kvSays_of {t : List Char} (ws : List (List Char)) (enc : List Char)
    (h : (decide (t = joinComma ws) && ws.all isWordB && ws.contains enc &&
      ws.all (fun w => w == enc || !isEncodingWord w)) = true) : KVSays t enc := by
  simp only [Bool.and_eq_true, decide_eq_true_eq, List.all_eq_true, Bool.or_eq_true, beq_iff_eq,
    Bool.not_eq_true'] at h
  exact ⟨ws, h.1.1.1, fun w hw => isWord_of (h.1.1.2 w hw), by simpa using h.1.2, h.2⟩

/-- Splitting at commas, to compute the words of a literal. -/
def words (t : List Char) : List (List Char) :=
  t.foldr (fun c ws => if c = ',' then [] :: ws else (c :: ws.headD []) :: ws.tail) [[]]

theorem dec1 (c : Nat) (h : c < 10) : IsDecimal [digitChar c] c := .digit c h
theorem dec2 (a b : Nat) (h : a < 10) (h' : b < 10) : IsDecimal [digitChar a, digitChar b] (10 * a + b) :=
  .snoc _ _ _ (.digit a h) h'
theorem dec2000 : IsDecimal "2000".toList 2000 :=
  .snoc _ _ 0 (.snoc _ _ 0 (.snoc _ _ 0 (.digit 2 (by decide)) (by decide)) (by decide)) (by decide)

theorem env_implements : Implements env schema
  | 0 => {
      nslots := rfl
      zero := rfl
      small := by decide
      tagged := by
        intro i gf h ht
        have : i < 12 := by
          have := (List.getElem?_eq_some_iff.1 h).1
          exact this
        match i, this with
        | 0, _ => exact ⟨_, List.mem_of_getElem? (i := 0) rfl, rfl, rfl⟩
        | 1, _ => exact ⟨_, List.mem_of_getElem? (i := 1) rfl, rfl, rfl⟩
        | 2, _ => exact ⟨_, List.mem_of_getElem? (i := 2) rfl, rfl, rfl⟩
        | 3, _ => exact ⟨_, List.mem_of_getElem? (i := 3) rfl, rfl, rfl⟩
        | 4, _ => exact ⟨_, List.mem_of_getElem? (i := 4) rfl, rfl, rfl⟩
        | 5, _ => cases h; exact absurd rfl ht
        | 6, _ => exact ⟨_, List.mem_of_getElem? (i := 7) rfl, rfl, rfl⟩
        | 7, _ => exact ⟨_, List.mem_of_getElem? (i := 8) rfl, rfl, rfl⟩
        | 8, _ => exact ⟨_, List.mem_of_getElem? (i := 11) rfl, rfl, rfl⟩
        | 9, _ => exact ⟨_, List.mem_of_getElem? (i := 9) rfl, rfl, rfl⟩
        | 10, _ => exact ⟨_, List.mem_of_getElem? (i := 10) rfl, rfl, rfl⟩
        | 11, _ => cases h; exact absurd rfl ht
      plain := by
        intro f hf hm
        simp only [schema, msg, List.mem_cons, List.not_mem_nil, or_false] at hf
        rcases hf with rfl | rfl | rfl | rfl | rfl | rfl | rfl | rfl | rfl | rfl | rfl | rfl
        · exact ⟨_, rfl, rfl, tagSays_of (words "varint,1,opt,name=a,proto3".toList) _ _ _ _ _
            (dec1 1 (by decide)) (by decide), nofun, nofun⟩
        · exact ⟨_, rfl, rfl, tagSays_of (words "bytes,2,opt,name=b".toList) _ _ _ _ _
            (dec1 2 (by decide)) (by decide), nofun, nofun⟩
        · exact ⟨_, rfl, rfl, tagSays_of (words "zigzag64,3,rep,packed,name=c".toList) _ _ _ _ _
            (dec1 3 (by decide)) (by decide), nofun, nofun⟩
        · exact ⟨_, rfl, rfl, tagSays_of (words "bytes,4,opt,name=d".toList) _ _ _ _ _
            (dec1 4 (by decide)) (by decide), nofun, nofun⟩
        · exact ⟨_, rfl, rfl, tagSays_of (words "bytes,5,rep,name=e".toList) _ _ _ _ _
            (dec1 5 (by decide)) (by decide), nofun, by
              intro k v p h; cases h
              exact ⟨kvSays_of (words "bytes,1,opt,name=key".toList) _ (by decide),
                kvSays_of (words "bytes,2,opt,name=value".toList) _ (by decide)⟩⟩
        · cases hm
        · cases hm
        · exact ⟨_, rfl, rfl, tagSays_of (words "bytes,8,opt,name=g".toList) _ _ _ _ _
            (dec1 8 (by decide)) (by decide), nofun, nofun⟩
        · exact ⟨_, rfl, rfl, tagSays_of (words "bytes,9,rep,name=h".toList) _ _ _ _ _
            (dec1 9 (by decide)) (by decide), nofun, nofun⟩
        · exact ⟨_, rfl, rfl, tagSays_of (words "bytes,10,rep,name=j".toList) _ _ _ _ _
            (dec2 1 0 (by decide) (by decide)) (by decide), nofun, nofun⟩
        · exact ⟨_, rfl, rfl, tagSays_of (words "bytes,11,opt,name=k".toList) _ _ _ _ _
            (dec2 1 1 (by decide) (by decide)) (by decide), nofun, nofun⟩
        · exact ⟨_, rfl, rfl, tagSays_of (words "bytes,2000,rep,name=i".toList) _ _ _ _ _
            dec2000 (by decide), by
              intro k v h; cases h
              exact ⟨kvSays_of (words "varint,1,opt,name=key".toList) _ (by decide),
                kvSays_of (words "varint,2,opt,name=value".toList) _ (by decide)⟩, nofun⟩
      wrapper := by
        intro w hw
        simp only [List.mem_cons, List.not_mem_nil, or_false] at hw
        rcases hw with rfl | rfl
        · exact ⟨_, List.mem_of_getElem? (i := 5) rfl, rfl⟩
        · exact ⟨_, List.mem_of_getElem? (i := 6) rfl, rfl⟩
      member := by
        intro f hf w hw
        simp only [schema, msg, List.mem_cons, List.not_mem_nil, or_false] at hf
        rcases hf with rfl | rfl | rfl | rfl | rfl | rfl | rfl | rfl | rfl | rfl | rfl | rfl
        case inr.inr.inr.inr.inr.inl =>
          cases hw
          exact ⟨_, List.mem_of_getElem? (i := 0) rfl, rfl, rfl,
            ⟨_, rfl, rfl, tagSays_of (words "bytes,6,opt,name=f1,oneof".toList) _ _ _ _ _
            (dec1 6 (by decide)) (by decide), nofun, nofun⟩,
            _, rfl, rfl, by decide⟩
        case inr.inr.inr.inr.inr.inr.inl =>
          cases hw
          exact ⟨_, List.mem_of_getElem? (i := 1) rfl, rfl, rfl,
            ⟨_, rfl, rfl, tagSays_of (words "bytes,7,opt,name=f2,oneof".toList) _ _ _ _ _
            (dec1 7 (by decide)) (by decide), nofun, nofun⟩,
            _, rfl, rfl, by decide⟩
        all_goals cases hw
      distinct := by decide
      unknown := by
        refine .inl ⟨⟨_, rfl, rfl, rfl⟩, ?_⟩
        intro j gf hj h
        have h2 : ∀ k < 11, ∀ g ∈ (env.structs[0]).fields[k]?, g.name ≠ "unknownFields".toList := by decide
        exact h2 j hj gf h }
  | 1 => {
      nslots := rfl
      zero := rfl
      small := by decide
      tagged := by
        intro i gf h ht
        match i with
        | 0 => exact ⟨_, List.mem_of_getElem? (i := 0) rfl, rfl, rfl⟩
        | i + 1 => cases h
      plain := by
        intro f hf hm
        simp only [schema, inner, List.mem_singleton] at hf
        subst hf
        exact ⟨_, rfl, rfl, tagSays_of (words "varint,1,opt,name=x".toList) _ _ _ _ _
            (dec1 1 (by decide)) (by decide), nofun, nofun⟩
      wrapper := by intro w hw; cases hw
      member := by
        intro f hf w hw
        simp only [schema, inner, List.mem_singleton] at hf
        subst hf; cases hw
      distinct := .nil
      unknown := by
        show ∀ gf ∈ _, _
        decide }
  | _ + 2 => rfl

/-! ## A value -/

def subSlots : List Val := msgZero.set 0 (.w32 300#32)

def valSlots : List Val :=
  [.w32 (-1 : BitVec 32), .ptr (some (.str [104#8, 105#8])), .slice [.w64 1#64, .w64 (-1 : BitVec 64), .w64 150#64],
   .ptr (some (.struct subSlots)), .map (some [(.str [107#8], .ptr (some (.struct subSlots)))]),
   .iface (some (100, some (.str [120#8]))), .struct [.w32 7#32], .slice [.str [97#8], .str [98#8, 99#8]],
   .map (some [(.w32 5#32, .bool true), (.w32 6#32, .bool false)]),
   .slice [.ptr (some (.struct subSlots)), .ptr none], .bytes (some [1#8, 2#8]),
   .bytes (some [0xa0#8, 0x1f#8, 1#8])]

/-- A value using every field, with an unknown field (number 500) and a nil list element. -/
def val : Val := .struct valSlots

theorem sub_typed : Typed schema 0 (.struct subSlots) := by
  refine .mk 0 _ rfl ?_ ?_
  · intro f hf x hx
    simp only [schema, msg, List.mem_cons, List.not_mem_nil, or_false] at hf
    rcases hf with rfl | rfl | rfl | rfl | rfl | rfl | rfl | rfl | rfl | rfl | rfl | rfl <;> cases hx
    · exact .plain _ _ rfl (.single _ _ rfl)
    · exact .plain _ _ rfl (.optionalNil _)
    · exact .plain _ _ rfl (.list _ _ _ nofun)
    · exact .plain _ _ rfl (.msg _ _ _ (.nil _))
    · exact .plain _ _ rfl (.mapMsgNil _ _ _)
    · exact .unset _ _ rfl
    · exact .unset _ _ rfl
    · refine .plain _ _ rfl (.msg _ _ _ (.inline _ _ (.mk 1 _ rfl ?_ nofun)))
      intro f hf x hx
      simp only [schema, inner, List.mem_singleton] at hf
      subst hf; cases hx
      exact .plain _ _ rfl (.single _ _ rfl)
    · exact .plain _ _ rfl (.list _ _ _ nofun)
    · exact .plain _ _ rfl (.msgList _ _ _ nofun)
    · exact .plain _ _ rfl (.single _ _ rfl)
    · exact .plain _ _ rfl (.mapNil _ _)
  · intro s p x h hx
    simp only [schema, msg, Option.some.injEq, Prod.mk.injEq] at h
    obtain ⟨rfl, rfl⟩ := h
    cases hx
    exact ⟨_, rfl⟩

theorem val_typed : Typed schema 0 val := by
  refine .mk 0 _ rfl ?_ ?_
  · intro f hf x hx
    simp only [schema, msg, List.mem_cons, List.not_mem_nil, or_false] at hf
    rcases hf with rfl | rfl | rfl | rfl | rfl | rfl | rfl | rfl | rfl | rfl | rfl | rfl <;> cases hx
    · exact .plain _ _ rfl (.single _ _ rfl)
    · exact .plain _ _ rfl (.optional _ _ rfl)
    · exact .plain _ _ rfl (.list _ _ _ (by simp [GoType.holds, Scalar.goType]))
    · exact .plain _ _ rfl (.msg _ _ _ (.ptr _ _ sub_typed))
    · refine .plain _ _ rfl (.mapMsg _ _ _ _ (by decide) ?_ ?_)
      · intro e he
        simp only [List.mem_singleton] at he
        subst he; rfl
      · intro e he
        simp only [List.mem_singleton] at he
        subst he; exact .ptr _ _ sub_typed
    · exact .member _ 100 _ rfl (.single _ _ rfl)
    · exact .otherMember _ 101 _ _ rfl (by decide)
    · refine .plain _ _ rfl (.msg _ _ _ (.inline _ _ (.mk 1 _ rfl ?_ nofun)))
      intro f hf x hx
      simp only [schema, inner, List.mem_singleton] at hf
      subst hf; cases hx
      exact .plain _ _ rfl (.single _ _ rfl)
    · exact .plain _ _ rfl (.list _ _ _ (by simp [GoType.holds, Scalar.goType]))
    · refine .plain _ _ rfl (.msgList _ _ _ ?_)
      intro v hv
      simp only [List.mem_cons, List.not_mem_nil, or_false] at hv
      rcases hv with rfl | rfl
      · exact .ptr _ _ sub_typed
      · exact .nil _
    · exact .plain _ _ rfl (.single _ _ rfl)
    · refine .plain _ _ rfl (.map _ _ _ (by decide) ?_)
      intro e he
      simp only [List.mem_cons, List.not_mem_nil, or_false] at he
      rcases he with rfl | rfl <;> exact ⟨rfl, rfl⟩
  · intro s p x h hx
    simp only [schema, msg, Option.some.injEq, Prod.mk.injEq] at h
    obtain ⟨rfl, rfl⟩ := h
    cases hx
    exact ⟨_, rfl⟩

/-- Its encoding, byte for byte. -/
def bytes : Bytes :=
  [0x08, 0xff, 0xff, 0xff, 0xff, 0xff, 0xff, 0xff, 0xff, 0xff, 0x01,
   0x12, 0x02, 0x68, 0x69, 0x1a, 0x04, 0x02, 0x01, 0xac, 0x02,
   0x22, 0x03, 0x08, 0xac, 0x02, 0x2a, 0x08, 0x0a, 0x01, 0x6b, 0x12, 0x03, 0x08, 0xac, 0x02,
   0x32, 0x01, 0x78, 0x42, 0x02, 0x08, 0x07, 0x4a, 0x01, 0x61, 0x4a, 0x02, 0x62, 0x63,
   0x52, 0x03, 0x08, 0xac, 0x02, 0x52, 0x00, 0x5a, 0x02, 0x01, 0x02,
   0x82, 0x7d, 0x04, 0x08, 0x05, 0x10, 0x01, 0x82, 0x7d, 0x04, 0x08, 0x06, 0x10, 0x00,
   0xa0, 0x1f, 0x01]

theorem val_encode : encode schema false 1000 0 val = some bytes := by decide +kernel

/-! ## Reachable messages -/

/-- The messages held by the sample value. -/
inductive Held : Nat → List Val → Prop
  | val : Held 0 valSlots
  | sub : Held 0 subSlots
  | zero : Held 0 msgZero
  | inner : Held 1 [.w32 7#32]

theorem held_sub {id id' : Nat} {slots : List Val} {v' : Val} (h : Held id slots)
    (hs : SubMsg schema id (.struct slots) id' v') : ∃ slots', v' = .struct slots' ∧ Held id' slots' := by
  cases hs with
  | mk _ f _ _ hf hs =>
    obtain ⟨x, d, hx, hd, hsub⟩ := hs
    cases h with
    | inner =>
      simp only [schema, inner, List.mem_singleton] at hf
      subst hf
      cases hsub
    | _ =>
      simp only [schema, msg, List.mem_cons, List.not_mem_nil, or_false] at hf
      rcases hf with rfl | rfl | rfl | rfl | rfl | rfl | rfl | rfl | rfl | rfl | rfl | rfl <;>
        cases hx <;> cases hd <;> cases hsub <;>
        first
          | exact ⟨_, rfl, .val⟩ | exact ⟨_, rfl, .sub⟩ | exact ⟨_, rfl, .zero⟩ | exact ⟨_, rfl, .inner⟩
          | (rename_i h; cases h; done)
          | (rename_i h; simp only [List.mem_cons, List.not_mem_nil, or_false] at h
             first
               | (subst h; exact ⟨_, rfl, .sub⟩)
               | (rcases h with rfl | rfl
                  · exact ⟨_, rfl, .sub⟩
                  · exact ⟨_, rfl, .zero⟩))

theorem held_reach {id id' : Nat} {v v' : Val} (hr : Reach schema id v id' v') :
    ∀ slots, v = .struct slots → Held id slots → ∃ slots', v' = .struct slots' ∧ Held id' slots' := by
  induction hr with
  | refl id v => exact fun slots h1 h2 => ⟨slots, h1, h2⟩
  | step id v id' v' id'' v'' hs hr ih =>
    intro slots h1 h2
    subst h1
    obtain ⟨slots', h3, h4⟩ := held_sub h2 hs
    exact ih slots' h3 h4

/-- No oneof in the sample value or a message held by it is set to a default value. -/
theorem val_shown : ∀ id' v', Reach schema 0 val id' v' → MembersShown schema id' v' := by
  intro id' v' hr
  obtain ⟨slots, rfl, h⟩ := held_reach hr _ rfl .val
  intro slots' hs f hf hm x d hx hd
  cases hs
  cases h with
  | inner =>
    simp only [schema, inner, List.mem_singleton] at hf
    subst hf
    exact absurd rfl hm
  | _ =>
    simp only [schema, msg, List.mem_cons, List.not_mem_nil, or_false] at hf
    rcases hf with rfl | rfl | rfl | rfl | rfl | rfl | rfl | rfl | rfl | rfl | rfl | rfl <;>
      first
        | exact absurd rfl hm
        | (cases hx; cases hd; done)
        | (cases hx; cases hd; decide)

end Verif.Props.Sample
