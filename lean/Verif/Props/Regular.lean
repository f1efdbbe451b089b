import Verif.Lemmas.GoTyped
import Verif.Props.Marshal
import Verif.Props.Unmarshal
import Verif.Props.Tags
/-!
# C35, C23: accepted types with ordinary fields are handled safely

C35 is false of the code (`Props/Tags.lean`).  What is true: if the Go types of the tagged fields are ordinary ones
(`Spec/Regular.lean`) and lists say `rep`, then acceptance means that the tags go with the types, whatever the tags say.
-/
namespace Verif.Props
open Verif.Spec Verif.Model Verif.Lemmas

section
variable {env : GoEnv} {D : Descs}

/-- **C35** for ordinary fields: an accepted set of types behaves, in every call, like a set of types implementing a well-formed
schema in which every field has the Go type it has in the struct; and the Go values of the types are the values of that schema.  So
everything proved about types implementing a schema holds of all accepted types with ordinary fields. -/
theorem C35_schema_partial (ha : parseDescs env = .ok D) (hr : Regular env) :
    ∃ (env' : GoEnv) (S : Schema), S.WF ∧ Implements env' S ∧
      (∀ b a, marshalAppend env b a = marshalAppend env' b a) ∧ (∀ a, size env a = size env' a) ∧
      (∀ b a, unmarshal env b a = unmarshal env' b a) ∧
      (∀ id v, GoTyped env (.struct id) v → Typed S id v) ∧
      (∀ id s, env.structs[id]? = some s → ∀ f ∈ (S id).fields,
        (f.member = none → ∃ gf, s.fields[f.slot]? = some gf ∧ gf.tag ≠ [] ∧ gf.type = f.shape.goType) ∧
        (∀ w, f.member = some w → ∃ wr ∈ s.wrappers, wr.id = w ∧ ∃ gf, wr.fields = [gf] ∧ gf.type = f.shape.goType)) := by
  obtain ⟨h1, h2⟩ := regular_schema hr ha
  have h3 := parseDescs_canon hr ha
  have he : parseDescs env = parseDescs (canonEnv env) := by rw [ha, h3]
  refine ⟨canonEnv env, regSchema env D, h1, h2, ?_, ?_, ?_, fun id v h => (goTyped_shape hr ha h).2 id rfl, ?_⟩
  · intro b a; cases a <;> simp only [marshalAppend, he]
  · intro a
    rcases a with _ | _ | ⟨⟨⟩⟩ | ⟨_, ⟨⟩⟩ <;> simp only [size, he]
  · intro b a; cases a <;> simp only [unmarshal, he]
  · intro id s hs f hf
    have hS : regSchema env D id = regMessage s (D id) := by unfold regSchema; rw [hs]
    rw [hS] at hf
    obtain ⟨g, hg, rfl⟩ := List.mem_map.1 hf
    have hds := parseDescs_get ha id s hs
    obtain ⟨q, hq⟩ := ((parseStruct_facts hds).1 g).1 hg
    cases (declared_facts (hr s (List.mem_of_getElem? hs)) hds hq).1 with
    | plain i gf a1 a2 a3 a4 a5 a6 =>
      exact ⟨fun _ => ⟨gf, by rw [a3]; exact a1, a2, a5.symm⟩, fun w e => by rw [a4] at e; cases e⟩
    | member j w i gf a1 a2 a3 a4 a5 a6 a7 a8 a9 =>
      refine ⟨fun e => (by rw [a6] at e; cases e), fun w' e => ?_⟩
      rw [a6] at e; cases e
      exact ⟨w, List.mem_of_getElem? a1, rfl, gf, a4, a7.symm⟩

/-- `w` is what a message holds after some successful calls of Unmarshal, starting with `v`. -/
inductive AfterCalls (env : GoEnv) (id : Nat) (v : Val) : Val → Prop
  | start : AfterCalls env id v v
  | call (u w : Val) (b : Bytes) : AfterCalls env id v u → unmarshal env b (.ptr id (some u)) = .ok w → AfterCalls env id v w

/-- Not a panic, not an access to memory at a wrong type. -/
def WellBehaved {α : Type} (r : Res α) : Prop := r ≠ .error .panic ∧ r ≠ .error .ub

/-- **C35**, **C23** for ordinary fields: if a set of types is accepted, then MarshalAppend, Size and Unmarshal, called with any Go value
of one of the types - also with one that has gone through any number of calls of Unmarshal - and any bytes, never panic and never access
memory at a wrong type. -/
theorem C35_safe_partial (ha : parseDescs env = .ok D) (hr : Regular env) (id : Nat) (v w : Val) (hv : GoTyped env (.struct id) v)
    (hw : AfterCalls env id v w) (b : Bytes) :
    WellBehaved (marshalAppend env b (.ptr id (some w))) ∧ WellBehaved (size env (.ptr id (some w))) ∧
    WellBehaved (unmarshal env b (.ptr id (some w))) := by
  obtain ⟨env', S, h1, h2, h3, h4, h5, h6, _⟩ := C35_schema_partial ha hr
  have ht : Typed S id w := by
    induction hw with
    | start => exact h6 id v hv
    | call u w b _ hu ih => rw [h5] at hu; exact unmarshal_typed h2 h1 ih hu
  rw [h3, h4, h5]
  have hs := marshal_size_spec h2 h1 ht b
  refine ⟨?_, ?_, C23_total_partial h2 h1 id w ht b⟩
  · cases he : encode S false 1000 id w with
    | none => rw [he] at hs; rw [hs.1]; exact ⟨nofun, nofun⟩
    | some bs => rw [he] at hs; obtain ⟨r, n, e1, e2, _⟩ := hs; rw [e1]; exact ⟨nofun, nofun⟩
  · cases he : encode S false 1000 id w with
    | none => rw [he] at hs; rw [hs.2]; exact ⟨nofun, nofun⟩
    | some bs => rw [he] at hs; obtain ⟨r, n, e1, e2, _⟩ := hs; rw [e2]; exact ⟨nofun, nofun⟩

/-- **C23** for ordinary fields, all accepted types. -/
theorem C23_accepted_partial (ha : parseDescs env = .ok D) (hr : Regular env) (id : Nat) (v : Val) (hv : GoTyped env (.struct id) v) (b : Bytes) :
    (∃ w, unmarshal env b (.ptr id (some v)) = .ok w) ∨
    ∃ e, unmarshal env b (.ptr id (some v)) = .error e ∧ e ≠ .panic ∧ e ≠ .ub := by
  have h := (C35_safe_partial ha hr id v v hv .start b).2.2
  cases hu : unmarshal env b (.ptr id (some v)) with
  | ok w => exact .inl ⟨w, rfl⟩
  | error e =>
    rw [hu] at h
    exact .inr ⟨e, rfl, fun e' => h.1 (by rw [e']), fun e' => h.2 (by rw [e'])⟩

end

/-! ## A type with unusual tags -/

namespace Odd

/-- `type M struct { A int32; B []string; C map[int64]*M; O isM_O; X *uint64; unknownFields []byte }`; the tag of `A` has two numbers and two
encodings, a wrapper implements two interfaces, another one none of the oneofs, and
one holds a message by value. -/
def env : GoEnv where
  structs := [{
    fields := [
      { name := "A".toList, type := .int32, tag := "opt,5,varint,7,zigzag32".toList },
      { name := "B".toList, type := .slice .string, tag := "bytes,2,rep,name=b".toList },
      { name := "C".toList, type := .map .int64 (.ptr (.struct 0)), tag := "bytes,3,rep".toList, keyTag := "varint,1".toList,
        valTag := "bytes,2,varint".toList },
      { name := "O".toList, type := .iface, oneofTag := "o".toList },
      { name := "X".toList, type := .ptr .uint64, tag := "req,fixed64,0008".toList },
      { name := "unknownFields".toList, type := .bytes }]
    wrappers := [
      { id := 100, implements := [3, 9], fields := [{ name := "S".toList, type := .string, tag := "bytes,4".toList }] },
      { id := 101, implements := [3], fields := [{ name := "M".toList, type := .ptr (.struct 0), tag := "bytes,6,oneof".toList }] },
      { id := 102, implements := [9], fields := [{ name := "Z".toList, type := .bool, tag := "varint,1".toList }] },
      { id := 103, implements := [3], fields := [{ name := "V".toList, type := .struct 0, tag := "bytes,9,oneof".toList }] }]
    size := 112
    zero := .struct [.w32 0#32, .slice [], .map none, .iface none, .ptr none, .bytes none] }]

theorem tidy {rep : Bool} {tag : List Char} (ws : List (List Char)) (w : List Char) (h1 : tag = joinComma ws)
    (h2 : ws.all (fun w => !w.contains ',' && !w.head?.any isBlank && !w.getLast?.any isBlank) = true)
    (h3 : w ∈ ws) (h4 : w.all isDigit = true) (h5 : w ≠ []) (h6 : 1 ≤ digitsVal w)
    (h7 : ws.all (fun w => decide (w = []) || !w.all isDigit || decide (digitsVal w ≠ 0)) = true) (h8 : rep = true → "rep".toList ∈ ws) :
    TidyTag rep tag := by
  refine ⟨ws, h1, isWord_all ws h2, ⟨w, h3, _, h6, isDecimal_snoc w h5 h4⟩, fun x hx hd => ?_, h8⟩
  have := List.all_eq_true.1 h7 x hx
  obtain ⟨p1, p2, p3⟩ := decimal_props hd
  simp [p1, p2, p3] at this

theorem regular : Regular env := by
  intro d hd
  simp only [env, List.mem_singleton] at hd
  subst hd
  refine ⟨?_, ?_, by decide, ?_, ?_, rfl⟩
  · intro gf hgf ht
    simp only [List.mem_cons, List.not_mem_nil, or_false] at hgf
    rcases hgf with rfl | rfl | rfl | rfl | rfl | rfl
    · exact ⟨rfl, tidy ["opt".toList, "5".toList, "varint".toList, "7".toList, "zigzag32".toList] "5".toList (by decide) (by decide)
        (by decide) (by decide) (by decide) (by decide) (by decide) (by decide)⟩
    · exact ⟨rfl, tidy ["bytes".toList, "2".toList, "rep".toList, "name=b".toList] "2".toList (by decide) (by decide) (by decide) (by decide)
        (by decide) (by decide) (by decide) (by decide)⟩
    · exact ⟨rfl, tidy ["bytes".toList, "3".toList, "rep".toList] "3".toList (by decide) (by decide) (by decide) (by decide) (by decide)
        (by decide) (by decide) (by decide)⟩
    · exact absurd rfl ht
    · exact ⟨rfl, tidy ["req".toList, "fixed64".toList, "0008".toList] "0008".toList (by decide) (by decide) (by decide) (by decide)
        (by decide) (by decide) (by decide) (by decide)⟩
    · exact absurd rfl ht
  · intro w hw gf hgf
    simp only [List.mem_cons, List.not_mem_nil, or_false] at hw
    rcases hw with rfl | rfl | rfl | rfl
    · cases hgf
      exact ⟨.inl rfl, tidy ["bytes".toList, "4".toList] "4".toList (by decide) (by decide) (by decide) (by decide) (by decide) (by decide)
        (by decide) (by decide)⟩
    · cases hgf
      exact ⟨.inr (.inl ⟨0, rfl⟩), tidy ["bytes".toList, "6".toList, "oneof".toList] "6".toList (by decide) (by decide) (by decide) (by decide)
        (by decide) (by decide) (by decide) (by decide)⟩
    · cases hgf
      exact ⟨.inl rfl, tidy ["varint".toList, "1".toList] "1".toList (by decide) (by decide) (by decide) (by decide) (by decide) (by decide)
        (by decide) (by decide)⟩
    · cases hgf
      exact ⟨.inr (.inr ⟨0, rfl⟩), tidy ["bytes".toList, "9".toList, "oneof".toList] "9".toList (by decide) (by decide) (by decide) (by decide)
        (by decide) (by decide) (by decide) (by decide)⟩
  · intro gf hgf hn
    simp only [List.mem_cons, List.not_mem_nil, or_false] at hgf
    rcases hgf with rfl | rfl | rfl | rfl | rfl | rfl
    · exact absurd hn (by decide)
    · exact absurd hn (by decide)
    · exact absurd hn (by decide)
    · rfl
    · exact absurd hn (by decide)
    · rfl
  · intro gf hgf ht ho
    simp only [List.mem_cons, List.not_mem_nil, or_false] at hgf
    rcases hgf with rfl | rfl | rfl | rfl | rfl | rfl
    · exact absurd rfl ho
    · exact absurd rfl ho
    · exact absurd rfl ho
    · rfl
    · exact absurd rfl ho
    · exact absurd rfl ho

/-- The type is accepted; the last number and the last encoding count. -/
example : (parseDescs env).isOk = true ∧ ((parseDescs env).toOption.map fun D => (D 0).fields.map fun f => (f.id.toInt, f.tagType)) =
    some [(2, .bytes), (3, .bytes), (4, .bytes), (6, .bytes), (7, .zigzag32), (8, .fixed64), (9, .bytes)] := by decide +kernel

/-- A value: `A` is -1, one string, a map entry with a nil message, the oneof holds a message with an unknown field, by value. -/
def val : Val := .struct [.w32 (-1#32), .slice [.str [0x61#8]], .map (some [(.w64 5#64, .ptr none)]),
  .iface (some (103, some (.struct [.w32 0#32, .slice [], .map none, .iface none, .ptr none, .bytes (some [0x78#8, 1#8])]))),
  .ptr none, .bytes none]

theorem typedInner : GoTyped env (.struct 0) (.struct [.w32 0#32, .slice [], .map none, .iface none, .ptr none, .bytes (some [0x78#8, 1#8])]) := by
  refine .struct 0 _ rfl (fun i gf x h1 h2 => ?_)
  match i with
  | 0 => cases h1; cases h2; exact .value _ _ _ nofun (.basic _ _ rfl)
  | 1 => cases h1; cases h2; exact .value _ _ _ nofun (.slice _ _ nofun)
  | 2 => cases h1; cases h2; exact .value _ _ _ nofun (.mapNil _ _)
  | 3 => cases h1; cases h2; exact .unset _
  | 4 => cases h1; cases h2; exact .value _ _ _ nofun (.ptrNil _)
  | 5 => cases h1; cases h2; exact .value _ _ _ nofun (.basic _ _ rfl)
  | i + 6 => cases h1

theorem typed : GoTyped env (.struct 0) val := by
  refine .struct 0 _ rfl (fun i gf x h1 h2 => ?_)
  match i with
  | 0 => cases h1; cases h2; exact .value _ _ _ nofun (.basic _ _ rfl)
  | 1 => cases h1; cases h2; exact .value _ _ _ nofun (.slice _ _ (fun x hx => by rw [List.mem_singleton.1 hx]; exact .basic _ _ rfl))
  | 2 =>
    cases h1; cases h2
    exact .value _ _ _ nofun (.map _ _ _ (by decide) (fun e he => by rw [List.mem_singleton.1 he]; rfl)
      (fun e he => by rw [List.mem_singleton.1 he]; exact .ptrNil _))
  | 3 =>
    cases h1; cases h2
    refine .set _ 103 _ (fun wr hwr e gf hg => ?_)
    have hwr : wr ∈ (env.structs[0]?.getD default).wrappers := hwr
    simp only [env, List.getElem?_cons_zero, Option.getD_some, List.mem_cons, List.not_mem_nil, or_false] at hwr
    rcases hwr with rfl | rfl | rfl | rfl
    · cases e
    · cases e
    · cases e
    · cases hg; exact typedInner
  | 4 => cases h1; cases h2; exact .value _ _ _ nofun (.ptrNil _)
  | 5 => cases h1; cases h2; exact .value _ _ _ nofun (.basic _ _ rfl)
  | i + 6 => cases h1

example : marshalAppend env [] (.ptr 0 (some val)) =
    .ok [0x12#8, 1#8, 0x61#8, 0x1a#8, 4#8, 0x08#8, 5#8, 0x12#8, 0#8, 0x38#8, 1#8, 0x4a#8, 2#8, 0x78#8, 1#8] := rfl

example : unmarshal env [0x4a#8, 2#8, 0x28#8, 3#8, 0x4a#8, 2#8, 0x78#8, 1#8] (.ptr 0 (some (env.structs[0]?.getD default).zero)) =
    .ok (.struct [.w32 0#32, .slice [], .map none,
      .iface (some (103, some (.struct [.w32 0#32, .slice [], .map none, .iface none, .ptr none, .bytes (some [0x78#8, 1#8])]))),
      .ptr none, .bytes none]) := rfl

end Odd

end Verif.Props
