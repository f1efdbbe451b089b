import Verif.Model.Api
/-!
# Model of the argument of `Unmarshal` after the call, also when it fails

`Model/Decoder.lean` returns the updated target or an error.  The functions here compute what the target holds after an
error: the records decoded so far, and whatever the record at which decoding stopped has already changed.  They use the
functions of `Model/Decoder.lean` for the records that are decoded, and are themselves only evaluated for the record
(and, inside it, the nested message) that fails.

Memory the code obtains without initialising it is given by a parameter `J`, a function of the bytes still to be read and
the type, so that different places may hold different contents.  Simplifications: `J` gives a value of the type (an
uninitialised `bool` can in fact be a byte other than 0 and 1); the memory behind the last element of a list of messages
held by value is taken to be zero, as in `Model/Decoder.lean`.
-/
namespace Verif.Model

/-- The content of memory that has not been initialised. -/
abbrev Junk := Bytes → GoType → Val

/-- internal/prutal/decoder.go:45-51 (`Malloc`), internal/prutal/span.go:27-60: fresh memory; types without pointers come
from the arena, which is not cleared. -/
def allocJ (D : Descs) (J : Junk) (b : Bytes) (t : GoType) : Val :=
  if t.zeroedAlloc then zeroVal D t else J b t

/-- What a nested `DecodeStruct(b, base, s, maxdepth)` leaves in `*base` when it fails. -/
abbrev LeftFn := Int → Bytes → Val → Nat → Val

/-- internal/prutal/decoder.go:540-543: `DecodeMapPair` has replaced a nil map by an empty one before it fails. -/
def leftMap : Val → Val
  | .map none => .map (some [])
  | v => v

/-- internal/prutal/decoder.go:243-293: the LEN case, failing.  The specialised map decoders
(internal/wire/decoder_map.go:183-918) create the map only after key and value have been read. -/
def leftLenAt (lrec : LeftFn) (f : FieldDesc) (t : GoType) (fb : Bytes) (cur : Val) (depth : Int) : Val :=
  match t with
  | .map _ _ =>
    match f.decodeMap with
    | some _ => cur
    | none => match f.t with
      | .map _ _ => leftMap cur
      | _ => cur
  | .struct id => lrec (depth - 1) fb cur id
  | _ => cur

/-- internal/prutal/decoder.go:178-298: the switch on the wire type, failing.  The target is written only after the value
has been read, except inside maps and messages. -/
def leftValueAt (lrec : LeftFn) (f : FieldDesc) (t : GoType) (typ : WType) (b : Bytes) (cur : Val) (depth : Int) : Val :=
  match typ with
  | 2 => match consumeBytes b with
    | .ok (fb, _) => leftLenAt lrec f t fb cur depth
    | .error _ => cur
  | _ => cur

/-- internal/prutal/decoder.go:162-176: the new list element is part of the list (`h.Len++`) before its value is read;
if the slice had spare capacity its memory holds what was there before. -/
def leftElem (D : Descs) (J : Junk) (lrec : LeftFn) (f : FieldDesc) (te : GoType) (typ : WType) (b : Bytes)
    (depth : Int) : Val :=
  match te with
  | .ptr te' => .ptr (some (leftValueAt lrec f te' typ b (allocJ D J b te') depth))
  | .struct id => leftValueAt lrec f te typ b (zeroVal D (.struct id)) depth
  | _ => leftValueAt lrec f te typ b (J b te) depth

/-- internal/prutal/decoder.go:144-177: repeated fields, failing; the decoders of packed blocks
(internal/wire/decoder_packed.go:37-194) store the slice only after the whole block has been read. -/
def leftRep (D : Descs) (J : Junk) (lrec : LeftFn) (f : FieldDesc) (t : GoType) (typ : WType) (b : Bytes) (cur : Val)
    (depth : Int) : Val :=
  match f.repeated, t with
  | true, .slice te =>
    if typ = tBytes ∧ f.packed = true then cur
    else match cur with
      | .slice xs => .slice (xs ++ [leftElem D J lrec f te typ b depth])
      | _ => cur
  | _, _ => leftValueAt lrec f t typ b cur depth

/-- internal/prutal/decoder.go:53-64, 139-142: the pointer is set to the new target before its value is read. -/
def leftPtr (D : Descs) (J : Junk) (lrec : LeftFn) (f : FieldDesc) (typ : WType) (b : Bytes) (cur : Val) (depth : Int) : Val :=
  match f.t with
  | .ptr t => .ptr (some (leftRep D J lrec f t typ b (allocJ D J b t) depth))
  | t => leftRep D J lrec f t typ b cur depth

/-- internal/prutal/decoder.go:130-298: a record of a declared field, failing; the oneof interface is set to the new
member before its value is read (133-137). -/
def leftField (D : Descs) (J : Junk) (lrec : LeftFn) (f : FieldDesc) (typ : WType) (b : Bytes) (cur : Val) (depth : Int) : Val :=
  match f.oneof with
  | some w => .iface (some (w, some (leftPtr D J lrec f typ b (allocJ D J b f.t) depth)))
  | none => leftPtr D J lrec f typ b cur depth

/-- internal/prutal/decoder.go:105-300: the iteration of the loop that fails.  Nothing is stored for a malformed tag
(107-110) or an unknown field that is not complete (121-125). -/
def leftRecord (D : Descs) (J : Junk) (lrec : LeftFn) (s : StructDesc) (depth : Int) (b : Bytes) (fs : List Val)
    (last : Option FieldDesc) : List Val :=
  match consumeTag b with
  | .error _ => fs
  | .ok (num, typ, n) =>
    match lookupField s last num with
    | none => fs
    | some f =>
      match fs[f.slot]? with
      | none => fs
      | some cur => fs.set f.slot (leftField D J lrec f typ (b.drop n) cur depth)

/-- internal/prutal/decoder.go:105-302: the loop over the records, up to the one that fails. -/
def leftLoop (D : Descs) (J : Junk) (dec : DecRec) (lrec : LeftFn) (s : StructDesc) (depth : Int) :
    Nat → Bytes → List Val → Option FieldDesc → List Val
  | _, [], fs, _ => fs
  | 0, _ :: _, fs, _ => fs
  | fuel + 1, b@(_ :: _), fs, last =>
    match decodeRecord D dec s depth b fs last with
    | .ok (fs, n, last) => leftLoop D J dec lrec s depth fuel (b.drop n) fs last
    | .error _ => leftRecord D J lrec s depth b fs last

/-- internal/prutal/decoder.go:90-308 (`DecodeStruct`): the target after the call. -/
def leftStruct (D : Descs) (J : Junk) : Nat → Int → Bytes → Val → Nat → Val
  | 0, _, _, v, _ => v
  | fuel + 1, depth, b, v, sid =>
    if depth = 0 then v
    else match v with
      | .struct fs =>
        match resetUnknown (D sid) fs with
        | .ok fs => .struct (leftLoop D J (decodeStruct D fuel) (leftStruct D J fuel) (D sid) depth b.length b fs none)
        | .error _ => v
      | _ => v

/-- prutal.go:73-87 (`Unmarshal`): the message its argument points to after the call, whether it fails or not. -/
def unmarshalLeft (env : GoEnv) (J : Junk) (b : Bytes) (sid : Nat) (v : Val) : Val :=
  match parseDescs env with
  | .error _ => v
  | .ok D => leftStruct D J (b.length + 1) defaultRecursionMaxDepth b v sid

end Verif.Model
