import Verif.Props.Relay
/-!
# What a program with an older version of the definitions does lose (C97)
-/
namespace Verif.Props
open Verif.Spec Verif.Model

/-! ## a message held by value

```
type Outer struct {
	In Inner `protobuf:"bytes,1,opt,name=in"`
	unknownFields []byte
}
type Inner struct {
	X int32 `protobuf:"varint,1,opt,name=x"`
	Y int32 `protobuf:"varint,2,opt,name=y"` // not in the older version
	unknownFields []byte
}
```
-/
namespace ByValue

def outer (zero : Val) : StructDecl where
  fields := [
    { name := "In".toList, type := .struct 1, tag := "bytes,1,opt,name=in".toList },
    { name := "unknownFields".toList, type := .bytes }]
  size := 56
  zero := .struct [zero, .bytes none]

def newEnv : GoEnv where
  structs := [outer (.struct [.w32 0, .w32 0, .bytes none]),
    { fields := [
        { name := "X".toList, type := .int32, tag := "varint,1,opt,name=x".toList },
        { name := "Y".toList, type := .int32, tag := "varint,2,opt,name=y".toList },
        { name := "unknownFields".toList, type := .bytes }]
      size := 32
      zero := .struct [.w32 0, .w32 0, .bytes none] }]

def oldEnv : GoEnv where
  structs := [outer (.struct [.w32 0, .bytes none]),
    { fields := [
        { name := "X".toList, type := .int32, tag := "varint,1,opt,name=x".toList },
        { name := "unknownFields".toList, type := .bytes }]
      size := 32
      zero := .struct [.w32 0, .bytes none] }]

def newVal (x y : BitVec 32) : Val := .struct [.struct [.w32 x, .w32 y, .bytes none], .bytes none]
def oldVal (x : BitVec 32) : Val := .struct [.struct [.w32 x, .bytes none], .bytes none]

/-- `in` in two records: first `y = 7`, then `x = 1`. -/
def input : Bytes := [0x0a#8, 2#8, 0x10#8, 7#8, 0x0a#8, 2#8, 0x08#8, 1#8]

end ByValue

/-- A message held by value that arrives in two records: the newer program merges them, the older one drops the
unknown fields of the first when it reads the second, and passes on a message without them. -/
theorem C97_byValue_violated : ∃ old bs, unmarshal ByValue.newEnv ByValue.input (.ptr 0 (some (ByValue.newVal 0 0))) = .ok (ByValue.newVal 1 7) ∧
    unmarshal ByValue.oldEnv ByValue.input (.ptr 0 (some (ByValue.oldVal 0))) = .ok old ∧
    marshal ByValue.oldEnv (.ptr 0 (some old)) = .ok bs ∧
    unmarshal ByValue.newEnv bs (.ptr 0 (some (ByValue.newVal 0 0))) = .ok (ByValue.newVal 1 0) :=
  ⟨.struct [.struct [.w32 1, .bytes (some [])], .bytes none], [0x0a#8, 2#8, 0x08#8, 1#8], by rfl, by rfl, by decide +kernel, by rfl⟩

/-! ## a oneof with a new case -/
namespace NewCase

def decl (ws : List Wrapper) : GoEnv where
  structs := [
    { fields := [
        { name := "F".toList, type := .iface, oneofTag := "f".toList },
        { name := "unknownFields".toList, type := .bytes }]
      wrappers := ws
      size := 40
      zero := .struct [.iface none, .bytes none] }]

def caseA : Wrapper :=
  { id := 100, implements := [0], fields := [{ name := "A".toList, type := .int32, tag := "varint,1,opt,name=a,oneof".toList }] }
def caseB : Wrapper :=
  { id := 101, implements := [0], fields := [{ name := "B".toList, type := .int32, tag := "varint,2,opt,name=b,oneof".toList }] }

def newEnv : GoEnv := decl [caseA, caseB]
def oldEnv : GoEnv := decl [caseA]

def val (c : Option (Nat × Option Val)) : Val := .struct [.iface c, .bytes none]

end NewCase

/-- A oneof that got a new case: in the input the new case comes first and the old one replaces it.  The older
program writes the unknown case last, so that it wins. -/
theorem C97_newCase_violated : ∃ old bs,
    unmarshal NewCase.newEnv [0x10#8, 7#8, 0x08#8, 5#8] (.ptr 0 (some (NewCase.val none))) = .ok (NewCase.val (some (100, some (.w32 5)))) ∧
    unmarshal NewCase.oldEnv [0x10#8, 7#8, 0x08#8, 5#8] (.ptr 0 (some (NewCase.val none))) = .ok old ∧
    marshal NewCase.oldEnv (.ptr 0 (some old)) = .ok bs ∧
    unmarshal NewCase.newEnv bs (.ptr 0 (some (NewCase.val none))) = .ok (NewCase.val (some (101, some (.w32 7)))) :=
  ⟨.struct [.iface (some (100, some (.w32 5))), .bytes (some [0x10#8, 7#8])], [0x08#8, 5#8, 0x10#8, 7#8], by rfl, by rfl,
    by decide +kernel, by rfl⟩

end Verif.Props
