import Verif.Model.Gen.Ast
/-!
# Model of the verification of declarations

prutalgen/pkg/prutalgen/reserved.go, message.go:202-224, enum.go:119-131 and proto.go:149-167.
-/
namespace Verif.Model.Gen

/-- A statement in a message or enum: `reserved 2, 5 to 7, 9 to max;` or `reserved "a", "b";`.  The bounds are numbers already (see
`oneRange` for the literals); `none` is a range of one number and `some none` is `to max`. -/
inductive ReservedStmt where
  | ranges (rr : List (Int × Option (Option Int)))
  | names (ss : List Str)

/-- prutalgen/pkg/prutalgen/reserved.go:50-86 (`ExitReserved`): the ranges it appends. -/
def exitReserved : ReservedStmt → List Range
  | .names _ => []
  | .ranges rr => rr.map fun r =>
    match r.2 with
    | none => (r.1, r.1)
    | some none => (r.1, 2147483647)
    | some (some to) => (r.1, to)

/-- prutalgen/pkg/prutalgen/reserved.go:38-48 (`reservedRanges.In`). -/
def reservedIn (rr : List Range) (v : Int) : Bool :=
  if v ≥ 19000 ∧ v ≤ 19999 then true
  else
    let rec go : List Range → Bool
      | [] => false
      | r :: rest => if v ≥ r.1 ∧ v ≤ r.2 then true else go rest
    go rr

/-- The errors of verification. -/
inductive VErr where
  | reserved (name : Str) (num : Int)
  | duplicated (name : Str) (num : Int)

/-- prutalgen/pkg/prutalgen/enum.go:89-92 (`allowAlias`). -/
def allowAlias (e : EnumDecl) : Bool :=
  match optGet e.options "allow_alias".toList with
  | some v => isTrue v
  | none => false

/-- prutalgen/pkg/prutalgen/enum.go:119-131 (`Enum.verify`): the loop; `m` are the values that were seen. -/
def enumVerifyLoop (e : EnumDecl) : List Int → List EnumField → List VErr
  | _, [] => []
  | m, f :: fs =>
    (if reservedIn e.reserved f.value then [.reserved f.name f.value]
     else if m.contains f.value && !allowAlias e then [.duplicated f.name f.value]
     else []) ++ enumVerifyLoop e (f.value :: m) fs

def enumVerify (e : EnumDecl) : List VErr := enumVerifyLoop e [] e.fields

/-- prutalgen/pkg/prutalgen/message.go:214-222: the loop over the fields; `m` are the numbers that were seen. -/
def fieldsVerifyLoop (rr : List Range) : List Int → List FieldDecl → List VErr
  | _, [] => []
  | m, f :: fs =>
    (if reservedIn rr f.number then [.reserved f.name f.number]
     else if m.contains f.number then [.duplicated f.name f.number]
     else []) ++ fieldsVerifyLoop rr (f.number :: m) fs

mutual
/-- prutalgen/pkg/prutalgen/message.go:202-224 (`Message.verify`): the errors joined. -/
def msgVerify : MsgDecl → List VErr
  | .mk _ enums messages fields _ _ _ reserved =>
    enums.flatMap enumVerify ++ msgsVerify messages ++ fieldsVerifyLoop reserved [] fields
/-- The loop over the nested messages (message.go:209-213). -/
def msgsVerify : List MsgDecl → List VErr
  | [] => []
  | m :: ms => msgVerify m ++ msgsVerify ms
end

/-- prutalgen/pkg/prutalgen/proto.go:149-167 (`Proto.verify`), without the services; LoadProto (prutalgen.go:98-101) stops when there is an
error. -/
def fileVerify (p : FileDecl) : List VErr := p.enums.flatMap enumVerify ++ msgsVerify p.messages

end Verif.Model.Gen
