import Verif.Spec.Records
/-!
# Specification: how deep the messages in an input are nested
-/
namespace Verif.Spec

/-- `NestsIn S n c id b`: the input `b`, read as a message of type `id`, holds a message that is nested
`n` levels deep; `c` counts the same levels, but those entered through a map twice. -/
inductive NestsIn (S : Schema) : Nat → Nat → Nat → Bytes → Prop
  | zero (id : Nat) (b : Bytes) : NestsIn S 0 0 id b
  | msg (n c id : Nat) (b : Bytes) (rs : List Rec) (r : Rec) (f : Field) (id' : Nat) (q : Bool) (p : Bytes) :
      Splits b rs → r ∈ rs → f ∈ (S id).fields → f.num = r.num →
      f.shape = .msg id' q ∨ f.shape = .msgList id' q → IsLen r.val p →
      NestsIn S n c id' p → NestsIn S (n + 1) (c + 1) id b
  | map (n c id : Nat) (b : Bytes) (rs : List Rec) (r : Rec) (f : Field) (ks : Scalar) (id' : Nat) (q : Bool)
      (kb vb rest p : Bytes) :
      Splits b rs → r ∈ rs → f ∈ (S id).fields → f.num = r.num → f.shape = .mapMsg ks id' q →
      IsLen r.val (tag 1 ks.wire ++ kb ++ (tag 2 .len ++ vb) ++ rest) → IsValue 0 1 ks.wire kb → IsLen vb p →
      NestsIn S n c id' p → NestsIn S (n + 1) (c + 2) id b

end Verif.Spec
