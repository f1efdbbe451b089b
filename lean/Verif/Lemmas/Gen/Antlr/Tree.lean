import Verif.Model.Gen.Antlr.LexerSim
/-!
# Lookup trees for tables, and what is checked of the table of the lexer
-/
namespace Verif.Lemmas.Gen.Antlr
open Verif.Model.Gen Verif.Model.Gen.Antlr

/-- A binary tree with the keys in order. -/
inductive Tree (α : Type) where
  | leaf
  | node (l : Tree α) (k : Nat) (v : α) (r : Tree α)

def Tree.get {α : Type} : Tree α → Nat → Option α
  | .leaf, _ => none
  | .node l k v r, i => bif Nat.blt i k then l.get i else bif Nat.blt k i then r.get i else some v

def Tree.toList {α : Type} : Tree α → List α
  | .leaf => []
  | .node l _ v r => l.toList ++ v :: r.toList

/-- The keys are the numbers from the given one on; the first one that is not in the tree. -/
def Tree.upTo {α : Type} (t : Tree α) (lo : Nat) : Option Nat :=
  match t with
  | .leaf => some lo
  | .node l k _ r =>
    match l.upTo lo with
    | none => none
    | some k' => if k' = k then r.upTo (k + 1) else none

theorem blt_false {a b : Nat} (h : b ≤ a) : Nat.blt a b = false := by
  cases hb : Nat.blt a b with
  | false => rfl
  | true => exact absurd (Nat.blt_eq.mp hb) (by omega)

theorem Tree.upTo_spec {α : Type} : ∀ (t : Tree α) (lo hi : Nat), t.upTo lo = some hi →
    hi = lo + t.toList.length ∧ (∀ i, t.get i = if lo ≤ i then t.toList[i - lo]? else none) := by
  intro t
  induction t with
  | leaf =>
    intro lo hi h
    simp only [Tree.upTo, Option.some.injEq] at h
    subst h
    simp [Tree.toList, Tree.get]
  | node l k v r ihl ihr =>
    intro lo hi h
    simp only [Tree.upTo] at h
    split at h
    · cases h
    · rename_i k' hl
      split at h
      · rename_i hk
        subst hk
        obtain ⟨hl1, hl2⟩ := ihl lo k' hl
        obtain ⟨hr1, hr2⟩ := ihr (k' + 1) hi h
        refine ⟨by simp only [Tree.toList, List.length_append, List.length_cons]; omega, ?_⟩
        intro i
        simp only [Tree.get, Tree.toList]
        by_cases h1 : i < k'
        · rw [show Nat.blt i k' = true from by simpa [Nat.blt_eq] using h1]
          simp only [cond_true]
          rw [hl2 i]
          by_cases h2 : lo ≤ i
          · rw [if_pos h2, if_pos h2, List.getElem?_append_left (by omega)]
          · rw [if_neg h2, if_neg h2]
        · rw [show Nat.blt i k' = false from blt_false (by omega)]
          simp only [cond_false]
          rw [if_pos (by omega), List.getElem?_append_right (by omega)]
          by_cases h2 : k' < i
          · rw [show Nat.blt k' i = true from by simpa [Nat.blt_eq] using h2]
            simp only [cond_true]
            rw [hr2 i, if_pos (by omega), show i - lo - l.toList.length = (i - (k' + 1)) + 1 by omega, List.getElem?_cons_succ]
          · rw [show Nat.blt k' i = false from blt_false (by omega)]
            simp only [cond_false]
            rw [show i - lo - l.toList.length = 0 by omega, List.getElem?_cons_zero]
      · cases h

/-- A state of the DFA: configurations, what is accepted, and the targets of the characters below the given bounds. -/
structure Row where
  cfgs : List Cfg
  acc : Option (Nat × Option (List Action))
  edges : List (Nat × Option Nat)

def nextIn : List (Nat × Option Nat) → Nat → Option Nat
  | [], _ => none
  | (hi, t) :: es, c => bif Nat.blt c hi then t else nextIn es c

/-- The characters at which a transition begins or ceases to match. -/
def transBounds : Trans → List Nat
  | .atom _ (some l) => [l, l + 1]
  | .range _ a b => [a, b + 1]
  | .set _ s => s.ivs.flatMap fun i => [i.1, i.2]
  | .notSet _ s => s.ivs.flatMap fun i => [i.1, i.2]
  | _ => []

def cfgsBounds (A : Net) (cs : List Cfg) : List Nat :=
  cs.flatMap fun c =>
    match A.state c.state with
    | none => []
    | some st => st.trans.flatMap transBounds

def cfgsOf (tab : Tree Row) : Option Nat → Option (List Cfg)
  | none => some []
  | some j => (tab.get j).map Row.cfgs

def edgesOk (A : Net) (tab : Tree Row) (cs : List Cfg) (bs : List Nat) : Nat → List (Nat × Option Nat) → Bool
  | lo, [] => Nat.beq lo 0x110000
  | lo, (hi, t) :: es =>
    bs.all (fun b => Nat.ble b lo || Nat.ble hi b) && (cfgsOf tab t).isSome && decide (A.reach cs (some lo) = cfgsOf tab t) && edgesOk A tab cs bs hi es

def rowOk (A : Net) (tab : Tree Row) (r : Row) : Bool :=
  decide (A.acceptOf r.cfgs = some r.acc) && !r.cfgs.isEmpty && decide (A.reach r.cfgs none = some []) && edgesOk A tab r.cfgs (cfgsBounds A r.cfgs) 0 r.edges

end Verif.Lemmas.Gen.Antlr
