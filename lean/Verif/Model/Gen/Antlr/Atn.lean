/-!
# Model of the deserializer of automata

prutalgen/internal/antlr/atn_deserializer.go builds the automaton (ATN) of a lexer or parser from a list of numbers; prutalgen/internal/antlr/{atn_state,
transition,interval_set,lexer_action}.go are its parts.  States are referred to by their numbers.  A symbol is a character (or token type), or `none` for
EOF, which is -1 in Go.  A result `none` stands for a panic.  Simplifications: the numbers are `uint32` (the code converts `int32` to `int`; the only
negative one is the rule -1 of the start state); invalid states, transitions of the type RANGE from EOF and lexer actions other than `channel` are refused:
there are none in the automata of this program.
-/
namespace Verif.Model.Gen.Antlr

/-- prutalgen/internal/antlr/interval_set.go:45-48 (`IntervalSet`): half-open intervals; whether -1 (EOF) is in the set is kept apart. -/
structure ISet where
  eof : Bool
  ivs : List (Nat × Nat)
  deriving DecidableEq, Repr

/-- prutalgen/internal/antlr/transition.go:79-90 and the types that follow: the transitions.  The target is the first argument; of a rule transition
it is the start state of the rule, the second is the state that follows the rule. -/
inductive Trans where
  | epsilon (target : Nat)
  | range (target lo hi : Nat)
  | rule (target follow ruleIndex precedence : Nat)
  | predicate (target ruleIndex predIndex : Nat)
  | atom (target : Nat) (label : Option Nat)
  | action (target actionIndex : Nat)
  | set (target : Nat) (s : ISet)
  | notSet (target : Nat) (s : ISet)
  | wildcard (target : Nat)
  | precedence (target precedence : Nat)
  deriving DecidableEq, Repr

/-- prutalgen/internal/antlr/transition.go:55-57 (`getTarget`). -/
def Trans.target : Trans → Nat
  | .epsilon t | .range t _ _ | .rule t _ _ _ | .predicate t _ _ | .atom t _ | .action t _ | .set t _ | .notSet t _ | .wildcard t | .precedence t _ => t

/-- prutalgen/internal/antlr/transition.go:63-65 (`getIsEpsilon`). -/
def Trans.isEpsilon : Trans → Bool
  | .epsilon _ | .rule .. | .predicate .. | .action .. | .precedence .. => true
  | .range .. | .atom .. | .set .. | .notSet .. | .wildcard _ => false

/-- prutalgen/internal/antlr/interval_set.go:147-157 (`contains`). -/
def ISet.contains (s : ISet) : Option Nat → Bool
  | none => s.eof
  | some c => s.ivs.any fun i => Nat.ble i.1 c && Nat.blt c i.2

/-- prutalgen/internal/antlr/transition.go:157-159, 184-186, 204-206, 237-239, 291-293, 322-324, 351-353, 382-384, 403-405, 429-431 (`Matches`), between the
smallest symbol `lo` and the largest one `hi`. -/
def Trans.matches (lo hi : Nat) : Trans → Option Nat → Bool
  | .atom _ l, c => decide (l = c)
  | .range _ a b, some c => Nat.ble a c && Nat.ble c b
  | .set _ s, c => s.contains c
  | .notSet _ s, some c => Nat.ble lo c && Nat.ble c hi && !s.contains (some c)
  | .wildcard _, some c => Nat.ble lo c && Nat.ble c hi
  | _, _ => false

/-- prutalgen/internal/antlr/atn_state.go:61-79, 208-212, 248-251, 293-296, 325-329, 361-364, 414-418, 433-436: a state.  `link` is the end state of a block, the
loop back state of a loop end; `epsOnly` is `epsilonOnlyTransitions`. -/
structure State where
  typ : Nat
  rule : Nat
  link : Option Nat := none
  nonGreedy : Bool := false
  precedence : Bool := false
  decision : Option Nat := none
  epsOnly : Bool := false
  trans : List Trans := []
  deriving DecidableEq, Repr

/-- prutalgen/internal/antlr/atn_state.go:22 (`ATNStateRuleStop`). -/
def State.isStop (s : State) : Bool := s.typ == 7

/-- prutalgen/internal/antlr/lexer_action.go:345-363: the action `channel`. -/
structure Action where
  channel : Nat
  deriving DecidableEq, Repr

/-- prutalgen/internal/antlr/atn.go:14-76: the automaton. -/
structure Atn where
  lexer : Bool
  maxTokenType : Nat
  states : List State
  ruleStart : List Nat
  ruleToken : List Nat
  modes : List Nat
  decisions : List Nat
  actions : List Action
  deriving DecidableEq, Repr

/-- Reading numbers. -/
abbrev Rd (α : Type) := List Nat → Option (α × List Nat)

/-- prutalgen/internal/antlr/atn_deserializer.go:549-555 (`readInt`). -/
def readInt : Rd Nat
  | [] => none
  | x :: r => some (x, r)

/-- The loops `for i := 0; i < n; i++` of prutalgen/internal/antlr/atn_deserializer.go around something read. -/
def readTimes {α : Type} (f : Rd α) : Nat → Rd (List α)
  | 0, d => some ([], d)
  | n + 1, d =>
    match f d with
    | none => none
    | some (x, d) =>
      match readTimes f n d with
      | none => none
      | some (xs, d) => some (x :: xs, d)

/-- A number `n`, and `n` times what `f` reads. -/
def readMany {α : Type} (f : Rd α) : Rd (List α)
  | [] => none
  | n :: d => readTimes f n d

/-- prutalgen/internal/antlr/atn_deserializer.go:104-130, 603-653: a state, without its transitions. -/
def readState : Rd State
  | t :: r :: d =>
    if t = 12 ∨ t = 3 ∨ t = 4 ∨ t = 5 then
      match d with
      | [] => none
      | l :: d => some ({ typ := t, rule := r, link := some l }, d)
    else if t = 0 ∨ 12 < t then none
    else some ({ typ := t, rule := r }, d)
  | _ => none

/-- Which states are decisions: prutalgen/internal/antlr/atn_state.go:208-461. -/
def State.isDecision (s : State) : Bool := s.typ == 3 || s.typ == 4 || s.typ == 5 || s.typ == 6 || s.typ == 10 || s.typ == 11

/-- prutalgen/internal/antlr/atn_deserializer.go:140-151: marking the states whose numbers are listed, if they are of the right type. -/
def markStates (ok : State → Bool) (f : State → State) : List Nat → List State → Option (List State)
  | [], ss => some ss
  | i :: is, ss =>
    match ss[i]? with
    | none => none
    | some s => if ok s then markStates ok f is (ss.modify i f) else none

/-- prutalgen/internal/antlr/atn_deserializer.go:93-152 (`readStates`). -/
def readStates : Rd (List State) := fun d =>
  match readMany readState d with
  | none => none
  | some (ss, d) =>
    match readMany readInt d with
    | none => none
    | some (ng, d) =>
      match readMany readInt d with
      | none => none
      | some (pr, d) =>
        match markStates State.isDecision (fun s => { s with nonGreedy := true }) ng ss with
        | none => none
        | some ss =>
          match markStates (fun s => s.typ == 2) (fun s => { s with precedence := true }) pr ss with
          | none => none
          | some ss => some (ss, d)

/-- prutalgen/internal/antlr/atn_deserializer.go:163-174: the start state of a rule, and for lexers its token type. -/
def readRule (lexer : Bool) : Rd (Nat × Nat)
  | [] => none
  | s :: d =>
    if lexer then
      match d with
      | [] => none
      | t :: d => some ((s, t), d)
    else some ((s, 0), d)

/-- prutalgen/internal/antlr/interval_set.go:91-126 (`addInterval`). -/
def addInterval (v : Nat × Nat) : List (Nat × Nat) → List (Nat × Nat)
  | [] => [v]
  | i :: is =>
    if v.2 < i.1 then v :: i :: is
    else if v.2 = i.1 then (v.1, i.2) :: is
    else if v.1 ≤ i.2 then
      let l := (min i.1 v.1, max i.2 v.2)
      match is with
      | [] => [l]
      | r :: is => if r.2 ≤ l.2 then l :: is else if r.1 ≤ l.2 then (l.1, r.2) :: is else l :: r :: is
    else i :: addInterval v is

/-- prutalgen/internal/antlr/atn_deserializer.go:219-224: an interval, with both ends. -/
def readInterval : Rd (Nat × Nat)
  | a :: b :: d => some ((a, b + 1), d)
  | _ => none

/-- prutalgen/internal/antlr/atn_deserializer.go:207-225: a set. -/
def readSet : Rd ISet
  | n :: e :: d =>
    match readTimes readInterval n d with
    | none => none
    | some (is, d) => some (⟨e != 0, is.foldl (fun s i => addInterval i s) []⟩, d)
  | _ => none

/-- prutalgen/internal/antlr/atn_deserializer.go:557-601 (`edgeFactory`). -/
def mkTrans (sets : List ISet) (trg t a1 a2 a3 : Nat) : Option Trans :=
  match t with
  | 1 => some (.epsilon trg)
  | 2 => if a3 = 0 then some (.range trg a1 a2) else none
  | 3 => some (.rule a1 trg a2 a3)
  | 4 => some (.predicate trg a1 a2)
  | 5 => some (.atom trg (if a3 = 0 then some a1 else none))
  | 6 => some (.action trg a2)
  | 7 => (sets[a1]?).map (.set trg)
  | 8 => (sets[a1]?).map (.notSet trg)
  | 9 => some (.wildcard trg)
  | 10 => some (.precedence trg a1)
  | _ => none

/-- prutalgen/internal/antlr/atn_deserializer.go:233-243: an edge: where it begins, and the transition. -/
def readEdge (sets : List ISet) : Rd (Nat × Trans)
  | src :: trg :: t :: a1 :: a2 :: a3 :: d =>
    match mkTrans sets trg t a1 a2 a3 with
    | none => none
    | some tr => some ((src, tr), d)
  | _ => none

/-- prutalgen/internal/antlr/atn_state.go:152-183 (`AddTransition` at the end). -/
def State.addTrans (s : State) (t : Trans) : State :=
  { s with
    epsOnly := if s.trans.isEmpty then t.isEpsilon else s.epsOnly && t.isEpsilon == s.epsOnly
    trans := s.trans ++ [t] }

/-- prutalgen/internal/antlr/atn_deserializer.go:243-246, 269: adding transitions to the states where they begin; `n` is the number of states. -/
def addEdges (n : Nat) : List (Nat × Trans) → List State → Option (List State)
  | [], ss => some ss
  | (i, t) :: es, ss => if Nat.blt i n && Nat.blt t.target n then addEdges n es (ss.modify i fun s => s.addTrans t) else none

/-- prutalgen/internal/antlr/atn_deserializer.go:249-270: the way back from the end of a rule, for one transition; `stops` are the rules with the numbers
of their stop states.  The rule is that of the target of the transition. -/
def returnEdge (ss : List State) (stops : List (Nat × Nat)) : Trans → Option (List (Nat × Trans))
  | .rule t f _ _ =>
    match ss[t]? with
    | none => none
    | some s =>
      match stops.lookup s.rule with
      | none => none
      | some e => some [(e, .epsilon f)]
  | _ => some []

/-- prutalgen/internal/antlr/atn_deserializer.go:249-270: all of them, in the order of the states. -/
def returnEdges (ss : List State) (stops : List (Nat × Nat)) : List Trans → Option (List (Nat × Trans))
  | [] => some []
  | t :: ts =>
    match returnEdge ss stops t with
    | none => none
    | some es =>
      match returnEdges ss stops ts with
      | none => none
      | some fs => some (es ++ fs)

/-- prutalgen/internal/antlr/atn_deserializer.go:178-183: the stop states with their rules. -/
def stopStates : Nat → List State → List (Nat × Nat)
  | _, [] => []
  | i, s :: ss => if s.isStop then (s.rule, i) :: stopStates (i + 1) ss else stopStates (i + 1) ss

/-- prutalgen/internal/antlr/atn_deserializer.go:302-312 (`readDecisions`). -/
def numberDecisions : Nat → List Nat → List State → Option (List State)
  | _, [], ss => some ss
  | k, i :: is, ss =>
    match ss[i]? with
    | none => none
    | some s => if s.isDecision then numberDecisions (k + 1) is (ss.modify i fun s => { s with decision := some k }) else none

/-- prutalgen/internal/antlr/atn_deserializer.go:314-327, 655-684: a lexer action. -/
def readAction : Rd Action
  | t :: d1 :: _ :: d => if t = 0 then some (⟨d1⟩, d) else none
  | _ => none

/-- prutalgen/internal/antlr/atn_deserializer.go:471-537 (`verifyATN`) for one state.  The checks of states that are linked to one another (end states,
loop back states, stop states) are left out. -/
def State.verify (ss : List State) (s : State) : Bool :=
  (s.epsOnly || s.trans.length ≤ 1) &&
  (if s.typ = 10 then
     match s.trans with
     | [a, b] =>
       match (ss[a.target]?).map State.typ, (ss[b.target]?).map State.typ with
       | some 5, some 12 => !s.nonGreedy
       | some 12, some 5 => s.nonGreedy
       | _, _ => false
     | _ => false
   else if s.typ = 9 then
     match s.trans with
     | [a] => (ss[a.target]?).map State.typ == some 10
     | _ => false
   else if s.typ = 6 ∨ s.typ = 11 then s.trans.length ≤ 1 || s.decision.isSome
   else if s.typ = 1 then s.trans.length ≤ 1
   else true)

/-- prutalgen/internal/antlr/atn_deserializer.go:49-76 (`Deserialize`).  The marking of precedence decisions is left out: it concerns parsers. -/
def deserialize : List Nat → Option Atn
  | v :: g :: m :: d =>
    if v = 4 then
      match readStates d with
      | none => none
      | some (ss, d) =>
        match readMany (readRule (g == 0)) d with
        | none => none
        | some (rules, d) =>
          match readMany readInt d with
          | none => none
          | some (modes, d) =>
            match readMany readSet d with
            | none => none
            | some (sets, d) =>
              match readMany (readEdge sets) d with
              | none => none
              | some (edges, d) =>
                match addEdges ss.length edges ss with
                | none => none
                | some ss =>
                  match returnEdges ss (stopStates 0 ss) (ss.flatMap State.trans) with
                  | none => none
                  | some back =>
                    match addEdges ss.length back ss with
                    | none => none
                    | some ss =>
                      match readMany readInt d with
                      | none => none
                      | some (decs, d) =>
                        match numberDecisions 0 decs ss with
                        | none => none
                        | some ss =>
                          match (if g = 0 then readMany readAction d else some ([], d)) with
                          | none => none
                          | some (acts, _) =>
                            if ss.all (State.verify ss) then
                              some ⟨g == 0, m, ss, rules.map Prod.fst, rules.map Prod.snd, modes, decs, acts⟩
                            else none
    else none
  | _ => none

end Verif.Model.Gen.Antlr
