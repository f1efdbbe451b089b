import Verif.Model.Gen.Antlr.Parser
/-!
# Model of the prediction of the parser (`AdaptivePredict`)

prutalgen/internal/antlr/{parser_atn_simulator,prediction_context,prediction_mode,atn_config,atn_config_set,dfa,dfa_state}.go: the automaton is simulated on the
tokens that follow, first with contexts that begin at the decision (SLL; the states of this simulation are kept, for all later predictions, in one automaton per
decision), and if that leads to a conflict then again with the context in which the decision is made (LL).

Simplified:
* equal objects are one value: hashes, identity and the caches of contexts and of merged contexts only save time and memory.  (The cache of merged
  contexts lives for one prediction, and so the second simulation uses what the first one has merged; the contexts of the second one end below the contexts of
  the first one, in the rule of the file, so that they are not the same.)
* a context is a list of pairs; whether one pair is a singleton or an array is not distinguished (it is one only if the empty context is merged in the second
  simulation, which happens in the rule of the file only).
* configurations are changed in place only while they are in a set that is being built, and so are values here.
* the automaton has neither semantic predicates nor rules with precedences (Verif/Model/Gen/Antlr/Atn.lean keeps such transitions; they are followed here).
* recursion that follows a stack is a list of work; `none` is a panic or more steps than allowed.
* reports to listeners (`ReportAmbiguity` and others) have no effect: prutalgen/pkg/prutalgen/prutalgen.go:269-289 embeds a listener that ignores them.
* locks are left out.
-/
namespace Verif.Model.Gen.Antlr.Pred
open Verif.Model.Gen Verif.Model.Gen.Antlr

/-! ## Contexts -/

/-- prutalgen/internal/antlr/prediction_context.go:52-110: stacks of states to return to, as a graph: the empty stack, or the alternatives, each with its return
state and the stacks below, in the order of return states. -/
inductive PCtx where
  | empty
  | cons (ret : Nat) (parent more : PCtx)
  deriving DecidableEq, Repr

def PCtx.isEmpty : PCtx → Bool
  | .empty => true
  | .cons .. => false

/-- prutalgen/internal/antlr/prediction_context.go:299-314 (`predictionContextFromRuleContext`): `ctx` are the states from which the rules in progress were called. -/
def fromRules (states : Nat → Option State) : List Nat → Option PCtx
  | [] => some .empty
  | s :: ctx =>
    match fromRules states ctx with
    | none => none
    | some p =>
      match states s with
      | none => none
      | some q =>
        match q.trans with
        | .rule _ f _ _ :: _ => some (.cons f p .empty)
        | _ => none

/-- prutalgen/internal/antlr/prediction_context.go:571-616: one row of `mergeArrays`: an element of the left array with what is left of the right array.  `fp` merges
the parent with another, `fm` the rest of the left array with an array, `a` is the left array. -/
def mergeRow (wild : Bool) (ra : Nat) (pa : PCtx) (fp fm : PCtx → PCtx) (a : PCtx) : PCtx → PCtx
  | .empty => a
  | .cons rb pb mb =>
    if ra = rb then .cons ra (if pa = pb then pa else if wild && (pa.isEmpty || pb.isEmpty) then .empty else fp pb) (fm mb)
    else if ra < rb then .cons ra pa (fm (.cons rb pb mb))
    else .cons rb pb (mergeRow wild ra pa fp fm a mb)

/-- prutalgen/internal/antlr/prediction_context.go:387-463, 502-524, 546-661 (`mergeSingletons`, `mergeRoot`, `mergeArrays`): singletons are merged like arrays. -/
def mergeArrays (wild : Bool) : PCtx → PCtx → PCtx
  | .empty => fun b => b
  | .cons ra pa ma => mergeRow wild ra pa (mergeArrays wild pa) (mergeArrays wild ma) (.cons ra pa ma)

/-- prutalgen/internal/antlr/prediction_context.go:316-343 (`merge`). -/
def mergeCtx (wild : Bool) (a b : PCtx) : PCtx :=
  if a = b then a else if wild && (a.isEmpty || b.isEmpty) then .empty else mergeArrays wild a b

/-! ## Configurations -/

/-- prutalgen/internal/antlr/atn_config.go:18-31: a state, the alternative that leads to it, the context, and how often the rule of the decision has been left. -/
structure PCfg where
  state : Nat
  alt : Nat
  ctx : PCtx
  up : Nat := 0
  deriving DecidableEq, Repr

/-- prutalgen/internal/antlr/atn_config.go:156-184 (`PEquals`). -/
def PCfg.same (a b : PCfg) : Bool := a.state == b.state && a.alt == b.alt && a.ctx == b.ctx

/-- prutalgen/internal/antlr/atn_config_set.go:12-58: configurations in the order in which they were added, and `dipsIntoOuterContext`. -/
structure PSet where
  cfgs : List PCfg := []
  dips : Bool := false
  deriving DecidableEq, Repr

/-- prutalgen/internal/antlr/atn_config_set.go:97-121: merging with the configuration with the same state and alternative. -/
def addCfg (full : Bool) (c : PCfg) : List PCfg → List PCfg
  | [] => [c]
  | e :: r =>
    if e.state = c.state ∧ e.alt = c.alt then { e with ctx := mergeCtx (!full) e.ctx c.ctx, up := max e.up c.up } :: r
    else e :: addCfg full c r

/-- prutalgen/internal/antlr/atn_config_set.go:82-122 (`Add`). -/
def PSet.add (full : Bool) (s : PSet) (c : PCfg) : PSet := ⟨addCfg full c s.cfgs, s.dips || decide (0 < c.up)⟩

/-- The automaton, as the prediction uses it: prutalgen/internal/antlr/atn.go:14-66. -/
structure PNet where
  states : Nat → Option State
  stop : Nat → Option Nat
  decision : Nat → Option Nat
  max : Nat

/-- prutalgen/internal/antlr/atn_deserializer.go:181-188: the rule stop states; the rest of the automaton. -/
def pnet (a : Atn) : PNet where
  states i := a.states[i]?
  stop r := a.states.findIdx? fun q => q.isStop && q.rule == r
  decision d := a.decisions[d]?
  max := a.maxTokenType

/-- How a configuration was found: from a rule stop state without context; over the end of the input; otherwise. -/
inductive Via where
  | fell
  | matched
  | plain
  deriving DecidableEq, Repr

/-- prutalgen/internal/antlr/parser_atn_simulator.go:1281-1306, 1392-1399 (`getEpsilonTarget`, `ruleTransition`), 1131-1169: the configuration behind a
transition, if that can be followed without a token.  `eof` says that the end of the input is read without a token, `stop` that the transition leaves a rule. -/
def epsTarget (eof stop : Bool) (c : PCfg) (t : Trans) : Option (Via × PCfg) :=
  match t with
  | .rule b f _ _ => some (if stop then .fell else .plain, { c with state := b, ctx := .cons f c.ctx .empty, up := if stop then c.up + 1 else c.up })
  | t =>
    if t.isEpsilon then some (if stop then .fell else .plain, { c with state := t.target, up := if stop then c.up + 1 else c.up })
    else if eof && t.matches 0 1 none then some (if stop then .fell else .matched, { c with state := t.target, up := if stop then c.up + 1 else c.up })
    else none

/-- prutalgen/internal/antlr/parser_atn_simulator.go:1019-1044: what a configuration at the end of a rule returns to; the last one is looked at first. -/
def returns (c : PCfg) : PCtx → List (Via × PCfg) → List (Via × PCfg)
  | .empty, todo => todo
  | .cons r p m, todo => returns c m ((.plain, ⟨r, c.alt, p, c.up⟩) :: todo)

/-- prutalgen/internal/antlr/parser_atn_simulator.go:990-1060, 1115-1180 (`closure`, `closureCheckingStopState`, `closureWork`): the configurations reached without a
token are added to a set.  `n` is the number of steps that are allowed. -/
def closure (N : PNet) (full eof : Bool) : Nat → List (Via × PCfg) → List PCfg → PSet → Option (List PCfg × PSet)
  | _, [], busy, s => some (busy, s)
  | 0, _ :: _, _, _ => none
  | n + 1, (v, c) :: todo, busy, s =>
    if v ≠ .plain ∧ busy.any c.same then closure N full eof n todo busy s
    else
      let busy := if v = .plain then busy else c :: busy
      let s := if v = .fell then { s with dips := true } else s
      match N.states c.state with
      | none => none
      | some q =>
        if q.isStop && !c.ctx.isEmpty then closure N full eof n (returns c c.ctx todo) busy s
        else if q.isStop && full then closure N full eof n todo busy (s.add full c)
        else closure N full eof n (q.trans.filterMap (epsTarget eof q.isStop c) ++ todo) busy (if q.epsOnly then s else s.add full c)

/-- prutalgen/internal/antlr/parser_atn_simulator.go:702-707: the alternatives of a decision, beginning with number `i`. -/
def startAlts (N : PNet) (n : Nat) (full : Bool) (ctx : PCtx) : Nat → List Trans → PSet → Option PSet
  | _, [], s => some s
  | i, t :: ts, s =>
    match closure N full false n [(.plain, ⟨t.target, i, ctx, 0⟩)] [] s with
    | none => none
    | some (_, s) => startAlts N n full ctx (i + 1) ts s

/-- prutalgen/internal/antlr/parser_atn_simulator.go:693-709 (`computeStartState`). -/
def startSet (N : PNet) (n : Nat) (full : Bool) (d : Nat) (ctx : PCtx) : Option PSet :=
  match N.decision d with
  | none => none
  | some s =>
    match N.states s with
    | none => none
    | some q => startAlts N n full ctx 1 q.trans {}

/-- The end of the input is 0 here. -/
def sym (t : Nat) : Option Nat := if t = 0 then none else some t

/-- prutalgen/internal/antlr/parser_atn_simulator.go:545-570: the configurations behind the token, and the configurations at the ends of rules; `t` is the token. -/
def moved (N : PNet) (full : Bool) (t : Nat) : List PCfg → PSet → List PCfg → Option (PSet × List PCfg)
  | [], s, stops => some (s, stops)
  | c :: cs, s, stops =>
    match N.states c.state with
    | none => none
    | some q =>
      if q.isStop then moved N full t cs s (if full || t == 0 then stops ++ [c] else stops)
      else moved N full t cs (q.trans.foldl (fun s x => if x.matches 0 N.max (sym t) then s.add full { c with state := x.target } else s) s) stops

/-- prutalgen/internal/antlr/parser_atn_simulator.go:605-607. -/
def closureAll (N : PNet) (n : Nat) (full eof : Bool) : List PCfg → List PCfg → PSet → Option PSet
  | [], _, s => some s
  | c :: cs, busy, s =>
    match closure N full eof n [(.plain, c)] busy s with
    | none => none
    | some (busy, s) => closureAll N n full eof cs busy s

/-- prutalgen/internal/antlr/parser_atn_simulator.go:1523-1533 (`getUniqueAlt`); 0 if there is none. -/
def uniqueAlt : List PCfg → Nat
  | [] => 0
  | c :: cs => if cs.all fun e => e.alt == c.alt then c.alt else 0

def PNet.stopped (N : PNet) (c : PCfg) : Bool :=
  match N.states c.state with
  | none => false
  | some q => q.isStop

/-- prutalgen/internal/antlr/parser_atn_simulator.go:671-690 (`removeAllConfigsNotInRuleStopState`). -/
def onlyStopped (N : PNet) (full look : Bool) (s : PSet) : PSet :=
  if s.cfgs.all N.stopped then s
  else s.cfgs.foldl (fun r c =>
    if N.stopped c then r.add full c
    else
      match N.states c.state with
      | none => r
      | some q =>
        if look && q.epsOnly && (Antlr.look N.states 1000 c.state [] [] ⟨[], [], false⟩).epsilon then
          match N.stop q.rule with
          | none => r
          | some e => r.add full { c with state := e }
        else r) {}

/-- prutalgen/internal/antlr/atn_config_set.go:195-204 (`Compare`). -/
def sameCfgs : List PCfg → List PCfg → Bool
  | [], [] => true
  | a :: as, b :: bs => a.same b && sameCfgs as bs
  | _, _ => false

/-- prutalgen/internal/antlr/atn_config_set.go:206-229 (`Equals`), of sets without conflict. -/
def PSet.same (a b : PSet) : Bool := !a.cfgs.isEmpty && a.dips == b.dips && sameCfgs a.cfgs b.cfgs

/-- prutalgen/internal/antlr/parser_atn_simulator.go:526-652 (`computeReachSet`): the inner `none` is `nil`. -/
def reachSet (N : PNet) (n : Nat) (full : Bool) (s : PSet) (t : Nat) : Option (Option PSet) :=
  match moved N full t s.cfgs {} [] with
  | none => none
  | some (inter, stops) =>
    let reach :=
      if stops.isEmpty && t != 0 && (inter.cfgs.length == 1 || uniqueAlt inter.cfgs != 0) then some inter
      else closureAll N n full (t == 0) inter.cfgs [] {}
    match reach with
    | none => none
    | some r =>
      let r := if t = 0 then onlyStopped N full (r.same inter) r else r
      let r := if !stops.isEmpty && (!full || !r.cfgs.any N.stopped) then stops.foldl (PSet.add full) r else r
      some (if r.cfgs.isEmpty then none else some r)

/-! ## Conflicts -/

/-- Adding to the set that belongs to a key. -/
def addAlt {κ : Type} [DecidableEq κ] (k : κ) (i : Nat) : List (κ × List Nat) → List (κ × List Nat)
  | [] => [(k, [i])]
  | (k', l) :: r => if k = k' then (k', if l.contains i then l else i :: l) :: r else (k', l) :: addAlt k i r

/-- prutalgen/internal/antlr/prediction_mode.go:475-489 (`getConflictingAltSubsets`): the alternatives of the configurations with the same state and context. -/
def altSubsets (cs : List PCfg) : List ((Nat × PCtx) × List Nat) := cs.foldl (fun m c => addAlt (c.state, c.ctx) c.alt m) []

/-- prutalgen/internal/antlr/prediction_mode.go:495-507 (`GetStateToAltMap`). -/
def stateAlts (cs : List PCfg) : List (Nat × List Nat) := cs.foldl (fun m c => addAlt c.state c.alt m) []

/-- prutalgen/internal/antlr/prediction_mode.go:168-200, 418-426, 509-517 (`hasSLLConflictTerminatingPrediction`, `hasConflictingAltSet`,
`hasStateAssociatedWithOneAlt`). -/
def sllConflict (N : PNet) (cs : List PCfg) : Bool :=
  cs.all N.stopped || ((altSubsets cs).any (fun p => decide (1 < p.2.length)) && !(stateAlts cs).any (fun p => p.2.length == 1))

/-- prutalgen/internal/antlr/utils.go:133-141 (`minValue`). -/
def minAlt : List Nat → Nat
  | [] => 0
  | [i] => i
  | i :: l => min i (minAlt l)

/-- prutalgen/internal/antlr/prediction_mode.go:523-536 (`getSingleViableAlt`); 0 if there is none. -/
def singleViable : List (List Nat) → Nat
  | [] => 0
  | l :: ls => if ls.all fun m => minAlt m == minAlt l then minAlt l else 0

/-- prutalgen/internal/antlr/parser_atn_simulator.go:887-920 (`GetAltThatFinishedDecisionEntryRule`). -/
def finishedAlt (N : PNet) (cs : List PCfg) : Nat :=
  minAlt ((cs.filter fun c => decide (0 < c.up) || (N.stopped c && c.ctx.isEmpty)).map PCfg.alt)

/-! ## The automata of the decisions -/

/-- prutalgen/internal/antlr/dfa_state.go:41-91: a state of the automaton of a decision: its configurations, the only alternative (0 if there are several), the
alternatives in conflict (as bits) that need the context, and the edges: for a token the state, or `none` for `ATNSimulatorError`. -/
structure DState where
  set : PSet
  unique : Nat := 0
  conflict : Option Nat := none
  edges : List (Nat × Option Nat) := []
  deriving DecidableEq, Repr

/-- prutalgen/internal/antlr/dfa.go:9-49: the automaton of a decision. -/
structure PDfa where
  s0 : Option Nat := none
  states : List DState := []
  deriving DecidableEq, Repr

/-- prutalgen/internal/antlr/dfa_state.go:164-170, prutalgen/internal/antlr/atn_config_set.go:206-229. -/
def DState.same (a b : DState) : Bool := a.unique == b.unique && a.conflict == b.conflict && a.set.same b.set

/-- prutalgen/internal/antlr/parser_atn_simulator.go:1595-1624 (`addDFAState`): the number of the state. -/
def addDState (A : PDfa) (D : DState) : PDfa × Nat :=
  match A.states.findIdx? D.same with
  | some k => (A, k)
  | none => ({ A with states := A.states ++ [D] }, A.states.length)

/-- prutalgen/internal/antlr/parser_atn_simulator.go:1565-1573. -/
def setEdge (N : PNet) (A : PDfa) (k t : Nat) (e : Option Nat) : PDfa :=
  if N.max < t then A else { A with states := A.states.modify k fun D => { D with edges := (t, e) :: D.edges } }

/-- prutalgen/internal/antlr/parser_atn_simulator.go:358-384, 1401-1404: the state with the configurations that were reached. -/
def mkDState (N : PNet) (r : PSet) : DState :=
  if uniqueAlt r.cfgs != 0 then { set := r, unique := uniqueAlt r.cfgs }
  else if sllConflict N r.cfgs then
    { set := r, conflict := some (r.cfgs.foldl (fun b c => b ||| (1 <<< c.alt)) 0) }
  else { set := r }

/-- prutalgen/internal/antlr/parser_atn_simulator.go:230-233, 324-394, 1555-1584 (`getExistingTargetState`, `computeTargetState`, `addDFAEdge`): the state behind a
token; the inner `none` is `ATNSimulatorError`. -/
def target (N : PNet) (n : Nat) (A : PDfa) (k t : Nat) : Option (PDfa × Option Nat) :=
  match A.states[k]? with
  | none => none
  | some D =>
    match D.edges.lookup t with
    | some e => some (A, e)
    | none =>
      match reachSet N n false D.set t with
      | none => none
      | some none => some (setEdge N A k t none, none)
      | some (some r) =>
        let (A, j) := addDState A (mkDState N r)
        some (setEdge N A k t (some j), some j)

/-- What a simulation finds: an alternative (0: none), or that the context is needed. -/
inductive Sim where
  | alt (i : Nat)
  | full
  deriving DecidableEq, Repr

/-- prutalgen/internal/antlr/parser_atn_simulator.go:214-312 (`execATN`), up to the second simulation.  `m` bounds the number of tokens that are looked at. -/
def execSll (N : PNet) (n : Nat) : Nat → PDfa → Nat → List PTok → Option (PDfa × Sim)
  | 0, _, _, _ => none
  | m + 1, A, k, w =>
    match target N n A k (la w) with
    | none => none
    | some (A, none) =>
      match A.states[k]? with
      | none => none
      | some D => some (A, .alt (finishedAlt N D.set.cfgs))
    | some (A, some j) =>
      match A.states[j]? with
      | none => none
      | some D =>
        if D.conflict.isSome then some (A, .full)
        else if D.unique != 0 then some (A, .alt D.unique)
        else execSll N n m A j w.tail

/-- prutalgen/internal/antlr/parser_atn_simulator.go:418-523 (`execATNWithFullContext`). -/
def execLl (N : PNet) (n : Nat) : Nat → PSet → List PTok → Option Nat
  | 0, _, _ => none
  | m + 1, s, w =>
    match reachSet N n true s (la w) with
    | none => none
    | some none => some (finishedAlt N s.cfgs)
    | some (some r) =>
      if uniqueAlt r.cfgs != 0 then some (uniqueAlt r.cfgs)
      else
        match singleViable ((altSubsets r.cfgs).map Prod.snd) with
        | 0 => execLl N n m r w.tail
        | i + 1 => some (i + 1)

/-- prutalgen/internal/antlr/parser_atn_simulator.go:138-169: the first state of the automaton of a decision. -/
def firstState (N : PNet) (n d : Nat) (A : PDfa) : Option (PDfa × Nat) :=
  match A.s0 with
  | some k => some (A, k)
  | none =>
    match startSet N n false d .empty with
    | none => none
    | some s =>
      let (A, k) := addDState A { set := s }
      some ({ A with s0 := some k }, k)

/-- prutalgen/internal/antlr/parser_atn_simulator.go:91-178, 214-312: the first simulation of a prediction, which alone changes the automaton of the decision. -/
def learn (N : PNet) (n d : Nat) (A : PDfa) (w : List PTok) : Option (PDfa × Sim) :=
  match firstState N n d A with
  | none => none
  | some (A, k) => execSll N n (w.length + 2) A k w

/-- prutalgen/internal/antlr/parser_atn_simulator.go:282-296: the second simulation of a prediction, in the context of the parser. -/
def predictLl (N : PNet) (n d : Nat) (ctx : List Nat) (w : List PTok) : Option Nat :=
  match fromRules N.states ctx with
  | none => none
  | some c =>
    match startSet N n true d c with
    | none => none
    | some s => execLl N n (w.length + 2) s w

/-- prutalgen/internal/antlr/parser_atn_simulator.go:91-178 (`AdaptivePredict`): the automaton of the decision afterwards, and the alternative, 0 for an error.  `n`
bounds the steps of a closure. -/
def adaptivePredict (N : PNet) (n d : Nat) (A : PDfa) (ctx : List Nat) (w : List PTok) : Option (PDfa × Nat) :=
  match learn N n d A w with
  | none => none
  | some (A, .alt i) => some (A, i)
  | some (A, .full) =>
    match predictLl N n d ctx w with
    | none => none
    | some i => some (A, i)

/-- The automata of all decisions: prutalgen/internal/parser/protobuf_parser.go:329-345 (`decisionToDFA`), which all parsers share. -/
abbrev PCache := Nat → PDfa

def PCache.set (σ : PCache) (d : Nat) (A : PDfa) : PCache := fun e => if e = d then A else σ e

/-- prutalgen/internal/parser/protobuf_parser.go:759-10412: as `run` of Verif/Model/Gen/Antlr/Parser.lean, with the predictions of `adaptivePredict` and the automata
that they build. -/
def exec (G : Gram) (N : PNet) (steps : Nat) : Nat → PCache → List Nat → Code → List PTok → Option (List PTree × List PTok × PCache)
  | 0, _, _, _, _ => none
  | n + 1, σ, ctx, c, w =>
    match c with
    | .done => some ([], w, σ)
    | .fail => none
    | .sync s => if G.next s (la w) then some ([], w, σ) else none
    | .tok t => (matchTok (fun u => u == t) w).map fun p => (p.1, p.2, σ)
    | .eof => if w.isEmpty then some ([], [], σ) else none
    | .set ts => (matchTok (fun u => ts.contains u) w).map fun p => (p.1, p.2, σ)
    | .call s r =>
      match exec G N steps n σ (s :: ctx) (G.rule r) w with
      | none => none
      | some (ts, w, σ) => some ([.node r ts], w, σ)
    | .seq a b =>
      match exec G N steps n σ ctx a w with
      | none => none
      | some (ts, w, σ) =>
        match exec G N steps n σ ctx b w with
        | none => none
        | some (us, w, σ) => some (ts ++ us, w, σ)
    | .ifLa ts a b => if ts.contains (la w) then exec G N steps n σ ctx a w else exec G N steps n σ ctx b w
    | .whileLa ts a =>
      if ts.contains (la w) then
        match exec G N steps n σ ctx a w with
        | none => none
        | some (us, w, σ) =>
          match exec G N steps n σ ctx (.whileLa ts a) w with
          | none => none
          | some (vs, w, σ) => some (us ++ vs, w, σ)
      else some ([], w, σ)
    | .choose d =>
      match adaptivePredict N steps d (σ d) ctx w with
      | none => none
      | some (_, 0) => none
      | some (A, i + 1) =>
        match (G.alts d)[i]? with
        | none => none
        | some a => exec G N steps n (PCache.set σ d A) ctx a w

/-- prutalgen/pkg/prutalgen/prutalgen.go:246-251: the tree of a list of tokens and the automata of the decisions afterwards, `none` after an error. -/
def parseShared (N : PNet) (steps n : Nat) (σ : PCache) (w : List PTok) : Option (List PTree × PCache) :=
  match exec protoGram N steps n σ [] codeProto w with
  | some (ts, [], σ) => some (ts, σ)
  | _ => none

end Verif.Model.Gen.Antlr.Pred
