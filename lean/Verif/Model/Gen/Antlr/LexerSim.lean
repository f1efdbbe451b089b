import Verif.Model.Gen.Antlr.Atn
import Verif.Model.Gen.Options
/-!
# Model of the lexer of antlr: from characters to tokens

prutalgen/internal/antlr/lexer_atn_simulator.go follows all paths through the automaton of a lexer at once.  The sets of configurations it meets are
remembered in a DFA, together with the transitions between them for the characters up to 127; the DFA is shared by all lexers of a program, so that
it is filled by the files that are read one after another.  prutalgen/internal/antlr/lexer.go turns matches into tokens.

Sets of configurations and DFA states are found by their hash values and by `LEquals`, which does not compare states, alternatives and contexts of
configurations without actions (prutalgen/internal/antlr/atn_config.go:315-317): what keeps different ones apart are the hash values, which are modelled
for this reason.

Simplifications: DFA states are referred to by their positions instead of pointers; a text is the list of characters that are still to be read instead of an
index; lines and columns are left out; there is one mode, no predicates and no action but `channel` (others give `none`, which stands for a panic); the
merging of contexts that are not equal is refused; locks are left out: the files are read one after another.
-/
namespace Verif.Model.Gen.Antlr

/-! ## Hash values -/

/-- prutalgen/internal/antlr/utils.go:278-295 (`murmurUpdate`): numbers are taken modulo 2^32. -/
def murmurUpdate (h v : Nat) : Nat :=
  let k := v * 0xCC9E2D51 % 4294967296
  let k := ((k <<< 15) ||| (k >>> 17)) % 4294967296 * 0x1B873593 % 4294967296
  let x := Nat.xor (h % 4294967296) k
  (((x <<< 13) ||| (x >>> 19)) % 4294967296 * 5 + 0xE6546B64) % 4294967296

/-- prutalgen/internal/antlr/utils.go:297-307 (`murmurFinish`). -/
def murmurFinish (h n : Nat) : Nat :=
  let x := Nat.xor (h % 4294967296) ((n <<< 2) % 4294967296)
  let x := Nat.xor x (x >>> 16) * 0x85ebca6b % 4294967296
  let x := Nat.xor x (x >>> 13) * 0xc2b2ae35 % 4294967296
  Nat.xor x (x >>> 16)

/-- prutalgen/internal/antlr/prediction_context.go:69-80, 289-294: contexts are lists of return states.  The hash value of the empty one is 0, since
`BasePredictionContextEMPTY` is made before `init` runs (prediction_context.go:12-21, prediction_context_cache.go:3-7). -/
def ctxHash : List Nat → Nat
  | [] => 0
  | r :: p => murmurFinish (murmurUpdate (murmurUpdate 1 (ctxHash p)) r) 2

/-- prutalgen/internal/antlr/semantic_context.go:80, 109-119: the hash value of `SemanticContextNone`. -/
def semHash : Nat := murmurFinish (murmurUpdate (murmurUpdate (murmurUpdate 0 4294967295) 4294967295) 0) 3

/-- prutalgen/internal/antlr/lexer_action.go:371-376 (`Hash`). -/
def Action.hash (a : Action) : Nat := murmurFinish (murmurUpdate (murmurUpdate 0 0) a.channel) 2

/-- prutalgen/internal/antlr/lexer_action_executor.go:19-38, 140-148 (`Hash`). -/
def execHash : Option (List Action) → Nat
  | none => 61
  | some as => murmurFinish (as.foldl (fun h a => murmurUpdate h a.hash) 0) as.length

/-- prutalgen/internal/antlr/atn_config.go:21-31: a configuration of a lexer.  `ng` is `passedThroughNonGreedyDecision`. -/
structure Cfg where
  state : Nat
  alt : Nat
  ctx : List Nat
  ng : Bool
  exec : Option (List Action)
  deriving DecidableEq, Repr

/-- prutalgen/internal/antlr/atn_config.go:284-300 (`LHash`). -/
def Cfg.hash (c : Cfg) : Nat :=
  murmurFinish
    (murmurUpdate (murmurUpdate (murmurUpdate (murmurUpdate (murmurUpdate (murmurUpdate 7 c.state) c.alt) (ctxHash c.ctx)) semHash) (if c.ng then 1 else 0))
      (execHash c.exec)) 6

/-- prutalgen/internal/antlr/atn_config.go:304-326 (`LEquals`). -/
def Cfg.equals (a b : Cfg) : Bool :=
  a.ng == b.ng &&
  match a.exec, b.exec with
  | none, none => true
  | some x, some y => x == y && a.state == b.state && a.alt == b.alt && a.ctx == b.ctx
  | _, _ => false

/-- prutalgen/internal/antlr/atn_config_set.go:228-234 and dfa_state.go:147-151 (`Hash`). -/
def setHash (cs : List Cfg) : Nat := murmurFinish (murmurUpdate 7 (cs.foldl (fun h c => (31 * h + c.hash) % 4294967296) 1)) 1

/-- prutalgen/internal/antlr/atn_config_set.go:179-190 (`Compare`). -/
def setEquals : List Cfg → List Cfg → Bool
  | [], [] => true
  | a :: as, b :: bs => a.equals b && setEquals as bs
  | _, _ => false

/-- prutalgen/internal/antlr/atn_config_set.go:82-123 (`Add`) for ordered sets; a configuration that is there already is found as in jcollect.go:159-198. -/
def addCfg (cs : List Cfg) (c : Cfg) : Option (List Cfg) :=
  match cs.find? fun d => d.hash == c.hash && c.equals d with
  | none => some (cs ++ [c])
  | some d => if d.ctx = c.ctx then some cs else none

/-! ## Sets of configurations -/

/-- The parts of an automaton that a lexer uses. -/
structure Net where
  state : Nat → Option State
  actions : List Action
  ruleToken : List Nat
  start : Nat

/-- prutalgen/internal/antlr/lexer.go:108-120 (`LexerMaxCharValue`). -/
def maxChar : Nat := 0x10FFFF

/-- prutalgen/internal/antlr/atn_config.go:244-269, 328-332 (`NewLexerATNConfig2`, `3`, `4`). -/
def Net.move (A : Net) (c : Cfg) (s : Nat) (ctx : List Nat) (exec : Option (List Action)) : Option Cfg :=
  match A.state s with
  | none => none
  | some st => some ⟨s, c.alt, ctx, c.ng || st.nonGreedy, exec⟩

/-- prutalgen/internal/antlr/lexer_atn_simulator.go:406-479 (`getEpsilonTarget`); `some none` is nil. -/
def Net.epsilonTarget (A : Net) (eof : Bool) (c : Cfg) : Trans → Option (Option Cfg)
  | .rule t f _ _ => (A.move c t (f :: c.ctx) c.exec).map some
  | .action t i =>
    if c.ctx.isEmpty then
      match A.actions[i]? with
      | none => none
      | some a => (A.move c t c.ctx (some (c.exec.getD [] ++ [a]))).map some
    else (A.move c t c.ctx c.exec).map some
  | .epsilon t => (A.move c t c.ctx c.exec).map some
  | .atom t l => if eof && (Trans.atom t l).matches 0 maxChar none then (A.move c t c.ctx c.exec).map some else some none
  | .range .. => some none
  | .set t s => if eof && (Trans.set t s).matches 0 maxChar none then (A.move c t c.ctx c.exec).map some else some none
  | .notSet .. => some none
  | .wildcard _ => some none
  | .predicate .. => none
  | .precedence .. => none

/-- prutalgen/internal/antlr/lexer_atn_simulator.go:394-402: the loop over transitions of `closure`, which is called by `rec`. -/
def Net.closureLoop (A : Net) (eof : Bool) (rec : Cfg → List Cfg → Bool → Option (List Cfg × Bool)) (c : Cfg) :
    List Trans → List Cfg → Bool → Option (List Cfg × Bool)
  | [], cs, acc => some (cs, acc)
  | t :: ts, cs, acc =>
    match A.epsilonTarget eof c t with
    | none => none
    | some none => closureLoop A eof rec c ts cs acc
    | some (some d) =>
      match rec d cs acc with
      | none => none
      | some (cs, acc) => closureLoop A eof rec c ts cs acc

/-- prutalgen/internal/antlr/lexer_atn_simulator.go:349-403 (`closure`).  The number bounds the depth of the calls. -/
def Net.closure (A : Net) (eof : Bool) : Nat → Cfg → List Cfg → Bool → Option (List Cfg × Bool)
  | 0, _, _, _ => none
  | n + 1, c, cs, acc =>
    match A.state c.state with
    | none => none
    | some st =>
      if st.isStop then
        match c.ctx with
        | [] => (addCfg cs c).map fun cs => (cs, true)
        | r :: p =>
          match A.move c r p c.exec with
          | none => none
          | some d => closure A eof n d cs acc
      else if !st.epsOnly && (!acc || !c.ng) then
        match addCfg cs c with
        | none => none
        | some cs => A.closureLoop eof (closure A eof n) c st.trans cs acc
      else A.closureLoop eof (closure A eof n) c st.trans cs acc

/-- The bound for the depth of the calls of `closure`. -/
def closureDepth : Nat := 64

/-- prutalgen/internal/antlr/lexer_atn_simulator.go:332-338: the loop of `computeStartState`. -/
def Net.startLoop (A : Net) : Nat → List Trans → List Cfg → Option (List Cfg)
  | _, [], cs => some cs
  | i, t :: ts, cs =>
    match A.closure false closureDepth ⟨t.target, i + 1, [], false, none⟩ cs false with
    | none => none
    | some (cs, _) => startLoop A (i + 1) ts cs

/-- prutalgen/internal/antlr/lexer_atn_simulator.go:331-340 (`computeStartState`). -/
def Net.startSet (A : Net) : Option (List Cfg) :=
  match A.state A.start with
  | none => none
  | some st => A.startLoop 0 st.trans []

/-- prutalgen/internal/antlr/lexer_atn_simulator.go:290-306: the transitions of one configuration in `getReachableConfigSet`, with the set so far and `SkipAlt`. -/
def Net.reachTrans (A : Net) (t : Option Nat) (c : Cfg) (acc : Bool) : List Trans → List Cfg → Nat → Option (List Cfg × Nat)
  | [], cs, skip => some (cs, skip)
  | tr :: ts, cs, skip =>
    if tr.matches 0 maxChar t then
      match A.move c tr.target c.ctx c.exec with
      | none => none
      | some d =>
        match A.closure t.isNone closureDepth d cs acc with
        | none => none
        | some (cs, b) => reachTrans A t c acc ts cs (if b then c.alt else skip)
    else reachTrans A t c acc ts cs skip

/-- prutalgen/internal/antlr/lexer_atn_simulator.go:279-307: the loop of `getReachableConfigSet` over the configurations. -/
def Net.reachLoop (A : Net) (t : Option Nat) : List Cfg → List Cfg → Nat → Option (List Cfg)
  | [], cs, _ => some cs
  | c :: rest, cs, skip =>
    if c.alt == skip && c.ng then reachLoop A t rest cs skip
    else
      match A.state c.state with
      | none => none
      | some st =>
        match A.reachTrans t c (c.alt == skip) st.trans cs skip with
        | none => none
        | some (cs, skip) => reachLoop A t rest cs skip

/-- prutalgen/internal/antlr/lexer_atn_simulator.go:274-308 (`getReachableConfigSet`). -/
def Net.reach (A : Net) (cs : List Cfg) (t : Option Nat) : Option (List Cfg) := A.reachLoop t cs [] 0

/-! ## The DFA -/

/-- prutalgen/internal/antlr/dfa_state.go:44-83: a state; `accept` is the type of the token with the actions, if it is an accepting state.  An edge to `none` is
an edge to `ATNSimulatorError`. -/
structure DState where
  configs : List Cfg
  accept : Option (Nat × Option (List Action))
  edges : List (Nat × Option Nat)
  deriving DecidableEq, Repr

/-- prutalgen/internal/antlr/dfa.go:8-29 (`DFA`). -/
structure Dfa where
  states : List DState
  s0 : Option Nat
  deriving DecidableEq, Repr

/-- prutalgen/internal/antlr/dfa.go:32-45 (`NewDFA`). -/
def Dfa.empty : Dfa := ⟨[], none⟩

/-- prutalgen/internal/antlr/lexer_atn_simulator.go:572-585: type and actions of the first configuration at the end of a rule. -/
def Net.acceptOf (A : Net) : List Cfg → Option (Option (Nat × Option (List Action)))
  | [] => some none
  | c :: cs =>
    match A.state c.state with
    | none => none
    | some st =>
      if st.isStop then (A.ruleToken[st.rule]?).map fun t => some (t, c.exec)
      else acceptOf A cs

/-- prutalgen/internal/antlr/lexer_atn_simulator.go:568-610 (`addDFAState`), without setting the start state; the state found as in jcollect.go:203-229. -/
def Net.addState (A : Net) (D : Dfa) (cs : List Cfg) : Option (Dfa × Nat) :=
  match A.acceptOf cs with
  | none => none
  | some a =>
    match D.states.findIdx? fun s => setHash s.configs == setHash cs && setEquals cs s.configs with
    | some i => some (D, i)
    | none => some ({ D with states := D.states ++ [⟨cs, a, []⟩] }, D.states.length)

/-- prutalgen/internal/antlr/lexer_atn_simulator.go:545-561: adding an edge, only for characters up to 127. -/
def Dfa.addEdge (D : Dfa) (k : Nat) (t : Option Nat) (to : Option Nat) : Dfa :=
  match t with
  | none => D
  | some c => if c ≤ 127 then { D with states := D.states.modify k fun s => { s with edges := (c, to) :: s.edges } } else D

/-- prutalgen/internal/antlr/lexer_atn_simulator.go:212-227 (`getExistingTargetState`). -/
def Dfa.existing (D : Dfa) (k : Nat) (t : Option Nat) : Option (Option Nat) :=
  match t with
  | none => none
  | some c =>
    if c ≤ 127 then
      match D.states[k]? with
      | none => none
      | some s => s.edges.lookup c
    else none

/-- prutalgen/internal/antlr/lexer_atn_simulator.go:235-253 (`computeTargetState`) and 524-562 (`addDFAEdge`). -/
def Net.computeTarget (A : Net) (D : Dfa) (k : Nat) (t : Option Nat) : Option (Dfa × Option Nat) :=
  match D.states[k]? with
  | none => none
  | some s =>
    match A.reach s.configs t with
    | none => none
    | some [] => some (D.addEdge k t none, none)
    | some cs =>
      match A.addState D cs with
      | none => none
      | some (D, j) => some (D.addEdge k t (some j), some j)

/-- prutalgen/internal/antlr/lexer_atn_simulator.go:172-176: the target of the next character, remembered or computed. -/
def Net.target (A : Net) (D : Dfa) (k : Nat) (t : Option Nat) : Option (Dfa × Option Nat) :=
  match D.existing k t with
  | some r => some (D, r)
  | none => A.computeTarget D k t

/-! ## Matching -/

/-- prutalgen/internal/antlr/lexer_atn_simulator.go:662-667 (`SimState`): the characters after the match, type and actions. -/
structure Accept where
  rest : Str
  typ : Nat
  exec : Option (List Action)
  deriving DecidableEq, Repr

/-- prutalgen/internal/antlr/lexer_atn_simulator.go:155-198: the loop of `execATN`, from the DFA state `k` with the characters `s` to come: what was accepted last, and
what is left where it ends.  The number bounds the iterations. -/
def Net.execLoop (A : Net) : Nat → Dfa → Nat → Str → Option Accept → Option (Dfa × Option Accept × Str)
  | 0, _, _, _, _ => none
  | n + 1, D, k, s, prev =>
    match A.target D k (s.head?.map Char.toNat) with
    | none => none
    | some (D, none) => some (D, prev, s)
    | some (D, some j) =>
      match D.states[j]? with
      | none => none
      | some ds =>
        match ds.accept with
        | none => execLoop A n D j s.tail prev
        | some (t, e) =>
          if s.isEmpty then some (D, some ⟨s.tail, t, e⟩, s.tail)
          else execLoop A n D j s.tail (some ⟨s.tail, t, e⟩)

/-- prutalgen/internal/antlr/lexer_atn_simulator.go:141-154: `execATN` from the DFA state `k`; in the start state a token without characters can be accepted. -/
def Net.exec (A : Net) (D : Dfa) (k : Nat) (s : Str) : Option (Dfa × Option Accept × Str) :=
  match D.states[k]? with
  | none => none
  | some ds => A.execLoop (s.length + 2) D k s (ds.accept.map fun a => ⟨s, a.1, a.2⟩)

/-- prutalgen/internal/antlr/lexer_atn_simulator.go:86-139 (`Match`, `MatchATN`). -/
def Net.matchAt (A : Net) (D : Dfa) (s : Str) : Option (Dfa × Option Accept × Str) :=
  match D.s0 with
  | some k => A.exec D k s
  | none =>
    match A.startSet with
    | none => none
    | some cs =>
      match A.addState D cs with
      | none => none
      | some (D, k) => A.exec { D with s0 := some k } k s

/-- prutalgen/internal/antlr/lexer_action_executor.go:113-138 and lexer_action.go:365-369: the channel set by the actions; without them the default one, 0. -/
def execChannel : Option (List Action) → Nat
  | none => 0
  | some as => as.foldl (fun _ a => a.channel) 0

/-- A token of prutalgen/internal/antlr/lexer.go:311-315 (`Emit`). -/
structure AToken where
  typ : Nat
  channel : Nat
  text : Str
  deriving DecidableEq, Repr

/-- prutalgen/internal/antlr/lexer.go:181-235 (`NextToken`), called until it returns the EOF token.  If nothing is accepted (lexer_atn_simulator.go:255-268): at the
end of the text that is the EOF token; otherwise the characters read so far and the one that does not fit are left out (lexer.go:166-178, 416-426).
The first number bounds the calls. -/
def Net.tokens (A : Net) : Nat → Dfa → Str → Option (Dfa × List AToken)
  | 0, _, _ => none
  | n + 1, D, s =>
    match A.matchAt D s with
    | none => none
    | some (D, some a, _) =>
      let t : AToken := ⟨a.typ, execChannel a.exec, s.take (s.length - a.rest.length)⟩
      if a.rest.isEmpty then some (D, [t])
      else
        match tokens A n D a.rest with
        | none => none
        | some (D, ts) => some (D, t :: ts)
    | some (D, none, r) =>
      if r.isEmpty then some (D, [])
      else if r.tail.isEmpty then some (D, [])
      else tokens A n D r.tail

/-- prutalgen/internal/parser/protobuf_lexer.go:348-356: the automaton of the lexer in the form used here. -/
def Atn.net (a : Atn) : Option Net :=
  match a.modes with
  | [m] => some ⟨fun i => a.states[i]?, a.actions, a.ruleToken, m⟩
  | _ => none

/-- All tokens of the text of a file, for a DFA that may have been filled by other files. -/
def Net.lexFile (A : Net) (D : Dfa) (s : Str) : Option (Dfa × List AToken) := A.tokens (s.length + 1) D s

/-- The tokens of files that are read one after another (prutalgen/internal/parser/protobuf_lexer.go:19-35: the DFA is in static data). -/
def Net.lexFiles (A : Net) : Dfa → List Str → Option (Dfa × List (List AToken))
  | D, [] => some (D, [])
  | D, s :: ss =>
    match A.lexFile D s with
    | none => none
    | some (D, ts) =>
      match lexFiles A D ss with
      | none => none
      | some (D, tss) => some (D, ts :: tss)

end Verif.Model.Gen.Antlr
