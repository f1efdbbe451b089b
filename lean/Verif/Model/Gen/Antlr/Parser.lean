import Verif.Model.Gen.Antlr.LexerSim
import Verif.Model.Gen.Antlr.ParserCode
import Verif.Model.Gen.Antlr.ParserData
/-!
# Model of the generated parser

What the rule functions of prutalgen/internal/parser/protobuf_parser.go (Verif/Model/Gen/Antlr/ParserCode.lean) do with the tokens of the lexer, by way
of prutalgen/internal/antlr/{parser,error_strategy,ll1_analyzer,atn}.go.

The parser sees the visible tokens; the end of the input has the type 0 here (-1 in Go).  It builds the tree of the rules that it enters.  The first error
is reported (`ReportError`, `ReportUnwantedToken` and `ReportMissingToken` of prutalgen/internal/antlr/error_strategy.go:96-118, 272-320 do unless the
strategy is in recovery mode, where it gets only by reporting an error), and after an error the tree is not used (prutalgen/pkg/prutalgen/prutalgen.go:248-251): so
the first error is the result `none`, and recovery is not modelled.

`AdaptivePredict` is a parameter: any function of the decision, the context (the states from which the rules in progress were called) and the tokens
that are left.  It is also given the statements that are still to be executed, which the context determines.
-/
namespace Verif.Model.Gen.Antlr
open Verif.Model.Gen

/-- prutalgen/internal/antlr/token.go: the type and the text of a token. -/
structure PTok where
  typ : Nat
  text : Str
  deriving DecidableEq

/-- prutalgen/internal/antlr/parser_rule_context.go:33-50, prutalgen/internal/antlr/tree.go:31-37: a tree of rules and tokens.  The token for the end of
the input, the last child of `proto`, is left out. -/
inductive PTree where
  | leaf (x : PTok)
  | node (r : Nat) (ts : List PTree)

/-- prutalgen/internal/antlr/common_token_stream.go:80-114, 204-225, 376-380 (`Consume`, `NextTokenOnChannel`, `adjustSeekIndex`): the tokens that the parser
sees, those of the default channel (prutalgen/pkg/prutalgen/prutalgen.go:240). -/
def visibleTokens (ts : List AToken) : List PTok := (ts.filter fun t => t.channel == 0).map fun t => ⟨t.typ, t.text⟩

/-- prutalgen/internal/antlr/common_token_stream.go:177-179, 404-430: `LA(1)`. -/
def la : List PTok → Nat
  | [] => 0
  | x :: _ => x.typ

/-- A parser: its rule functions, what is done after predictions, and which tokens may be next in a state. -/
structure Gram where
  rule : Nat → Code
  alts : Nat → List Code
  next : Nat → Nat → Bool

/-- prutalgen/internal/antlr/parser_atn_simulator.go:82-162 (`AdaptivePredict`): a number, given the decision, the context and the tokens that are left. -/
abbrev Predict := Nat → List Nat → List Code → List PTok → Nat

/-- prutalgen/internal/antlr/parser.go:146-169 (`Match`). -/
def matchTok (ok : Nat → Bool) : List PTok → Option (List PTree × List PTok)
  | [] => none
  | x :: w => if ok x.typ then some ([.leaf x], w) else none

/-- prutalgen/internal/parser/protobuf_parser.go:759-10412: executing statements; the result is the trees that are added to the rule in progress, and the
tokens that are left.  `n` bounds the depth of recursion, `ctx` are the states from which the rules in progress were called
(prutalgen/internal/antlr/parser.go:451-475, `EnterRule` and `ExitRule`), `K` is what will be executed afterwards. -/
def run (G : Gram) (predict : Predict) : Nat → List Nat → List Code → Code → List PTok → Option (List PTree × List PTok)
  | 0, _, _, _, _ => none
  | n + 1, ctx, K, c, w =>
    match c with
    | .done => some ([], w)
    | .fail => none
    | .sync s => if G.next s (la w) then some ([], w) else none
    | .tok t => matchTok (fun u => u == t) w
    | .eof => if w.isEmpty then some ([], []) else none
    | .set ts => matchTok (fun u => ts.contains u) w
    | .call s r =>
      match run G predict n (s :: ctx) K (G.rule r) w with
      | none => none
      | some (ts, w) => some ([.node r ts], w)
    | .seq a b =>
      match run G predict n ctx (b :: K) a w with
      | none => none
      | some (ts, w) =>
        match run G predict n ctx K b w with
        | none => none
        | some (us, w) => some (ts ++ us, w)
    | .ifLa ts a b => if ts.contains (la w) then run G predict n ctx K a w else run G predict n ctx K b w
    | .whileLa ts a =>
      if ts.contains (la w) then
        match run G predict n ctx (.whileLa ts a :: K) a w with
        | none => none
        | some (us, w) =>
          match run G predict n ctx K (.whileLa ts a) w with
          | none => none
          | some (vs, w) => some (us ++ vs, w)
      else some ([], w)
    | .choose d =>
      match predict d ctx K w with
      | 0 => none
      | i + 1 =>
        match (G.alts d)[i]? with
        | none => none
        | some a => run G predict n ctx K a w

/-! ## Which tokens may be next -/

/-- prutalgen/internal/antlr/ll1_analyzer.go:73-84: what `look1` has visited, the labels that it has found, and whether it has found the end of the rule
(`TokenEpsilon`). -/
structure Looked where
  busy : List (Nat × List Nat)
  labels : List Trans
  epsilon : Bool

/-- prutalgen/internal/antlr/ll1_analyzer.go:122-219 (`look1`, `look2`, `look3`), without stop state and outer context, seeing through predicates.  `ctx` are
the states to return to, `called` the rules in progress; the set of tokens is kept as the list of the transitions whose labels are added. -/
def look (states : Nat → Option State) : Nat → Nat → List Nat → List Nat → Looked → Looked
  | 0, _, _, _, st => st
  | n + 1, s, ctx, called, st =>
    if st.busy.contains (s, ctx) then st
    else
      let st := { st with busy := (s, ctx) :: st.busy }
      match states s with
      | none => st
      | some q =>
        if q.isStop then
          match ctx with
          | [] => { st with epsilon := true }
          | r :: ctx => look states n r ctx (called.erase q.rule) st
        else
          q.trans.foldl (fun st t =>
            match t with
            | .rule b f _ _ =>
              match states b with
              | none => st
              | some p => if called.contains p.rule then st else look states n b (f :: ctx) (p.rule :: called) st
            | t => if t.isEpsilon then look states n t.target ctx called st else { st with labels := st.labels ++ [t] }) st

/-- prutalgen/internal/antlr/atn.go:72-103 (`NextTokens` without context), and prutalgen/internal/antlr/error_strategy.go:188-201 (`Sync`): whether the token
type `t` is accepted in the state `s`.  `n` is the number of steps that are allowed. -/
def nextOk (states : Nat → Option State) (max n s t : Nat) : Bool :=
  let r := look states n s [] [] ⟨[], [], false⟩
  r.epsilon || r.labels.any fun l => l.matches 1 max (if t = 0 then none else some t)

/-- prutalgen/internal/parser/protobuf_parser.go:301, 328-343: the parser of proto files, with the automaton of its `serializedATN`. -/
def protoGram : Gram where
  rule := ruleCode
  alts := altsCode
  next s t :=
    match deserialize parserAtnData with
    | none => false
    | some a => nextOk (fun i => a.states[i]?) a.maxTokenType 1000 s t

/-- prutalgen/pkg/prutalgen/prutalgen.go:246-251: the tree of a list of tokens, `none` after an error.  `n` is the number of steps that are allowed. -/
def parseTokens (predict : Predict) (n : Nat) (w : List PTok) : Option (List PTree) :=
  match run protoGram predict n [] [] codeProto w with
  | some (ts, []) => some ts
  | _ => none

end Verif.Model.Gen.Antlr
