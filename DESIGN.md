# Formal model of cloudwego/prutal in Lean 4

This file says what is modelled, how each property of `properties.jsonl` is stated and
proved, what is trusted, and where the code disagrees with a property.

## 1. Layout

```
lean/Verif/Spec/       specifications, independent of the model: base-128 varints on Nat, zigzag on Int,
                       grammar of wire records, schemas and what they prescribe, decoding relation
lean/Verif/Spec/Gen/   the same for the generator: scoping rules, string literals, identifiers, shell words,
                       what a Go declaration says, ...
lean/Verif/Model/      the model of the Go runtime code, function by function, each definition cites /repo
lean/Verif/Model/Gen/  the model of prutalgen
lean/Verif/Lemmas/     helper lemmas (Lemmas/Gen: for prutalgen)
lean/Verif/Props/      the property theorems, one file per group, with non-vacuity examples (Props/Gen: prutalgen)
seeded/LOG.jsonl       mutation log (edits tried on a scratch copy of the model)
MANIFEST.json          property -> theorems
```

Names: a theorem `Cnn_...` proves (part of) property Cnn.  `_partial`: only under conditions that the property does
not mention; the docstring and the manifest say which.  `_violated`: the negation, with a concrete witness; the code
does not have the property as stated.

## 2. Trusted base

* Lean 4.33.0's kernel.  No axioms are added.  Each theorem depends at most on
  `propext`, `Classical.choice`, `Quot.sound` (checked by `#print axioms`; section 7).
  No `sorry`, `native_decide`, `bv_decide`, `implemented_by`, `unsafe`.  Mathlib is not imported.
* The reading of the Go code by a human: nothing here is extracted mechanically.  Every
  model definition carries a citation so that it can be re-read against the source.
* Go's semantics of fixed-width integers (modelled by `BitVec 8/32/64` with the same
  shift/mask expressions), slices (`append`, `copy`, slicing), maps, and amd64 sizes.
* Go's library, where the code calls it: `reflect.StructTag.Lookup`, `strings.Cut/Split/TrimSpace/...`,
  `path.Join/Clean/Base`, `strconv.ParseInt`, `sort.Slice`, the verbs of `fmt.Sprintf` used by the generator.  Each is
  modelled by a definition of its documented behaviour (`Model/Gen/{Options,Num,Paths,Imports,...}.lean`).
* What the Go compiler makes of a program (`Spec/Gen/GoFile.lean`: how it reads a text; `Spec/Gen/GoTypes.lean`: `HasType`, `Compiled`, the types of what it read; `Spec/Gen/Describes.lean`: `elabType`, `Compiles`, derived from it in C94; `Spec/Gen/Imports.lean`: `Program`,
  `RefersTo`), and what a POSIX shell makes of a command line (`Spec/Gen/Header.lean`).

### Modelled
| Go | Lean |
|---|---|
| `internal/protowire/wire.go` (all functions) | `Model/Protowire.lean` |
| `internal/wire/{wire,encoder,encoder_list,encoder_packed,encoder_map,decoder_packed,decoder_map,size,size_map}.go` | `Model/Wire.lean`, `Model/Coder.lean` (the 72+49+90 specialised map routines are one parametrised definition each; that the Go text of all of them is the same template was checked with a script) |
| `internal/desc/{desc,type,funcs,tag,utils,const}.go` | `Model/Desc.lean`, `Model/Tag.lean` |
| the search for oneof wrappers by reflection (`internal/desc/utils.go:97-150`) | `Model/Oneof.lean` |
| `internal/desc/map.go`, as a small-step machine for concurrent readers and writers | `Model/DescMap.lean` |
| the caches of `internal/desc/desc.go` and `type.go` (`cachedTypes`, `cachedStructs`, `finalized`) | `Model/TypeCache.lean` |
| `internal/prutal/{encoder,sizer,decoder,span,prutal}.go`, `prutal.go`, `pkg/grpccodec/grpccodec.go` | `Model/{Encoder,Sizer,Decoder,Span,SliceGrow,Api,GrpcCodec}.lean` |
| the error values a caller sees (`internal/protowire/wire.go:57-85`, `internal/prutal/errors.go`, without texts) | `Model/GoErrors.lean` |
| the decoder again, on memory with addresses; `mapUpdateFunc_*` and `TmpMapVars` of `internal/desc/type.go:171-309` as `mapAssign` | `Model/Memory.lean`, `Model/MemDecoder.lean` |
| the same, as steps of several goroutines that share memory | `Model/Goroutines.lean` |
| the encoder on memory with sharing, as steps | `Model/MemEncoder.lean` |
| the sizer on memory with sharing, as steps | `Model/MemSizer.lean` |
| the message after an `Unmarshal` that failed, uninitialised arena memory | `Model/DecodeLeft.lean` |
| the pools of temporary map variables (`TmpMapVars`), taken, kept and given back by `DecodeStruct` | `Model/DecodePool.lean` |
| prutalgen: identifiers (`strs.go`) | `Model/Gen/Strs.lean`, `GoNames.lean` |
| options, directives, comments (`option.go`, `directives.go`, `comment.go`) | `Model/Gen/Options.lean`, `Comments.lean` |
| number and string literals (`utils.go`, `internal/protobuf/text`) | `Model/Gen/Num.lean`, `StrLit.lean` |
| declarations and their verification (`message.go`, `enum.go`, `field.go`, `reserved.go`) | `Model/Gen/Ast.lean`, `Verify.lean`, `Enum.lean` |
| loading of files, order of files (`prutalgen.go`, `utils.go`) | `Model/Gen/Loader.lean` (files as abstract names) |
| lookup of import paths, embedded files, Go packages of files, the command (`prutalgen.go`, `embed.go`, `main.go`) | `Model/Gen/Search.lean` |
| `LoadProto` as a whole: parse trees of all reachable files, resolution, verification (`prutalgen.go`, `proto.go`) | `Model/Gen/Pipeline.lean` (the listeners of a file run as a whole before its imports are loaded; they do not interact) |
| the text of generated files, line by line (`code.go:80-382`) | `Model/Gen/Text.lean` (comments are given by the place of the declaration instead of being fields of it; before `format.Source`) |
| name resolution (`type.go`, `message.go`, `proto.go`) | `Model/Gen/Resolve.lean` |
| generated structs, tags, wrappers, getters, zero values, imports, header (`code.go`, `field.go`, `codewriter.go`) | `Model/Gen/{Field,Code,Getter,Imports,Header}.lean` |
| the lexer (`internal/Protobuf.g4`, lexical rules, run by `internal/antlr`) | `Model/Gen/Lexer.lean` |
| the table of the generated lexer (`internal/parser/protobuf_lexer.go`), its deserializer (`internal/antlr/atn_deserializer.go`), the lexer simulator with its cache (`internal/antlr/lexer_atn_simulator.go`, `lexer.go`, `atn_config.go`, `atn_config_set.go`, `dfa_state.go`, `mutex`es left out: one lexer at a time) | `Model/Gen/Antlr/LexerData.lean`, `Model/Gen/Antlr/Atn.lean`, `Model/Gen/Antlr/LexerSim.lean` (contexts as stacks: lexer configurations never merge them; predicates and custom actions do not occur and are refused) |
| the generated parser (`internal/parser/protobuf_parser.go`: all 53 rule functions as terms of a small language), `Sync` and `Match` (`error_strategy.go`, `parser.go`), the lookahead sets (`ll1_analyzer.go`, `atn.go`) computed on the same terms, the tree as the listeners see it | `Model/Gen/Antlr/ParserCode`, `ParserData`, `Parser`, `Ast` |
| the predictions (`internal/antlr/parser_atn_simulator.go`, `prediction_context.go`, `prediction_mode.go`, `atn_config.go`, `atn_config_set.go`, `dfa.go`, `dfa_state.go`: both simulations, merging of contexts, conflicts, the automata shared by all parsers) on the automaton deserialized from the data in the generated parser | `Model/Gen/Antlr/Predict` (simplifications listed at its head: no locks, no hashes, no cache of merged contexts, no predicates) |
| reading a file (`prutalgen.go:parseInput`, `internal/antlr/input_stream.go`, `file_stream.go`) from its bytes, by the lexer and the parser that are run, with the caches of the process | `Model/Gen/Antlr/Input` |
| the parser (`internal/Protobuf.g4`, all rules) | `Model/Gen/Grammar.lean` (recursive descent with ordered choice in place of ANTLR's prediction: a text is accepted if the grammar derives it, ambiguities go to the first alternative; the trees keep what the listeners look at) |
| what the listeners read off the parse tree: texts of names, values of literals, directives in the comments of declarations by the order of the walk (`comment.go`, `option.go`, `field.go`, `enum.go`, `message.go`, `service.go`, `proto.go`) | `Model/Gen/Reader.lean` (from the characters of files to the trees of `Listener.lean`; option values that are not UTF-8 are simplified) |
| the parse tree listeners: what the tree of a file becomes (`proto.go`, `message.go`, `enum.go`, `field.go`, `oneof.go`, `option.go`, `reserved.go`, `service.go`) | `Model/Gen/Listener.lean`, `Service.lean` |
| paths and command line options (`code.go`, `go_opts.go`, `proto.go`) | `Model/Gen/Paths.lean` |

### Not modelled
* `internal/hack` (unsafe access to runtime structures) - its observable contract
  (reading interface headers, iterating maps, setting map entries) is assumed.
* Garbage collector, `sync.Pool`, CPU memory model beyond "atomic load/store of one
  pointer is a single step", allocation failure, integer overflow of `int` lengths
  (lengths are `Nat`; a 2^63-byte buffer cannot exist).  C31 assumes that `make` returns memory aligned to the largest alignment.
* Memory is modelled as trees (`Val`): a pointer is an optional tree.  In addition the encoder and the sizer (`Model/Heap.lean`, `Model/HeapCodec.lean`)
  and the decoder (`Model/Memory.lean`, `Model/MemDecoder.lean`) are modelled on a memory with addresses, where messages may be shared or cyclic, slices
  have spare capacity, and strings are views of memory.  In the latter the arena of `span.go` is not repeated (each `Malloc` gives a block of its own; that
  the arena gives disjoint memory is C31), and the fields of the target itself are not followed after an error.  Reading memory
  at the wrong Go type is an explicit `ub` result, a Go panic an explicit `panic` result,
  uninitialised arena memory an explicit `undef` value.
* nil and empty non-nil slices of a repeated field are not distinguished; spare capacity
  of slices is treated only in the growth model (C41) and in the decoder on memory (C68-C71).
* `bool` memory holds 0 or 1.  Map keys are scalars without NaN keys (the codec accepts
  float keys; Go's hash of floats is not modelled).
* prutalgen: the error recovery of ANTLR (a file with an error is refused; what the recovery makes of it is not looked at);
  the layout of generated text by gofmt, the file system (a function from names to contents), process handling, and the text of `String` methods of
  the tree.

## 3. Main model

* `Bytes = List (BitVec 8)`.  Words are `BitVec 32/64`, written with Go's own expressions,
  and then proved equal to arithmetic on `Nat`/`Int` in the specification.
* Types: `GoType` (scalars, string, []byte, pointers, slices, maps, structs by index into a
  type environment, so recursive types are allowed).  A struct declaration lists fields with their tag
  strings; parsing tags, type checks and the choice of specialised routines are modelled.
* Values: `Val`.  A descriptor field has a slot index instead of a byte offset.
* Encoder and sizer: structural recursion on the remaining depth; the buffer and the length
  back-patching are explicit.  Decoder: fuel = length of input + 1 (proved sufficient),
  depth is an `Int` because the code can go from 1 to -1.
* A message schema (`Spec/Schema.lean`) is the independent description of a message type; `Spec/Output.lean` says what
  protobuf prescribes for a value of it, `Spec/Decode.lean` which bytes decode to which value.  `Spec/Declared.lean` says when a
  Go struct implements a schema; the bridge theorems say that the descriptor computed by the code is then the one of the schema.
* prutalgen: a `World` is the loaded files (`FileDecl`, with messages, enums, fields); a `Chain` a message with the messages around it.

## 4. How each property is proved

* C01 round trip: encoder = spec encoding (C37), decoder refined to a fold over records; induction on depth. `_partial`
  only where the code violates it (C26 zero members, C22 depth through maps).
* C02 size: induction on depth, size = length of spec encoding.
* C03 append only: encoder on any buffer = buffer ++ spec encoding.
* C04-C08 arithmetic: writers/readers against `Spec/Varint`.
* C09 back-patching: list lemma on `lenReserve`/`lenPack`.
* C10 packed lists: induction on the list.
* C11 packed/unpacked interop: negation with witness for split packed blocks and packed data for
  unpacked declarations; `_partial` for one block / single elements.
* C12, C15-C19, C24, C30: refinement "decoder = fold over parsed records".
* C13 skipping: soundness and completeness against the record grammar.
* C14 order: sortedness of the parsed descriptor, and the encoder folds over it.
* C20 depth limit of Marshal/Size: exact for trees; for memory with sharing and cycles by simulation with the unfolding (a typed memory is a
  coinductive invariant, each level of nesting follows at most three addresses).
* C21, C22 depth of Unmarshal: violated through maps (findings 1, 2): negations + exact characterisation of what is accepted.
* C23 totality: no `panic`/`ub` result for types implementing a schema, any bytes; and for all accepted types with ordinary field types (see C35).
* C25 bools: violated (finding 5); exact characterisation per route.
* C26 oneof: violated for zero payloads (finding 3); partial for non-zero.
* C27, C28: descriptor construction invariants.
* C29: specialised = generic map routines.
* C31 span allocator: invariant over all request sequences.
* C32 cache: small-step interleaving model of `Get`/`Set`, refinement to a map.
* C33 history: stateful model of `cachedTypes`/`cachedStructs`/`finalized`; negation with witness.
* C34 tags: what every string means as a tag, as an equivalence with a specification by words (`Spec/TagWords.lean`); parse of the generated form; negation for `def=` with commas and for numbers.
* C35 type safety: negation with witnesses; positive theorem for the accepted types whose tagged fields have ordinary Go types (`Spec/Regular.lean`): such
  a set of types is rewritten to a canonical one with the same descriptors (`Lemmas/Regular*.lean`), which implements a schema read off the descriptors, so that all
  theorems about schemas apply (`Props/Regular.lean`). `C35_exact`: acceptance is equivalent to `GoodStruct` (`Spec/Fits`): C34_exact for the tags, C28_accepted for the numbers, and a case analysis of encodings and Go types in between.
* C36 determinism: corollary of C37 (+ permutation of map entries).
* C38 presence: exact emission condition.  C39 nil: negation with witness.
* C40 groups; C41 slice growth: invariant over all sequences of appends.
* C50 decoder = independent decoding relation, both directions.  C51, C52: stability of repeated round trips.
* C42-C49, C53 prutalgen: against grammars/relations in `Spec/Gen`.
* C54, C45, C46 names: injectivity of name mangling on the recommended style; invariants of the conflict loop.
* C55 scoping: resolution function against an inductive scoping relation.
* C56 generated code: the structs generated from a proto file, read by the runtime model, implement the schema of the file; with C37/C50
  this gives end-to-end statements about bytes (`C56_wire_partial`).
* C57 getters; C58 imports; C59 comments; C60 closedness; C61 header; C62 paths; C63 options.
* C64 loading: the listener is a fold over the events of the walk with explicit stores and stacks; each event sequence is shown to end well exactly under a
  condition on the tree, and to leave a state that mirrors the tree (`Ends` in `Lemmas/Gen/Listener.lean`), by mutual induction on the tree.  C66 follows; C65 adds resolution (as C55).
* C72 lookup: paths as walks through directories (`Spec/Gen/Search.lean`), an invariant of the recursion over import statements; C73: induction over the arguments.
* C74, C75 end to end: what is loaded is described by relations on the texts alone (`Spec/Gen/Texts.lean`), which determine it (`Lemmas/Gen/TextUnique.lean`);
  then C72, C64, C55/C65 and C56 are joined.
* C76 (text of generated files): `Spec/Gen/GoText.lean` states the lexical rules of Go as a relation between texts and tokens, and declarations as sequences of tokens. The lines written are shown to
  be read as the tokens of the declarations (`Lemmas/Gen/Text*.lean`); tokens of a text and declarations of tokens are unique (`Lemmas/Gen/GoScan.lean`, `GoUnique.lean`).
* C77 tokens: the lexer takes one lexical element at a time (`Lemmas/Gen/Lexer.lean`); induction over the sequence of elements, and over the text for the converse.
* C78 grammar: `Spec/Gen/ProtoGrammar.lean` says how trees are written and which are well formed. For each rule: what is read is written so (soundness), and what is
  written is read so if what follows cannot continue it (`Lemmas/Gen/Grammar*.lean`), by induction over lists and the nesting of messages; alternatives that come first are shown to
  fail. Trees written like another one have a normal form (`GrammarNormal.lean`).
* C79 reading: widths of nodes are the lengths of their spellings (`Lemmas/Gen/Reader.lean`), the walk asks for comments in the order of the declarations
  (`ReaderWalk.lean`), which with C59 gives the owner of each comment (`Near` and no earlier declaration near); the tree is determined by the tokens and the directives
  (`ReaderLayout.lean`).
* C80 switches: `Spec/Gen/Switches.lean` says when a user asks for something, with precedence; each choice of the generator is shown equivalent (`Lemmas/Gen/Switches.lean`) and
  followed to the declarations generated. C56 uses the same relations, with no restriction on how often an option is set.
* C81 legal types: zero values are built to a depth; structs inside of each other that are all different are at most as many as there are (pigeonhole), so the depth suffices; the
  converse by the size of zero values. Which structs are inside of each other is read off the proto files.
* C82 table-driven lexer: the determinised automaton (232 states, `Lemmas/Gen/Antlr/Table.lean`, found outside Lean) is a certificate: the kernel evaluates `closure`/`reach` of the model on the deserialized table once per row and interval of characters, and a lemma says that characters of one interval give the same set. Invariant of the cache: each cached state is a row, each cached edge agrees with the row (`Lemmas/Gen/Antlr/Cache.lean`). Runs over the rows are compared with the lexer of C77 rule by rule (`Run`, `Numbers`, `Tokens`); the keywords are a checked list of pairs (state, word).
* C83 generated parser: the language of a rule (`Spec/Gen/Derives.lean`: `Derives`, by rules of a context-free grammar with loops) contains each run that reports no error (`run_sound`, induction on steps, any predictor); conversely the lookahead sets of the model are checked against a certificate (`ParserSets.lean`: first sets, follow sets and levels of each rule) and `run_total` goes by induction on the tokens left and the level. Trees are related to the grammar of C78 rule by rule (`TreeSound`, `TreeDefs`, both directions); that the tree is the one the hand-written reader gives, where the grammar has two, comes from `First` (`First.lean`).
* C84 predictions: the stacks of statements that may come next are derived token by token (`PredCode`: `norm`, `stepTok`) beside the sets of configurations of a simulation; a finite table of such pairs, closed under tokens and right at each answer, is right for all inputs and all stacks below (`walk_right`, induction on the tokens). The places where a decision is made, with the calls that lead there, are read off the rule functions (`PredSites`). The second simulation is run with an unknown stack at the bottom of its contexts, failing where it would be looked at; if it does not fail, it does the same for every stack (`PredFull`: substitution is injective and commutes with merging, closure and reach). The tables of all ten decisions are evaluated by the kernel (`PredCert*`: this is a complete case analysis over token types and over a closed set of states, not a sample). The automata that predictions leave are described by an invariant (`PredCache`: each state that is no answer is one of the closed sets, each edge leads where the simulation leads); so results do not depend on them, and the parser with them equals the parser of C83 with a fixed predictor (`PredExec`).
* C85 reading: a static bound for each statement of the rule functions (`Bound`: `fits`, the depth before a token is consumed, and `nul`, which statements need not consume one) is evaluated for all rules; induction on the number of tokens and on that bound gives a number of levels beyond which nothing changes. With it the `∃ n` of C83 and C84 becomes an equation, and reading from bytes with any caches is rewritten to `readText`.
* C86 truncation: each consuming function gives on `p ++ q` what it gives on `p` unless that is the error for a truncated input (`Lemmas/Extend`); the loop over the records is related by induction, the nested calls by a lemma that their fuel does not matter beyond the length of the input. The boundary follows from the uniqueness of the split into records. `C86_whole_partial`: an induction over whole input (`Spec/Whole`, `Lemmas/Whole`) beside the refinement proof of the decoder.
* C87 amplification: the content by induction over the relation `Decodes` of C50; the allocations by a Hoare-style judgement on the decoder on memory (`Lemmas/AllocCount`: whatever the memory, how many blocks a computation allocates on success and on failure), each value paying for its wrappers with the byte of its tag.
* C88 goroutines: the decoder once more as a program of single memory accesses (`Model/Goroutines`), equal to the decoder on memory when it runs alone (`Lemmas/Mem/Prog`); programs that keep to disjoint blocks do not disturb each other (`Lemmas/Mem/Interleave`, an invariant over schedules); the decoder keeps to the blocks of its message and input (`Lemmas/Mem/Keeps`, on top of the Hoare-style judgement of C68/C69).
* C89 encoder on memory: the encoder as a program of single memory accesses on a message with sharing and an output buffer (`Model/MemEncoder`); a weakest-precondition style judgement (`Lemmas/Mem/Enc`: what is read, what is written, what the buffer holds) relates every function to the encoder on trees (`Lemmas/Mem/{EncRead,EncStruct}`); orders of iteration are related by permutation (`Lemmas/Mem/Shows`).
* C90 sizer on memory: the sizer as a program that reads memory (`Model/MemSizer`), related to the sizer on trees by a judgement `Get` for programs that change nothing (`Lemmas/Mem/Size`).
* C91 goroutines with all calls: jobs (`Spec/Jobs`) are calls of Unmarshal, MarshalAppend and Size; each keeps to its blocks (C88_accesses, C89_accesses, C90_accesses), so that every interleaving is equivalent, for each job, to running it alone (`Lemmas/Mem/Interleave`).
* C92 after a failure: `Model/DecodeLeft` computes the message after the call from the decoder and the contents of uninitialised memory; induction over the fuel against the relation `LeftMsg` (`Spec/Left`, `Lemmas/Left`).
* C93 pools: `Model/DecodePool` is the decoder with the pools of temporary map variables as state and an arbitrary `sync.Pool`; the variables have addresses, and before each `Get` other goroutines may change the pools and all variables that this call is not using. It agrees with `Model/Decoder` (`Lemmas/Pool`, rely-guarantee style): variables are in the pool of their type, once, and not while in use; a nested call does not touch the variables of the calls around it; the variables kept between records belong to the last field.
* C94 Go types of the text: `Spec/Gen/GoTypes` gives the types of a Go program as read from its text (`HasType` resolves identifiers through the imports of the file, `Compiled` lists what a compiled program has); C76 gives the one program that Go reads, and an induction over declarations and type expressions shows that its types are those of `Compiles` (`Lemmas/Gen/GoTypes`, `Lemmas/Gen/GoStructs`), and conversely. Names and types: what the parser accepts has identifiers as names (`Lemmas/Gen/Named`, an induction over the parse tree), and the loader checks that types are found (`C94_accepts`).
* C95 cases of oneofs: the search through values (`Model/Oneof`) against an inductive description of what is within reach (`Spec/OneofCases`), by induction on the depth; with C28 this gives the members of the struct's description.
* C96 older versions: a simulation between the two decodings, by induction on the decoding relation of the newer schema (`Lemmas/Older`): each record is either of a field both know, or goes to the unknown fields of the older one, which leaves the relation `Kept` alone.
* C97 passing through an older version: the simulation of C96 with more kept (`Lemmas/Carries`: the unknown fields of the older value are records that lead from the newer value without the unknown fields to the newer value), then decoding of what the older program writes, field by field as for C01, with the stored records replayed at the end (`Lemmas/Relay`, `steps_onto`).
* C98 newer versions: a message of the older version is lifted to one of the newer, by induction on its typing (`Lemmas/Lift`); the lifted message is in the relation of C97, with no stored records, so that reading what was written is the same theorem (`relay_msg`).
* C99 changed types: (a) every message has a counterpart with the new types (`Lemmas/Retyped`, induction on typing) whose encoding is the same bytes, because each scalar has the same encoding before and after; so reading it is the round trip of C01. (b) a simulation between the two readers, by induction on the decoding relation (`Lemmas/Narrowed`).
* C100 equal bytes: both messages are the same as what Unmarshal reads from the bytes (C01), and two messages that are the same as a third are the same (`Lemmas/SameJoin`, induction on the relation); the converse is the lemma of C51.
* C101 messages kept as bytes: part of the simulation of C99 (`Lemmas/Narrowed`), with a lemma that a decoding within one limit of nesting is one within any higher limit (which needs that there are no maps of messages). Writing: `Lemmas/Lazy`, by the specification of the encoding and a lemma that the encoding within one limit is the encoding within a higher one (`Lemmas/EncodeMore`).
* C102 order of Go fields: induction on the nesting, field by field in ascending order of number (`Lemmas/Rearranged`), then C37 and C01; any input: the simulation of C99, which does not need that fields have the same places; and messages related by it have the same encoding (`Lemmas/Relayed`), so that relaying gives the same bytes.
* C67 codec for gRPC: the functions of the API.
* C68, C69, C71 memory: an invariant of a memory (which blocks may be written, what they may refer to) that every step of the decoder keeps, as Hoare
  triples (`Lemmas/Mem/Frame.lean`), for all memories, shared or cyclic.  C70: simulation with the decoder on trees by a separation-style
  relation (`MemRep` in `Spec/Memory.lean`, each block is referred to once; `Lemmas/Mem/{Sim,Value,Dec,DecField,DecStruct}.lean`).

## 5. Findings: where the code and a property disagree

Runtime:

1. C21: decoding a message-valued map entry lowers the depth budget by two while the check is
   `== 0`; from 1 it becomes -1 and the limit is never reached again.
2. C22: Marshal charges one level per map hop, Unmarshal two (exact: `C22_exact_partial`).
3. C26, C01, C37: a oneof member holding a zero scalar / empty string is not written.
4. C11: a packed block replaces the slice instead of appending; a packed block for a field
   declared unpacked is a wire-type error.
5. C25: three different bool rules: lowest bit (scalar, generic map), non-zero byte (packed and
   specialised maps, where a multi-byte varint is misread).
6. C18/C29: map entries must have key then value, both present, one-byte tags.
7. Repeated occurrence of a singular message held by pointer: last wins (no merge);
   held inline: merged (C51).
8. C34: text after `def=` containing commas is re-interpreted as options; field numbers are not checked (none, 0, above 2^29-1: accepted, and the output is not decodable; 2^31 or more: panic).
9. C35, C23: accepted although the codec misreads memory: `[]*int32`, `[]int32` without `rep`,
   `*[]int32`, maps with pointer or slice values under zigzag/fixed tags, `*map`. Nothing of the kind happens with
   types whose tagged fields are `T`, `*T`, `M`, `*M`, `[]T`, `[]M`, `[]*M`, `map[K]T`, `map[K]M`, `map[K]*M` and whose lists say `rep` (`C35_safe_partial`).
10. C33: after a failed parse of a cyclic group of types, a later use of another type of the group
    can succeed and hold a dangling (nil) descriptor. The same happens, without recursion among types, after a panic of the first use of a type that the program recovers from (`C33_panic_violated`: the clean-up in internal/desc/type.go:158-161 and desc.go:322-326 does not run).
11. C39: Size(nil)=0 while Marshal(nil) fails; typed nil pointers: Size 0, Marshal may write bytes.
12. C41, C70: decoding into a slice of inline structs with spare capacity merges with stale elements, so two messages with the same content can
    become different ones (`C70_stale_violated`).

prutalgen:

13. C42, C56: `[packed=false]` in proto3 is generated as packed; a message whose dotted name ends in a scalar keyword gets the tag of the scalar.
14. C43: reserved names, equal names of fields, and numbers outside of 1..2^29-1 are not rejected.
15. C45: getters of oneofs and `XXX_OneofWrappers` can collide with fields.
16. C48: of adjacent string literals only the first is read; `\X` escapes are rejected.
17. C53: octal and hexadecimal reserved ranges are misread or rejected, and so is the smallest enum value.
18. C54: `A_B` and `B` nested in `A` get the same Go name; wrapper names can collide with nested types.
19. C55: names are not searched in outer packages, not in files without package from files with one; a leading dot is not understood; a
    message nested in one of the same name hides it; public imports across Go packages give the wrong package.
20. C56: `LEGACY_REQUIRED` is generated without presence.
21. C57: a proto2 `[default = ...]` is ignored by getters, an unset proto2 enum yields 0 instead of the first value.
22. C58: a package renamed by `go_package = "path;name"` is mentioned under the last path element; equal last elements collide; a package
    called `x` is hidden by the receiver of getters.
23. C59: the comment behind an enum is used as a format string.
24. C60: enums nested more than one message deep are used but never declared.
25. C61: single quotes and newlines in arguments, and `{` in the header, break the header.
26. C62: files of the same name and Go package overwrite each other; `..` in an import path leaves the output directory; the output directory is
    ignored with `paths=source_relative`.
27. C63: several comma-separated parameters in one option are ignored; `go_package` wins over `M`; the derived package name need not be an identifier.
28. C65: enums are taken as types of requests and responses; two services or two methods with the same name are accepted; different method names can have one Go name.
29. C66: values of options in brackets (`[packed = maybe]`) are not checked.
31. C72: embedded files shadow files in include directories; embedded files that import each other are accepted; `-go_opt=Mfile=…` is looked up under the import path as it is written, so it
    does not apply to a file given as `dir/file` with `-I dir`, nor to `./file`.
32. C73: a proto file on the command line is looked up in the include directories first, even if it exists as named.
33. C76: types of other packages are written with the last element of the import path. If that is not a Go identifier (`x/go-bar`), the generated text is not a Go file at all.
34. C77: characters that no lexical rule matches are dropped with a message on the console instead of an error: `@` between two tokens, a string without end (to the end of the line), a
    block comment without end (to the end of the file, with all declarations in it).
35. C78: `required`, `inf` and `nan` are refused as names (`bool required = 1;`), all other keywords are accepted.
36. C78: refused although the protobuf language has them: `reserved foo;` (editions), negative reserved numbers of enums, lists and nested messages without colon in option values, groups.
37. C78: `option x = 1;` in a message (a custom-less option with an integer value) is read as a field of a type named `option`.
38. C54: with `no_enum_prefix` at some values of an enum only, two constants can have the same name (`E_RED` without prefix and `RED` in an enum `E`).
39. C81: `no_pointer` (or `(gogoproto.nullable) = false`) at a field of a message type that leads back to the message is accepted; the generated struct contains itself and does not compile.
40. C82: `LEquals` of lexer configurations (internal/antlr/atn_config.go:304-326) answers true for any two configurations without actions, whatever their state, alternative and
    context; sets of configurations and states of the shared cache are told apart by their 32-bit hashes only. With this grammar no two hashes collide (checked by the kernel for all 232
    states), so the tokens are right; a change of the grammar could break it silently.
41. C92: the arena (internal/prutal/span.go:27-60, `mallocgc` without clearing) hands out memory as it is, and the decoder makes the new memory part of the message before it has read the value (internal/prutal/decoder.go:53-64 `*p = ret`, 133-137 `IfaceUpdate`, 168 `h.Len++`). If the value is cut off or has the wrong wire type, Unmarshal returns the error and the message shows an optional number, a oneof member or a list element with whatever the memory held before (`C92_initialised_violated`: input `08 05 18 80`).
42. C86: `io.ErrUnexpectedEOF` does not tell input that has not arrived from input that is wrong. A message inside the input that ends in the middle of a record, in a record that is complete, gives it whatever follows (`C86_hopeless_violated`: `22 01 08`), so a caller that waits for more bytes waits for ever. So does an entry of a map with boolean values that lacks the value, as encoders may leave out (internal/wire/decoder_map.go:169-172 tests the length before it looks at the tag; `C86_entry_violated`: `82 7d 02 08 05` for `map[int32]bool`); with other value types the same entry gives another error.
43. C95: a struct with a field tagged `protobuf_oneof` whose cases are not found - the type has neither method, the list is behind more than four fields, or `ProtoReflect` gives nothing although `XXX_OneofWrappers` would (internal/desc/utils.go:107-111 returns at once) - is accepted, and what is set in the oneof is not written and not reported (`C95_silent_violated`, `C95_search_violated`). A field named `OneofWrappers` of any other slice, map or channel type is read as `[]any` (utils.go:132-141, without a check of the type).
44. C97: a message held by value that arrives in two records is merged, but its unknown fields are cleared at the start of the second record (internal/prutal/decoder.go:66-74, called for every record), so a program that passes messages on loses what it does not know (`C97_byValue_violated`). A case of a oneof that the program does not know is written after the case it knows and wins over it in a newer program (`C97_newCase_violated`); this one is inherent in the way protobuf stores unknown fields.
45. C99: numbers cannot be read as `bool`: of a number other than 1 only the lowest bit counts (finding 5), so that 2 is `false` (`C99_bool_violated`). In protobuf `bool` is compatible with the integer types.
46. C101: a message that was accepted as part of another one can be rejected when its bytes are unmarshaled alone, because a map takes two levels of the budget and the test is for exactly 0 (finding of C21; `C101_maps_violated`: 500 maps inside a field are accepted, the bytes of the field are not).
47. C102: whether an empty message held by value is written depends on the size of its Go type (internal/prutal/encoder.go:70-83): nothing if the struct has 8, 4 or 1 bytes, an empty record otherwise. A Go field without a tag, added to the struct, so changes what `Marshal` gives (`C102_byValue_violated`).

Runtime, memory:

30. C71: the storage of unknown fields is reused in place, so a copy of the struct made before (`old := *m`) changes its unknown fields when `m` is decoded again.

## 6. Mutation testing

`seeded/LOG.jsonl`: one line per attempt.  Each edit is made on a copy of the model outside of /verif; everything that depends on it is rebuilt with
errors allowed, and the property theorems that fail, or depend on one that failed, are recorded.

## 7. Axioms

Output of `#print axioms` for all 418 theorems of the manifest:

* `propext`: `C07_write`, `C48_bigX_violated`, `C57_total`, `C82_comparison_violated`, `C89_shown`, `C99_cut`
* `Quot.sound`, `propext`: `C04_varint_is_shortest`, `C04_writerBool`, `C05_ok_iff`, `C05_prefix_unique`, `C05_suffix_irrelevant`, `C06_spec_bijection`, `C07_read`, `C09_consume_iff`, `C26_one_member`, `C32_map`, `C32_concurrent`, `C32_lookup_total`, `C41_spare`, `C47_last`, `C47_absent`, `C48_concat_violated`, `C54_types_partial`, `C57_functional`, `C63_flag_partial`, `C65_go_name`, `C72_lookup_partial`, `C83_steps`
* `Classical.choice`, `Quot.sound`, `propext`: the other 390
