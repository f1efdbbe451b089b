import Verif.Model.Gen.Lexer
/-!
# The rule functions of the generated parser, as data

prutalgen/internal/parser/protobuf_parser.go has a function for every rule of the grammar.  They are all made of the same few kinds of statements, which are
the constructors of `Code`; each function is written here as a value of this type, statement by statement.  Rules, token types, states and decisions have
the numbers that they have in the file (`ProtobufParserRULE_…`, `ProtobufParser…`, `SetState`, `AdaptivePredict`).  What the statements do is
defined in Verif/Model/Gen/Antlr/Parser.lean.
-/
namespace Verif.Model.Gen.Antlr

/-- prutalgen/internal/parser/protobuf_parser.go:759-10412: the statements of the rule functions.

* `done`: nothing; `fail`: `p.SetError(…); goto errorExit`
* `sync s`: `p.SetState(s); p.GetErrorHandler().Sync(p)`
* `tok t`: `p.Match(t)`; `eof`: `p.Match(ProtobufParserEOF)`
* `set ts`: `_la = p.GetTokenStream().LA(1); if !(…) { p.GetErrorHandler().RecoverInline(p) } else { …; p.Consume() }`, where the condition is that `_la` is
  one of `ts` (the bits of a number are written as a list)
* `call s r`: `p.SetState(s)` and the call of the function of rule `r`
* `ifLa ts a b`: `if` or `switch` on the next token
* `whileLa ts a`: `for` on the next token
* `choose d`: `if`, `switch` or `for` on the answer of `AdaptivePredict` for decision `d` -/
inductive Code where
  | done
  | fail
  | sync (s : Nat)
  | tok (t : Nat)
  | eof
  | set (ts : List Nat)
  | call (s r : Nat)
  | seq (a b : Code)
  | ifLa (ts : List Nat) (a b : Code)
  | whileLa (ts : List Nat) (a : Code)
  | choose (d : Nat)
  deriving DecidableEq, Repr

infixr:60 " ;; " => Code.seq

/-- prutalgen/internal/parser/protobuf_parser.go:759-856 (`Proto`). -/
def codeProto : Code :=
  .sync 107 ;; .ifLa [1, 2] (.call 106 1) .done ;; .sync 116 ;; .whileLa [3, 6, 7, 32, 33, 34, 35, 39] (.sync 114 ;; .ifLa [3] (.call 109 2) (.ifLa
    [6] (.call 110 3) (.ifLa [7] (.call 111 4) (.ifLa [32, 33, 34, 35] (.call 112 21) (.ifLa [39] (.call 113 37) .fail)))) ;; .sync 118) ;; .eof

/-- prutalgen/internal/parser/protobuf_parser.go:960-1009 (`Edition`). -/
def codeEdition : Code :=
  .set [1, 2] ;; .tok 40 ;; .call 123 49 ;; .tok 39

/-- prutalgen/internal/parser/protobuf_parser.go:1113-1172 (`ImportStatement`). -/
def codeImportStatement : Code :=
  .tok 3 ;; .sync 128 ;; .ifLa [4, 5] (.set [4, 5]) .done ;; .call 130 49 ;; .tok 39

/-- prutalgen/internal/parser/protobuf_parser.go:1266-1302 (`PackageStatement`). -/
def codePackageStatement : Code :=
  .tok 6 ;; .call 134 39 ;; .tok 39

/-- prutalgen/internal/parser/protobuf_parser.go:1418-1466 (`OptionStatement`). -/
def codeOptionStatement : Code :=
  .tok 7 ;; .call 138 5 ;; .tok 40 ;; .call 140 35 ;; .tok 39

/-- prutalgen/internal/parser/protobuf_parser.go:1591-1671 (`OptionName`). -/
def codeOptionName : Code :=
  .sync 151 ;; .ifLa [1, 2, 3, 4, 5, 6, 7, 8, 10, 11, 12, 13, 14, 15, 16, 17, 18, 19, 20, 21, 22, 23, 24, 25, 26, 27, 28, 29, 30, 31, 32, 33, 34, 35,
    36, 37, 38, 55, 58] (.call 143 39) (.ifLa [41] (.tok 41 ;; .call 145 39 ;; .tok 42 ;; .sync 149 ;; .ifLa [49] (.tok 49 ;; .call 148 39) .done)
    .fail)

/-- prutalgen/internal/parser/protobuf_parser.go:1753-1782 (`FieldLabel`). -/
def codeFieldLabel : Code :=
  .set [8, 9, 10]

/-- prutalgen/internal/parser/protobuf_parser.go:1954-2042 (`Field`). -/
def codeField : Code :=
  .sync 156 ;; .choose 6 ;; .call 158 15 ;; .call 159 42 ;; .tok 40 ;; .call 161 10 ;; .sync 166 ;; .ifLa [43] (.tok 43 ;; .call 163 8 ;; .tok 44)
    .done ;; .tok 39

/-- prutalgen/internal/parser/protobuf_parser.go:2162-2212 (`FieldOptions`). -/
def codeFieldOptions : Code :=
  .call 170 9 ;; .sync 175 ;; .whileLa [50] (.tok 50 ;; .call 172 9 ;; .sync 177)

/-- prutalgen/internal/parser/protobuf_parser.go:2318-2350 (`FieldOption`). -/
def codeFieldOption : Code :=
  .call 178 5 ;; .tok 40 ;; .call 180 35

/-- prutalgen/internal/parser/protobuf_parser.go:2434-2454 (`FieldNumber`). -/
def codeFieldNumber : Code :=
  .call 182 48

/-- prutalgen/internal/parser/protobuf_parser.go:2682-2772 (`Oneof`). -/
def codeOneof : Code :=
  .tok 11 ;; .call 185 43 ;; .tok 45 ;; .sync 192 ;; .whileLa [1, 2, 3, 4, 5, 6, 7, 8, 10, 11, 12, 13, 14, 15, 16, 17, 18, 19, 20, 21, 22, 23, 24,
    25, 26, 27, 28, 29, 30, 31, 32, 33, 34, 35, 36, 37, 38, 39, 49, 55, 58] (.sync 190 ;; .choose 9 ;; .sync 194) ;; .tok 46

/-- prutalgen/internal/parser/protobuf_parser.go:2927-3003 (`OneofField`). -/
def codeOneofField : Code :=
  .call 197 15 ;; .call 198 42 ;; .tok 40 ;; .call 200 10 ;; .sync 205 ;; .ifLa [43] (.tok 43 ;; .call 202 8 ;; .tok 44) .done ;; .tok 39

/-- prutalgen/internal/parser/protobuf_parser.go:3195-3307 (`MapField`). -/
def codeMapField : Code :=
  .tok 12 ;; .tok 47 ;; .call 211 14 ;; .tok 50 ;; .call 213 15 ;; .tok 48 ;; .call 215 42 ;; .tok 40 ;; .call 217 10 ;; .sync 222 ;; .ifLa [43]
    (.tok 43 ;; .call 219 8 ;; .tok 44) .done ;; .tok 39

/-- prutalgen/internal/parser/protobuf_parser.go:3434-3463 (`KeyType`). -/
def codeKeyType : Code :=
  .set [13, 14, 15, 16, 17, 18, 19, 20, 21, 22, 23, 24]

/-- prutalgen/internal/parser/protobuf_parser.go:3639-3843 (`FieldType`). -/
def codeFieldType : Code :=
  .sync 245 ;; .choose 13

/-- prutalgen/internal/parser/protobuf_parser.go:3954-4009 (`Reserved`). -/
def codeReserved : Code :=
  .tok 28 ;; .sync 250 ;; .ifLa [57] (.call 248 18) (.ifLa [54] (.call 249 20) .fail) ;; .tok 39

/-- prutalgen/internal/parser/protobuf_parser.go:4130-4198 (`Extensions`). -/
def codeExtensions : Code :=
  .tok 29 ;; .call 255 18 ;; .sync 260 ;; .ifLa [43] (.tok 43 ;; .call 257 8 ;; .tok 44) .done ;; .tok 39

/-- prutalgen/internal/parser/protobuf_parser.go:4318-4368 (`Ranges`). -/
def codeRanges : Code :=
  .call 264 19 ;; .sync 269 ;; .whileLa [50] (.tok 50 ;; .call 266 19 ;; .sync 271)

/-- prutalgen/internal/parser/protobuf_parser.go:4488-4555 (`OneRange`). -/
def codeOneRange : Code :=
  .call 272 48 ;; .sync 278 ;; .ifLa [30] (.tok 30 ;; .sync 276 ;; .ifLa [57] (.call 274 48) (.ifLa [31] (.tok 31) .fail)) .done

/-- prutalgen/internal/parser/protobuf_parser.go:4675-4725 (`ReservedFieldNames`). -/
def codeReservedFieldNames : Code :=
  .call 280 49 ;; .sync 285 ;; .whileLa [50] (.tok 50 ;; .call 282 49 ;; .sync 287)

/-- prutalgen/internal/parser/protobuf_parser.go:4860-4914 (`TopLevelDef`). -/
def codeTopLevelDef : Code :=
  .sync 292 ;; .ifLa [33] (.call 288 28) (.ifLa [32] (.call 289 22) (.ifLa [35] (.call 290 31) (.ifLa [34] (.call 291 32) .fail)))

/-- prutalgen/internal/parser/protobuf_parser.go:5020-5052 (`EnumDef`). -/
def codeEnumDef : Code :=
  .tok 32 ;; .call 295 41 ;; .call 296 23

/-- prutalgen/internal/parser/protobuf_parser.go:5172-5226 (`EnumBody`). -/
def codeEnumBody : Code :=
  .tok 45 ;; .sync 302 ;; .whileLa [1, 2, 3, 4, 5, 6, 7, 8, 10, 11, 12, 13, 14, 15, 16, 17, 18, 19, 20, 21, 22, 23, 24, 25, 26, 27, 28, 29, 30, 31,
    32, 33, 34, 35, 36, 37, 38, 39, 55, 58] (.call 299 24 ;; .sync 304) ;; .tok 46

/-- prutalgen/internal/parser/protobuf_parser.go:5361-5414 (`EnumElement`). -/
def codeEnumElement : Code :=
  .sync 311 ;; .choose 22

/-- prutalgen/internal/parser/protobuf_parser.go:5547-5621 (`EnumField`). -/
def codeEnumField : Code :=
  .call 313 38 ;; .tok 40 ;; .sync 316 ;; .ifLa [53] (.tok 53) .done ;; .call 318 48 ;; .sync 320 ;; .ifLa [43] (.call 319 26) .done ;; .tok 39

/-- prutalgen/internal/parser/protobuf_parser.go:5751-5817 (`EnumValueOptions`). -/
def codeEnumValueOptions : Code :=
  .tok 43 ;; .call 325 27 ;; .sync 330 ;; .whileLa [50] (.tok 50 ;; .call 327 27 ;; .sync 332) ;; .tok 44

/-- prutalgen/internal/parser/protobuf_parser.go:5923-5955 (`EnumValueOption`). -/
def codeEnumValueOption : Code :=
  .call 335 5 ;; .tok 40 ;; .call 337 35

/-- prutalgen/internal/parser/protobuf_parser.go:6061-6093 (`MessageDef`). -/
def codeMessageDef : Code :=
  .tok 33 ;; .call 340 40 ;; .call 341 29

/-- prutalgen/internal/parser/protobuf_parser.go:6213-6267 (`MessageBody`). -/
def codeMessageBody : Code :=
  .tok 45 ;; .sync 347 ;; .whileLa [1, 2, 3, 4, 5, 6, 7, 8, 9, 10, 11, 12, 13, 14, 15, 16, 17, 18, 19, 20, 21, 22, 23, 24, 25, 26, 27, 28, 29, 30,
    31, 32, 33, 34, 35, 36, 37, 38, 39, 49, 55, 58] (.call 344 30 ;; .sync 349) ;; .tok 46

/-- prutalgen/internal/parser/protobuf_parser.go:6504-6599 (`MessageElement`). -/
def codeMessageElement : Code :=
  .sync 362 ;; .choose 27

/-- prutalgen/internal/parser/protobuf_parser.go:6784-6869 (`ExtendDef`). -/
def codeExtendDef : Code :=
  .tok 35 ;; .call 365 46 ;; .tok 45 ;; .sync 371 ;; .whileLa [1, 2, 3, 4, 5, 6, 7, 8, 9, 10, 11, 12, 13, 14, 15, 16, 17, 18, 19, 20, 21, 22, 23, 24,
    25, 26, 27, 28, 29, 30, 31, 32, 33, 34, 35, 36, 37, 38, 39, 49, 55, 58] (.sync 369 ;; .ifLa [1, 2, 3, 4, 5, 6, 7, 8, 9, 10, 11, 12, 13, 14, 15,
    16, 17, 18, 19, 20, 21, 22, 23, 24, 25, 26, 27, 28, 29, 30, 31, 32, 33, 34, 35, 36, 37, 38, 49, 55, 58] (.call 367 7) (.ifLa [39] (.call 368 37)
    .fail) ;; .sync 373) ;; .tok 46

/-- prutalgen/internal/parser/protobuf_parser.go:7011-7077 (`ServiceDef`). -/
def codeServiceDef : Code :=
  .tok 34 ;; .call 377 44 ;; .tok 45 ;; .sync 382 ;; .whileLa [7, 36, 39] (.call 379 33 ;; .sync 384) ;; .tok 46

/-- prutalgen/internal/parser/protobuf_parser.go:7195-7242 (`ServiceElement`). -/
def codeServiceElement : Code :=
  .sync 390 ;; .ifLa [7] (.call 387 4) (.ifLa [36] (.call 388 34) (.ifLa [39] (.call 389 37) .fail))

/-- prutalgen/internal/parser/protobuf_parser.go:7510-7698 (`Rpc`). -/
def codeRpc : Code :=
  .tok 36 ;; .call 393 45 ;; .tok 41 ;; .sync 396 ;; .choose 32 ;; .call 398 46 ;; .tok 42 ;; .tok 38 ;; .tok 41 ;; .sync 403 ;; .choose 33 ;; .call
    405 46 ;; .tok 42 ;; .sync 417 ;; .ifLa [45] (.tok 45 ;; .sync 412 ;; .whileLa [7, 39] (.sync 410 ;; .ifLa [7] (.call 408 4) (.ifLa [39] (.call
    409 37) .fail) ;; .sync 414) ;; .tok 46) (.ifLa [39] (.tok 39) .fail)

/-- prutalgen/internal/parser/protobuf_parser.go:7877-7988 (`Constant`). -/
def codeConstant : Code :=
  .sync 431 ;; .choose 39

/-- prutalgen/internal/parser/protobuf_parser.go:8181-8268 (`BlockLit`). -/
def codeBlockLit : Code :=
  .tok 45 ;; .sync 442 ;; .whileLa [1, 2, 3, 4, 5, 6, 7, 8, 10, 11, 12, 13, 14, 15, 16, 17, 18, 19, 20, 21, 22, 23, 24, 25, 26, 27, 28, 29, 30, 31,
    32, 33, 34, 35, 36, 37, 38, 55, 58] (.call 434 38 ;; .tok 51 ;; .call 436 35 ;; .sync 438 ;; .ifLa [39, 50] (.set [39, 50]) .done ;; .sync 444)
    ;; .tok 46

/-- prutalgen/internal/parser/protobuf_parser.go:8340-8364 (`EmptyStatement`). -/
def codeEmptyStatement : Code :=
  .tok 39

/-- prutalgen/internal/parser/protobuf_parser.go:8453-8497 (`Ident`). -/
def codeIdent : Code :=
  .sync 451 ;; .ifLa [58] (.tok 58) (.ifLa [1, 2, 3, 4, 5, 6, 7, 8, 10, 11, 12, 13, 14, 15, 16, 17, 18, 19, 20, 21, 22, 23, 24, 25, 26, 27, 28, 29,
    30, 31, 32, 33, 34, 35, 36, 37, 38, 55] (.call 450 52) .fail)

/-- prutalgen/internal/parser/protobuf_parser.go:8617-8667 (`FullIdent`). -/
def codeFullIdent : Code :=
  .call 453 38 ;; .sync 458 ;; .whileLa [49] (.tok 49 ;; .call 455 38 ;; .sync 460)

/-- prutalgen/internal/parser/protobuf_parser.go:8751-8771 (`MessageName`). -/
def codeMessageName : Code :=
  .call 461 38

/-- prutalgen/internal/parser/protobuf_parser.go:8855-8875 (`EnumName`). -/
def codeEnumName : Code :=
  .call 463 38

/-- prutalgen/internal/parser/protobuf_parser.go:8959-8979 (`FieldName`). -/
def codeFieldName : Code :=
  .call 465 38

/-- prutalgen/internal/parser/protobuf_parser.go:9063-9083 (`OneofName`). -/
def codeOneofName : Code :=
  .call 467 38

/-- prutalgen/internal/parser/protobuf_parser.go:9167-9187 (`ServiceName`). -/
def codeServiceName : Code :=
  .call 469 38

/-- prutalgen/internal/parser/protobuf_parser.go:9271-9291 (`RpcName`). -/
def codeRpcName : Code :=
  .call 471 38

/-- prutalgen/internal/parser/protobuf_parser.go:9428-9505 (`MessageType`). -/
def codeMessageType : Code :=
  .sync 474 ;; .ifLa [49] (.tok 49) .done ;; .sync 481 ;; .choose 45 ;; .call 484 40

/-- prutalgen/internal/parser/protobuf_parser.go:9642-9719 (`EnumType`). -/
def codeEnumType : Code :=
  .sync 487 ;; .ifLa [49] (.tok 49) .done ;; .sync 494 ;; .choose 47 ;; .call 497 41

/-- prutalgen/internal/parser/protobuf_parser.go:9791-9815 (`IntLit`). -/
def codeIntLit : Code :=
  .tok 57

/-- prutalgen/internal/parser/protobuf_parser.go:9892-9934 (`StrLit`). -/
def codeStrLit : Code :=
  .sync 502 ;; .tok 54 ;; .sync 504 ;; .whileLa [54] (.tok 54 ;; .sync 504)

/-- prutalgen/internal/parser/protobuf_parser.go:10006-10030 (`BoolLit`). -/
def codeBoolLit : Code :=
  .tok 55

/-- prutalgen/internal/parser/protobuf_parser.go:10102-10126 (`FloatLit`). -/
def codeFloatLit : Code :=
  .tok 56

/-- prutalgen/internal/parser/protobuf_parser.go:10383-10412 (`Keywords`). -/
def codeKeywords : Code :=
  .set [1, 2, 3, 4, 5, 6, 7, 8, 10, 11, 12, 13, 14, 15, 16, 17, 18, 19, 20, 21, 22, 23, 24, 25, 26, 27, 28, 29, 30, 31, 32, 33, 34, 35, 36, 37, 38,
    55]

/-- prutalgen/internal/parser/protobuf_parser.go:1963: what is done for each answer of `AdaptivePredict`, the first of which is 1. -/
def alts6 : List Code :=
  [.call 155 6, .done]

/-- prutalgen/internal/parser/protobuf_parser.go:2722: what is done for each answer of `AdaptivePredict`, the first of which is 1. -/
def alts9 : List Code :=
  [.call 187 4, .call 188 12, .call 189 37]

/-- prutalgen/internal/parser/protobuf_parser.go:3648: what is done for each answer of `AdaptivePredict`, the first of which is 1. -/
def alts13 : List Code :=
  [.tok 25, .tok 26, .tok 13, .tok 14, .tok 15, .tok 16, .tok 17, .tok 18, .tok 19, .tok 20, .tok 21, .tok 22, .tok 23, .tok 24, .tok 27, .call 243
    46, .call 244 47]

/-- prutalgen/internal/parser/protobuf_parser.go:5370: what is done for each answer of `AdaptivePredict`, the first of which is 1. -/
def alts22 : List Code :=
  [.call 307 4, .call 308 25, .call 309 16, .call 310 37]

/-- prutalgen/internal/parser/protobuf_parser.go:6513: what is done for each answer of `AdaptivePredict`, the first of which is 1. -/
def alts27 : List Code :=
  [.call 352 7, .call 353 22, .call 354 28, .call 355 31, .call 356 4, .call 357 11, .call 358 13, .call 359 16, .call 360 17, .call 361 37]

/-- prutalgen/internal/parser/protobuf_parser.go:7539: what is done for each answer of `AdaptivePredict`, the first of which is 1. -/
def alts32 : List Code :=
  [.tok 37, .done]

/-- prutalgen/internal/parser/protobuf_parser.go:7583: what is done for each answer of `AdaptivePredict`, the first of which is 1. -/
def alts33 : List Code :=
  [.tok 37, .done]

/-- prutalgen/internal/parser/protobuf_parser.go:7888: what is done for each answer of `AdaptivePredict`, the first of which is 1. -/
def alts39 : List Code :=
  [.call 419 39, .sync 421 ;; .ifLa [52, 53] (.set [52, 53]) .done ;; .call 423 48, .sync 425 ;; .ifLa [52, 53] (.set [52, 53]) .done ;; .call 427
    51, .call 428 49, .call 429 50, .call 430 36]

/-- prutalgen/internal/parser/protobuf_parser.go:9459, 9484: what is done for each answer of `AdaptivePredict`, the first of which is 1. -/
def alts45 : List Code :=
  [.call 476 38 ;; .tok 49 ;; .sync 483 ;; .choose 45, .done]

/-- prutalgen/internal/parser/protobuf_parser.go:9673, 9698: what is done for each answer of `AdaptivePredict`, the first of which is 1. -/
def alts47 : List Code :=
  [.call 489 38 ;; .tok 49 ;; .sync 496 ;; .choose 47, .done]

/-- prutalgen/internal/parser/protobuf_parser.go:759-10412: the function of a rule. -/
def ruleCode : Nat → Code
  | 0 => codeProto
  | 1 => codeEdition
  | 2 => codeImportStatement
  | 3 => codePackageStatement
  | 4 => codeOptionStatement
  | 5 => codeOptionName
  | 6 => codeFieldLabel
  | 7 => codeField
  | 8 => codeFieldOptions
  | 9 => codeFieldOption
  | 10 => codeFieldNumber
  | 11 => codeOneof
  | 12 => codeOneofField
  | 13 => codeMapField
  | 14 => codeKeyType
  | 15 => codeFieldType
  | 16 => codeReserved
  | 17 => codeExtensions
  | 18 => codeRanges
  | 19 => codeOneRange
  | 20 => codeReservedFieldNames
  | 21 => codeTopLevelDef
  | 22 => codeEnumDef
  | 23 => codeEnumBody
  | 24 => codeEnumElement
  | 25 => codeEnumField
  | 26 => codeEnumValueOptions
  | 27 => codeEnumValueOption
  | 28 => codeMessageDef
  | 29 => codeMessageBody
  | 30 => codeMessageElement
  | 31 => codeExtendDef
  | 32 => codeServiceDef
  | 33 => codeServiceElement
  | 34 => codeRpc
  | 35 => codeConstant
  | 36 => codeBlockLit
  | 37 => codeEmptyStatement
  | 38 => codeIdent
  | 39 => codeFullIdent
  | 40 => codeMessageName
  | 41 => codeEnumName
  | 42 => codeFieldName
  | 43 => codeOneofName
  | 44 => codeServiceName
  | 45 => codeRpcName
  | 46 => codeMessageType
  | 47 => codeEnumType
  | 48 => codeIntLit
  | 49 => codeStrLit
  | 50 => codeBoolLit
  | 51 => codeFloatLit
  | 52 => codeKeywords
  | _ => .fail

/-- The places where the parser asks `AdaptivePredict`. -/
def altsCode : Nat → List Code
  | 6 => alts6
  | 9 => alts9
  | 13 => alts13
  | 22 => alts22
  | 27 => alts27
  | 32 => alts32
  | 33 => alts33
  | 39 => alts39
  | 45 => alts45
  | 47 => alts47
  | _ => []

end Verif.Model.Gen.Antlr
