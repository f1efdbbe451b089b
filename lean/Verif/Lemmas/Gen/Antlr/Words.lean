import Verif.Lemmas.Gen.Antlr.Rows
import Verif.Spec.Gen.TokenTypes
import Verif.Model.Gen.Lexer
/-!
# The states of the DFA of the lexer that are reached by words
-/
namespace Verif.Lemmas.Gen.Antlr
open Verif.Model.Gen Verif.Model.Gen.Antlr Verif.Spec.Gen

/-- The words that lead to states where a keyword or `true`, `false`, `inf`, `nan` can still be read. -/
def wordStates : List (Nat × Str) :=
  [(21, "b".toList), (22, "d".toList), (23, "e".toList), (24, "f".toList), (25, "i".toList), (26, "m".toList), (27, "n".toList), (28, "o".toList),
    (29, "p".toList), (30, "r".toList), (31, "s".toList), (32, "t".toList), (33, "u".toList), (34, "w".toList), (48, "bo".toList), (49, "by".toList),
    (50, "do".toList), (51, "ed".toList), (52, "en".toList), (53, "ex".toList), (54, "fa".toList), (55, "fi".toList), (56, "fl".toList),
    (57, "im".toList), (58, "in".toList), (59, "ma".toList), (60, "me".toList), (61, "na".toList), (62, "on".toList), (63, "op".toList),
    (64, "pa".toList), (65, "pu".toList), (66, "re".toList), (67, "rp".toList), (68, "se".toList), (69, "sf".toList), (70, "si".toList),
    (71, "st".toList), (72, "sy".toList), (73, "to".toList), (74, "tr".toList), (75, "ui".toList), (76, "we".toList), (87, "boo".toList),
    (88, "byt".toList), (89, "dou".toList), (90, "edi".toList), (91, "enu".toList), (92, "ext".toList), (93, "fal".toList), (94, "fix".toList),
    (95, "flo".toList), (96, "imp".toList), (97, "inf".toList), (98, "int".toList), (99, "map".toList), (100, "max".toList), (101, "mes".toList),
    (97, "nan".toList), (102, "one".toList), (103, "opt".toList), (104, "pac".toList), (105, "pub".toList), (106, "rep".toList), (107, "req".toList),
    (108, "res".toList), (109, "ret".toList), (110, "rpc".toList), (111, "ser".toList), (112, "sfi".toList), (113, "sin".toList), (114, "str".toList),
    (115, "syn".toList), (116, "tru".toList), (117, "uin".toList), (118, "wea".toList), (128, "bool".toList), (129, "byte".toList), (130, "doub".toList),
    (131, "edit".toList), (132, "enum".toList), (133, "exte".toList), (134, "fals".toList), (135, "fixe".toList), (136, "floa".toList),
    (137, "impo".toList), (138, "int3".toList), (139, "int6".toList), (140, "mess".toList), (141, "oneo".toList), (142, "opti".toList),
    (143, "pack".toList), (144, "publ".toList), (145, "repe".toList), (146, "requ".toList), (147, "rese".toList), (148, "retu".toList),
    (149, "serv".toList), (150, "sfix".toList), (151, "sint".toList), (152, "stre".toList), (153, "stri".toList), (154, "synt".toList),
    (155, "true".toList), (156, "uint".toList), (157, "weak".toList), (158, "bytes".toList), (159, "doubl".toList), (160, "editi".toList),
    (161, "exten".toList), (155, "false".toList), (162, "fixed".toList), (163, "float".toList), (164, "impor".toList), (165, "int32".toList),
    (166, "int64".toList), (167, "messa".toList), (168, "oneof".toList), (169, "optio".toList), (170, "packa".toList), (171, "publi".toList),
    (172, "repea".toList), (173, "requi".toList), (174, "reser".toList), (175, "retur".toList), (176, "servi".toList), (177, "sfixe".toList),
    (178, "sint3".toList), (179, "sint6".toList), (180, "strea".toList), (181, "strin".toList), (182, "synta".toList), (183, "uint3".toList),
    (184, "uint6".toList), (185, "double".toList), (186, "editio".toList), (187, "extend".toList), (188, "extens".toList), (189, "fixed3".toList),
    (190, "fixed6".toList), (191, "import".toList), (192, "messag".toList), (193, "option".toList), (194, "packag".toList), (195, "public".toList),
    (196, "repeat".toList), (197, "requir".toList), (198, "reserv".toList), (199, "return".toList), (200, "servic".toList), (201, "sfixed".toList),
    (202, "sint32".toList), (203, "sint64".toList), (204, "stream".toList), (205, "string".toList), (206, "syntax".toList), (207, "uint32".toList),
    (208, "uint64".toList), (209, "edition".toList), (210, "extensi".toList), (211, "fixed32".toList), (212, "fixed64".toList), (213, "message".toList),
    (214, "optiona".toList), (215, "package".toList), (216, "repeate".toList), (217, "require".toList), (218, "reserve".toList), (219, "returns".toList),
    (220, "service".toList), (221, "sfixed3".toList), (222, "sfixed6".toList), (223, "extensio".toList), (224, "optional".toList),
    (225, "repeated".toList), (226, "required".toList), (227, "reserved".toList), (228, "sfixed32".toList), (229, "sfixed64".toList),
    (230, "extension".toList), (231, "extensions".toList)]

/-- The type of a word. -/
def wordType (w : Str) : Nat :=
  match Keywords.idxOf? w with
  | some i => i + 1
  | none => if w = "true".toList ∨ w = "false".toList then 55 else if w = "inf".toList ∨ w = "nan".toList then 56 else 58

/-- What is checked for the state to which the word `w` leads (18 is the state of the other words); `ok` are the characters
that can follow. -/
def wordCharOk (ok : Char → Bool) (r : Row) (w : Str) (n : Nat) : Bool :=
  match nextIn r.edges n with
  | none => !ok (Char.ofNat n)
  | some j => ok (Char.ofNat n) && (Nat.beq j 18 || decide ((j, w ++ [Char.ofNat n]) ∈ wordStates))

def wordStateOk (x : Nat × Str) : Bool :=
  match table.get x.1 with
  | none => false
  | some r =>
    decide (r.acc = some (wordType x.2, none)) && r.edges.all (fun e => e.2.isNone || Nat.ble e.1 128) &&
      (List.range 128).all (wordCharOk isWordChar r x.2)

/-- A word does not lead to state 18. -/
def notOther : Nat → Str → Bool
  | _, [] => true
  | i, c :: s =>
    match table.get i with
    | none => false
    | some r =>
      match nextIn r.edges c.toNat with
      | none => false
      | some j => !Nat.beq j 18 && notOther j s

set_option maxRecDepth 100000

theorem keywords_notOther : (Keywords ++ ["true", "false", "inf", "nan"].map String.toList).all (notOther 0) = true := by decide +kernel

theorem other_ok : ((List.range 128).all fun n => decide (nextIn row18.edges n = if isWordChar (Char.ofNat n) then some 18 else none)) = true := by
  decide +kernel

theorem other_high : row18.edges.all (fun e => e.2.isNone || Nat.ble e.1 128) = true := by decide +kernel

theorem start_ok : ((List.range 128).all fun n => !isLetter (Char.ofNat n) || wordCharOk isLetter row0 [] n) = true := by
  decide +kernel

theorem words0_ok : ((wordStates.drop 0).take 20).all wordStateOk = true := by decide +kernel

theorem words1_ok : ((wordStates.drop 20).take 20).all wordStateOk = true := by decide +kernel

theorem words2_ok : ((wordStates.drop 40).take 20).all wordStateOk = true := by decide +kernel

theorem words3_ok : ((wordStates.drop 60).take 20).all wordStateOk = true := by decide +kernel

theorem words4_ok : ((wordStates.drop 80).take 20).all wordStateOk = true := by decide +kernel

theorem words5_ok : ((wordStates.drop 100).take 20).all wordStateOk = true := by decide +kernel

theorem words6_ok : ((wordStates.drop 120).take 20).all wordStateOk = true := by decide +kernel

theorem words7_ok : ((wordStates.drop 140).take 20).all wordStateOk = true := by decide +kernel

theorem words8_ok : ((wordStates.drop 160).take 20).all wordStateOk = true := by decide +kernel

theorem words9_ok : ((wordStates.drop 180).take 20).all wordStateOk = true := by decide +kernel

theorem words_split : wordStates = (wordStates.drop 0).take 20 ++ (wordStates.drop 20).take 20 ++ (wordStates.drop 40).take 20 ++ (wordStates.drop 60).take 20 ++ (wordStates.drop 80).take 20 ++ (wordStates.drop 100).take 20 ++ (wordStates.drop 120).take 20 ++ (wordStates.drop 140).take 20 ++ (wordStates.drop 160).take 20 ++ (wordStates.drop 180).take 20 := by decide +kernel

theorem words_ok : wordStates.all wordStateOk = true := by
  rw [words_split]
  simp only [List.all_append, words0_ok, words1_ok, words2_ok, words3_ok, words4_ok, words5_ok, words6_ok, words7_ok, words8_ok, words9_ok, Bool.and_self]

end Verif.Lemmas.Gen.Antlr
