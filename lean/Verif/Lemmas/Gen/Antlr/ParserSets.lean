import Verif.Lemmas.Gen.Antlr.Ll1
import Verif.Lemmas.Gen.Antlr.ParserTree
/-!
# First and following tokens of the rules of proto files

Tables that are checked by `protoSets_checked`.
-/
namespace Verif.Lemmas.Gen.Antlr
open Verif.Model.Gen Verif.Model.Gen.Antlr Verif.Spec.Gen

/-- With which tokens a rule begins. -/
def firstTab : List (List Nat) :=
  [[1, 2, 3, 6, 7, 32, 33, 34, 35, 39],
   [1, 2],
   [3],
   [6],
   [7],
   [1, 2, 3, 4, 5, 6, 7, 8, 10, 11, 12, 13, 14, 15, 16, 17, 18, 19, 20, 21, 22, 23, 24, 25, 26, 27, 28, 29, 30, 31, 32, 33, 34, 35,
      36, 37, 38, 41, 55, 58],
   [8, 9, 10],
   [1, 2, 3, 4, 5, 6, 7, 8, 9, 10, 11, 12, 13, 14, 15, 16, 17, 18, 19, 20, 21, 22, 23, 24, 25, 26, 27, 28, 29, 30, 31, 32, 33, 34,
      35, 36, 37, 38, 49, 55, 58],
   [1, 2, 3, 4, 5, 6, 7, 8, 10, 11, 12, 13, 14, 15, 16, 17, 18, 19, 20, 21, 22, 23, 24, 25, 26, 27, 28, 29, 30, 31, 32, 33, 34, 35,
      36, 37, 38, 41, 55, 58],
   [1, 2, 3, 4, 5, 6, 7, 8, 10, 11, 12, 13, 14, 15, 16, 17, 18, 19, 20, 21, 22, 23, 24, 25, 26, 27, 28, 29, 30, 31, 32, 33, 34, 35,
      36, 37, 38, 41, 55, 58],
   [57],
   [11],
   [1, 2, 3, 4, 5, 6, 7, 8, 10, 11, 12, 13, 14, 15, 16, 17, 18, 19, 20, 21, 22, 23, 24, 25, 26, 27, 28, 29, 30, 31, 32, 33, 34, 35,
      36, 37, 38, 49, 55, 58],
   [12],
   [13, 14, 15, 16, 17, 18, 19, 20, 21, 22, 23, 24],
   [1, 2, 3, 4, 5, 6, 7, 8, 10, 11, 12, 13, 14, 15, 16, 17, 18, 19, 20, 21, 22, 23, 24, 25, 26, 27, 28, 29, 30, 31, 32, 33, 34, 35,
      36, 37, 38, 49, 55, 58],
   [28],
   [29],
   [57],
   [57],
   [54],
   [32, 33, 34, 35],
   [32],
   [45],
   [1, 2, 3, 4, 5, 6, 7, 8, 10, 11, 12, 13, 14, 15, 16, 17, 18, 19, 20, 21, 22, 23, 24, 25, 26, 27, 28, 29, 30, 31, 32, 33, 34, 35,
      36, 37, 38, 39, 55, 58],
   [1, 2, 3, 4, 5, 6, 7, 8, 10, 11, 12, 13, 14, 15, 16, 17, 18, 19, 20, 21, 22, 23, 24, 25, 26, 27, 28, 29, 30, 31, 32, 33, 34, 35,
      36, 37, 38, 55, 58],
   [43],
   [1, 2, 3, 4, 5, 6, 7, 8, 10, 11, 12, 13, 14, 15, 16, 17, 18, 19, 20, 21, 22, 23, 24, 25, 26, 27, 28, 29, 30, 31, 32, 33, 34, 35,
      36, 37, 38, 41, 55, 58],
   [33],
   [45],
   [1, 2, 3, 4, 5, 6, 7, 8, 9, 10, 11, 12, 13, 14, 15, 16, 17, 18, 19, 20, 21, 22, 23, 24, 25, 26, 27, 28, 29, 30, 31, 32, 33, 34,
      35, 36, 37, 38, 39, 49, 55, 58],
   [35],
   [34],
   [7, 36, 39],
   [36],
   [1, 2, 3, 4, 5, 6, 7, 8, 10, 11, 12, 13, 14, 15, 16, 17, 18, 19, 20, 21, 22, 23, 24, 25, 26, 27, 28, 29, 30, 31, 32, 33, 34, 35,
      36, 37, 38, 45, 52, 53, 54, 55, 56, 57, 58],
   [45],
   [39],
   [1, 2, 3, 4, 5, 6, 7, 8, 10, 11, 12, 13, 14, 15, 16, 17, 18, 19, 20, 21, 22, 23, 24, 25, 26, 27, 28, 29, 30, 31, 32, 33, 34, 35,
      36, 37, 38, 55, 58],
   [1, 2, 3, 4, 5, 6, 7, 8, 10, 11, 12, 13, 14, 15, 16, 17, 18, 19, 20, 21, 22, 23, 24, 25, 26, 27, 28, 29, 30, 31, 32, 33, 34, 35,
      36, 37, 38, 55, 58],
   [1, 2, 3, 4, 5, 6, 7, 8, 10, 11, 12, 13, 14, 15, 16, 17, 18, 19, 20, 21, 22, 23, 24, 25, 26, 27, 28, 29, 30, 31, 32, 33, 34, 35,
      36, 37, 38, 55, 58],
   [1, 2, 3, 4, 5, 6, 7, 8, 10, 11, 12, 13, 14, 15, 16, 17, 18, 19, 20, 21, 22, 23, 24, 25, 26, 27, 28, 29, 30, 31, 32, 33, 34, 35,
      36, 37, 38, 55, 58],
   [1, 2, 3, 4, 5, 6, 7, 8, 10, 11, 12, 13, 14, 15, 16, 17, 18, 19, 20, 21, 22, 23, 24, 25, 26, 27, 28, 29, 30, 31, 32, 33, 34, 35,
      36, 37, 38, 55, 58],
   [1, 2, 3, 4, 5, 6, 7, 8, 10, 11, 12, 13, 14, 15, 16, 17, 18, 19, 20, 21, 22, 23, 24, 25, 26, 27, 28, 29, 30, 31, 32, 33, 34, 35,
      36, 37, 38, 55, 58],
   [1, 2, 3, 4, 5, 6, 7, 8, 10, 11, 12, 13, 14, 15, 16, 17, 18, 19, 20, 21, 22, 23, 24, 25, 26, 27, 28, 29, 30, 31, 32, 33, 34, 35,
      36, 37, 38, 55, 58],
   [1, 2, 3, 4, 5, 6, 7, 8, 10, 11, 12, 13, 14, 15, 16, 17, 18, 19, 20, 21, 22, 23, 24, 25, 26, 27, 28, 29, 30, 31, 32, 33, 34, 35,
      36, 37, 38, 55, 58],
   [1, 2, 3, 4, 5, 6, 7, 8, 10, 11, 12, 13, 14, 15, 16, 17, 18, 19, 20, 21, 22, 23, 24, 25, 26, 27, 28, 29, 30, 31, 32, 33, 34, 35,
      36, 37, 38, 49, 55, 58],
   [1, 2, 3, 4, 5, 6, 7, 8, 10, 11, 12, 13, 14, 15, 16, 17, 18, 19, 20, 21, 22, 23, 24, 25, 26, 27, 28, 29, 30, 31, 32, 33, 34, 35,
      36, 37, 38, 49, 55, 58],
   [57],
   [54],
   [55],
   [56],
   [1, 2, 3, 4, 5, 6, 7, 8, 10, 11, 12, 13, 14, 15, 16, 17, 18, 19, 20, 21, 22, 23, 24, 25, 26, 27, 28, 29, 30, 31, 32, 33, 34, 35,
      36, 37, 38, 55]]

/-- Which tokens follow a rule. -/
def followTab : List (List Nat) :=
  [[0],
   [0, 3, 6, 7, 32, 33, 34, 35, 39],
   [0, 3, 6, 7, 32, 33, 34, 35, 39],
   [0, 3, 6, 7, 32, 33, 34, 35, 39],
   [0, 1, 2, 3, 4, 5, 6, 7, 8, 9, 10, 11, 12, 13, 14, 15, 16, 17, 18, 19, 20, 21, 22, 23, 24, 25, 26, 27, 28, 29, 30, 31, 32, 33, 34,
      35, 36, 37, 38, 39, 46, 49, 55, 58],
   [40],
   [1, 2, 3, 4, 5, 6, 7, 8, 10, 11, 12, 13, 14, 15, 16, 17, 18, 19, 20, 21, 22, 23, 24, 25, 26, 27, 28, 29, 30, 31, 32, 33, 34, 35,
      36, 37, 38, 49, 55, 58],
   [1, 2, 3, 4, 5, 6, 7, 8, 9, 10, 11, 12, 13, 14, 15, 16, 17, 18, 19, 20, 21, 22, 23, 24, 25, 26, 27, 28, 29, 30, 31, 32, 33, 34,
      35, 36, 37, 38, 39, 46, 49, 55, 58],
   [44],
   [44, 50],
   [39, 43],
   [1, 2, 3, 4, 5, 6, 7, 8, 9, 10, 11, 12, 13, 14, 15, 16, 17, 18, 19, 20, 21, 22, 23, 24, 25, 26, 27, 28, 29, 30, 31, 32, 33, 34,
      35, 36, 37, 38, 39, 46, 49, 55, 58],
   [1, 2, 3, 4, 5, 6, 7, 8, 10, 11, 12, 13, 14, 15, 16, 17, 18, 19, 20, 21, 22, 23, 24, 25, 26, 27, 28, 29, 30, 31, 32, 33, 34, 35,
      36, 37, 38, 39, 46, 49, 55, 58],
   [1, 2, 3, 4, 5, 6, 7, 8, 9, 10, 11, 12, 13, 14, 15, 16, 17, 18, 19, 20, 21, 22, 23, 24, 25, 26, 27, 28, 29, 30, 31, 32, 33, 34,
      35, 36, 37, 38, 39, 46, 49, 55, 58],
   [50],
   [1, 2, 3, 4, 5, 6, 7, 8, 10, 11, 12, 13, 14, 15, 16, 17, 18, 19, 20, 21, 22, 23, 24, 25, 26, 27, 28, 29, 30, 31, 32, 33, 34, 35,
      36, 37, 38, 48, 55, 58],
   [1, 2, 3, 4, 5, 6, 7, 8, 9, 10, 11, 12, 13, 14, 15, 16, 17, 18, 19, 20, 21, 22, 23, 24, 25, 26, 27, 28, 29, 30, 31, 32, 33, 34,
      35, 36, 37, 38, 39, 46, 49, 55, 58],
   [1, 2, 3, 4, 5, 6, 7, 8, 9, 10, 11, 12, 13, 14, 15, 16, 17, 18, 19, 20, 21, 22, 23, 24, 25, 26, 27, 28, 29, 30, 31, 32, 33, 34,
      35, 36, 37, 38, 39, 46, 49, 55, 58],
   [39, 43],
   [39, 43, 50],
   [39],
   [0, 3, 6, 7, 32, 33, 34, 35, 39],
   [0, 1, 2, 3, 4, 5, 6, 7, 8, 9, 10, 11, 12, 13, 14, 15, 16, 17, 18, 19, 20, 21, 22, 23, 24, 25, 26, 27, 28, 29, 30, 31, 32, 33, 34,
      35, 36, 37, 38, 39, 46, 49, 55, 58],
   [0, 1, 2, 3, 4, 5, 6, 7, 8, 9, 10, 11, 12, 13, 14, 15, 16, 17, 18, 19, 20, 21, 22, 23, 24, 25, 26, 27, 28, 29, 30, 31, 32, 33, 34,
      35, 36, 37, 38, 39, 46, 49, 55, 58],
   [1, 2, 3, 4, 5, 6, 7, 8, 10, 11, 12, 13, 14, 15, 16, 17, 18, 19, 20, 21, 22, 23, 24, 25, 26, 27, 28, 29, 30, 31, 32, 33, 34, 35,
      36, 37, 38, 39, 46, 55, 58],
   [1, 2, 3, 4, 5, 6, 7, 8, 10, 11, 12, 13, 14, 15, 16, 17, 18, 19, 20, 21, 22, 23, 24, 25, 26, 27, 28, 29, 30, 31, 32, 33, 34, 35,
      36, 37, 38, 39, 46, 55, 58],
   [39],
   [44, 50],
   [0, 1, 2, 3, 4, 5, 6, 7, 8, 9, 10, 11, 12, 13, 14, 15, 16, 17, 18, 19, 20, 21, 22, 23, 24, 25, 26, 27, 28, 29, 30, 31, 32, 33, 34,
      35, 36, 37, 38, 39, 46, 49, 55, 58],
   [0, 1, 2, 3, 4, 5, 6, 7, 8, 9, 10, 11, 12, 13, 14, 15, 16, 17, 18, 19, 20, 21, 22, 23, 24, 25, 26, 27, 28, 29, 30, 31, 32, 33, 34,
      35, 36, 37, 38, 39, 46, 49, 55, 58],
   [1, 2, 3, 4, 5, 6, 7, 8, 9, 10, 11, 12, 13, 14, 15, 16, 17, 18, 19, 20, 21, 22, 23, 24, 25, 26, 27, 28, 29, 30, 31, 32, 33, 34,
      35, 36, 37, 38, 39, 46, 49, 55, 58],
   [0, 1, 2, 3, 4, 5, 6, 7, 8, 9, 10, 11, 12, 13, 14, 15, 16, 17, 18, 19, 20, 21, 22, 23, 24, 25, 26, 27, 28, 29, 30, 31, 32, 33, 34,
      35, 36, 37, 38, 39, 46, 49, 55, 58],
   [0, 3, 6, 7, 32, 33, 34, 35, 39],
   [7, 36, 39, 46],
   [7, 36, 39, 46],
   [1, 2, 3, 4, 5, 6, 7, 8, 10, 11, 12, 13, 14, 15, 16, 17, 18, 19, 20, 21, 22, 23, 24, 25, 26, 27, 28, 29, 30, 31, 32, 33, 34, 35,
      36, 37, 38, 39, 44, 46, 50, 55, 58],
   [1, 2, 3, 4, 5, 6, 7, 8, 10, 11, 12, 13, 14, 15, 16, 17, 18, 19, 20, 21, 22, 23, 24, 25, 26, 27, 28, 29, 30, 31, 32, 33, 34, 35,
      36, 37, 38, 39, 44, 46, 50, 55, 58],
   [0, 1, 2, 3, 4, 5, 6, 7, 8, 9, 10, 11, 12, 13, 14, 15, 16, 17, 18, 19, 20, 21, 22, 23, 24, 25, 26, 27, 28, 29, 30, 31, 32, 33, 34,
      35, 36, 37, 38, 39, 46, 49, 55, 58],
   [1, 2, 3, 4, 5, 6, 7, 8, 10, 11, 12, 13, 14, 15, 16, 17, 18, 19, 20, 21, 22, 23, 24, 25, 26, 27, 28, 29, 30, 31, 32, 33, 34, 35,
      36, 37, 38, 39, 40, 41, 42, 44, 45, 46, 48, 49, 50, 51, 55, 58],
   [1, 2, 3, 4, 5, 6, 7, 8, 10, 11, 12, 13, 14, 15, 16, 17, 18, 19, 20, 21, 22, 23, 24, 25, 26, 27, 28, 29, 30, 31, 32, 33, 34, 35,
      36, 37, 38, 39, 40, 42, 44, 46, 50, 55, 58],
   [1, 2, 3, 4, 5, 6, 7, 8, 10, 11, 12, 13, 14, 15, 16, 17, 18, 19, 20, 21, 22, 23, 24, 25, 26, 27, 28, 29, 30, 31, 32, 33, 34, 35,
      36, 37, 38, 42, 45, 48, 55, 58],
   [1, 2, 3, 4, 5, 6, 7, 8, 10, 11, 12, 13, 14, 15, 16, 17, 18, 19, 20, 21, 22, 23, 24, 25, 26, 27, 28, 29, 30, 31, 32, 33, 34, 35,
      36, 37, 38, 45, 48, 55, 58],
   [40],
   [45],
   [45],
   [41],
   [1, 2, 3, 4, 5, 6, 7, 8, 10, 11, 12, 13, 14, 15, 16, 17, 18, 19, 20, 21, 22, 23, 24, 25, 26, 27, 28, 29, 30, 31, 32, 33, 34, 35,
      36, 37, 38, 42, 45, 48, 55, 58],
   [1, 2, 3, 4, 5, 6, 7, 8, 10, 11, 12, 13, 14, 15, 16, 17, 18, 19, 20, 21, 22, 23, 24, 25, 26, 27, 28, 29, 30, 31, 32, 33, 34, 35,
      36, 37, 38, 48, 55, 58],
   [1, 2, 3, 4, 5, 6, 7, 8, 10, 11, 12, 13, 14, 15, 16, 17, 18, 19, 20, 21, 22, 23, 24, 25, 26, 27, 28, 29, 30, 31, 32, 33, 34, 35,
      36, 37, 38, 39, 43, 44, 46, 50, 55, 58],
   [1, 2, 3, 4, 5, 6, 7, 8, 10, 11, 12, 13, 14, 15, 16, 17, 18, 19, 20, 21, 22, 23, 24, 25, 26, 27, 28, 29, 30, 31, 32, 33, 34, 35,
      36, 37, 38, 39, 44, 46, 50, 55, 58],
   [1, 2, 3, 4, 5, 6, 7, 8, 10, 11, 12, 13, 14, 15, 16, 17, 18, 19, 20, 21, 22, 23, 24, 25, 26, 27, 28, 29, 30, 31, 32, 33, 34, 35,
      36, 37, 38, 39, 44, 46, 50, 55, 58],
   [1, 2, 3, 4, 5, 6, 7, 8, 10, 11, 12, 13, 14, 15, 16, 17, 18, 19, 20, 21, 22, 23, 24, 25, 26, 27, 28, 29, 30, 31, 32, 33, 34, 35,
      36, 37, 38, 39, 44, 46, 50, 55, 58],
   [1, 2, 3, 4, 5, 6, 7, 8, 10, 11, 12, 13, 14, 15, 16, 17, 18, 19, 20, 21, 22, 23, 24, 25, 26, 27, 28, 29, 30, 31, 32, 33, 34, 35,
      36, 37, 38, 39, 40, 41, 42, 44, 45, 46, 48, 49, 50, 51, 55, 58]]

def levelTab : List Nat :=
  [2, 0, 0, 0, 0, 3, 0, 6, 5, 4, 1, 0, 6, 0, 0, 5, 0, 0, 2, 1, 1, 1, 0, 0, 4, 2, 0, 4, 0, 0, 8, 0, 0, 1, 0, 4, 0, 0, 1, 2, 2, 2, 2, 2, 2, 2, 3, 3, 0, 0, 0, 0, 0]

/-- With which tokens a decision begins. -/
def firstDTab : List (Nat × List Nat) :=
  [(6, [8, 9, 10]),
   (9, [1, 2, 3, 4, 5, 6, 7, 8, 10, 11, 12, 13, 14, 15, 16, 17, 18, 19, 20, 21, 22, 23, 24, 25, 26, 27, 28, 29, 30, 31, 32, 33, 34, 35,
      36, 37, 38, 39, 49, 55, 58]),
   (13, [1, 2, 3, 4, 5, 6, 7, 8, 10, 11, 12, 13, 14, 15, 16, 17, 18, 19, 20, 21, 22, 23, 24, 25, 26, 27, 28, 29, 30, 31, 32, 33, 34, 35,
      36, 37, 38, 49, 55, 58]),
   (22, [1, 2, 3, 4, 5, 6, 7, 8, 10, 11, 12, 13, 14, 15, 16, 17, 18, 19, 20, 21, 22, 23, 24, 25, 26, 27, 28, 29, 30, 31, 32, 33, 34, 35,
      36, 37, 38, 39, 55, 58]),
   (27, [1, 2, 3, 4, 5, 6, 7, 8, 9, 10, 11, 12, 13, 14, 15, 16, 17, 18, 19, 20, 21, 22, 23, 24, 25, 26, 27, 28, 29, 30, 31, 32, 33, 34,
      35, 36, 37, 38, 39, 49, 55, 58]),
   (32, [37]),
   (33, [37]),
   (39, [1, 2, 3, 4, 5, 6, 7, 8, 10, 11, 12, 13, 14, 15, 16, 17, 18, 19, 20, 21, 22, 23, 24, 25, 26, 27, 28, 29, 30, 31, 32, 33, 34, 35,
      36, 37, 38, 45, 52, 53, 54, 55, 56, 57, 58]),
   (45, [1, 2, 3, 4, 5, 6, 7, 8, 10, 11, 12, 13, 14, 15, 16, 17, 18, 19, 20, 21, 22, 23, 24, 25, 26, 27, 28, 29, 30, 31, 32, 33, 34, 35,
      36, 37, 38, 55, 58]),
   (47, [1, 2, 3, 4, 5, 6, 7, 8, 10, 11, 12, 13, 14, 15, 16, 17, 18, 19, 20, 21, 22, 23, 24, 25, 26, 27, 28, 29, 30, 31, 32, 33, 34, 35,
      36, 37, 38, 55, 58])]

/-- Which tokens follow a decision. -/
def followDTab : List (Nat × List Nat) :=
  [(6, [1, 2, 3, 4, 5, 6, 7, 8, 10, 11, 12, 13, 14, 15, 16, 17, 18, 19, 20, 21, 22, 23, 24, 25, 26, 27, 28, 29, 30, 31, 32, 33, 34, 35,
      36, 37, 38, 49, 55, 58]),
   (9, [1, 2, 3, 4, 5, 6, 7, 8, 10, 11, 12, 13, 14, 15, 16, 17, 18, 19, 20, 21, 22, 23, 24, 25, 26, 27, 28, 29, 30, 31, 32, 33, 34, 35,
      36, 37, 38, 39, 46, 49, 55, 58]),
   (13, [1, 2, 3, 4, 5, 6, 7, 8, 10, 11, 12, 13, 14, 15, 16, 17, 18, 19, 20, 21, 22, 23, 24, 25, 26, 27, 28, 29, 30, 31, 32, 33, 34, 35,
      36, 37, 38, 48, 55, 58]),
   (22, [1, 2, 3, 4, 5, 6, 7, 8, 10, 11, 12, 13, 14, 15, 16, 17, 18, 19, 20, 21, 22, 23, 24, 25, 26, 27, 28, 29, 30, 31, 32, 33, 34, 35,
      36, 37, 38, 39, 46, 55, 58]),
   (27, [1, 2, 3, 4, 5, 6, 7, 8, 9, 10, 11, 12, 13, 14, 15, 16, 17, 18, 19, 20, 21, 22, 23, 24, 25, 26, 27, 28, 29, 30, 31, 32, 33, 34,
      35, 36, 37, 38, 39, 46, 49, 55, 58]),
   (32, [1, 2, 3, 4, 5, 6, 7, 8, 10, 11, 12, 13, 14, 15, 16, 17, 18, 19, 20, 21, 22, 23, 24, 25, 26, 27, 28, 29, 30, 31, 32, 33, 34, 35,
      36, 37, 38, 49, 55, 58]),
   (33, [1, 2, 3, 4, 5, 6, 7, 8, 10, 11, 12, 13, 14, 15, 16, 17, 18, 19, 20, 21, 22, 23, 24, 25, 26, 27, 28, 29, 30, 31, 32, 33, 34, 35,
      36, 37, 38, 49, 55, 58]),
   (39, [1, 2, 3, 4, 5, 6, 7, 8, 10, 11, 12, 13, 14, 15, 16, 17, 18, 19, 20, 21, 22, 23, 24, 25, 26, 27, 28, 29, 30, 31, 32, 33, 34, 35,
      36, 37, 38, 39, 44, 46, 50, 55, 58]),
   (45, [1, 2, 3, 4, 5, 6, 7, 8, 10, 11, 12, 13, 14, 15, 16, 17, 18, 19, 20, 21, 22, 23, 24, 25, 26, 27, 28, 29, 30, 31, 32, 33, 34, 35,
      36, 37, 38, 55, 58]),
   (47, [1, 2, 3, 4, 5, 6, 7, 8, 10, 11, 12, 13, 14, 15, 16, 17, 18, 19, 20, 21, 22, 23, 24, 25, 26, 27, 28, 29, 30, 31, 32, 33, 34, 35,
      36, 37, 38, 55, 58])]

def levelDTab : List (Nat × Nat) :=
  [(6, 1), (9, 7), (13, 4), (22, 3), (27, 7), (32, 0), (33, 0), (39, 3), (45, 2), (47, 2)]

/-- Tokens that may be next in a state. -/
def nextTab : List (Nat × List Nat) :=
  [(107, [0, 1, 2, 3, 6, 7, 32, 33, 34, 35, 39]),
   (114, [3, 6, 7, 32, 33, 34, 35, 39]),
   (116, [0, 3, 6, 7, 32, 33, 34, 35, 39]),
   (118, [0, 3, 6, 7, 32, 33, 34, 35, 39]),
   (128, [4, 5, 54]),
   (149, [40, 49]),
   (151, [1, 2, 3, 4, 5, 6, 7, 8, 10, 11, 12, 13, 14, 15, 16, 17, 18, 19, 20, 21, 22, 23, 24, 25, 26, 27, 28, 29, 30, 31, 32, 33, 34, 35,
      36, 37, 38, 41, 55, 58]),
   (156, [1, 2, 3, 4, 5, 6, 7, 8, 9, 10, 11, 12, 13, 14, 15, 16, 17, 18, 19, 20, 21, 22, 23, 24, 25, 26, 27, 28, 29, 30, 31, 32, 33, 34,
      35, 36, 37, 38, 49, 55, 58]),
   (166, [39, 43]),
   (175, [44, 50]),
   (177, [44, 50]),
   (190, [1, 2, 3, 4, 5, 6, 7, 8, 10, 11, 12, 13, 14, 15, 16, 17, 18, 19, 20, 21, 22, 23, 24, 25, 26, 27, 28, 29, 30, 31, 32, 33, 34, 35,
      36, 37, 38, 39, 49, 55, 58]),
   (192, [1, 2, 3, 4, 5, 6, 7, 8, 10, 11, 12, 13, 14, 15, 16, 17, 18, 19, 20, 21, 22, 23, 24, 25, 26, 27, 28, 29, 30, 31, 32, 33, 34, 35,
      36, 37, 38, 39, 46, 49, 55, 58]),
   (194, [1, 2, 3, 4, 5, 6, 7, 8, 10, 11, 12, 13, 14, 15, 16, 17, 18, 19, 20, 21, 22, 23, 24, 25, 26, 27, 28, 29, 30, 31, 32, 33, 34, 35,
      36, 37, 38, 39, 46, 49, 55, 58]),
   (205, [39, 43]),
   (222, [39, 43]),
   (245, [1, 2, 3, 4, 5, 6, 7, 8, 10, 11, 12, 13, 14, 15, 16, 17, 18, 19, 20, 21, 22, 23, 24, 25, 26, 27, 28, 29, 30, 31, 32, 33, 34, 35,
      36, 37, 38, 49, 55, 58]),
   (250, [54, 57]),
   (260, [39, 43]),
   (269, [39, 43, 50]),
   (271, [39, 43, 50]),
   (276, [31, 57]),
   (278, [30, 39, 43, 50]),
   (285, [39, 50]),
   (287, [39, 50]),
   (292, [32, 33, 34, 35]),
   (302, [1, 2, 3, 4, 5, 6, 7, 8, 10, 11, 12, 13, 14, 15, 16, 17, 18, 19, 20, 21, 22, 23, 24, 25, 26, 27, 28, 29, 30, 31, 32, 33, 34, 35,
      36, 37, 38, 39, 46, 55, 58]),
   (304, [1, 2, 3, 4, 5, 6, 7, 8, 10, 11, 12, 13, 14, 15, 16, 17, 18, 19, 20, 21, 22, 23, 24, 25, 26, 27, 28, 29, 30, 31, 32, 33, 34, 35,
      36, 37, 38, 39, 46, 55, 58]),
   (311, [1, 2, 3, 4, 5, 6, 7, 8, 10, 11, 12, 13, 14, 15, 16, 17, 18, 19, 20, 21, 22, 23, 24, 25, 26, 27, 28, 29, 30, 31, 32, 33, 34, 35,
      36, 37, 38, 39, 55, 58]),
   (316, [53, 57]),
   (320, [39, 43]),
   (330, [44, 50]),
   (332, [44, 50]),
   (347, [1, 2, 3, 4, 5, 6, 7, 8, 9, 10, 11, 12, 13, 14, 15, 16, 17, 18, 19, 20, 21, 22, 23, 24, 25, 26, 27, 28, 29, 30, 31, 32, 33, 34,
      35, 36, 37, 38, 39, 46, 49, 55, 58]),
   (349, [1, 2, 3, 4, 5, 6, 7, 8, 9, 10, 11, 12, 13, 14, 15, 16, 17, 18, 19, 20, 21, 22, 23, 24, 25, 26, 27, 28, 29, 30, 31, 32, 33, 34,
      35, 36, 37, 38, 39, 46, 49, 55, 58]),
   (362, [1, 2, 3, 4, 5, 6, 7, 8, 9, 10, 11, 12, 13, 14, 15, 16, 17, 18, 19, 20, 21, 22, 23, 24, 25, 26, 27, 28, 29, 30, 31, 32, 33, 34,
      35, 36, 37, 38, 39, 49, 55, 58]),
   (369, [1, 2, 3, 4, 5, 6, 7, 8, 9, 10, 11, 12, 13, 14, 15, 16, 17, 18, 19, 20, 21, 22, 23, 24, 25, 26, 27, 28, 29, 30, 31, 32, 33, 34,
      35, 36, 37, 38, 39, 49, 55, 58]),
   (371, [1, 2, 3, 4, 5, 6, 7, 8, 9, 10, 11, 12, 13, 14, 15, 16, 17, 18, 19, 20, 21, 22, 23, 24, 25, 26, 27, 28, 29, 30, 31, 32, 33, 34,
      35, 36, 37, 38, 39, 46, 49, 55, 58]),
   (373, [1, 2, 3, 4, 5, 6, 7, 8, 9, 10, 11, 12, 13, 14, 15, 16, 17, 18, 19, 20, 21, 22, 23, 24, 25, 26, 27, 28, 29, 30, 31, 32, 33, 34,
      35, 36, 37, 38, 39, 46, 49, 55, 58]),
   (382, [7, 36, 39, 46]),
   (384, [7, 36, 39, 46]),
   (390, [7, 36, 39]),
   (396, [1, 2, 3, 4, 5, 6, 7, 8, 10, 11, 12, 13, 14, 15, 16, 17, 18, 19, 20, 21, 22, 23, 24, 25, 26, 27, 28, 29, 30, 31, 32, 33, 34, 35,
      36, 37, 38, 49, 55, 58]),
   (403, [1, 2, 3, 4, 5, 6, 7, 8, 10, 11, 12, 13, 14, 15, 16, 17, 18, 19, 20, 21, 22, 23, 24, 25, 26, 27, 28, 29, 30, 31, 32, 33, 34, 35,
      36, 37, 38, 49, 55, 58]),
   (410, [7, 39]),
   (412, [7, 39, 46]),
   (414, [7, 39, 46]),
   (417, [39, 45]),
   (421, [52, 53, 57]),
   (425, [52, 53, 56]),
   (431, [1, 2, 3, 4, 5, 6, 7, 8, 10, 11, 12, 13, 14, 15, 16, 17, 18, 19, 20, 21, 22, 23, 24, 25, 26, 27, 28, 29, 30, 31, 32, 33, 34, 35,
      36, 37, 38, 45, 52, 53, 54, 55, 56, 57, 58]),
   (438, [1, 2, 3, 4, 5, 6, 7, 8, 10, 11, 12, 13, 14, 15, 16, 17, 18, 19, 20, 21, 22, 23, 24, 25, 26, 27, 28, 29, 30, 31, 32, 33, 34, 35,
      36, 37, 38, 39, 46, 50, 55, 58]),
   (442, [1, 2, 3, 4, 5, 6, 7, 8, 10, 11, 12, 13, 14, 15, 16, 17, 18, 19, 20, 21, 22, 23, 24, 25, 26, 27, 28, 29, 30, 31, 32, 33, 34, 35,
      36, 37, 38, 46, 55, 58]),
   (444, [1, 2, 3, 4, 5, 6, 7, 8, 10, 11, 12, 13, 14, 15, 16, 17, 18, 19, 20, 21, 22, 23, 24, 25, 26, 27, 28, 29, 30, 31, 32, 33, 34, 35,
      36, 37, 38, 46, 55, 58]),
   (451, [1, 2, 3, 4, 5, 6, 7, 8, 10, 11, 12, 13, 14, 15, 16, 17, 18, 19, 20, 21, 22, 23, 24, 25, 26, 27, 28, 29, 30, 31, 32, 33, 34, 35,
      36, 37, 38, 55, 58]),
   (458, [1, 2, 3, 4, 5, 6, 7, 8, 10, 11, 12, 13, 14, 15, 16, 17, 18, 19, 20, 21, 22, 23, 24, 25, 26, 27, 28, 29, 30, 31, 32, 33, 34, 35,
      36, 37, 38, 39, 40, 42, 44, 46, 49, 50, 55, 58]),
   (460, [1, 2, 3, 4, 5, 6, 7, 8, 10, 11, 12, 13, 14, 15, 16, 17, 18, 19, 20, 21, 22, 23, 24, 25, 26, 27, 28, 29, 30, 31, 32, 33, 34, 35,
      36, 37, 38, 39, 40, 42, 44, 46, 49, 50, 55, 58]),
   (474, [1, 2, 3, 4, 5, 6, 7, 8, 10, 11, 12, 13, 14, 15, 16, 17, 18, 19, 20, 21, 22, 23, 24, 25, 26, 27, 28, 29, 30, 31, 32, 33, 34, 35,
      36, 37, 38, 49, 55, 58]),
   (481, [1, 2, 3, 4, 5, 6, 7, 8, 10, 11, 12, 13, 14, 15, 16, 17, 18, 19, 20, 21, 22, 23, 24, 25, 26, 27, 28, 29, 30, 31, 32, 33, 34, 35,
      36, 37, 38, 55, 58]),
   (483, [1, 2, 3, 4, 5, 6, 7, 8, 10, 11, 12, 13, 14, 15, 16, 17, 18, 19, 20, 21, 22, 23, 24, 25, 26, 27, 28, 29, 30, 31, 32, 33, 34, 35,
      36, 37, 38, 55, 58]),
   (487, [1, 2, 3, 4, 5, 6, 7, 8, 10, 11, 12, 13, 14, 15, 16, 17, 18, 19, 20, 21, 22, 23, 24, 25, 26, 27, 28, 29, 30, 31, 32, 33, 34, 35,
      36, 37, 38, 49, 55, 58]),
   (494, [1, 2, 3, 4, 5, 6, 7, 8, 10, 11, 12, 13, 14, 15, 16, 17, 18, 19, 20, 21, 22, 23, 24, 25, 26, 27, 28, 29, 30, 31, 32, 33, 34, 35,
      36, 37, 38, 55, 58]),
   (496, [1, 2, 3, 4, 5, 6, 7, 8, 10, 11, 12, 13, 14, 15, 16, 17, 18, 19, 20, 21, 22, 23, 24, 25, 26, 27, 28, 29, 30, 31, 32, 33, 34, 35,
      36, 37, 38, 55, 58]),
   (502, [54]),
   (504, [1, 2, 3, 4, 5, 6, 7, 8, 10, 11, 12, 13, 14, 15, 16, 17, 18, 19, 20, 21, 22, 23, 24, 25, 26, 27, 28, 29, 30, 31, 32, 33, 34, 35,
      36, 37, 38, 39, 44, 46, 50, 54, 55, 58])]

def protoSets : Sets where
  first r := firstTab.getD r []
  null r := r == 0
  follow r := followTab.getD r []
  level r := levelTab.getD r 0
  firstD d := (firstDTab.lookup d).getD []
  nullD d := [6, 32, 33, 45, 47].contains d
  followD d := (followDTab.lookup d).getD []
  levelD d := (levelDTab.lookup d).getD 0
  top := 9

def tabNext (s t : Nat) : Bool := ((nextTab.lookup s).getD []).contains t

/-- The parser with a table instead of the automaton. -/
def tabGram : Gram := ⟨ruleCode, altsCode, tabNext⟩

set_option maxRecDepth 100000 in
theorem nextTab_ok : nextTab.all (fun row => row.2.all fun t => nextOk parserTree.get 61 1000 row.1 t) = true := by decide +kernel

theorem lookup_mem {α : Type} {k : Nat} {v : α} : ∀ {l : List (Nat × α)}, l.lookup k = some v → (k, v) ∈ l := by
  intro l
  induction l with
  | nil => intro h; cases h
  | cons p l ih =>
    obtain ⟨a, b⟩ := p
    intro h
    simp only [List.lookup] at h
    split at h
    · rename_i hk
      have hk : k = a := by simpa using hk
      simp only [Option.some.injEq] at h
      subst hk h
      exact List.mem_cons_self ..
    · exact List.mem_cons_of_mem _ (ih h)

theorem tabNext_ok {s t : Nat} (h : tabNext s t = true) : protoGram.next s t = true := by
  rw [protoGram_next]
  simp only [tabNext] at h
  cases hl : nextTab.lookup s with
  | none => rw [hl] at h; simp at h
  | some ts =>
    rw [hl] at h
    exact List.all_eq_true.mp (List.all_eq_true.mp nextTab_ok _ (lookup_mem hl)) t (by simpa using h)

theorem check_mono {G H : Gram} (h : ∀ s t, G.next s t = true → H.next s t = true) (S : Sets) :
    ∀ c F, check G S c F = true → check H S c F = true := by
  intro c
  induction c with
  | sync s => intro F hF; exact List.all_eq_true.mpr fun x hx => h s x (List.all_eq_true.mp hF x hx)
  | done | fail | tok | eof | set | call | choose => intro F hF; exact hF
  | seq a b iha ihb => intro F hF; simp only [check, Bool.and_eq_true] at hF ⊢; exact ⟨iha _ hF.1, ihb _ hF.2⟩
  | ifLa l a b iha ihb =>
    intro F hF
    simp only [check, Bool.and_eq_true] at hF ⊢
    exact ⟨⟨⟨iha _ hF.1.1.1, ihb _ hF.1.1.2⟩, hF.1.2⟩, hF.2⟩
  | whileLa l a iha => intro F hF; simp only [check, Bool.and_eq_true] at hF ⊢; exact ⟨hF.1, iha _ hF.2⟩

theorem rules_checked : (List.range 53).all (checkRule tabGram protoSets) = true := by decide +kernel

theorem alts_checked : [6, 9, 13, 22, 27, 32, 33, 39, 45, 47].all (checkAlts tabGram protoSets) = true := by decide +kernel

theorem ruleCode_high (n : Nat) : ruleCode (n + 53) = .fail := rfl

theorem altsCode_other (d : Nat) (h : d ∉ [6, 9, 13, 22, 27, 32, 33, 39, 45, 47]) : altsCode d = [] := by
  unfold altsCode
  split <;> first | rfl | (exact absurd (by decide) h)

theorem protoSets_checked : Checked protoGram protoSets := by
  constructor
  · intro r
    by_cases hr : r < 53
    · have := List.all_eq_true.mp rules_checked r (List.mem_range.mpr hr)
      simp only [checkRule, Bool.and_eq_true] at this ⊢
      exact ⟨⟨⟨⟨check_mono (fun _ _ => tabNext_ok) _ _ _ this.1.1.1.1, this.1.1.1.2⟩, this.1.1.2⟩, this.1.2⟩, this.2⟩
    · obtain ⟨k, rfl⟩ : ∃ k, r = k + 53 := ⟨r - 53, by omega⟩
      have hl : protoSets.level (k + 53) = 0 := by
        show levelTab.getD (k + 53) 0 = 0
        rw [List.getD_eq_getElem?_getD, List.getElem?_eq_none (by show 53 ≤ _; omega)]
        rfl
      simp only [checkRule, hl]
      show (check protoGram protoSets (ruleCode (k + 53)) _ && sub (firstC protoSets (ruleCode (k + 53))) _ &&
        (!nullC protoSets (ruleCode (k + 53)) || _) && levelOk protoSets (ruleCode (k + 53)) _ && _) = true
      rw [ruleCode_high]
      rfl
  · intro d
    by_cases hd : d ∈ [6, 9, 13, 22, 27, 32, 33, 39, 45, 47]
    · have := List.all_eq_true.mp alts_checked d hd
      simp only [checkAlts, Bool.and_eq_true] at this ⊢
      refine ⟨List.all_eq_true.mpr fun a ha => ?_, this.2⟩
      have := List.all_eq_true.mp this.1 a ha
      simp only [Bool.and_eq_true] at this ⊢
      exact ⟨⟨⟨check_mono (fun _ _ => tabNext_ok) _ _ _ this.1.1.1, this.1.1.2⟩, this.1.2⟩, this.2⟩
    · simp only [checkAlts]
      show ((altsCode d).all _ && _) = true
      rw [altsCode_other d hd]
      have hl : protoSets.levelD d = 0 := by
        show (levelDTab.lookup d).getD 0 = 0
        cases h : levelDTab.lookup d with
        | none => rfl
        | some v => exact absurd (List.mem_map_of_mem (f := Prod.fst) (lookup_mem h)) hd
      rw [hl]
      rfl

end Verif.Lemmas.Gen.Antlr
