/-!
# The numbers from which the lexer is built

They are those of prutalgen/internal/parser/protobuf_lexer.go:80-347 (`serializedATN`), -1 written as the `uint32` with the same bits.
-/
namespace Verif.Model.Gen.Antlr

set_option maxRecDepth 20000

/-- prutalgen/internal/parser/protobuf_lexer.go:80-347: the numbers from position 0. -/
def lexerAtnData0 : List Nat := [
  4, 0, 61, 604, 6, 4294967295, 2, 0, 7, 0, 2, 1, 7, 1, 2, 2, 7, 2, 2, 3, 7, 3, 2, 4, 7, 4, 2, 5, 7, 5, 2, 6, 7, 6, 2, 7, 7, 7, 2, 8, 7, 8, 2, 9, 7,
  9, 2, 10, 7, 10, 2, 11, 7, 11, 2, 12, 7, 12, 2, 13, 7, 13, 2, 14, 7, 14, 2, 15, 7, 15, 2, 16, 7, 16, 2, 17, 7, 17, 2, 18, 7, 18, 2, 19, 7, 19, 2,
  20, 7, 20, 2, 21, 7, 21, 2, 22, 7, 22, 2, 23, 7, 23, 2, 24, 7, 24, 2, 25, 7, 25, 2, 26, 7, 26, 2, 27, 7, 27, 2, 28, 7, 28, 2, 29, 7, 29, 2, 30, 7,
  30, 2, 31, 7, 31, 2, 32, 7, 32, 2, 33, 7, 33, 2, 34, 7, 34, 2, 35, 7, 35, 2, 36, 7, 36, 2, 37, 7, 37, 2, 38, 7, 38, 2, 39, 7, 39, 2, 40, 7, 40, 2,
  41, 7, 41, 2, 42, 7, 42, 2, 43, 7, 43, 2, 44, 7, 44, 2, 45, 7, 45, 2, 46, 7, 46, 2, 47, 7, 47, 2, 48, 7, 48, 2, 49, 7, 49, 2, 50, 7, 50, 2, 51, 7,
  51, 2, 52, 7, 52, 2, 53, 7, 53, 2, 54, 7, 54, 2, 55, 7, 55, 2, 56, 7, 56, 2, 57, 7, 57, 2, 58, 7, 58, 2, 59, 7, 59, 2, 60, 7, 60, 2, 61, 7, 61, 2,
  62, 7, 62, 2, 63, 7, 63, 2, 64, 7, 64, 2, 65, 7, 65, 2, 66, 7, 66, 2, 67, 7, 67, 2, 68, 7, 68, 2, 69, 7, 69, 2, 70, 7, 70, 2, 71, 7, 71, 2, 72, 7,
  72, 2, 73, 7, 73, 1, 0, 1, 0, 1, 0, 1, 0, 1, 0, 1, 0, 1, 0, 1, 1, 1, 1, 1, 1, 1, 1, 1, 1, 1, 1, 1, 1, 1, 1, 1, 2, 1, 2, 1, 2, 1, 2, 1, 2, 1, 2, 1,
  2, 1, 3, 1, 3, 1, 3, 1, 3, 1, 3, 1, 4, 1, 4, 1, 4, 1, 4, 1, 4, 1, 4, 1, 4, 1, 5, 1, 5, 1, 5, 1, 5, 1, 5, 1, 5, 1, 5, 1, 5, 1, 6, 1, 6, 1, 6, 1, 6,
  1, 6, 1, 6, 1, 6, 1, 7, 1, 7, 1, 7, 1, 7, 1, 7, 1, 7, 1, 7, 1, 7, 1, 7, 1, 8, 1, 8, 1, 8, 1, 8, 1, 8, 1, 8, 1, 8, 1, 8, 1, 8, 1, 9, 1, 9, 1, 9, 1,
  9, 1, 9, 1, 9, 1, 9, 1, 9, 1, 9, 1, 10, 1, 10, 1, 10, 1, 10, 1, 10, 1, 10, 1, 11, 1, 11, 1, 11, 1, 11, 1, 12, 1, 12, 1, 12, 1, 12, 1, 12, 1, 12, 1,
  13, 1, 13, 1, 13, 1, 13, 1, 13, 1, 13, 1, 14, 1, 14, 1, 14, 1, 14, 1, 14, 1, 14, 1, 14]

/-- prutalgen/internal/parser/protobuf_lexer.go:80-347: the numbers from position 512. -/
def lexerAtnData1 : List Nat := [
  1, 15, 1, 15, 1, 15, 1, 15, 1, 15, 1, 15, 1, 15, 1, 16, 1, 16, 1, 16, 1, 16, 1, 16, 1, 16, 1, 16, 1, 17, 1, 17, 1, 17, 1, 17, 1, 17, 1, 17, 1, 17,
  1, 18, 1, 18, 1, 18, 1, 18, 1, 18, 1, 18, 1, 18, 1, 18, 1, 19, 1, 19, 1, 19, 1, 19, 1, 19, 1, 19, 1, 19, 1, 19, 1, 20, 1, 20, 1, 20, 1, 20, 1, 20,
  1, 20, 1, 20, 1, 20, 1, 20, 1, 21, 1, 21, 1, 21, 1, 21, 1, 21, 1, 21, 1, 21, 1, 21, 1, 21, 1, 22, 1, 22, 1, 22, 1, 22, 1, 22, 1, 23, 1, 23, 1, 23,
  1, 23, 1, 23, 1, 23, 1, 23, 1, 24, 1, 24, 1, 24, 1, 24, 1, 24, 1, 24, 1, 24, 1, 25, 1, 25, 1, 25, 1, 25, 1, 25, 1, 25, 1, 26, 1, 26, 1, 26, 1, 26,
  1, 26, 1, 26, 1, 27, 1, 27, 1, 27, 1, 27, 1, 27, 1, 27, 1, 27, 1, 27, 1, 27, 1, 28, 1, 28, 1, 28, 1, 28, 1, 28, 1, 28, 1, 28, 1, 28, 1, 28, 1, 28,
  1, 28, 1, 29, 1, 29, 1, 29, 1, 30, 1, 30, 1, 30, 1, 30, 1, 31, 1, 31, 1, 31, 1, 31, 1, 31, 1, 32, 1, 32, 1, 32, 1, 32, 1, 32, 1, 32, 1, 32, 1, 32,
  1, 33, 1, 33, 1, 33, 1, 33, 1, 33, 1, 33, 1, 33, 1, 33, 1, 34, 1, 34, 1, 34, 1, 34, 1, 34, 1, 34, 1, 34, 1, 35, 1, 35, 1, 35, 1, 35, 1, 36, 1, 36,
  1, 36, 1, 36, 1, 36, 1, 36, 1, 36, 1, 37, 1, 37, 1, 37, 1, 37, 1, 37, 1, 37, 1, 37, 1, 37, 1, 38, 1, 38, 1, 39, 1, 39, 1, 40, 1, 40, 1, 41, 1, 41,
  1, 42, 1, 42, 1, 43, 1, 43, 1, 44, 1, 44, 1, 45, 1, 45, 1, 46, 1, 46, 1, 47, 1, 47, 1, 48, 1, 48, 1, 49, 1, 49, 1, 50, 1, 50, 1, 51, 1, 51, 1, 52,
  1, 52, 1, 53, 1, 53, 5, 53, 447, 8, 53, 10, 53, 12, 53, 450, 9, 53, 1, 53, 1, 53, 1, 53, 5, 53, 455, 8, 53, 10, 53, 12, 53, 458, 9, 53, 1, 53, 3,
  53, 461, 8, 53, 1, 54, 1, 54, 1, 54, 1, 54, 3, 54, 467, 8, 54, 1, 55, 1, 55, 1, 55, 1, 55, 1, 55, 1, 56, 1, 56, 1, 56, 1, 56, 1, 56, 1, 57, 1, 57,
  1, 57, 1, 58, 1, 58, 1, 58, 1, 58, 1, 58, 1, 58, 1, 58, 1, 58, 1, 58, 3, 58, 491, 8, 58, 1, 59, 1, 59, 1, 59, 3, 59, 496, 8, 59, 1, 59, 3, 59, 499,
  8, 59, 1, 59, 1, 59, 1, 59, 1, 59, 1, 59, 1]

/-- prutalgen/internal/parser/protobuf_lexer.go:80-347: the numbers from position 1024. -/
def lexerAtnData2 : List Nat := [
  59, 3, 59, 507, 8, 59, 3, 59, 509, 8, 59, 1, 59, 1, 59, 1, 59, 1, 59, 1, 59, 1, 59, 3, 59, 517, 8, 59, 1, 60, 1, 60, 1, 60, 3, 60, 522, 8, 60, 1,
  60, 1, 60, 1, 61, 4, 61, 527, 8, 61, 11, 61, 12, 61, 528, 1, 62, 1, 62, 1, 62, 3, 62, 534, 8, 62, 1, 63, 1, 63, 5, 63, 538, 8, 63, 10, 63, 12, 63,
  541, 9, 63, 1, 64, 1, 64, 5, 64, 545, 8, 64, 10, 64, 12, 64, 548, 9, 64, 1, 65, 1, 65, 1, 65, 4, 65, 553, 8, 65, 11, 65, 12, 65, 554, 1, 66, 1, 66,
  1, 66, 5, 66, 560, 8, 66, 10, 66, 12, 66, 563, 9, 66, 1, 67, 1, 67, 1, 68, 1, 68, 1, 69, 1, 69, 1, 70, 1, 70, 1, 71, 4, 71, 574, 8, 71, 11, 71, 12,
  71, 575, 1, 71, 1, 71, 1, 72, 1, 72, 1, 72, 1, 72, 5, 72, 584, 8, 72, 10, 72, 12, 72, 587, 9, 72, 1, 72, 1, 72, 1, 73, 1, 73, 1, 73, 1, 73, 5, 73,
  595, 8, 73, 10, 73, 12, 73, 598, 9, 73, 1, 73, 1, 73, 1, 73, 1, 73, 1, 73, 3, 448, 456, 596, 0, 74, 1, 1, 3, 2, 5, 3, 7, 4, 9, 5, 11, 6, 13, 7, 15,
  8, 17, 9, 19, 10, 21, 11, 23, 12, 25, 13, 27, 14, 29, 15, 31, 16, 33, 17, 35, 18, 37, 19, 39, 20, 41, 21, 43, 22, 45, 23, 47, 24, 49, 25, 51, 26,
  53, 27, 55, 28, 57, 29, 59, 30, 61, 31, 63, 32, 65, 33, 67, 34, 69, 35, 71, 36, 73, 37, 75, 38, 77, 39, 79, 40, 81, 41, 83, 42, 85, 43, 87, 44, 89,
  45, 91, 46, 93, 47, 95, 48, 97, 49, 99, 50, 101, 51, 103, 52, 105, 53, 107, 54, 109, 0, 111, 0, 113, 0, 115, 0, 117, 55, 119, 56, 121, 0, 123, 0,
  125, 57, 127, 0, 129, 0, 131, 0, 133, 58, 135, 0, 137, 0, 139, 0, 141, 0, 143, 59, 145, 60, 147, 61, 1, 0, 11, 3, 0, 0, 0, 10, 10, 92, 92, 2, 0,
  88, 88, 120, 120, 9, 0, 34, 34, 39, 39, 92, 92, 97, 98, 102, 102, 110, 110, 114, 114, 116, 116, 118, 118, 2, 0, 69, 69, 101, 101, 1, 0, 49, 57, 3,
  0, 65, 90, 95, 95, 97, 122, 1, 0, 48, 57, 1, 0, 48, 55, 3, 0, 48, 57, 65, 70, 97, 102, 3, 0, 9, 10, 12, 13, 32, 32, 2, 0, 10, 10, 13, 13, 617, 0,
  1, 1, 0, 0, 0, 0, 3, 1, 0, 0, 0, 0, 5, 1, 0, 0, 0, 0, 7, 1, 0, 0, 0, 0, 9, 1, 0, 0, 0, 0, 11, 1, 0, 0, 0, 0, 13, 1, 0, 0, 0, 0, 15, 1, 0, 0, 0, 0,
  17, 1, 0, 0, 0]

/-- prutalgen/internal/parser/protobuf_lexer.go:80-347: the numbers from position 1536. -/
def lexerAtnData3 : List Nat := [
  0, 19, 1, 0, 0, 0, 0, 21, 1, 0, 0, 0, 0, 23, 1, 0, 0, 0, 0, 25, 1, 0, 0, 0, 0, 27, 1, 0, 0, 0, 0, 29, 1, 0, 0, 0, 0, 31, 1, 0, 0, 0, 0, 33, 1, 0,
  0, 0, 0, 35, 1, 0, 0, 0, 0, 37, 1, 0, 0, 0, 0, 39, 1, 0, 0, 0, 0, 41, 1, 0, 0, 0, 0, 43, 1, 0, 0, 0, 0, 45, 1, 0, 0, 0, 0, 47, 1, 0, 0, 0, 0, 49,
  1, 0, 0, 0, 0, 51, 1, 0, 0, 0, 0, 53, 1, 0, 0, 0, 0, 55, 1, 0, 0, 0, 0, 57, 1, 0, 0, 0, 0, 59, 1, 0, 0, 0, 0, 61, 1, 0, 0, 0, 0, 63, 1, 0, 0, 0, 0,
  65, 1, 0, 0, 0, 0, 67, 1, 0, 0, 0, 0, 69, 1, 0, 0, 0, 0, 71, 1, 0, 0, 0, 0, 73, 1, 0, 0, 0, 0, 75, 1, 0, 0, 0, 0, 77, 1, 0, 0, 0, 0, 79, 1, 0, 0,
  0, 0, 81, 1, 0, 0, 0, 0, 83, 1, 0, 0, 0, 0, 85, 1, 0, 0, 0, 0, 87, 1, 0, 0, 0, 0, 89, 1, 0, 0, 0, 0, 91, 1, 0, 0, 0, 0, 93, 1, 0, 0, 0, 0, 95, 1,
  0, 0, 0, 0, 97, 1, 0, 0, 0, 0, 99, 1, 0, 0, 0, 0, 101, 1, 0, 0, 0, 0, 103, 1, 0, 0, 0, 0, 105, 1, 0, 0, 0, 0, 107, 1, 0, 0, 0, 0, 117, 1, 0, 0, 0,
  0, 119, 1, 0, 0, 0, 0, 125, 1, 0, 0, 0, 0, 133, 1, 0, 0, 0, 0, 143, 1, 0, 0, 0, 0, 145, 1, 0, 0, 0, 0, 147, 1, 0, 0, 0, 1, 149, 1, 0, 0, 0, 3, 156,
  1, 0, 0, 0, 5, 164, 1, 0, 0, 0, 7, 171, 1, 0, 0, 0, 9, 176, 1, 0, 0, 0, 11, 183, 1, 0, 0, 0, 13, 191, 1, 0, 0, 0, 15, 198, 1, 0, 0, 0, 17, 207, 1,
  0, 0, 0, 19, 216, 1, 0, 0, 0, 21, 225, 1, 0, 0, 0, 23, 231, 1, 0, 0, 0, 25, 235, 1, 0, 0, 0, 27, 241, 1, 0, 0, 0, 29, 247, 1, 0, 0, 0, 31, 254, 1,
  0, 0, 0, 33, 261, 1, 0, 0, 0, 35, 268, 1, 0, 0, 0, 37, 275, 1, 0, 0, 0, 39, 283, 1, 0, 0, 0, 41, 291, 1, 0, 0, 0, 43, 300, 1, 0, 0, 0, 45, 309, 1,
  0, 0, 0, 47, 314, 1, 0, 0, 0, 49, 321, 1, 0, 0, 0, 51, 328, 1, 0, 0, 0, 53, 334, 1, 0, 0, 0, 55, 340, 1, 0, 0, 0, 57, 349, 1, 0, 0, 0, 59, 360, 1,
  0, 0, 0, 61, 363, 1, 0, 0, 0, 63, 367, 1, 0, 0, 0, 65, 372, 1, 0, 0, 0, 67, 380]

/-- prutalgen/internal/parser/protobuf_lexer.go:80-347: the numbers from position 2048. -/
def lexerAtnData4 : List Nat := [
  1, 0, 0, 0, 69, 388, 1, 0, 0, 0, 71, 395, 1, 0, 0, 0, 73, 399, 1, 0, 0, 0, 75, 406, 1, 0, 0, 0, 77, 414, 1, 0, 0, 0, 79, 416, 1, 0, 0, 0, 81, 418,
  1, 0, 0, 0, 83, 420, 1, 0, 0, 0, 85, 422, 1, 0, 0, 0, 87, 424, 1, 0, 0, 0, 89, 426, 1, 0, 0, 0, 91, 428, 1, 0, 0, 0, 93, 430, 1, 0, 0, 0, 95, 432,
  1, 0, 0, 0, 97, 434, 1, 0, 0, 0, 99, 436, 1, 0, 0, 0, 101, 438, 1, 0, 0, 0, 103, 440, 1, 0, 0, 0, 105, 442, 1, 0, 0, 0, 107, 460, 1, 0, 0, 0, 109,
  466, 1, 0, 0, 0, 111, 468, 1, 0, 0, 0, 113, 473, 1, 0, 0, 0, 115, 478, 1, 0, 0, 0, 117, 490, 1, 0, 0, 0, 119, 516, 1, 0, 0, 0, 121, 518, 1, 0, 0,
  0, 123, 526, 1, 0, 0, 0, 125, 533, 1, 0, 0, 0, 127, 535, 1, 0, 0, 0, 129, 542, 1, 0, 0, 0, 131, 549, 1, 0, 0, 0, 133, 556, 1, 0, 0, 0, 135, 564, 1,
  0, 0, 0, 137, 566, 1, 0, 0, 0, 139, 568, 1, 0, 0, 0, 141, 570, 1, 0, 0, 0, 143, 573, 1, 0, 0, 0, 145, 579, 1, 0, 0, 0, 147, 590, 1, 0, 0, 0, 149,
  150, 5, 115, 0, 0, 150, 151, 5, 121, 0, 0, 151, 152, 5, 110, 0, 0, 152, 153, 5, 116, 0, 0, 153, 154, 5, 97, 0, 0, 154, 155, 5, 120, 0, 0, 155, 2,
  1, 0, 0, 0, 156, 157, 5, 101, 0, 0, 157, 158, 5, 100, 0, 0, 158, 159, 5, 105, 0, 0, 159, 160, 5, 116, 0, 0, 160, 161, 5, 105, 0, 0, 161, 162, 5,
  111, 0, 0, 162, 163, 5, 110, 0, 0, 163, 4, 1, 0, 0, 0, 164, 165, 5, 105, 0, 0, 165, 166, 5, 109, 0, 0, 166, 167, 5, 112, 0, 0, 167, 168, 5, 111, 0,
  0, 168, 169, 5, 114, 0, 0, 169, 170, 5, 116, 0, 0, 170, 6, 1, 0, 0, 0, 171, 172, 5, 119, 0, 0, 172, 173, 5, 101, 0, 0, 173, 174, 5, 97, 0, 0, 174,
  175, 5, 107, 0, 0, 175, 8, 1, 0, 0, 0, 176, 177, 5, 112, 0, 0, 177, 178, 5, 117, 0, 0, 178, 179, 5, 98, 0, 0, 179, 180, 5, 108, 0, 0, 180, 181, 5,
  105, 0, 0, 181, 182, 5, 99, 0, 0, 182, 10, 1, 0, 0, 0, 183, 184, 5, 112, 0, 0, 184, 185, 5, 97, 0, 0, 185, 186, 5, 99, 0, 0, 186, 187, 5, 107, 0,
  0, 187, 188, 5, 97, 0, 0, 188, 189, 5, 103, 0, 0, 189, 190, 5, 101, 0, 0, 190, 12, 1, 0, 0, 0, 191, 192, 5, 111, 0, 0, 192, 193, 5, 112, 0, 0, 193,
  194, 5, 116]

/-- prutalgen/internal/parser/protobuf_lexer.go:80-347: the numbers from position 2560. -/
def lexerAtnData5 : List Nat := [
  0, 0, 194, 195, 5, 105, 0, 0, 195, 196, 5, 111, 0, 0, 196, 197, 5, 110, 0, 0, 197, 14, 1, 0, 0, 0, 198, 199, 5, 111, 0, 0, 199, 200, 5, 112, 0, 0,
  200, 201, 5, 116, 0, 0, 201, 202, 5, 105, 0, 0, 202, 203, 5, 111, 0, 0, 203, 204, 5, 110, 0, 0, 204, 205, 5, 97, 0, 0, 205, 206, 5, 108, 0, 0, 206,
  16, 1, 0, 0, 0, 207, 208, 5, 114, 0, 0, 208, 209, 5, 101, 0, 0, 209, 210, 5, 113, 0, 0, 210, 211, 5, 117, 0, 0, 211, 212, 5, 105, 0, 0, 212, 213,
  5, 114, 0, 0, 213, 214, 5, 101, 0, 0, 214, 215, 5, 100, 0, 0, 215, 18, 1, 0, 0, 0, 216, 217, 5, 114, 0, 0, 217, 218, 5, 101, 0, 0, 218, 219, 5,
  112, 0, 0, 219, 220, 5, 101, 0, 0, 220, 221, 5, 97, 0, 0, 221, 222, 5, 116, 0, 0, 222, 223, 5, 101, 0, 0, 223, 224, 5, 100, 0, 0, 224, 20, 1, 0, 0,
  0, 225, 226, 5, 111, 0, 0, 226, 227, 5, 110, 0, 0, 227, 228, 5, 101, 0, 0, 228, 229, 5, 111, 0, 0, 229, 230, 5, 102, 0, 0, 230, 22, 1, 0, 0, 0,
  231, 232, 5, 109, 0, 0, 232, 233, 5, 97, 0, 0, 233, 234, 5, 112, 0, 0, 234, 24, 1, 0, 0, 0, 235, 236, 5, 105, 0, 0, 236, 237, 5, 110, 0, 0, 237,
  238, 5, 116, 0, 0, 238, 239, 5, 51, 0, 0, 239, 240, 5, 50, 0, 0, 240, 26, 1, 0, 0, 0, 241, 242, 5, 105, 0, 0, 242, 243, 5, 110, 0, 0, 243, 244, 5,
  116, 0, 0, 244, 245, 5, 54, 0, 0, 245, 246, 5, 52, 0, 0, 246, 28, 1, 0, 0, 0, 247, 248, 5, 117, 0, 0, 248, 249, 5, 105, 0, 0, 249, 250, 5, 110, 0,
  0, 250, 251, 5, 116, 0, 0, 251, 252, 5, 51, 0, 0, 252, 253, 5, 50, 0, 0, 253, 30, 1, 0, 0, 0, 254, 255, 5, 117, 0, 0, 255, 256, 5, 105, 0, 0, 256,
  257, 5, 110, 0, 0, 257, 258, 5, 116, 0, 0, 258, 259, 5, 54, 0, 0, 259, 260, 5, 52, 0, 0, 260, 32, 1, 0, 0, 0, 261, 262, 5, 115, 0, 0, 262, 263, 5,
  105, 0, 0, 263, 264, 5, 110, 0, 0, 264, 265, 5, 116, 0, 0, 265, 266, 5, 51, 0, 0, 266, 267, 5, 50, 0, 0, 267, 34, 1, 0, 0, 0, 268, 269, 5, 115, 0,
  0, 269, 270, 5, 105, 0, 0, 270, 271, 5, 110, 0, 0, 271, 272, 5, 116, 0, 0, 272, 273, 5, 54, 0, 0, 273, 274, 5, 52, 0, 0, 274, 36, 1, 0, 0, 0, 275,
  276, 5, 102, 0, 0, 276, 277, 5, 105, 0, 0, 277, 278, 5, 120, 0, 0, 278, 279, 5, 101, 0, 0]

/-- prutalgen/internal/parser/protobuf_lexer.go:80-347: the numbers from position 3072. -/
def lexerAtnData6 : List Nat := [
  279, 280, 5, 100, 0, 0, 280, 281, 5, 51, 0, 0, 281, 282, 5, 50, 0, 0, 282, 38, 1, 0, 0, 0, 283, 284, 5, 102, 0, 0, 284, 285, 5, 105, 0, 0, 285,
  286, 5, 120, 0, 0, 286, 287, 5, 101, 0, 0, 287, 288, 5, 100, 0, 0, 288, 289, 5, 54, 0, 0, 289, 290, 5, 52, 0, 0, 290, 40, 1, 0, 0, 0, 291, 292, 5,
  115, 0, 0, 292, 293, 5, 102, 0, 0, 293, 294, 5, 105, 0, 0, 294, 295, 5, 120, 0, 0, 295, 296, 5, 101, 0, 0, 296, 297, 5, 100, 0, 0, 297, 298, 5, 51,
  0, 0, 298, 299, 5, 50, 0, 0, 299, 42, 1, 0, 0, 0, 300, 301, 5, 115, 0, 0, 301, 302, 5, 102, 0, 0, 302, 303, 5, 105, 0, 0, 303, 304, 5, 120, 0, 0,
  304, 305, 5, 101, 0, 0, 305, 306, 5, 100, 0, 0, 306, 307, 5, 54, 0, 0, 307, 308, 5, 52, 0, 0, 308, 44, 1, 0, 0, 0, 309, 310, 5, 98, 0, 0, 310, 311,
  5, 111, 0, 0, 311, 312, 5, 111, 0, 0, 312, 313, 5, 108, 0, 0, 313, 46, 1, 0, 0, 0, 314, 315, 5, 115, 0, 0, 315, 316, 5, 116, 0, 0, 316, 317, 5,
  114, 0, 0, 317, 318, 5, 105, 0, 0, 318, 319, 5, 110, 0, 0, 319, 320, 5, 103, 0, 0, 320, 48, 1, 0, 0, 0, 321, 322, 5, 100, 0, 0, 322, 323, 5, 111,
  0, 0, 323, 324, 5, 117, 0, 0, 324, 325, 5, 98, 0, 0, 325, 326, 5, 108, 0, 0, 326, 327, 5, 101, 0, 0, 327, 50, 1, 0, 0, 0, 328, 329, 5, 102, 0, 0,
  329, 330, 5, 108, 0, 0, 330, 331, 5, 111, 0, 0, 331, 332, 5, 97, 0, 0, 332, 333, 5, 116, 0, 0, 333, 52, 1, 0, 0, 0, 334, 335, 5, 98, 0, 0, 335,
  336, 5, 121, 0, 0, 336, 337, 5, 116, 0, 0, 337, 338, 5, 101, 0, 0, 338, 339, 5, 115, 0, 0, 339, 54, 1, 0, 0, 0, 340, 341, 5, 114, 0, 0, 341, 342,
  5, 101, 0, 0, 342, 343, 5, 115, 0, 0, 343, 344, 5, 101, 0, 0, 344, 345, 5, 114, 0, 0, 345, 346, 5, 118, 0, 0, 346, 347, 5, 101, 0, 0, 347, 348, 5,
  100, 0, 0, 348, 56, 1, 0, 0, 0, 349, 350, 5, 101, 0, 0, 350, 351, 5, 120, 0, 0, 351, 352, 5, 116, 0, 0, 352, 353, 5, 101, 0, 0, 353, 354, 5, 110,
  0, 0, 354, 355, 5, 115, 0, 0, 355, 356, 5, 105, 0, 0, 356, 357, 5, 111, 0, 0, 357, 358, 5, 110, 0, 0, 358, 359, 5, 115, 0, 0, 359, 58, 1, 0, 0, 0,
  360, 361, 5, 116, 0, 0, 361, 362, 5, 111, 0, 0, 362, 60, 1, 0, 0, 0, 363, 364, 5, 109, 0, 0, 364, 365]

/-- prutalgen/internal/parser/protobuf_lexer.go:80-347: the numbers from position 3584. -/
def lexerAtnData7 : List Nat := [
  5, 97, 0, 0, 365, 366, 5, 120, 0, 0, 366, 62, 1, 0, 0, 0, 367, 368, 5, 101, 0, 0, 368, 369, 5, 110, 0, 0, 369, 370, 5, 117, 0, 0, 370, 371, 5, 109,
  0, 0, 371, 64, 1, 0, 0, 0, 372, 373, 5, 109, 0, 0, 373, 374, 5, 101, 0, 0, 374, 375, 5, 115, 0, 0, 375, 376, 5, 115, 0, 0, 376, 377, 5, 97, 0, 0,
  377, 378, 5, 103, 0, 0, 378, 379, 5, 101, 0, 0, 379, 66, 1, 0, 0, 0, 380, 381, 5, 115, 0, 0, 381, 382, 5, 101, 0, 0, 382, 383, 5, 114, 0, 0, 383,
  384, 5, 118, 0, 0, 384, 385, 5, 105, 0, 0, 385, 386, 5, 99, 0, 0, 386, 387, 5, 101, 0, 0, 387, 68, 1, 0, 0, 0, 388, 389, 5, 101, 0, 0, 389, 390, 5,
  120, 0, 0, 390, 391, 5, 116, 0, 0, 391, 392, 5, 101, 0, 0, 392, 393, 5, 110, 0, 0, 393, 394, 5, 100, 0, 0, 394, 70, 1, 0, 0, 0, 395, 396, 5, 114,
  0, 0, 396, 397, 5, 112, 0, 0, 397, 398, 5, 99, 0, 0, 398, 72, 1, 0, 0, 0, 399, 400, 5, 115, 0, 0, 400, 401, 5, 116, 0, 0, 401, 402, 5, 114, 0, 0,
  402, 403, 5, 101, 0, 0, 403, 404, 5, 97, 0, 0, 404, 405, 5, 109, 0, 0, 405, 74, 1, 0, 0, 0, 406, 407, 5, 114, 0, 0, 407, 408, 5, 101, 0, 0, 408,
  409, 5, 116, 0, 0, 409, 410, 5, 117, 0, 0, 410, 411, 5, 114, 0, 0, 411, 412, 5, 110, 0, 0, 412, 413, 5, 115, 0, 0, 413, 76, 1, 0, 0, 0, 414, 415,
  5, 59, 0, 0, 415, 78, 1, 0, 0, 0, 416, 417, 5, 61, 0, 0, 417, 80, 1, 0, 0, 0, 418, 419, 5, 40, 0, 0, 419, 82, 1, 0, 0, 0, 420, 421, 5, 41, 0, 0,
  421, 84, 1, 0, 0, 0, 422, 423, 5, 91, 0, 0, 423, 86, 1, 0, 0, 0, 424, 425, 5, 93, 0, 0, 425, 88, 1, 0, 0, 0, 426, 427, 5, 123, 0, 0, 427, 90, 1, 0,
  0, 0, 428, 429, 5, 125, 0, 0, 429, 92, 1, 0, 0, 0, 430, 431, 5, 60, 0, 0, 431, 94, 1, 0, 0, 0, 432, 433, 5, 62, 0, 0, 433, 96, 1, 0, 0, 0, 434,
  435, 5, 46, 0, 0, 435, 98, 1, 0, 0, 0, 436, 437, 5, 44, 0, 0, 437, 100, 1, 0, 0, 0, 438, 439, 5, 58, 0, 0, 439, 102, 1, 0, 0, 0, 440, 441, 5, 43,
  0, 0, 441, 104, 1, 0, 0, 0, 442, 443, 5, 45, 0, 0, 443, 106, 1, 0, 0, 0, 444, 448, 5, 39, 0, 0, 445, 447, 3, 109, 54, 0, 446, 445, 1, 0, 0, 0, 447,
  450, 1, 0, 0, 0, 448, 449, 1, 0, 0, 0, 448, 446, 1, 0]

/-- prutalgen/internal/parser/protobuf_lexer.go:80-347: the numbers from position 4096. -/
def lexerAtnData8 : List Nat := [
  0, 0, 449, 451, 1, 0, 0, 0, 450, 448, 1, 0, 0, 0, 451, 461, 5, 39, 0, 0, 452, 456, 5, 34, 0, 0, 453, 455, 3, 109, 54, 0, 454, 453, 1, 0, 0, 0, 455,
  458, 1, 0, 0, 0, 456, 457, 1, 0, 0, 0, 456, 454, 1, 0, 0, 0, 457, 459, 1, 0, 0, 0, 458, 456, 1, 0, 0, 0, 459, 461, 5, 34, 0, 0, 460, 444, 1, 0, 0,
  0, 460, 452, 1, 0, 0, 0, 461, 108, 1, 0, 0, 0, 462, 467, 3, 111, 55, 0, 463, 467, 3, 113, 56, 0, 464, 467, 3, 115, 57, 0, 465, 467, 8, 0, 0, 0,
  466, 462, 1, 0, 0, 0, 466, 463, 1, 0, 0, 0, 466, 464, 1, 0, 0, 0, 466, 465, 1, 0, 0, 0, 467, 110, 1, 0, 0, 0, 468, 469, 5, 92, 0, 0, 469, 470, 7,
  1, 0, 0, 470, 471, 3, 141, 70, 0, 471, 472, 3, 141, 70, 0, 472, 112, 1, 0, 0, 0, 473, 474, 5, 92, 0, 0, 474, 475, 3, 139, 69, 0, 475, 476, 3, 139,
  69, 0, 476, 477, 3, 139, 69, 0, 477, 114, 1, 0, 0, 0, 478, 479, 5, 92, 0, 0, 479, 480, 7, 2, 0, 0, 480, 116, 1, 0, 0, 0, 481, 482, 5, 116, 0, 0,
  482, 483, 5, 114, 0, 0, 483, 484, 5, 117, 0, 0, 484, 491, 5, 101, 0, 0, 485, 486, 5, 102, 0, 0, 486, 487, 5, 97, 0, 0, 487, 488, 5, 108, 0, 0, 488,
  489, 5, 115, 0, 0, 489, 491, 5, 101, 0, 0, 490, 481, 1, 0, 0, 0, 490, 485, 1, 0, 0, 0, 491, 118, 1, 0, 0, 0, 492, 493, 3, 123, 61, 0, 493, 495, 3,
  97, 48, 0, 494, 496, 3, 123, 61, 0, 495, 494, 1, 0, 0, 0, 495, 496, 1, 0, 0, 0, 496, 498, 1, 0, 0, 0, 497, 499, 3, 121, 60, 0, 498, 497, 1, 0, 0,
  0, 498, 499, 1, 0, 0, 0, 499, 509, 1, 0, 0, 0, 500, 501, 3, 123, 61, 0, 501, 502, 3, 121, 60, 0, 502, 509, 1, 0, 0, 0, 503, 504, 3, 97, 48, 0, 504,
  506, 3, 123, 61, 0, 505, 507, 3, 121, 60, 0, 506, 505, 1, 0, 0, 0, 506, 507, 1, 0, 0, 0, 507, 509, 1, 0, 0, 0, 508, 492, 1, 0, 0, 0, 508, 500, 1,
  0, 0, 0, 508, 503, 1, 0, 0, 0, 509, 517, 1, 0, 0, 0, 510, 511, 5, 105, 0, 0, 511, 512, 5, 110, 0, 0, 512, 517, 5, 102, 0, 0, 513, 514, 5, 110, 0,
  0, 514, 515, 5, 97, 0, 0, 515, 517, 5, 110, 0, 0, 516, 508, 1, 0, 0, 0, 516, 510, 1, 0, 0, 0, 516, 513, 1, 0, 0, 0, 517, 120, 1, 0, 0, 0, 518, 521,
  7, 3, 0, 0, 519, 522, 3, 103, 51, 0, 520, 522, 3, 105, 52, 0]

/-- prutalgen/internal/parser/protobuf_lexer.go:80-347: the numbers from position 4608. -/
def lexerAtnData9 : List Nat := [
  521, 519, 1, 0, 0, 0, 521, 520, 1, 0, 0, 0, 521, 522, 1, 0, 0, 0, 522, 523, 1, 0, 0, 0, 523, 524, 3, 123, 61, 0, 524, 122, 1, 0, 0, 0, 525, 527, 3,
  137, 68, 0, 526, 525, 1, 0, 0, 0, 527, 528, 1, 0, 0, 0, 528, 526, 1, 0, 0, 0, 528, 529, 1, 0, 0, 0, 529, 124, 1, 0, 0, 0, 530, 534, 3, 127, 63, 0,
  531, 534, 3, 129, 64, 0, 532, 534, 3, 131, 65, 0, 533, 530, 1, 0, 0, 0, 533, 531, 1, 0, 0, 0, 533, 532, 1, 0, 0, 0, 534, 126, 1, 0, 0, 0, 535, 539,
  7, 4, 0, 0, 536, 538, 3, 137, 68, 0, 537, 536, 1, 0, 0, 0, 538, 541, 1, 0, 0, 0, 539, 537, 1, 0, 0, 0, 539, 540, 1, 0, 0, 0, 540, 128, 1, 0, 0, 0,
  541, 539, 1, 0, 0, 0, 542, 546, 5, 48, 0, 0, 543, 545, 3, 139, 69, 0, 544, 543, 1, 0, 0, 0, 545, 548, 1, 0, 0, 0, 546, 544, 1, 0, 0, 0, 546, 547,
  1, 0, 0, 0, 547, 130, 1, 0, 0, 0, 548, 546, 1, 0, 0, 0, 549, 550, 5, 48, 0, 0, 550, 552, 7, 1, 0, 0, 551, 553, 3, 141, 70, 0, 552, 551, 1, 0, 0, 0,
  553, 554, 1, 0, 0, 0, 554, 552, 1, 0, 0, 0, 554, 555, 1, 0, 0, 0, 555, 132, 1, 0, 0, 0, 556, 561, 3, 135, 67, 0, 557, 560, 3, 135, 67, 0, 558, 560,
  3, 137, 68, 0, 559, 557, 1, 0, 0, 0, 559, 558, 1, 0, 0, 0, 560, 563, 1, 0, 0, 0, 561, 559, 1, 0, 0, 0, 561, 562, 1, 0, 0, 0, 562, 134, 1, 0, 0, 0,
  563, 561, 1, 0, 0, 0, 564, 565, 7, 5, 0, 0, 565, 136, 1, 0, 0, 0, 566, 567, 7, 6, 0, 0, 567, 138, 1, 0, 0, 0, 568, 569, 7, 7, 0, 0, 569, 140, 1, 0,
  0, 0, 570, 571, 7, 8, 0, 0, 571, 142, 1, 0, 0, 0, 572, 574, 7, 9, 0, 0, 573, 572, 1, 0, 0, 0, 574, 575, 1, 0, 0, 0, 575, 573, 1, 0, 0, 0, 575, 576,
  1, 0, 0, 0, 576, 577, 1, 0, 0, 0, 577, 578, 6, 71, 0, 0, 578, 144, 1, 0, 0, 0, 579, 580, 5, 47, 0, 0, 580, 581, 5, 47, 0, 0, 581, 585, 1, 0, 0, 0,
  582, 584, 8, 10, 0, 0, 583, 582, 1, 0, 0, 0, 584, 587, 1, 0, 0, 0, 585, 583, 1, 0, 0, 0, 585, 586, 1, 0, 0, 0, 586, 588, 1, 0, 0, 0, 587, 585, 1,
  0, 0, 0, 588, 589, 6, 72, 1, 0, 589, 146, 1, 0, 0, 0, 590, 591, 5, 47, 0, 0, 591, 592, 5, 42, 0, 0, 592, 596, 1, 0, 0, 0, 593, 595, 9, 0, 0, 0,
  594, 593]

/-- prutalgen/internal/parser/protobuf_lexer.go:80-347: the numbers from position 5120. -/
def lexerAtnData10 : List Nat := [
  1, 0, 0, 0, 595, 598, 1, 0, 0, 0, 596, 597, 1, 0, 0, 0, 596, 594, 1, 0, 0, 0, 597, 599, 1, 0, 0, 0, 598, 596, 1, 0, 0, 0, 599, 600, 5, 42, 0, 0,
  600, 601, 5, 47, 0, 0, 601, 602, 1, 0, 0, 0, 602, 603, 6, 73, 1, 0, 603, 148, 1, 0, 0, 0, 22, 0, 448, 456, 460, 466, 490, 495, 498, 506, 508, 516,
  521, 528, 533, 539, 546, 554, 559, 561, 575, 585, 596, 2, 0, 2, 0, 0, 3, 0]

/-- prutalgen/internal/parser/protobuf_lexer.go:80-347 (`serializedATN`). -/
def lexerAtnData : List Nat := lexerAtnData0 ++ (lexerAtnData1 ++ (lexerAtnData2 ++ (lexerAtnData3 ++ (lexerAtnData4 ++ (lexerAtnData5 ++ (lexerAtnData6 ++ (lexerAtnData7 ++ (lexerAtnData8 ++ (lexerAtnData9 ++ (lexerAtnData10))))))))))

end Verif.Model.Gen.Antlr
