/-!
# The numbers from which the parser is built

They are those of prutalgen/internal/parser/protobuf_parser.go:69-299 (`serializedATN`), -1 written as the `uint32` with the same bits.
-/
namespace Verif.Model.Gen.Antlr

set_option maxRecDepth 20000

/-- prutalgen/internal/parser/protobuf_parser.go:69-299: the numbers from position 0. -/
def parserAtnData0 : List Nat := [
  4, 1, 61, 513, 2, 0, 7, 0, 2, 1, 7, 1, 2, 2, 7, 2, 2, 3, 7, 3, 2, 4, 7, 4, 2, 5, 7, 5, 2, 6, 7, 6, 2, 7, 7, 7, 2, 8, 7, 8, 2, 9, 7, 9, 2, 10, 7,
  10, 2, 11, 7, 11, 2, 12, 7, 12, 2, 13, 7, 13, 2, 14, 7, 14, 2, 15, 7, 15, 2, 16, 7, 16, 2, 17, 7, 17, 2, 18, 7, 18, 2, 19, 7, 19, 2, 20, 7, 20, 2,
  21, 7, 21, 2, 22, 7, 22, 2, 23, 7, 23, 2, 24, 7, 24, 2, 25, 7, 25, 2, 26, 7, 26, 2, 27, 7, 27, 2, 28, 7, 28, 2, 29, 7, 29, 2, 30, 7, 30, 2, 31, 7,
  31, 2, 32, 7, 32, 2, 33, 7, 33, 2, 34, 7, 34, 2, 35, 7, 35, 2, 36, 7, 36, 2, 37, 7, 37, 2, 38, 7, 38, 2, 39, 7, 39, 2, 40, 7, 40, 2, 41, 7, 41, 2,
  42, 7, 42, 2, 43, 7, 43, 2, 44, 7, 44, 2, 45, 7, 45, 2, 46, 7, 46, 2, 47, 7, 47, 2, 48, 7, 48, 2, 49, 7, 49, 2, 50, 7, 50, 2, 51, 7, 51, 2, 52, 7,
  52, 1, 0, 3, 0, 108, 8, 0, 1, 0, 1, 0, 1, 0, 1, 0, 1, 0, 5, 0, 115, 8, 0, 10, 0, 12, 0, 118, 9, 0, 1, 0, 1, 0, 1, 1, 1, 1, 1, 1, 1, 1, 1, 1, 1, 2,
  1, 2, 3, 2, 129, 8, 2, 1, 2, 1, 2, 1, 2, 1, 3, 1, 3, 1, 3, 1, 3, 1, 4, 1, 4, 1, 4, 1, 4, 1, 4, 1, 4, 1, 5, 1, 5, 1, 5, 1, 5, 1, 5, 1, 5, 3, 5, 150,
  8, 5, 3, 5, 152, 8, 5, 1, 6, 1, 6, 1, 7, 3, 7, 157, 8, 7, 1, 7, 1, 7, 1, 7, 1, 7, 1, 7, 1, 7, 1, 7, 1, 7, 3, 7, 167, 8, 7, 1, 7, 1, 7, 1, 8, 1, 8,
  1, 8, 5, 8, 174, 8, 8, 10, 8, 12, 8, 177, 9, 8, 1, 9, 1, 9, 1, 9, 1, 9, 1, 10, 1, 10, 1, 11, 1, 11, 1, 11, 1, 11, 1, 11, 1, 11, 5, 11, 191, 8, 11,
  10, 11, 12, 11, 194, 9, 11, 1, 11, 1, 11, 1, 12, 1, 12, 1, 12, 1, 12, 1, 12, 1, 12, 1, 12, 1, 12, 3, 12, 206, 8, 12, 1, 12, 1, 12, 1, 13, 1, 13, 1,
  13, 1, 13, 1, 13, 1, 13, 1, 13, 1, 13, 1, 13, 1, 13, 1, 13, 1, 13, 1, 13, 3, 13, 223, 8, 13, 1, 13, 1, 13, 1, 14, 1, 14, 1, 15, 1, 15, 1, 15, 1,
  15, 1, 15, 1, 15, 1, 15, 1, 15, 1, 15, 1, 15, 1, 15, 1, 15, 1, 15, 1, 15, 1, 15, 1, 15, 1, 15, 3, 15, 246, 8]

/-- prutalgen/internal/parser/protobuf_parser.go:69-299: the numbers from position 512. -/
def parserAtnData1 : List Nat := [
  15, 1, 16, 1, 16, 1, 16, 3, 16, 251, 8, 16, 1, 16, 1, 16, 1, 17, 1, 17, 1, 17, 1, 17, 1, 17, 1, 17, 3, 17, 261, 8, 17, 1, 17, 1, 17, 1, 18, 1, 18,
  1, 18, 5, 18, 268, 8, 18, 10, 18, 12, 18, 271, 9, 18, 1, 19, 1, 19, 1, 19, 1, 19, 3, 19, 277, 8, 19, 3, 19, 279, 8, 19, 1, 20, 1, 20, 1, 20, 5, 20,
  284, 8, 20, 10, 20, 12, 20, 287, 9, 20, 1, 21, 1, 21, 1, 21, 1, 21, 3, 21, 293, 8, 21, 1, 22, 1, 22, 1, 22, 1, 22, 1, 23, 1, 23, 5, 23, 301, 8, 23,
  10, 23, 12, 23, 304, 9, 23, 1, 23, 1, 23, 1, 24, 1, 24, 1, 24, 1, 24, 3, 24, 312, 8, 24, 1, 25, 1, 25, 1, 25, 3, 25, 317, 8, 25, 1, 25, 1, 25, 3,
  25, 321, 8, 25, 1, 25, 1, 25, 1, 26, 1, 26, 1, 26, 1, 26, 5, 26, 329, 8, 26, 10, 26, 12, 26, 332, 9, 26, 1, 26, 1, 26, 1, 27, 1, 27, 1, 27, 1, 27,
  1, 28, 1, 28, 1, 28, 1, 28, 1, 29, 1, 29, 5, 29, 346, 8, 29, 10, 29, 12, 29, 349, 9, 29, 1, 29, 1, 29, 1, 30, 1, 30, 1, 30, 1, 30, 1, 30, 1, 30, 1,
  30, 1, 30, 1, 30, 1, 30, 3, 30, 363, 8, 30, 1, 31, 1, 31, 1, 31, 1, 31, 1, 31, 5, 31, 370, 8, 31, 10, 31, 12, 31, 373, 9, 31, 1, 31, 1, 31, 1, 32,
  1, 32, 1, 32, 1, 32, 5, 32, 381, 8, 32, 10, 32, 12, 32, 384, 9, 32, 1, 32, 1, 32, 1, 33, 1, 33, 1, 33, 3, 33, 391, 8, 33, 1, 34, 1, 34, 1, 34, 1,
  34, 3, 34, 397, 8, 34, 1, 34, 1, 34, 1, 34, 1, 34, 1, 34, 3, 34, 404, 8, 34, 1, 34, 1, 34, 1, 34, 1, 34, 1, 34, 5, 34, 411, 8, 34, 10, 34, 12, 34,
  414, 9, 34, 1, 34, 1, 34, 3, 34, 418, 8, 34, 1, 35, 1, 35, 3, 35, 422, 8, 35, 1, 35, 1, 35, 3, 35, 426, 8, 35, 1, 35, 1, 35, 1, 35, 1, 35, 3, 35,
  432, 8, 35, 1, 36, 1, 36, 1, 36, 1, 36, 1, 36, 3, 36, 439, 8, 36, 5, 36, 441, 8, 36, 10, 36, 12, 36, 444, 9, 36, 1, 36, 1, 36, 1, 37, 1, 37, 1, 38,
  1, 38, 3, 38, 452, 8, 38, 1, 39, 1, 39, 1, 39, 5, 39, 457, 8, 39, 10, 39, 12, 39, 460, 9, 39, 1, 40, 1, 40, 1, 41, 1, 41, 1, 42, 1, 42, 1, 43, 1,
  43, 1, 44, 1, 44, 1, 45, 1, 45, 1, 46, 3, 46, 475, 8, 46, 1, 46, 1, 46, 1, 46, 5, 46, 480, 8, 46, 10, 46, 12]

/-- prutalgen/internal/parser/protobuf_parser.go:69-299: the numbers from position 1024. -/
def parserAtnData2 : List Nat := [
  46, 483, 9, 46, 1, 46, 1, 46, 1, 47, 3, 47, 488, 8, 47, 1, 47, 1, 47, 1, 47, 5, 47, 493, 8, 47, 10, 47, 12, 47, 496, 9, 47, 1, 47, 1, 47, 1, 48, 1,
  48, 1, 49, 4, 49, 503, 8, 49, 11, 49, 12, 49, 504, 1, 50, 1, 50, 1, 51, 1, 51, 1, 52, 1, 52, 1, 52, 0, 0, 53, 0, 2, 4, 6, 8, 10, 12, 14, 16, 18,
  20, 22, 24, 26, 28, 30, 32, 34, 36, 38, 40, 42, 44, 46, 48, 50, 52, 54, 56, 58, 60, 62, 64, 66, 68, 70, 72, 74, 76, 78, 80, 82, 84, 86, 88, 90, 92,
  94, 96, 98, 100, 102, 104, 0, 7, 1, 0, 1, 2, 1, 0, 4, 5, 1, 0, 8, 10, 1, 0, 13, 24, 1, 0, 52, 53, 2, 0, 39, 39, 50, 50, 3, 0, 1, 8, 10, 38, 55, 55,
  544, 0, 107, 1, 0, 0, 0, 2, 121, 1, 0, 0, 0, 4, 126, 1, 0, 0, 0, 6, 133, 1, 0, 0, 0, 8, 137, 1, 0, 0, 0, 10, 151, 1, 0, 0, 0, 12, 153, 1, 0, 0, 0,
  14, 156, 1, 0, 0, 0, 16, 170, 1, 0, 0, 0, 18, 178, 1, 0, 0, 0, 20, 182, 1, 0, 0, 0, 22, 184, 1, 0, 0, 0, 24, 197, 1, 0, 0, 0, 26, 209, 1, 0, 0, 0,
  28, 226, 1, 0, 0, 0, 30, 245, 1, 0, 0, 0, 32, 247, 1, 0, 0, 0, 34, 254, 1, 0, 0, 0, 36, 264, 1, 0, 0, 0, 38, 272, 1, 0, 0, 0, 40, 280, 1, 0, 0, 0,
  42, 292, 1, 0, 0, 0, 44, 294, 1, 0, 0, 0, 46, 298, 1, 0, 0, 0, 48, 311, 1, 0, 0, 0, 50, 313, 1, 0, 0, 0, 52, 324, 1, 0, 0, 0, 54, 335, 1, 0, 0, 0,
  56, 339, 1, 0, 0, 0, 58, 343, 1, 0, 0, 0, 60, 362, 1, 0, 0, 0, 62, 364, 1, 0, 0, 0, 64, 376, 1, 0, 0, 0, 66, 390, 1, 0, 0, 0, 68, 392, 1, 0, 0, 0,
  70, 431, 1, 0, 0, 0, 72, 433, 1, 0, 0, 0, 74, 447, 1, 0, 0, 0, 76, 451, 1, 0, 0, 0, 78, 453, 1, 0, 0, 0, 80, 461, 1, 0, 0, 0, 82, 463, 1, 0, 0, 0,
  84, 465, 1, 0, 0, 0, 86, 467, 1, 0, 0, 0, 88, 469, 1, 0, 0, 0, 90, 471, 1, 0, 0, 0, 92, 474, 1, 0, 0, 0, 94, 487, 1, 0, 0, 0, 96, 499, 1, 0, 0, 0,
  98, 502, 1, 0, 0, 0, 100, 506, 1, 0, 0, 0, 102, 508, 1, 0, 0, 0, 104, 510, 1, 0, 0, 0, 106, 108, 3, 2, 1, 0, 107, 106, 1, 0, 0, 0, 107, 108, 1, 0,
  0, 0, 108, 116, 1, 0, 0, 0, 109, 115, 3, 4, 2, 0, 110, 115, 3, 6]

/-- prutalgen/internal/parser/protobuf_parser.go:69-299: the numbers from position 1536. -/
def parserAtnData3 : List Nat := [
  3, 0, 111, 115, 3, 8, 4, 0, 112, 115, 3, 42, 21, 0, 113, 115, 3, 74, 37, 0, 114, 109, 1, 0, 0, 0, 114, 110, 1, 0, 0, 0, 114, 111, 1, 0, 0, 0, 114,
  112, 1, 0, 0, 0, 114, 113, 1, 0, 0, 0, 115, 118, 1, 0, 0, 0, 116, 114, 1, 0, 0, 0, 116, 117, 1, 0, 0, 0, 117, 119, 1, 0, 0, 0, 118, 116, 1, 0, 0,
  0, 119, 120, 5, 0, 0, 1, 120, 1, 1, 0, 0, 0, 121, 122, 7, 0, 0, 0, 122, 123, 5, 40, 0, 0, 123, 124, 3, 98, 49, 0, 124, 125, 5, 39, 0, 0, 125, 3, 1,
  0, 0, 0, 126, 128, 5, 3, 0, 0, 127, 129, 7, 1, 0, 0, 128, 127, 1, 0, 0, 0, 128, 129, 1, 0, 0, 0, 129, 130, 1, 0, 0, 0, 130, 131, 3, 98, 49, 0, 131,
  132, 5, 39, 0, 0, 132, 5, 1, 0, 0, 0, 133, 134, 5, 6, 0, 0, 134, 135, 3, 78, 39, 0, 135, 136, 5, 39, 0, 0, 136, 7, 1, 0, 0, 0, 137, 138, 5, 7, 0,
  0, 138, 139, 3, 10, 5, 0, 139, 140, 5, 40, 0, 0, 140, 141, 3, 70, 35, 0, 141, 142, 5, 39, 0, 0, 142, 9, 1, 0, 0, 0, 143, 152, 3, 78, 39, 0, 144,
  145, 5, 41, 0, 0, 145, 146, 3, 78, 39, 0, 146, 149, 5, 42, 0, 0, 147, 148, 5, 49, 0, 0, 148, 150, 3, 78, 39, 0, 149, 147, 1, 0, 0, 0, 149, 150, 1,
  0, 0, 0, 150, 152, 1, 0, 0, 0, 151, 143, 1, 0, 0, 0, 151, 144, 1, 0, 0, 0, 152, 11, 1, 0, 0, 0, 153, 154, 7, 2, 0, 0, 154, 13, 1, 0, 0, 0, 155,
  157, 3, 12, 6, 0, 156, 155, 1, 0, 0, 0, 156, 157, 1, 0, 0, 0, 157, 158, 1, 0, 0, 0, 158, 159, 3, 30, 15, 0, 159, 160, 3, 84, 42, 0, 160, 161, 5,
  40, 0, 0, 161, 166, 3, 20, 10, 0, 162, 163, 5, 43, 0, 0, 163, 164, 3, 16, 8, 0, 164, 165, 5, 44, 0, 0, 165, 167, 1, 0, 0, 0, 166, 162, 1, 0, 0, 0,
  166, 167, 1, 0, 0, 0, 167, 168, 1, 0, 0, 0, 168, 169, 5, 39, 0, 0, 169, 15, 1, 0, 0, 0, 170, 175, 3, 18, 9, 0, 171, 172, 5, 50, 0, 0, 172, 174, 3,
  18, 9, 0, 173, 171, 1, 0, 0, 0, 174, 177, 1, 0, 0, 0, 175, 173, 1, 0, 0, 0, 175, 176, 1, 0, 0, 0, 176, 17, 1, 0, 0, 0, 177, 175, 1, 0, 0, 0, 178,
  179, 3, 10, 5, 0, 179, 180, 5, 40, 0, 0, 180, 181, 3, 70, 35, 0, 181, 19, 1, 0, 0, 0, 182, 183, 3, 96, 48, 0, 183, 21, 1, 0, 0, 0, 184, 185, 5, 11,
  0, 0]

/-- prutalgen/internal/parser/protobuf_parser.go:69-299: the numbers from position 2048. -/
def parserAtnData4 : List Nat := [
  185, 186, 3, 86, 43, 0, 186, 192, 5, 45, 0, 0, 187, 191, 3, 8, 4, 0, 188, 191, 3, 24, 12, 0, 189, 191, 3, 74, 37, 0, 190, 187, 1, 0, 0, 0, 190,
  188, 1, 0, 0, 0, 190, 189, 1, 0, 0, 0, 191, 194, 1, 0, 0, 0, 192, 190, 1, 0, 0, 0, 192, 193, 1, 0, 0, 0, 193, 195, 1, 0, 0, 0, 194, 192, 1, 0, 0,
  0, 195, 196, 5, 46, 0, 0, 196, 23, 1, 0, 0, 0, 197, 198, 3, 30, 15, 0, 198, 199, 3, 84, 42, 0, 199, 200, 5, 40, 0, 0, 200, 205, 3, 20, 10, 0, 201,
  202, 5, 43, 0, 0, 202, 203, 3, 16, 8, 0, 203, 204, 5, 44, 0, 0, 204, 206, 1, 0, 0, 0, 205, 201, 1, 0, 0, 0, 205, 206, 1, 0, 0, 0, 206, 207, 1, 0,
  0, 0, 207, 208, 5, 39, 0, 0, 208, 25, 1, 0, 0, 0, 209, 210, 5, 12, 0, 0, 210, 211, 5, 47, 0, 0, 211, 212, 3, 28, 14, 0, 212, 213, 5, 50, 0, 0, 213,
  214, 3, 30, 15, 0, 214, 215, 5, 48, 0, 0, 215, 216, 3, 84, 42, 0, 216, 217, 5, 40, 0, 0, 217, 222, 3, 20, 10, 0, 218, 219, 5, 43, 0, 0, 219, 220,
  3, 16, 8, 0, 220, 221, 5, 44, 0, 0, 221, 223, 1, 0, 0, 0, 222, 218, 1, 0, 0, 0, 222, 223, 1, 0, 0, 0, 223, 224, 1, 0, 0, 0, 224, 225, 5, 39, 0, 0,
  225, 27, 1, 0, 0, 0, 226, 227, 7, 3, 0, 0, 227, 29, 1, 0, 0, 0, 228, 246, 5, 25, 0, 0, 229, 246, 5, 26, 0, 0, 230, 246, 5, 13, 0, 0, 231, 246, 5,
  14, 0, 0, 232, 246, 5, 15, 0, 0, 233, 246, 5, 16, 0, 0, 234, 246, 5, 17, 0, 0, 235, 246, 5, 18, 0, 0, 236, 246, 5, 19, 0, 0, 237, 246, 5, 20, 0, 0,
  238, 246, 5, 21, 0, 0, 239, 246, 5, 22, 0, 0, 240, 246, 5, 23, 0, 0, 241, 246, 5, 24, 0, 0, 242, 246, 5, 27, 0, 0, 243, 246, 3, 92, 46, 0, 244,
  246, 3, 94, 47, 0, 245, 228, 1, 0, 0, 0, 245, 229, 1, 0, 0, 0, 245, 230, 1, 0, 0, 0, 245, 231, 1, 0, 0, 0, 245, 232, 1, 0, 0, 0, 245, 233, 1, 0, 0,
  0, 245, 234, 1, 0, 0, 0, 245, 235, 1, 0, 0, 0, 245, 236, 1, 0, 0, 0, 245, 237, 1, 0, 0, 0, 245, 238, 1, 0, 0, 0, 245, 239, 1, 0, 0, 0, 245, 240, 1,
  0, 0, 0, 245, 241, 1, 0, 0, 0, 245, 242, 1, 0, 0, 0, 245, 243, 1, 0, 0, 0, 245, 244, 1, 0, 0, 0, 246, 31, 1, 0, 0, 0, 247, 250, 5, 28, 0, 0, 248,
  251, 3, 36, 18, 0, 249, 251]

/-- prutalgen/internal/parser/protobuf_parser.go:69-299: the numbers from position 2560. -/
def parserAtnData5 : List Nat := [
  3, 40, 20, 0, 250, 248, 1, 0, 0, 0, 250, 249, 1, 0, 0, 0, 251, 252, 1, 0, 0, 0, 252, 253, 5, 39, 0, 0, 253, 33, 1, 0, 0, 0, 254, 255, 5, 29, 0, 0,
  255, 260, 3, 36, 18, 0, 256, 257, 5, 43, 0, 0, 257, 258, 3, 16, 8, 0, 258, 259, 5, 44, 0, 0, 259, 261, 1, 0, 0, 0, 260, 256, 1, 0, 0, 0, 260, 261,
  1, 0, 0, 0, 261, 262, 1, 0, 0, 0, 262, 263, 5, 39, 0, 0, 263, 35, 1, 0, 0, 0, 264, 269, 3, 38, 19, 0, 265, 266, 5, 50, 0, 0, 266, 268, 3, 38, 19,
  0, 267, 265, 1, 0, 0, 0, 268, 271, 1, 0, 0, 0, 269, 267, 1, 0, 0, 0, 269, 270, 1, 0, 0, 0, 270, 37, 1, 0, 0, 0, 271, 269, 1, 0, 0, 0, 272, 278, 3,
  96, 48, 0, 273, 276, 5, 30, 0, 0, 274, 277, 3, 96, 48, 0, 275, 277, 5, 31, 0, 0, 276, 274, 1, 0, 0, 0, 276, 275, 1, 0, 0, 0, 277, 279, 1, 0, 0, 0,
  278, 273, 1, 0, 0, 0, 278, 279, 1, 0, 0, 0, 279, 39, 1, 0, 0, 0, 280, 285, 3, 98, 49, 0, 281, 282, 5, 50, 0, 0, 282, 284, 3, 98, 49, 0, 283, 281,
  1, 0, 0, 0, 284, 287, 1, 0, 0, 0, 285, 283, 1, 0, 0, 0, 285, 286, 1, 0, 0, 0, 286, 41, 1, 0, 0, 0, 287, 285, 1, 0, 0, 0, 288, 293, 3, 56, 28, 0,
  289, 293, 3, 44, 22, 0, 290, 293, 3, 62, 31, 0, 291, 293, 3, 64, 32, 0, 292, 288, 1, 0, 0, 0, 292, 289, 1, 0, 0, 0, 292, 290, 1, 0, 0, 0, 292, 291,
  1, 0, 0, 0, 293, 43, 1, 0, 0, 0, 294, 295, 5, 32, 0, 0, 295, 296, 3, 82, 41, 0, 296, 297, 3, 46, 23, 0, 297, 45, 1, 0, 0, 0, 298, 302, 5, 45, 0, 0,
  299, 301, 3, 48, 24, 0, 300, 299, 1, 0, 0, 0, 301, 304, 1, 0, 0, 0, 302, 300, 1, 0, 0, 0, 302, 303, 1, 0, 0, 0, 303, 305, 1, 0, 0, 0, 304, 302, 1,
  0, 0, 0, 305, 306, 5, 46, 0, 0, 306, 47, 1, 0, 0, 0, 307, 312, 3, 8, 4, 0, 308, 312, 3, 50, 25, 0, 309, 312, 3, 32, 16, 0, 310, 312, 3, 74, 37, 0,
  311, 307, 1, 0, 0, 0, 311, 308, 1, 0, 0, 0, 311, 309, 1, 0, 0, 0, 311, 310, 1, 0, 0, 0, 312, 49, 1, 0, 0, 0, 313, 314, 3, 76, 38, 0, 314, 316, 5,
  40, 0, 0, 315, 317, 5, 53, 0, 0, 316, 315, 1, 0, 0, 0, 316, 317, 1, 0, 0, 0, 317, 318, 1, 0, 0, 0, 318, 320, 3, 96, 48, 0, 319, 321, 3, 52, 26, 0,
  320, 319, 1, 0]

/-- prutalgen/internal/parser/protobuf_parser.go:69-299: the numbers from position 3072. -/
def parserAtnData6 : List Nat := [
  0, 0, 320, 321, 1, 0, 0, 0, 321, 322, 1, 0, 0, 0, 322, 323, 5, 39, 0, 0, 323, 51, 1, 0, 0, 0, 324, 325, 5, 43, 0, 0, 325, 330, 3, 54, 27, 0, 326,
  327, 5, 50, 0, 0, 327, 329, 3, 54, 27, 0, 328, 326, 1, 0, 0, 0, 329, 332, 1, 0, 0, 0, 330, 328, 1, 0, 0, 0, 330, 331, 1, 0, 0, 0, 331, 333, 1, 0,
  0, 0, 332, 330, 1, 0, 0, 0, 333, 334, 5, 44, 0, 0, 334, 53, 1, 0, 0, 0, 335, 336, 3, 10, 5, 0, 336, 337, 5, 40, 0, 0, 337, 338, 3, 70, 35, 0, 338,
  55, 1, 0, 0, 0, 339, 340, 5, 33, 0, 0, 340, 341, 3, 80, 40, 0, 341, 342, 3, 58, 29, 0, 342, 57, 1, 0, 0, 0, 343, 347, 5, 45, 0, 0, 344, 346, 3, 60,
  30, 0, 345, 344, 1, 0, 0, 0, 346, 349, 1, 0, 0, 0, 347, 345, 1, 0, 0, 0, 347, 348, 1, 0, 0, 0, 348, 350, 1, 0, 0, 0, 349, 347, 1, 0, 0, 0, 350,
  351, 5, 46, 0, 0, 351, 59, 1, 0, 0, 0, 352, 363, 3, 14, 7, 0, 353, 363, 3, 44, 22, 0, 354, 363, 3, 56, 28, 0, 355, 363, 3, 62, 31, 0, 356, 363, 3,
  8, 4, 0, 357, 363, 3, 22, 11, 0, 358, 363, 3, 26, 13, 0, 359, 363, 3, 32, 16, 0, 360, 363, 3, 34, 17, 0, 361, 363, 3, 74, 37, 0, 362, 352, 1, 0, 0,
  0, 362, 353, 1, 0, 0, 0, 362, 354, 1, 0, 0, 0, 362, 355, 1, 0, 0, 0, 362, 356, 1, 0, 0, 0, 362, 357, 1, 0, 0, 0, 362, 358, 1, 0, 0, 0, 362, 359, 1,
  0, 0, 0, 362, 360, 1, 0, 0, 0, 362, 361, 1, 0, 0, 0, 363, 61, 1, 0, 0, 0, 364, 365, 5, 35, 0, 0, 365, 366, 3, 92, 46, 0, 366, 371, 5, 45, 0, 0,
  367, 370, 3, 14, 7, 0, 368, 370, 3, 74, 37, 0, 369, 367, 1, 0, 0, 0, 369, 368, 1, 0, 0, 0, 370, 373, 1, 0, 0, 0, 371, 369, 1, 0, 0, 0, 371, 372, 1,
  0, 0, 0, 372, 374, 1, 0, 0, 0, 373, 371, 1, 0, 0, 0, 374, 375, 5, 46, 0, 0, 375, 63, 1, 0, 0, 0, 376, 377, 5, 34, 0, 0, 377, 378, 3, 88, 44, 0,
  378, 382, 5, 45, 0, 0, 379, 381, 3, 66, 33, 0, 380, 379, 1, 0, 0, 0, 381, 384, 1, 0, 0, 0, 382, 380, 1, 0, 0, 0, 382, 383, 1, 0, 0, 0, 383, 385, 1,
  0, 0, 0, 384, 382, 1, 0, 0, 0, 385, 386, 5, 46, 0, 0, 386, 65, 1, 0, 0, 0, 387, 391, 3, 8, 4, 0, 388, 391, 3, 68, 34, 0, 389, 391, 3, 74, 37, 0,
  390, 387, 1, 0, 0, 0]

/-- prutalgen/internal/parser/protobuf_parser.go:69-299: the numbers from position 3584. -/
def parserAtnData7 : List Nat := [
  390, 388, 1, 0, 0, 0, 390, 389, 1, 0, 0, 0, 391, 67, 1, 0, 0, 0, 392, 393, 5, 36, 0, 0, 393, 394, 3, 90, 45, 0, 394, 396, 5, 41, 0, 0, 395, 397, 5,
  37, 0, 0, 396, 395, 1, 0, 0, 0, 396, 397, 1, 0, 0, 0, 397, 398, 1, 0, 0, 0, 398, 399, 3, 92, 46, 0, 399, 400, 5, 42, 0, 0, 400, 401, 5, 38, 0, 0,
  401, 403, 5, 41, 0, 0, 402, 404, 5, 37, 0, 0, 403, 402, 1, 0, 0, 0, 403, 404, 1, 0, 0, 0, 404, 405, 1, 0, 0, 0, 405, 406, 3, 92, 46, 0, 406, 417,
  5, 42, 0, 0, 407, 412, 5, 45, 0, 0, 408, 411, 3, 8, 4, 0, 409, 411, 3, 74, 37, 0, 410, 408, 1, 0, 0, 0, 410, 409, 1, 0, 0, 0, 411, 414, 1, 0, 0, 0,
  412, 410, 1, 0, 0, 0, 412, 413, 1, 0, 0, 0, 413, 415, 1, 0, 0, 0, 414, 412, 1, 0, 0, 0, 415, 418, 5, 46, 0, 0, 416, 418, 5, 39, 0, 0, 417, 407, 1,
  0, 0, 0, 417, 416, 1, 0, 0, 0, 418, 69, 1, 0, 0, 0, 419, 432, 3, 78, 39, 0, 420, 422, 7, 4, 0, 0, 421, 420, 1, 0, 0, 0, 421, 422, 1, 0, 0, 0, 422,
  423, 1, 0, 0, 0, 423, 432, 3, 96, 48, 0, 424, 426, 7, 4, 0, 0, 425, 424, 1, 0, 0, 0, 425, 426, 1, 0, 0, 0, 426, 427, 1, 0, 0, 0, 427, 432, 3, 102,
  51, 0, 428, 432, 3, 98, 49, 0, 429, 432, 3, 100, 50, 0, 430, 432, 3, 72, 36, 0, 431, 419, 1, 0, 0, 0, 431, 421, 1, 0, 0, 0, 431, 425, 1, 0, 0, 0,
  431, 428, 1, 0, 0, 0, 431, 429, 1, 0, 0, 0, 431, 430, 1, 0, 0, 0, 432, 71, 1, 0, 0, 0, 433, 442, 5, 45, 0, 0, 434, 435, 3, 76, 38, 0, 435, 436, 5,
  51, 0, 0, 436, 438, 3, 70, 35, 0, 437, 439, 7, 5, 0, 0, 438, 437, 1, 0, 0, 0, 438, 439, 1, 0, 0, 0, 439, 441, 1, 0, 0, 0, 440, 434, 1, 0, 0, 0,
  441, 444, 1, 0, 0, 0, 442, 440, 1, 0, 0, 0, 442, 443, 1, 0, 0, 0, 443, 445, 1, 0, 0, 0, 444, 442, 1, 0, 0, 0, 445, 446, 5, 46, 0, 0, 446, 73, 1, 0,
  0, 0, 447, 448, 5, 39, 0, 0, 448, 75, 1, 0, 0, 0, 449, 452, 5, 58, 0, 0, 450, 452, 3, 104, 52, 0, 451, 449, 1, 0, 0, 0, 451, 450, 1, 0, 0, 0, 452,
  77, 1, 0, 0, 0, 453, 458, 3, 76, 38, 0, 454, 455, 5, 49, 0, 0, 455, 457, 3, 76, 38, 0, 456, 454, 1, 0, 0, 0, 457, 460, 1, 0, 0, 0, 458, 456, 1, 0,
  0, 0, 458, 459]

/-- prutalgen/internal/parser/protobuf_parser.go:69-299: the numbers from position 4096. -/
def parserAtnData8 : List Nat := [
  1, 0, 0, 0, 459, 79, 1, 0, 0, 0, 460, 458, 1, 0, 0, 0, 461, 462, 3, 76, 38, 0, 462, 81, 1, 0, 0, 0, 463, 464, 3, 76, 38, 0, 464, 83, 1, 0, 0, 0,
  465, 466, 3, 76, 38, 0, 466, 85, 1, 0, 0, 0, 467, 468, 3, 76, 38, 0, 468, 87, 1, 0, 0, 0, 469, 470, 3, 76, 38, 0, 470, 89, 1, 0, 0, 0, 471, 472, 3,
  76, 38, 0, 472, 91, 1, 0, 0, 0, 473, 475, 5, 49, 0, 0, 474, 473, 1, 0, 0, 0, 474, 475, 1, 0, 0, 0, 475, 481, 1, 0, 0, 0, 476, 477, 3, 76, 38, 0,
  477, 478, 5, 49, 0, 0, 478, 480, 1, 0, 0, 0, 479, 476, 1, 0, 0, 0, 480, 483, 1, 0, 0, 0, 481, 479, 1, 0, 0, 0, 481, 482, 1, 0, 0, 0, 482, 484, 1,
  0, 0, 0, 483, 481, 1, 0, 0, 0, 484, 485, 3, 80, 40, 0, 485, 93, 1, 0, 0, 0, 486, 488, 5, 49, 0, 0, 487, 486, 1, 0, 0, 0, 487, 488, 1, 0, 0, 0, 488,
  494, 1, 0, 0, 0, 489, 490, 3, 76, 38, 0, 490, 491, 5, 49, 0, 0, 491, 493, 1, 0, 0, 0, 492, 489, 1, 0, 0, 0, 493, 496, 1, 0, 0, 0, 494, 492, 1, 0,
  0, 0, 494, 495, 1, 0, 0, 0, 495, 497, 1, 0, 0, 0, 496, 494, 1, 0, 0, 0, 497, 498, 3, 82, 41, 0, 498, 95, 1, 0, 0, 0, 499, 500, 5, 57, 0, 0, 500,
  97, 1, 0, 0, 0, 501, 503, 5, 54, 0, 0, 502, 501, 1, 0, 0, 0, 503, 504, 1, 0, 0, 0, 504, 502, 1, 0, 0, 0, 504, 505, 1, 0, 0, 0, 505, 99, 1, 0, 0, 0,
  506, 507, 5, 55, 0, 0, 507, 101, 1, 0, 0, 0, 508, 509, 5, 56, 0, 0, 509, 103, 1, 0, 0, 0, 510, 511, 7, 6, 0, 0, 511, 105, 1, 0, 0, 0, 49, 107, 114,
  116, 128, 149, 151, 156, 166, 175, 190, 192, 205, 222, 245, 250, 260, 269, 276, 278, 285, 292, 302, 311, 316, 320, 330, 347, 362, 369, 371, 382,
  390, 396, 403, 410, 412, 417, 421, 425, 431, 438, 442, 451, 458, 474, 481, 487, 494, 504]

/-- prutalgen/internal/parser/protobuf_parser.go:69-299 (`serializedATN`). -/
def parserAtnData : List Nat := parserAtnData0 ++ (parserAtnData1 ++ (parserAtnData2 ++ (parserAtnData3 ++ (parserAtnData4 ++ (parserAtnData5 ++ (parserAtnData6 ++ (parserAtnData7 ++ (parserAtnData8))))))))

end Verif.Model.Gen.Antlr
