import Verif.Lemmas.Gen.Antlr.Tree
import Verif.Model.Gen.Antlr.LexerData
/-!
# The automaton of the lexer, as a tree

`lexerAtn_eq` checks that this is what the deserializer makes of the data in protobuf_lexer.go.
-/
namespace Verif.Lemmas.Gen.Antlr
open Verif.Model.Gen.Antlr

def atnTree0 : Tree State :=
  (.node (.node (.node (.node (.node .leaf 0 ⟨6, 4294967295, none, false, false, (some 0), true, [.epsilon 1, .epsilon 3, .epsilon 5, .epsilon 7, .epsilon 9, .epsilon 11, .epsilon 13, 
      .epsilon 15, .epsilon 17, .epsilon 19, .epsilon 21, .epsilon 23, .epsilon 25, .epsilon 27, .epsilon 29, .epsilon 31, .epsilon 33, 
      .epsilon 35, .epsilon 37, .epsilon 39, .epsilon 41, .epsilon 43, .epsilon 45, .epsilon 47, .epsilon 49, .epsilon 51, .epsilon 53, 
      .epsilon 55, .epsilon 57, .epsilon 59, .epsilon 61, .epsilon 63, .epsilon 65, .epsilon 67, .epsilon 69, .epsilon 71, .epsilon 73, 
      .epsilon 75, .epsilon 77, .epsilon 79, .epsilon 81, .epsilon 83, .epsilon 85, .epsilon 87, .epsilon 89, .epsilon 91, .epsilon 93, 
      .epsilon 95, .epsilon 97, .epsilon 99, .epsilon 101, .epsilon 103, .epsilon 105, .epsilon 107, .epsilon 117, .epsilon 119, .epsilon 125, 
      .epsilon 133, .epsilon 143, .epsilon 145, .epsilon 147]⟩ .leaf) 1
      ⟨2, 0, none, false, false, none, true, [.epsilon 149]⟩
      .leaf) 2
     ⟨7, 0, none, false, false, none, false, []⟩
     (.node .leaf 3 ⟨2, 1, none, false, false, none, true, [.epsilon 156]⟩ .leaf)) 4
    ⟨7, 1, none, false, false, none, false, []⟩
    (.node (.node (.node .leaf 5 ⟨2, 2, none, false, false, none, true, [.epsilon 164]⟩ .leaf) 6
      ⟨7, 2, none, false, false, none, false, []⟩
      .leaf) 7
     ⟨2, 3, none, false, false, none, true, [.epsilon 171]⟩
     (.node .leaf 8 ⟨7, 3, none, false, false, none, false, []⟩ .leaf))) 9
   ⟨2, 4, none, false, false, none, true, [.epsilon 176]⟩
   (.node (.node (.node (.node .leaf 10 ⟨7, 4, none, false, false, none, false, []⟩ .leaf) 11
      ⟨2, 5, none, false, false, none, true, [.epsilon 183]⟩
      .leaf) 12
     ⟨7, 5, none, false, false, none, false, []⟩
     (.node .leaf 13 ⟨2, 6, none, false, false, none, true, [.epsilon 191]⟩ .leaf)) 14
    ⟨7, 6, none, false, false, none, false, []⟩
    (.node (.node .leaf 15 ⟨2, 7, none, false, false, none, true, [.epsilon 198]⟩ .leaf) 16
     ⟨7, 7, none, false, false, none, false, []⟩
     (.node .leaf 17 ⟨2, 8, none, false, false, none, true, [.epsilon 207]⟩ .leaf))))

def atnTree1 : Tree State :=
  (.node (.node (.node (.node (.node .leaf 19 ⟨2, 9, none, false, false, none, true, [.epsilon 216]⟩ .leaf) 20
      ⟨7, 9, none, false, false, none, false, []⟩
      .leaf) 21
     ⟨2, 10, none, false, false, none, true, [.epsilon 225]⟩
     (.node .leaf 22 ⟨7, 10, none, false, false, none, false, []⟩ .leaf)) 23
    ⟨2, 11, none, false, false, none, true, [.epsilon 231]⟩
    (.node (.node (.node .leaf 24 ⟨7, 11, none, false, false, none, false, []⟩ .leaf) 25
      ⟨2, 12, none, false, false, none, true, [.epsilon 235]⟩
      .leaf) 26
     ⟨7, 12, none, false, false, none, false, []⟩
     (.node .leaf 27 ⟨2, 13, none, false, false, none, true, [.epsilon 241]⟩ .leaf))) 28
   ⟨7, 13, none, false, false, none, false, []⟩
   (.node (.node (.node (.node .leaf 29 ⟨2, 14, none, false, false, none, true, [.epsilon 247]⟩ .leaf) 30
      ⟨7, 14, none, false, false, none, false, []⟩
      .leaf) 31
     ⟨2, 15, none, false, false, none, true, [.epsilon 254]⟩
     (.node .leaf 32 ⟨7, 15, none, false, false, none, false, []⟩ .leaf)) 33
    ⟨2, 16, none, false, false, none, true, [.epsilon 261]⟩
    (.node (.node .leaf 34 ⟨7, 16, none, false, false, none, false, []⟩ .leaf) 35
     ⟨2, 17, none, false, false, none, true, [.epsilon 268]⟩
     (.node .leaf 36 ⟨7, 17, none, false, false, none, false, []⟩ .leaf))))

def atnTree2 : Tree State :=
  .node atnTree0 18
    ⟨7, 8, none, false, false, none, false, []⟩
    atnTree1

def atnTree3 : Tree State :=
  (.node (.node (.node (.node (.node .leaf 38 ⟨7, 18, none, false, false, none, false, []⟩ .leaf) 39
      ⟨2, 19, none, false, false, none, true, [.epsilon 283]⟩
      .leaf) 40
     ⟨7, 19, none, false, false, none, false, []⟩
     (.node .leaf 41 ⟨2, 20, none, false, false, none, true, [.epsilon 291]⟩ .leaf)) 42
    ⟨7, 20, none, false, false, none, false, []⟩
    (.node (.node (.node .leaf 43 ⟨2, 21, none, false, false, none, true, [.epsilon 300]⟩ .leaf) 44
      ⟨7, 21, none, false, false, none, false, []⟩
      .leaf) 45
     ⟨2, 22, none, false, false, none, true, [.epsilon 309]⟩
     (.node .leaf 46 ⟨7, 22, none, false, false, none, false, []⟩ .leaf))) 47
   ⟨2, 23, none, false, false, none, true, [.epsilon 314]⟩
   (.node (.node (.node (.node .leaf 48 ⟨7, 23, none, false, false, none, false, []⟩ .leaf) 49
      ⟨2, 24, none, false, false, none, true, [.epsilon 321]⟩
      .leaf) 50
     ⟨7, 24, none, false, false, none, false, []⟩
     (.node .leaf 51 ⟨2, 25, none, false, false, none, true, [.epsilon 328]⟩ .leaf)) 52
    ⟨7, 25, none, false, false, none, false, []⟩
    (.node (.node .leaf 53 ⟨2, 26, none, false, false, none, true, [.epsilon 334]⟩ .leaf) 54
     ⟨7, 26, none, false, false, none, false, []⟩
     (.node .leaf 55 ⟨2, 27, none, false, false, none, true, [.epsilon 340]⟩ .leaf))))

def atnTree4 : Tree State :=
  (.node (.node (.node (.node (.node .leaf 57 ⟨2, 28, none, false, false, none, true, [.epsilon 349]⟩ .leaf) 58
      ⟨7, 28, none, false, false, none, false, []⟩
      .leaf) 59
     ⟨2, 29, none, false, false, none, true, [.epsilon 360]⟩
     (.node .leaf 60 ⟨7, 29, none, false, false, none, false, []⟩ .leaf)) 61
    ⟨2, 30, none, false, false, none, true, [.epsilon 363]⟩
    (.node (.node (.node .leaf 62 ⟨7, 30, none, false, false, none, false, []⟩ .leaf) 63
      ⟨2, 31, none, false, false, none, true, [.epsilon 367]⟩
      .leaf) 64
     ⟨7, 31, none, false, false, none, false, []⟩
     (.node .leaf 65 ⟨2, 32, none, false, false, none, true, [.epsilon 372]⟩ .leaf))) 66
   ⟨7, 32, none, false, false, none, false, []⟩
   (.node (.node (.node (.node .leaf 67 ⟨2, 33, none, false, false, none, true, [.epsilon 380]⟩ .leaf) 68
      ⟨7, 33, none, false, false, none, false, []⟩
      .leaf) 69
     ⟨2, 34, none, false, false, none, true, [.epsilon 388]⟩
     (.node .leaf 70 ⟨7, 34, none, false, false, none, false, []⟩ .leaf)) 71
    ⟨2, 35, none, false, false, none, true, [.epsilon 395]⟩
    (.node (.node .leaf 72 ⟨7, 35, none, false, false, none, false, []⟩ .leaf) 73
     ⟨2, 36, none, false, false, none, true, [.epsilon 399]⟩
     (.node .leaf 74 ⟨7, 36, none, false, false, none, false, []⟩ .leaf))))

def atnTree5 : Tree State :=
  .node atnTree3 56
    ⟨7, 27, none, false, false, none, false, []⟩
    atnTree4

def atnTree6 : Tree State :=
  .node atnTree2 37
    ⟨2, 18, none, false, false, none, true, [.epsilon 275]⟩
    atnTree5

def atnTree7 : Tree State :=
  (.node (.node (.node (.node (.node .leaf 76 ⟨7, 37, none, false, false, none, false, []⟩ .leaf) 77
      ⟨2, 38, none, false, false, none, true, [.epsilon 414]⟩
      .leaf) 78
     ⟨7, 38, none, false, false, none, false, []⟩
     (.node .leaf 79 ⟨2, 39, none, false, false, none, true, [.epsilon 416]⟩ .leaf)) 80
    ⟨7, 39, none, false, false, none, false, []⟩
    (.node (.node (.node .leaf 81 ⟨2, 40, none, false, false, none, true, [.epsilon 418]⟩ .leaf) 82
      ⟨7, 40, none, false, false, none, false, []⟩
      .leaf) 83
     ⟨2, 41, none, false, false, none, true, [.epsilon 420]⟩
     (.node .leaf 84 ⟨7, 41, none, false, false, none, false, []⟩ .leaf))) 85
   ⟨2, 42, none, false, false, none, true, [.epsilon 422]⟩
   (.node (.node (.node (.node .leaf 86 ⟨7, 42, none, false, false, none, false, []⟩ .leaf) 87
      ⟨2, 43, none, false, false, none, true, [.epsilon 424]⟩
      .leaf) 88
     ⟨7, 43, none, false, false, none, false, []⟩
     (.node .leaf 89 ⟨2, 44, none, false, false, none, true, [.epsilon 426]⟩ .leaf)) 90
    ⟨7, 44, none, false, false, none, false, []⟩
    (.node (.node .leaf 91 ⟨2, 45, none, false, false, none, true, [.epsilon 428]⟩ .leaf) 92
     ⟨7, 45, none, false, false, none, false, []⟩
     (.node .leaf 93 ⟨2, 46, none, false, false, none, true, [.epsilon 430]⟩ .leaf))))

def atnTree8 : Tree State :=
  (.node (.node (.node (.node (.node .leaf 95 ⟨2, 47, none, false, false, none, true, [.epsilon 432]⟩ .leaf) 96
      ⟨7, 47, none, false, false, none, false, []⟩
      .leaf) 97
     ⟨2, 48, none, false, false, none, true, [.epsilon 434]⟩
     (.node .leaf 98 ⟨7, 48, none, false, false, none, true, [.epsilon 495, .epsilon 504]⟩ .leaf)) 99
    ⟨2, 49, none, false, false, none, true, [.epsilon 436]⟩
    (.node (.node (.node .leaf 100 ⟨7, 49, none, false, false, none, false, []⟩ .leaf) 101
      ⟨2, 50, none, false, false, none, true, [.epsilon 438]⟩
      .leaf) 102
     ⟨7, 50, none, false, false, none, false, []⟩
     (.node .leaf 103 ⟨2, 51, none, false, false, none, true, [.epsilon 440]⟩ .leaf))) 104
   ⟨7, 51, none, false, false, none, true, [.epsilon 522]⟩
   (.node (.node (.node (.node .leaf 105 ⟨2, 52, none, false, false, none, true, [.epsilon 442]⟩ .leaf) 106
      ⟨7, 52, none, false, false, none, true, [.epsilon 522]⟩
      .leaf) 107
     ⟨2, 53, none, false, false, none, true, [.epsilon 460]⟩
     (.node .leaf 108 ⟨7, 53, none, false, false, none, false, []⟩ .leaf)) 109
    ⟨2, 54, none, false, false, none, true, [.epsilon 466]⟩
    (.node (.node .leaf 110 ⟨7, 54, none, false, false, none, true, [.epsilon 447, .epsilon 455]⟩ .leaf) 111
     ⟨2, 55, none, false, false, none, true, [.epsilon 468]⟩
     (.node .leaf 112 ⟨7, 55, none, false, false, none, true, [.epsilon 467]⟩ .leaf))))

def atnTree9 : Tree State :=
  .node atnTree7 94
    ⟨7, 46, none, false, false, none, false, []⟩
    atnTree8

def atnTree10 : Tree State :=
  (.node (.node (.node (.node (.node .leaf 114 ⟨7, 56, none, false, false, none, true, [.epsilon 467]⟩ .leaf) 115
      ⟨2, 57, none, false, false, none, true, [.epsilon 478]⟩
      .leaf) 116
     ⟨7, 57, none, false, false, none, true, [.epsilon 467]⟩
     (.node .leaf 117 ⟨2, 58, none, false, false, none, true, [.epsilon 490]⟩ .leaf)) 118
    ⟨7, 58, none, false, false, none, false, []⟩
    (.node (.node (.node .leaf 119 ⟨2, 59, none, false, false, none, true, [.epsilon 516]⟩ .leaf) 120
      ⟨7, 59, none, false, false, none, false, []⟩
      .leaf) 121
     ⟨2, 60, none, false, false, none, true, [.epsilon 518]⟩
     (.node .leaf 122 ⟨7, 60, none, false, false, none, true, [.epsilon 499, .epsilon 502, .epsilon 507]⟩ .leaf))) 123
   ⟨2, 61, none, false, false, none, true, [.epsilon 526]⟩
   (.node (.node (.node (.node .leaf 124 ⟨7, 61, none, false, false, none, true, [.epsilon 493, .epsilon 496, .epsilon 501, .epsilon 506, .epsilon 524]⟩ .leaf) 125
      ⟨2, 62, none, false, false, none, true, [.epsilon 533]⟩
      .leaf) 126
     ⟨7, 62, none, false, false, none, false, []⟩
     (.node .leaf 127 ⟨2, 63, none, false, false, none, true, [.epsilon 535]⟩ .leaf)) 128
    ⟨7, 63, none, false, false, none, true, [.epsilon 534]⟩
    (.node (.node .leaf 129 ⟨2, 64, none, false, false, none, true, [.epsilon 542]⟩ .leaf) 130
     ⟨7, 64, none, false, false, none, true, [.epsilon 534]⟩
     (.node .leaf 131 ⟨2, 65, none, false, false, none, true, [.epsilon 549]⟩ .leaf))))

def atnTree11 : Tree State :=
  (.node (.node (.node (.node (.node .leaf 133 ⟨2, 66, none, false, false, none, true, [.epsilon 556]⟩ .leaf) 134
      ⟨7, 66, none, false, false, none, false, []⟩
      .leaf) 135
     ⟨2, 67, none, false, false, none, true, [.epsilon 564]⟩
     (.node .leaf 136 ⟨7, 67, none, false, false, none, true, [.epsilon 561, .epsilon 560]⟩ .leaf)) 137
    ⟨2, 68, none, false, false, none, true, [.epsilon 566]⟩
    (.node (.node (.node .leaf 138 ⟨7, 68, none, false, false, none, true, [.epsilon 527, .epsilon 538, .epsilon 560]⟩ .leaf) 139
      ⟨2, 69, none, false, false, none, true, [.epsilon 568]⟩
      .leaf) 140
     ⟨7, 69, none, false, false, none, true, [.epsilon 475, .epsilon 476, .epsilon 477, .epsilon 545]⟩
     (.node .leaf 141 ⟨2, 70, none, false, false, none, true, [.epsilon 570]⟩ .leaf))) 142
   ⟨7, 70, none, false, false, none, true, [.epsilon 471, .epsilon 472, .epsilon 553]⟩
   (.node (.node (.node (.node .leaf 143 ⟨2, 71, none, false, false, none, true, [.epsilon 573]⟩ .leaf) 144
      ⟨7, 71, none, false, false, none, false, []⟩
      .leaf) 145
     ⟨2, 72, none, false, false, none, true, [.epsilon 579]⟩
     (.node .leaf 146 ⟨7, 72, none, false, false, none, false, []⟩ .leaf)) 147
    ⟨2, 73, none, false, false, none, true, [.epsilon 590]⟩
    (.node (.node .leaf 148 ⟨7, 73, none, false, false, none, false, []⟩ .leaf) 149
     ⟨1, 0, none, false, false, none, false, [.atom 150 (some 115)]⟩
     (.node .leaf 150 ⟨1, 0, none, false, false, none, false, [.atom 151 (some 121)]⟩ .leaf))))

def atnTree12 : Tree State :=
  .node atnTree10 132
    ⟨7, 65, none, false, false, none, true, [.epsilon 534]⟩
    atnTree11

def atnTree13 : Tree State :=
  .node atnTree9 113
    ⟨2, 56, none, false, false, none, true, [.epsilon 473]⟩
    atnTree12

def atnTree14 : Tree State :=
  .node atnTree6 75
    ⟨2, 37, none, false, false, none, true, [.epsilon 406]⟩
    atnTree13

def atnTree15 : Tree State :=
  (.node (.node (.node (.node (.node .leaf 152 ⟨1, 0, none, false, false, none, false, [.atom 153 (some 116)]⟩ .leaf) 153
      ⟨1, 0, none, false, false, none, false, [.atom 154 (some 97)]⟩
      .leaf) 154
     ⟨1, 0, none, false, false, none, false, [.atom 155 (some 120)]⟩
     (.node .leaf 155 ⟨1, 0, none, false, false, none, true, [.epsilon 2]⟩ .leaf)) 156
    ⟨1, 1, none, false, false, none, false, [.atom 157 (some 101)]⟩
    (.node (.node (.node .leaf 157 ⟨1, 1, none, false, false, none, false, [.atom 158 (some 100)]⟩ .leaf) 158
      ⟨1, 1, none, false, false, none, false, [.atom 159 (some 105)]⟩
      .leaf) 159
     ⟨1, 1, none, false, false, none, false, [.atom 160 (some 116)]⟩
     (.node .leaf 160 ⟨1, 1, none, false, false, none, false, [.atom 161 (some 105)]⟩ .leaf))) 161
   ⟨1, 1, none, false, false, none, false, [.atom 162 (some 111)]⟩
   (.node (.node (.node (.node .leaf 162 ⟨1, 1, none, false, false, none, false, [.atom 163 (some 110)]⟩ .leaf) 163
      ⟨1, 1, none, false, false, none, true, [.epsilon 4]⟩
      .leaf) 164
     ⟨1, 2, none, false, false, none, false, [.atom 165 (some 105)]⟩
     (.node .leaf 165 ⟨1, 2, none, false, false, none, false, [.atom 166 (some 109)]⟩ .leaf)) 166
    ⟨1, 2, none, false, false, none, false, [.atom 167 (some 112)]⟩
    (.node (.node .leaf 167 ⟨1, 2, none, false, false, none, false, [.atom 168 (some 111)]⟩ .leaf) 168
     ⟨1, 2, none, false, false, none, false, [.atom 169 (some 114)]⟩
     (.node .leaf 169 ⟨1, 2, none, false, false, none, false, [.atom 170 (some 116)]⟩ .leaf))))

def atnTree16 : Tree State :=
  (.node (.node (.node (.node (.node .leaf 171 ⟨1, 3, none, false, false, none, false, [.atom 172 (some 119)]⟩ .leaf) 172
      ⟨1, 3, none, false, false, none, false, [.atom 173 (some 101)]⟩
      .leaf) 173
     ⟨1, 3, none, false, false, none, false, [.atom 174 (some 97)]⟩
     (.node .leaf 174 ⟨1, 3, none, false, false, none, false, [.atom 175 (some 107)]⟩ .leaf)) 175
    ⟨1, 3, none, false, false, none, true, [.epsilon 8]⟩
    (.node (.node (.node .leaf 176 ⟨1, 4, none, false, false, none, false, [.atom 177 (some 112)]⟩ .leaf) 177
      ⟨1, 4, none, false, false, none, false, [.atom 178 (some 117)]⟩
      .leaf) 178
     ⟨1, 4, none, false, false, none, false, [.atom 179 (some 98)]⟩
     (.node .leaf 179 ⟨1, 4, none, false, false, none, false, [.atom 180 (some 108)]⟩ .leaf))) 180
   ⟨1, 4, none, false, false, none, false, [.atom 181 (some 105)]⟩
   (.node (.node (.node (.node .leaf 181 ⟨1, 4, none, false, false, none, false, [.atom 182 (some 99)]⟩ .leaf) 182
      ⟨1, 4, none, false, false, none, true, [.epsilon 10]⟩
      .leaf) 183
     ⟨1, 5, none, false, false, none, false, [.atom 184 (some 112)]⟩
     (.node .leaf 184 ⟨1, 5, none, false, false, none, false, [.atom 185 (some 97)]⟩ .leaf)) 185
    ⟨1, 5, none, false, false, none, false, [.atom 186 (some 99)]⟩
    (.node (.node .leaf 186 ⟨1, 5, none, false, false, none, false, [.atom 187 (some 107)]⟩ .leaf) 187
     ⟨1, 5, none, false, false, none, false, [.atom 188 (some 97)]⟩
     (.node .leaf 188 ⟨1, 5, none, false, false, none, false, [.atom 189 (some 103)]⟩ .leaf))))

def atnTree17 : Tree State :=
  .node atnTree15 170
    ⟨1, 2, none, false, false, none, true, [.epsilon 6]⟩
    atnTree16

def atnTree18 : Tree State :=
  (.node (.node (.node (.node (.node .leaf 190 ⟨1, 5, none, false, false, none, true, [.epsilon 12]⟩ .leaf) 191
      ⟨1, 6, none, false, false, none, false, [.atom 192 (some 111)]⟩
      .leaf) 192
     ⟨1, 6, none, false, false, none, false, [.atom 193 (some 112)]⟩
     (.node .leaf 193 ⟨1, 6, none, false, false, none, false, [.atom 194 (some 116)]⟩ .leaf)) 194
    ⟨1, 6, none, false, false, none, false, [.atom 195 (some 105)]⟩
    (.node (.node (.node .leaf 195 ⟨1, 6, none, false, false, none, false, [.atom 196 (some 111)]⟩ .leaf) 196
      ⟨1, 6, none, false, false, none, false, [.atom 197 (some 110)]⟩
      .leaf) 197
     ⟨1, 6, none, false, false, none, true, [.epsilon 14]⟩
     (.node .leaf 198 ⟨1, 7, none, false, false, none, false, [.atom 199 (some 111)]⟩ .leaf))) 199
   ⟨1, 7, none, false, false, none, false, [.atom 200 (some 112)]⟩
   (.node (.node (.node (.node .leaf 200 ⟨1, 7, none, false, false, none, false, [.atom 201 (some 116)]⟩ .leaf) 201
      ⟨1, 7, none, false, false, none, false, [.atom 202 (some 105)]⟩
      .leaf) 202
     ⟨1, 7, none, false, false, none, false, [.atom 203 (some 111)]⟩
     (.node .leaf 203 ⟨1, 7, none, false, false, none, false, [.atom 204 (some 110)]⟩ .leaf)) 204
    ⟨1, 7, none, false, false, none, false, [.atom 205 (some 97)]⟩
    (.node (.node .leaf 205 ⟨1, 7, none, false, false, none, false, [.atom 206 (some 108)]⟩ .leaf) 206
     ⟨1, 7, none, false, false, none, true, [.epsilon 16]⟩
     (.node .leaf 207 ⟨1, 8, none, false, false, none, false, [.atom 208 (some 114)]⟩ .leaf))))

def atnTree19 : Tree State :=
  (.node (.node (.node (.node (.node .leaf 209 ⟨1, 8, none, false, false, none, false, [.atom 210 (some 113)]⟩ .leaf) 210
      ⟨1, 8, none, false, false, none, false, [.atom 211 (some 117)]⟩
      .leaf) 211
     ⟨1, 8, none, false, false, none, false, [.atom 212 (some 105)]⟩
     (.node .leaf 212 ⟨1, 8, none, false, false, none, false, [.atom 213 (some 114)]⟩ .leaf)) 213
    ⟨1, 8, none, false, false, none, false, [.atom 214 (some 101)]⟩
    (.node (.node (.node .leaf 214 ⟨1, 8, none, false, false, none, false, [.atom 215 (some 100)]⟩ .leaf) 215
      ⟨1, 8, none, false, false, none, true, [.epsilon 18]⟩
      .leaf) 216
     ⟨1, 9, none, false, false, none, false, [.atom 217 (some 114)]⟩
     (.node .leaf 217 ⟨1, 9, none, false, false, none, false, [.atom 218 (some 101)]⟩ .leaf))) 218
   ⟨1, 9, none, false, false, none, false, [.atom 219 (some 112)]⟩
   (.node (.node (.node (.node .leaf 219 ⟨1, 9, none, false, false, none, false, [.atom 220 (some 101)]⟩ .leaf) 220
      ⟨1, 9, none, false, false, none, false, [.atom 221 (some 97)]⟩
      .leaf) 221
     ⟨1, 9, none, false, false, none, false, [.atom 222 (some 116)]⟩
     (.node .leaf 222 ⟨1, 9, none, false, false, none, false, [.atom 223 (some 101)]⟩ .leaf)) 223
    ⟨1, 9, none, false, false, none, false, [.atom 224 (some 100)]⟩
    (.node (.node .leaf 224 ⟨1, 9, none, false, false, none, true, [.epsilon 20]⟩ .leaf) 225
     ⟨1, 10, none, false, false, none, false, [.atom 226 (some 111)]⟩
     (.node .leaf 226 ⟨1, 10, none, false, false, none, false, [.atom 227 (some 110)]⟩ .leaf))))

def atnTree20 : Tree State :=
  .node atnTree18 208
    ⟨1, 8, none, false, false, none, false, [.atom 209 (some 101)]⟩
    atnTree19

def atnTree21 : Tree State :=
  .node atnTree17 189
    ⟨1, 5, none, false, false, none, false, [.atom 190 (some 101)]⟩
    atnTree20

def atnTree22 : Tree State :=
  (.node (.node (.node (.node (.node .leaf 228 ⟨1, 10, none, false, false, none, false, [.atom 229 (some 111)]⟩ .leaf) 229
      ⟨1, 10, none, false, false, none, false, [.atom 230 (some 102)]⟩
      .leaf) 230
     ⟨1, 10, none, false, false, none, true, [.epsilon 22]⟩
     (.node .leaf 231 ⟨1, 11, none, false, false, none, false, [.atom 232 (some 109)]⟩ .leaf)) 232
    ⟨1, 11, none, false, false, none, false, [.atom 233 (some 97)]⟩
    (.node (.node (.node .leaf 233 ⟨1, 11, none, false, false, none, false, [.atom 234 (some 112)]⟩ .leaf) 234
      ⟨1, 11, none, false, false, none, true, [.epsilon 24]⟩
      .leaf) 235
     ⟨1, 12, none, false, false, none, false, [.atom 236 (some 105)]⟩
     (.node .leaf 236 ⟨1, 12, none, false, false, none, false, [.atom 237 (some 110)]⟩ .leaf))) 237
   ⟨1, 12, none, false, false, none, false, [.atom 238 (some 116)]⟩
   (.node (.node (.node (.node .leaf 238 ⟨1, 12, none, false, false, none, false, [.atom 239 (some 51)]⟩ .leaf) 239
      ⟨1, 12, none, false, false, none, false, [.atom 240 (some 50)]⟩
      .leaf) 240
     ⟨1, 12, none, false, false, none, true, [.epsilon 26]⟩
     (.node .leaf 241 ⟨1, 13, none, false, false, none, false, [.atom 242 (some 105)]⟩ .leaf)) 242
    ⟨1, 13, none, false, false, none, false, [.atom 243 (some 110)]⟩
    (.node (.node .leaf 243 ⟨1, 13, none, false, false, none, false, [.atom 244 (some 116)]⟩ .leaf) 244
     ⟨1, 13, none, false, false, none, false, [.atom 245 (some 54)]⟩
     (.node .leaf 245 ⟨1, 13, none, false, false, none, false, [.atom 246 (some 52)]⟩ .leaf))))

def atnTree23 : Tree State :=
  (.node (.node (.node (.node (.node .leaf 247 ⟨1, 14, none, false, false, none, false, [.atom 248 (some 117)]⟩ .leaf) 248
      ⟨1, 14, none, false, false, none, false, [.atom 249 (some 105)]⟩
      .leaf) 249
     ⟨1, 14, none, false, false, none, false, [.atom 250 (some 110)]⟩
     (.node .leaf 250 ⟨1, 14, none, false, false, none, false, [.atom 251 (some 116)]⟩ .leaf)) 251
    ⟨1, 14, none, false, false, none, false, [.atom 252 (some 51)]⟩
    (.node (.node (.node .leaf 252 ⟨1, 14, none, false, false, none, false, [.atom 253 (some 50)]⟩ .leaf) 253
      ⟨1, 14, none, false, false, none, true, [.epsilon 30]⟩
      .leaf) 254
     ⟨1, 15, none, false, false, none, false, [.atom 255 (some 117)]⟩
     (.node .leaf 255 ⟨1, 15, none, false, false, none, false, [.atom 256 (some 105)]⟩ .leaf))) 256
   ⟨1, 15, none, false, false, none, false, [.atom 257 (some 110)]⟩
   (.node (.node (.node (.node .leaf 257 ⟨1, 15, none, false, false, none, false, [.atom 258 (some 116)]⟩ .leaf) 258
      ⟨1, 15, none, false, false, none, false, [.atom 259 (some 54)]⟩
      .leaf) 259
     ⟨1, 15, none, false, false, none, false, [.atom 260 (some 52)]⟩
     (.node .leaf 260 ⟨1, 15, none, false, false, none, true, [.epsilon 32]⟩ .leaf)) 261
    ⟨1, 16, none, false, false, none, false, [.atom 262 (some 115)]⟩
    (.node (.node .leaf 262 ⟨1, 16, none, false, false, none, false, [.atom 263 (some 105)]⟩ .leaf) 263
     ⟨1, 16, none, false, false, none, false, [.atom 264 (some 110)]⟩
     (.node .leaf 264 ⟨1, 16, none, false, false, none, false, [.atom 265 (some 116)]⟩ .leaf))))

def atnTree24 : Tree State :=
  .node atnTree22 246
    ⟨1, 13, none, false, false, none, true, [.epsilon 28]⟩
    atnTree23

def atnTree25 : Tree State :=
  (.node (.node (.node (.node (.node .leaf 266 ⟨1, 16, none, false, false, none, false, [.atom 267 (some 50)]⟩ .leaf) 267
      ⟨1, 16, none, false, false, none, true, [.epsilon 34]⟩
      .leaf) 268
     ⟨1, 17, none, false, false, none, false, [.atom 269 (some 115)]⟩
     (.node .leaf 269 ⟨1, 17, none, false, false, none, false, [.atom 270 (some 105)]⟩ .leaf)) 270
    ⟨1, 17, none, false, false, none, false, [.atom 271 (some 110)]⟩
    (.node (.node (.node .leaf 271 ⟨1, 17, none, false, false, none, false, [.atom 272 (some 116)]⟩ .leaf) 272
      ⟨1, 17, none, false, false, none, false, [.atom 273 (some 54)]⟩
      .leaf) 273
     ⟨1, 17, none, false, false, none, false, [.atom 274 (some 52)]⟩
     (.node .leaf 274 ⟨1, 17, none, false, false, none, true, [.epsilon 36]⟩ .leaf))) 275
   ⟨1, 18, none, false, false, none, false, [.atom 276 (some 102)]⟩
   (.node (.node (.node (.node .leaf 276 ⟨1, 18, none, false, false, none, false, [.atom 277 (some 105)]⟩ .leaf) 277
      ⟨1, 18, none, false, false, none, false, [.atom 278 (some 120)]⟩
      .leaf) 278
     ⟨1, 18, none, false, false, none, false, [.atom 279 (some 101)]⟩
     (.node .leaf 279 ⟨1, 18, none, false, false, none, false, [.atom 280 (some 100)]⟩ .leaf)) 280
    ⟨1, 18, none, false, false, none, false, [.atom 281 (some 51)]⟩
    (.node (.node .leaf 281 ⟨1, 18, none, false, false, none, false, [.atom 282 (some 50)]⟩ .leaf) 282
     ⟨1, 18, none, false, false, none, true, [.epsilon 38]⟩
     (.node .leaf 283 ⟨1, 19, none, false, false, none, false, [.atom 284 (some 102)]⟩ .leaf))))

def atnTree26 : Tree State :=
  (.node (.node (.node (.node (.node .leaf 285 ⟨1, 19, none, false, false, none, false, [.atom 286 (some 120)]⟩ .leaf) 286
      ⟨1, 19, none, false, false, none, false, [.atom 287 (some 101)]⟩
      .leaf) 287
     ⟨1, 19, none, false, false, none, false, [.atom 288 (some 100)]⟩
     (.node .leaf 288 ⟨1, 19, none, false, false, none, false, [.atom 289 (some 54)]⟩ .leaf)) 289
    ⟨1, 19, none, false, false, none, false, [.atom 290 (some 52)]⟩
    (.node (.node .leaf 290 ⟨1, 19, none, false, false, none, true, [.epsilon 40]⟩ .leaf) 291
     ⟨1, 20, none, false, false, none, false, [.atom 292 (some 115)]⟩
     (.node .leaf 292 ⟨1, 20, none, false, false, none, false, [.atom 293 (some 102)]⟩ .leaf))) 293
   ⟨1, 20, none, false, false, none, false, [.atom 294 (some 105)]⟩
   (.node (.node (.node (.node .leaf 294 ⟨1, 20, none, false, false, none, false, [.atom 295 (some 120)]⟩ .leaf) 295
      ⟨1, 20, none, false, false, none, false, [.atom 296 (some 101)]⟩
      .leaf) 296
     ⟨1, 20, none, false, false, none, false, [.atom 297 (some 100)]⟩
     (.node .leaf 297 ⟨1, 20, none, false, false, none, false, [.atom 298 (some 51)]⟩ .leaf)) 298
    ⟨1, 20, none, false, false, none, false, [.atom 299 (some 50)]⟩
    (.node (.node .leaf 299 ⟨1, 20, none, false, false, none, true, [.epsilon 42]⟩ .leaf) 300
     ⟨1, 21, none, false, false, none, false, [.atom 301 (some 115)]⟩
     (.node .leaf 301 ⟨1, 21, none, false, false, none, false, [.atom 302 (some 102)]⟩ .leaf))))

def atnTree27 : Tree State :=
  .node atnTree25 284
    ⟨1, 19, none, false, false, none, false, [.atom 285 (some 105)]⟩
    atnTree26

def atnTree28 : Tree State :=
  .node atnTree24 265
    ⟨1, 16, none, false, false, none, false, [.atom 266 (some 51)]⟩
    atnTree27

def atnTree29 : Tree State :=
  .node atnTree21 227
    ⟨1, 10, none, false, false, none, false, [.atom 228 (some 101)]⟩
    atnTree28

def atnTree30 : Tree State :=
  .node atnTree14 151
    ⟨1, 0, none, false, false, none, false, [.atom 152 (some 110)]⟩
    atnTree29

def atnTree31 : Tree State :=
  (.node (.node (.node (.node (.node .leaf 303 ⟨1, 21, none, false, false, none, false, [.atom 304 (some 120)]⟩ .leaf) 304
      ⟨1, 21, none, false, false, none, false, [.atom 305 (some 101)]⟩
      .leaf) 305
     ⟨1, 21, none, false, false, none, false, [.atom 306 (some 100)]⟩
     (.node .leaf 306 ⟨1, 21, none, false, false, none, false, [.atom 307 (some 54)]⟩ .leaf)) 307
    ⟨1, 21, none, false, false, none, false, [.atom 308 (some 52)]⟩
    (.node (.node (.node .leaf 308 ⟨1, 21, none, false, false, none, true, [.epsilon 44]⟩ .leaf) 309
      ⟨1, 22, none, false, false, none, false, [.atom 310 (some 98)]⟩
      .leaf) 310
     ⟨1, 22, none, false, false, none, false, [.atom 311 (some 111)]⟩
     (.node .leaf 311 ⟨1, 22, none, false, false, none, false, [.atom 312 (some 111)]⟩ .leaf))) 312
   ⟨1, 22, none, false, false, none, false, [.atom 313 (some 108)]⟩
   (.node (.node (.node (.node .leaf 313 ⟨1, 22, none, false, false, none, true, [.epsilon 46]⟩ .leaf) 314
      ⟨1, 23, none, false, false, none, false, [.atom 315 (some 115)]⟩
      .leaf) 315
     ⟨1, 23, none, false, false, none, false, [.atom 316 (some 116)]⟩
     (.node .leaf 316 ⟨1, 23, none, false, false, none, false, [.atom 317 (some 114)]⟩ .leaf)) 317
    ⟨1, 23, none, false, false, none, false, [.atom 318 (some 105)]⟩
    (.node (.node .leaf 318 ⟨1, 23, none, false, false, none, false, [.atom 319 (some 110)]⟩ .leaf) 319
     ⟨1, 23, none, false, false, none, false, [.atom 320 (some 103)]⟩
     (.node .leaf 320 ⟨1, 23, none, false, false, none, true, [.epsilon 48]⟩ .leaf))))

def atnTree32 : Tree State :=
  (.node (.node (.node (.node (.node .leaf 322 ⟨1, 24, none, false, false, none, false, [.atom 323 (some 111)]⟩ .leaf) 323
      ⟨1, 24, none, false, false, none, false, [.atom 324 (some 117)]⟩
      .leaf) 324
     ⟨1, 24, none, false, false, none, false, [.atom 325 (some 98)]⟩
     (.node .leaf 325 ⟨1, 24, none, false, false, none, false, [.atom 326 (some 108)]⟩ .leaf)) 326
    ⟨1, 24, none, false, false, none, false, [.atom 327 (some 101)]⟩
    (.node (.node (.node .leaf 327 ⟨1, 24, none, false, false, none, true, [.epsilon 50]⟩ .leaf) 328
      ⟨1, 25, none, false, false, none, false, [.atom 329 (some 102)]⟩
      .leaf) 329
     ⟨1, 25, none, false, false, none, false, [.atom 330 (some 108)]⟩
     (.node .leaf 330 ⟨1, 25, none, false, false, none, false, [.atom 331 (some 111)]⟩ .leaf))) 331
   ⟨1, 25, none, false, false, none, false, [.atom 332 (some 97)]⟩
   (.node (.node (.node (.node .leaf 332 ⟨1, 25, none, false, false, none, false, [.atom 333 (some 116)]⟩ .leaf) 333
      ⟨1, 25, none, false, false, none, true, [.epsilon 52]⟩
      .leaf) 334
     ⟨1, 26, none, false, false, none, false, [.atom 335 (some 98)]⟩
     (.node .leaf 335 ⟨1, 26, none, false, false, none, false, [.atom 336 (some 121)]⟩ .leaf)) 336
    ⟨1, 26, none, false, false, none, false, [.atom 337 (some 116)]⟩
    (.node (.node .leaf 337 ⟨1, 26, none, false, false, none, false, [.atom 338 (some 101)]⟩ .leaf) 338
     ⟨1, 26, none, false, false, none, false, [.atom 339 (some 115)]⟩
     (.node .leaf 339 ⟨1, 26, none, false, false, none, true, [.epsilon 54]⟩ .leaf))))

def atnTree33 : Tree State :=
  .node atnTree31 321
    ⟨1, 24, none, false, false, none, false, [.atom 322 (some 100)]⟩
    atnTree32

def atnTree34 : Tree State :=
  (.node (.node (.node (.node (.node .leaf 341 ⟨1, 27, none, false, false, none, false, [.atom 342 (some 101)]⟩ .leaf) 342
      ⟨1, 27, none, false, false, none, false, [.atom 343 (some 115)]⟩
      .leaf) 343
     ⟨1, 27, none, false, false, none, false, [.atom 344 (some 101)]⟩
     (.node .leaf 344 ⟨1, 27, none, false, false, none, false, [.atom 345 (some 114)]⟩ .leaf)) 345
    ⟨1, 27, none, false, false, none, false, [.atom 346 (some 118)]⟩
    (.node (.node (.node .leaf 346 ⟨1, 27, none, false, false, none, false, [.atom 347 (some 101)]⟩ .leaf) 347
      ⟨1, 27, none, false, false, none, false, [.atom 348 (some 100)]⟩
      .leaf) 348
     ⟨1, 27, none, false, false, none, true, [.epsilon 56]⟩
     (.node .leaf 349 ⟨1, 28, none, false, false, none, false, [.atom 350 (some 101)]⟩ .leaf))) 350
   ⟨1, 28, none, false, false, none, false, [.atom 351 (some 120)]⟩
   (.node (.node (.node (.node .leaf 351 ⟨1, 28, none, false, false, none, false, [.atom 352 (some 116)]⟩ .leaf) 352
      ⟨1, 28, none, false, false, none, false, [.atom 353 (some 101)]⟩
      .leaf) 353
     ⟨1, 28, none, false, false, none, false, [.atom 354 (some 110)]⟩
     (.node .leaf 354 ⟨1, 28, none, false, false, none, false, [.atom 355 (some 115)]⟩ .leaf)) 355
    ⟨1, 28, none, false, false, none, false, [.atom 356 (some 105)]⟩
    (.node (.node .leaf 356 ⟨1, 28, none, false, false, none, false, [.atom 357 (some 111)]⟩ .leaf) 357
     ⟨1, 28, none, false, false, none, false, [.atom 358 (some 110)]⟩
     (.node .leaf 358 ⟨1, 28, none, false, false, none, false, [.atom 359 (some 115)]⟩ .leaf))))

def atnTree35 : Tree State :=
  (.node (.node (.node (.node (.node .leaf 360 ⟨1, 29, none, false, false, none, false, [.atom 361 (some 116)]⟩ .leaf) 361
      ⟨1, 29, none, false, false, none, false, [.atom 362 (some 111)]⟩
      .leaf) 362
     ⟨1, 29, none, false, false, none, true, [.epsilon 60]⟩
     (.node .leaf 363 ⟨1, 30, none, false, false, none, false, [.atom 364 (some 109)]⟩ .leaf)) 364
    ⟨1, 30, none, false, false, none, false, [.atom 365 (some 97)]⟩
    (.node (.node (.node .leaf 365 ⟨1, 30, none, false, false, none, false, [.atom 366 (some 120)]⟩ .leaf) 366
      ⟨1, 30, none, false, false, none, true, [.epsilon 62]⟩
      .leaf) 367
     ⟨1, 31, none, false, false, none, false, [.atom 368 (some 101)]⟩
     (.node .leaf 368 ⟨1, 31, none, false, false, none, false, [.atom 369 (some 110)]⟩ .leaf))) 369
   ⟨1, 31, none, false, false, none, false, [.atom 370 (some 117)]⟩
   (.node (.node (.node (.node .leaf 370 ⟨1, 31, none, false, false, none, false, [.atom 371 (some 109)]⟩ .leaf) 371
      ⟨1, 31, none, false, false, none, true, [.epsilon 64]⟩
      .leaf) 372
     ⟨1, 32, none, false, false, none, false, [.atom 373 (some 109)]⟩
     (.node .leaf 373 ⟨1, 32, none, false, false, none, false, [.atom 374 (some 101)]⟩ .leaf)) 374
    ⟨1, 32, none, false, false, none, false, [.atom 375 (some 115)]⟩
    (.node (.node .leaf 375 ⟨1, 32, none, false, false, none, false, [.atom 376 (some 115)]⟩ .leaf) 376
     ⟨1, 32, none, false, false, none, false, [.atom 377 (some 97)]⟩
     (.node .leaf 377 ⟨1, 32, none, false, false, none, false, [.atom 378 (some 103)]⟩ .leaf))))

def atnTree36 : Tree State :=
  .node atnTree34 359
    ⟨1, 28, none, false, false, none, true, [.epsilon 58]⟩
    atnTree35

def atnTree37 : Tree State :=
  .node atnTree33 340
    ⟨1, 27, none, false, false, none, false, [.atom 341 (some 114)]⟩
    atnTree36

def atnTree38 : Tree State :=
  (.node (.node (.node (.node (.node .leaf 379 ⟨1, 32, none, false, false, none, true, [.epsilon 66]⟩ .leaf) 380
      ⟨1, 33, none, false, false, none, false, [.atom 381 (some 115)]⟩
      .leaf) 381
     ⟨1, 33, none, false, false, none, false, [.atom 382 (some 101)]⟩
     (.node .leaf 382 ⟨1, 33, none, false, false, none, false, [.atom 383 (some 114)]⟩ .leaf)) 383
    ⟨1, 33, none, false, false, none, false, [.atom 384 (some 118)]⟩
    (.node (.node (.node .leaf 384 ⟨1, 33, none, false, false, none, false, [.atom 385 (some 105)]⟩ .leaf) 385
      ⟨1, 33, none, false, false, none, false, [.atom 386 (some 99)]⟩
      .leaf) 386
     ⟨1, 33, none, false, false, none, false, [.atom 387 (some 101)]⟩
     (.node .leaf 387 ⟨1, 33, none, false, false, none, true, [.epsilon 68]⟩ .leaf))) 388
   ⟨1, 34, none, false, false, none, false, [.atom 389 (some 101)]⟩
   (.node (.node (.node (.node .leaf 389 ⟨1, 34, none, false, false, none, false, [.atom 390 (some 120)]⟩ .leaf) 390
      ⟨1, 34, none, false, false, none, false, [.atom 391 (some 116)]⟩
      .leaf) 391
     ⟨1, 34, none, false, false, none, false, [.atom 392 (some 101)]⟩
     (.node .leaf 392 ⟨1, 34, none, false, false, none, false, [.atom 393 (some 110)]⟩ .leaf)) 393
    ⟨1, 34, none, false, false, none, false, [.atom 394 (some 100)]⟩
    (.node (.node .leaf 394 ⟨1, 34, none, false, false, none, true, [.epsilon 70]⟩ .leaf) 395
     ⟨1, 35, none, false, false, none, false, [.atom 396 (some 114)]⟩
     (.node .leaf 396 ⟨1, 35, none, false, false, none, false, [.atom 397 (some 112)]⟩ .leaf))))

def atnTree39 : Tree State :=
  (.node (.node (.node (.node (.node .leaf 398 ⟨1, 35, none, false, false, none, true, [.epsilon 72]⟩ .leaf) 399
      ⟨1, 36, none, false, false, none, false, [.atom 400 (some 115)]⟩
      .leaf) 400
     ⟨1, 36, none, false, false, none, false, [.atom 401 (some 116)]⟩
     (.node .leaf 401 ⟨1, 36, none, false, false, none, false, [.atom 402 (some 114)]⟩ .leaf)) 402
    ⟨1, 36, none, false, false, none, false, [.atom 403 (some 101)]⟩
    (.node (.node (.node .leaf 403 ⟨1, 36, none, false, false, none, false, [.atom 404 (some 97)]⟩ .leaf) 404
      ⟨1, 36, none, false, false, none, false, [.atom 405 (some 109)]⟩
      .leaf) 405
     ⟨1, 36, none, false, false, none, true, [.epsilon 74]⟩
     (.node .leaf 406 ⟨1, 37, none, false, false, none, false, [.atom 407 (some 114)]⟩ .leaf))) 407
   ⟨1, 37, none, false, false, none, false, [.atom 408 (some 101)]⟩
   (.node (.node (.node (.node .leaf 408 ⟨1, 37, none, false, false, none, false, [.atom 409 (some 116)]⟩ .leaf) 409
      ⟨1, 37, none, false, false, none, false, [.atom 410 (some 117)]⟩
      .leaf) 410
     ⟨1, 37, none, false, false, none, false, [.atom 411 (some 114)]⟩
     (.node .leaf 411 ⟨1, 37, none, false, false, none, false, [.atom 412 (some 110)]⟩ .leaf)) 412
    ⟨1, 37, none, false, false, none, false, [.atom 413 (some 115)]⟩
    (.node (.node .leaf 413 ⟨1, 37, none, false, false, none, true, [.epsilon 76]⟩ .leaf) 414
     ⟨1, 38, none, false, false, none, false, [.atom 415 (some 59)]⟩
     (.node .leaf 415 ⟨1, 38, none, false, false, none, true, [.epsilon 78]⟩ .leaf))))

def atnTree40 : Tree State :=
  .node atnTree38 397
    ⟨1, 35, none, false, false, none, false, [.atom 398 (some 99)]⟩
    atnTree39

def atnTree41 : Tree State :=
  (.node (.node (.node (.node (.node .leaf 417 ⟨1, 39, none, false, false, none, true, [.epsilon 80]⟩ .leaf) 418
      ⟨1, 40, none, false, false, none, false, [.atom 419 (some 40)]⟩
      .leaf) 419
     ⟨1, 40, none, false, false, none, true, [.epsilon 82]⟩
     (.node .leaf 420 ⟨1, 41, none, false, false, none, false, [.atom 421 (some 41)]⟩ .leaf)) 421
    ⟨1, 41, none, false, false, none, true, [.epsilon 84]⟩
    (.node (.node (.node .leaf 422 ⟨1, 42, none, false, false, none, false, [.atom 423 (some 91)]⟩ .leaf) 423
      ⟨1, 42, none, false, false, none, true, [.epsilon 86]⟩
      .leaf) 424
     ⟨1, 43, none, false, false, none, false, [.atom 425 (some 93)]⟩
     (.node .leaf 425 ⟨1, 43, none, false, false, none, true, [.epsilon 88]⟩ .leaf))) 426
   ⟨1, 44, none, false, false, none, false, [.atom 427 (some 123)]⟩
   (.node (.node (.node (.node .leaf 427 ⟨1, 44, none, false, false, none, true, [.epsilon 90]⟩ .leaf) 428
      ⟨1, 45, none, false, false, none, false, [.atom 429 (some 125)]⟩
      .leaf) 429
     ⟨1, 45, none, false, false, none, true, [.epsilon 92]⟩
     (.node .leaf 430 ⟨1, 46, none, false, false, none, false, [.atom 431 (some 60)]⟩ .leaf)) 431
    ⟨1, 46, none, false, false, none, true, [.epsilon 94]⟩
    (.node (.node .leaf 432 ⟨1, 47, none, false, false, none, false, [.atom 433 (some 62)]⟩ .leaf) 433
     ⟨1, 47, none, false, false, none, true, [.epsilon 96]⟩
     (.node .leaf 434 ⟨1, 48, none, false, false, none, false, [.atom 435 (some 46)]⟩ .leaf))))

def atnTree42 : Tree State :=
  (.node (.node (.node (.node (.node .leaf 436 ⟨1, 49, none, false, false, none, false, [.atom 437 (some 44)]⟩ .leaf) 437
      ⟨1, 49, none, false, false, none, true, [.epsilon 100]⟩
      .leaf) 438
     ⟨1, 50, none, false, false, none, false, [.atom 439 (some 58)]⟩
     (.node .leaf 439 ⟨1, 50, none, false, false, none, true, [.epsilon 102]⟩ .leaf)) 440
    ⟨1, 51, none, false, false, none, false, [.atom 441 (some 43)]⟩
    (.node (.node .leaf 441 ⟨1, 51, none, false, false, none, true, [.epsilon 104]⟩ .leaf) 442
     ⟨1, 52, none, false, false, none, false, [.atom 443 (some 45)]⟩
     (.node .leaf 443 ⟨1, 52, none, false, false, none, true, [.epsilon 106]⟩ .leaf))) 444
   ⟨1, 53, none, false, false, none, false, [.atom 448 (some 39)]⟩
   (.node (.node (.node (.node .leaf 445 ⟨1, 53, none, false, false, none, true, [.rule 109 447 54 0]⟩ .leaf) 446
      ⟨5, 53, (some 447), false, false, none, true, [.epsilon 445]⟩
      .leaf) 447
     ⟨8, 53, none, false, false, none, true, [.epsilon 450]⟩
     (.node .leaf 448 ⟨10, 53, none, true, false, (some 1), true, [.epsilon 449, .epsilon 446]⟩ .leaf)) 449
    ⟨12, 53, (some 450), false, false, none, true, [.epsilon 451]⟩
    (.node (.node .leaf 450 ⟨9, 53, none, false, false, none, true, [.epsilon 448]⟩ .leaf) 451
     ⟨1, 53, none, false, false, none, false, [.atom 461 (some 39)]⟩
     (.node .leaf 452 ⟨1, 53, none, false, false, none, false, [.atom 456 (some 34)]⟩ .leaf))))

def atnTree43 : Tree State :=
  .node atnTree41 435
    ⟨1, 48, none, false, false, none, true, [.epsilon 98]⟩
    atnTree42

def atnTree44 : Tree State :=
  .node atnTree40 416
    ⟨1, 39, none, false, false, none, false, [.atom 417 (some 61)]⟩
    atnTree43

def atnTree45 : Tree State :=
  .node atnTree37 378
    ⟨1, 32, none, false, false, none, false, [.atom 379 (some 101)]⟩
    atnTree44

def atnTree46 : Tree State :=
  (.node (.node (.node (.node (.node .leaf 454 ⟨5, 53, (some 455), false, false, none, true, [.epsilon 453]⟩ .leaf) 455
      ⟨8, 53, none, false, false, none, true, [.epsilon 458]⟩
      .leaf) 456
     ⟨10, 53, none, true, false, (some 2), true, [.epsilon 457, .epsilon 454]⟩
     (.node .leaf 457 ⟨12, 53, (some 458), false, false, none, true, [.epsilon 459]⟩ .leaf)) 458
    ⟨9, 53, none, false, false, none, true, [.epsilon 456]⟩
    (.node (.node (.node .leaf 459 ⟨1, 53, none, false, false, none, false, [.atom 461 (some 34)]⟩ .leaf) 460
      ⟨3, 53, (some 461), false, false, (some 3), true, [.epsilon 444, .epsilon 452]⟩
      .leaf) 461
     ⟨8, 53, none, false, false, none, true, [.epsilon 108]⟩
     (.node .leaf 462 ⟨1, 54, none, false, false, none, true, [.rule 111 467 55 0]⟩ .leaf))) 463
   ⟨1, 54, none, false, false, none, true, [.rule 113 467 56 0]⟩
   (.node (.node (.node (.node .leaf 464 ⟨1, 54, none, false, false, none, true, [.rule 115 467 57 0]⟩ .leaf) 465
      ⟨1, 54, none, false, false, none, false, [.notSet 467 ⟨false, [(0, 1), (10, 11), (92, 93)]⟩]⟩
      .leaf) 466
     ⟨3, 54, (some 467), false, false, (some 4), true, [.epsilon 462, .epsilon 463, .epsilon 464, .epsilon 465]⟩
     (.node .leaf 467 ⟨8, 54, none, false, false, none, true, [.epsilon 110]⟩ .leaf)) 468
    ⟨1, 55, none, false, false, none, false, [.atom 469 (some 92)]⟩
    (.node (.node .leaf 469 ⟨1, 55, none, false, false, none, false, [.set 470 ⟨false, [(88, 89), (120, 121)]⟩]⟩ .leaf) 470
     ⟨1, 55, none, false, false, none, true, [.rule 141 471 70 0]⟩
     (.node .leaf 471 ⟨1, 55, none, false, false, none, true, [.rule 141 472 70 0]⟩ .leaf))))

def atnTree47 : Tree State :=
  (.node (.node (.node (.node (.node .leaf 473 ⟨1, 56, none, false, false, none, false, [.atom 474 (some 92)]⟩ .leaf) 474
      ⟨1, 56, none, false, false, none, true, [.rule 139 475 69 0]⟩
      .leaf) 475
     ⟨1, 56, none, false, false, none, true, [.rule 139 476 69 0]⟩
     (.node .leaf 476 ⟨1, 56, none, false, false, none, true, [.rule 139 477 69 0]⟩ .leaf)) 477
    ⟨1, 56, none, false, false, none, true, [.epsilon 114]⟩
    (.node (.node (.node .leaf 478 ⟨1, 57, none, false, false, none, false, [.atom 479 (some 92)]⟩ .leaf) 479
      ⟨1, 57, none, false, false, none, false, [.set 480 ⟨false, [(34, 35), (39, 40), (92, 93), (97, 99), (102, 103), (110, 111), (114, 115), (116, 
      117), (118, 119)]⟩]⟩
      .leaf) 480
     ⟨1, 57, none, false, false, none, true, [.epsilon 116]⟩
     (.node .leaf 481 ⟨1, 58, none, false, false, none, false, [.atom 482 (some 116)]⟩ .leaf))) 482
   ⟨1, 58, none, false, false, none, false, [.atom 483 (some 114)]⟩
   (.node (.node (.node (.node .leaf 483 ⟨1, 58, none, false, false, none, false, [.atom 484 (some 117)]⟩ .leaf) 484
      ⟨1, 58, none, false, false, none, false, [.atom 491 (some 101)]⟩
      .leaf) 485
     ⟨1, 58, none, false, false, none, false, [.atom 486 (some 102)]⟩
     (.node .leaf 486 ⟨1, 58, none, false, false, none, false, [.atom 487 (some 97)]⟩ .leaf)) 487
    ⟨1, 58, none, false, false, none, false, [.atom 488 (some 108)]⟩
    (.node (.node .leaf 488 ⟨1, 58, none, false, false, none, false, [.atom 489 (some 115)]⟩ .leaf) 489
     ⟨1, 58, none, false, false, none, false, [.atom 491 (some 101)]⟩
     (.node .leaf 490 ⟨3, 58, (some 491), false, false, (some 5), true, [.epsilon 481, .epsilon 485]⟩ .leaf))))

def atnTree48 : Tree State :=
  .node atnTree46 472
    ⟨1, 55, none, false, false, none, true, [.epsilon 112]⟩
    atnTree47

def atnTree49 : Tree State :=
  (.node (.node (.node (.node (.node .leaf 492 ⟨1, 59, none, false, false, none, true, [.rule 123 493 61 0]⟩ .leaf) 493
      ⟨1, 59, none, false, false, none, true, [.rule 97 495 48 0]⟩
      .leaf) 494
     ⟨1, 59, none, false, false, none, true, [.rule 123 496 61 0]⟩
     (.node .leaf 495 ⟨3, 59, (some 496), false, false, (some 6), true, [.epsilon 494, .epsilon 496]⟩ .leaf)) 496
    ⟨8, 59, none, false, false, none, true, [.epsilon 498]⟩
    (.node (.node (.node .leaf 497 ⟨1, 59, none, false, false, none, true, [.rule 121 499 60 0]⟩ .leaf) 498
      ⟨3, 59, (some 499), false, false, (some 7), true, [.epsilon 497, .epsilon 499]⟩
      .leaf) 499
     ⟨8, 59, none, false, false, none, true, [.epsilon 509]⟩
     (.node .leaf 500 ⟨1, 59, none, false, false, none, true, [.rule 123 501 61 0]⟩ .leaf))) 501
   ⟨1, 59, none, false, false, none, true, [.rule 121 502 60 0]⟩
   (.node (.node (.node (.node .leaf 502 ⟨1, 59, none, false, false, none, true, [.epsilon 509]⟩ .leaf) 503
      ⟨1, 59, none, false, false, none, true, [.rule 97 504 48 0]⟩
      .leaf) 504
     ⟨1, 59, none, false, false, none, true, [.rule 123 506 61 0]⟩
     (.node .leaf 505 ⟨1, 59, none, false, false, none, true, [.rule 121 507 60 0]⟩ .leaf)) 506
    ⟨3, 59, (some 507), false, false, (some 8), true, [.epsilon 505, .epsilon 507]⟩
    (.node (.node .leaf 507 ⟨8, 59, none, false, false, none, true, [.epsilon 509]⟩ .leaf) 508
     ⟨3, 59, (some 509), false, false, (some 9), true, [.epsilon 492, .epsilon 500, .epsilon 503]⟩
     (.node .leaf 509 ⟨8, 59, none, false, false, none, true, [.epsilon 517]⟩ .leaf))))

def atnTree50 : Tree State :=
  (.node (.node (.node (.node (.node .leaf 511 ⟨1, 59, none, false, false, none, false, [.atom 512 (some 110)]⟩ .leaf) 512
      ⟨1, 59, none, false, false, none, false, [.atom 517 (some 102)]⟩
      .leaf) 513
     ⟨1, 59, none, false, false, none, false, [.atom 514 (some 110)]⟩
     (.node .leaf 514 ⟨1, 59, none, false, false, none, false, [.atom 515 (some 97)]⟩ .leaf)) 515
    ⟨1, 59, none, false, false, none, false, [.atom 517 (some 110)]⟩
    (.node (.node (.node .leaf 516 ⟨3, 59, (some 517), false, false, (some 10), true, [.epsilon 508, .epsilon 510, .epsilon 513]⟩ .leaf) 517
      ⟨8, 59, none, false, false, none, true, [.epsilon 120]⟩
      .leaf) 518
     ⟨1, 60, none, false, false, none, false, [.set 521 ⟨false, [(69, 70), (101, 102)]⟩]⟩
     (.node .leaf 519 ⟨1, 60, none, false, false, none, true, [.rule 103 522 51 0]⟩ .leaf))) 520
   ⟨1, 60, none, false, false, none, true, [.rule 105 522 52 0]⟩
   (.node (.node (.node (.node .leaf 521 ⟨3, 60, (some 522), false, false, (some 11), true, [.epsilon 519, .epsilon 520, .epsilon 522]⟩ .leaf) 522
      ⟨8, 60, none, false, false, none, true, [.epsilon 523]⟩
      .leaf) 523
     ⟨1, 60, none, false, false, none, true, [.rule 123 524 61 0]⟩
     (.node .leaf 524 ⟨1, 60, none, false, false, none, true, [.epsilon 122]⟩ .leaf)) 525
    ⟨1, 61, none, false, false, none, true, [.rule 137 527 68 0]⟩
    (.node (.node .leaf 526 ⟨4, 61, (some 527), false, false, none, true, [.epsilon 525]⟩ .leaf) 527
     ⟨8, 61, none, false, false, none, true, [.epsilon 528]⟩
     (.node .leaf 528 ⟨11, 61, none, false, false, (some 12), true, [.epsilon 526, .epsilon 529]⟩ .leaf))))

def atnTree51 : Tree State :=
  .node atnTree49 510
    ⟨1, 59, none, false, false, none, false, [.atom 511 (some 105)]⟩
    atnTree50

def atnTree52 : Tree State :=
  .node atnTree48 491
    ⟨8, 58, none, false, false, none, true, [.epsilon 118]⟩
    atnTree51

def atnTree53 : Tree State :=
  (.node (.node (.node (.node (.node .leaf 530 ⟨1, 62, none, false, false, none, true, [.rule 127 534 63 0]⟩ .leaf) 531
      ⟨1, 62, none, false, false, none, true, [.rule 129 534 64 0]⟩
      .leaf) 532
     ⟨1, 62, none, false, false, none, true, [.rule 131 534 65 0]⟩
     (.node .leaf 533 ⟨3, 62, (some 534), false, false, (some 13), true, [.epsilon 530, .epsilon 531, .epsilon 532]⟩ .leaf)) 534
    ⟨8, 62, none, false, false, none, true, [.epsilon 126]⟩
    (.node (.node (.node .leaf 535 ⟨1, 63, none, false, false, none, false, [.set 539 ⟨false, [(49, 58)]⟩]⟩ .leaf) 536
      ⟨1, 63, none, false, false, none, true, [.rule 137 538 68 0]⟩
      .leaf) 537
     ⟨5, 63, (some 538), false, false, none, true, [.epsilon 536]⟩
     (.node .leaf 538 ⟨8, 63, none, false, false, none, true, [.epsilon 541]⟩ .leaf))) 539
   ⟨10, 63, none, false, false, (some 14), true, [.epsilon 537, .epsilon 540]⟩
   (.node (.node (.node (.node .leaf 540 ⟨12, 63, (some 541), false, false, none, true, [.epsilon 128]⟩ .leaf) 541
      ⟨9, 63, none, false, false, none, true, [.epsilon 539]⟩
      .leaf) 542
     ⟨1, 64, none, false, false, none, false, [.atom 546 (some 48)]⟩
     (.node .leaf 543 ⟨1, 64, none, false, false, none, true, [.rule 139 545 69 0]⟩ .leaf)) 544
    ⟨5, 64, (some 545), false, false, none, true, [.epsilon 543]⟩
    (.node (.node .leaf 545 ⟨8, 64, none, false, false, none, true, [.epsilon 548]⟩ .leaf) 546
     ⟨10, 64, none, false, false, (some 15), true, [.epsilon 544, .epsilon 547]⟩
     (.node .leaf 547 ⟨12, 64, (some 548), false, false, none, true, [.epsilon 130]⟩ .leaf))))

def atnTree54 : Tree State :=
  (.node (.node (.node (.node (.node .leaf 549 ⟨1, 65, none, false, false, none, false, [.atom 550 (some 48)]⟩ .leaf) 550
      ⟨1, 65, none, false, false, none, false, [.set 552 ⟨false, [(88, 89), (120, 121)]⟩]⟩
      .leaf) 551
     ⟨1, 65, none, false, false, none, true, [.rule 141 553 70 0]⟩
     (.node .leaf 552 ⟨4, 65, (some 553), false, false, none, true, [.epsilon 551]⟩ .leaf)) 553
    ⟨8, 65, none, false, false, none, true, [.epsilon 554]⟩
    (.node (.node (.node .leaf 554 ⟨11, 65, none, false, false, (some 16), true, [.epsilon 552, .epsilon 555]⟩ .leaf) 555
      ⟨12, 65, (some 554), false, false, none, true, [.epsilon 132]⟩
      .leaf) 556
     ⟨1, 66, none, false, false, none, true, [.rule 135 561 67 0]⟩
     (.node .leaf 557 ⟨1, 66, none, false, false, none, true, [.rule 135 560 67 0]⟩ .leaf))) 558
   ⟨1, 66, none, false, false, none, true, [.rule 137 560 68 0]⟩
   (.node (.node (.node (.node .leaf 559 ⟨5, 66, (some 560), false, false, (some 17), true, [.epsilon 557, .epsilon 558]⟩ .leaf) 560
      ⟨8, 66, none, false, false, none, true, [.epsilon 563]⟩
      .leaf) 561
     ⟨10, 66, none, false, false, (some 18), true, [.epsilon 559, .epsilon 562]⟩
     (.node .leaf 562 ⟨12, 66, (some 563), false, false, none, true, [.epsilon 134]⟩ .leaf)) 563
    ⟨9, 66, none, false, false, none, true, [.epsilon 561]⟩
    (.node (.node .leaf 564 ⟨1, 67, none, false, false, none, false, [.set 565 ⟨false, [(65, 91), (95, 96), (97, 123)]⟩]⟩ .leaf) 565
     ⟨1, 67, none, false, false, none, true, [.epsilon 136]⟩
     (.node .leaf 566 ⟨1, 68, none, false, false, none, false, [.set 567 ⟨false, [(48, 58)]⟩]⟩ .leaf))))

def atnTree55 : Tree State :=
  .node atnTree53 548
    ⟨9, 64, none, false, false, none, true, [.epsilon 546]⟩
    atnTree54

def atnTree56 : Tree State :=
  (.node (.node (.node (.node (.node .leaf 568 ⟨1, 69, none, false, false, none, false, [.set 569 ⟨false, [(48, 56)]⟩]⟩ .leaf) 569
      ⟨1, 69, none, false, false, none, true, [.epsilon 140]⟩
      .leaf) 570
     ⟨1, 70, none, false, false, none, false, [.set 571 ⟨false, [(48, 58), (65, 71), (97, 103)]⟩]⟩
     (.node .leaf 571 ⟨1, 70, none, false, false, none, true, [.epsilon 142]⟩ .leaf)) 572
    ⟨1, 71, none, false, false, none, false, [.set 574 ⟨false, [(9, 11), (12, 14), (32, 33)]⟩]⟩
    (.node (.node (.node .leaf 573 ⟨4, 71, (some 574), false, false, none, true, [.epsilon 572]⟩ .leaf) 574
      ⟨8, 71, none, false, false, none, true, [.epsilon 575]⟩
      .leaf) 575
     ⟨11, 71, none, false, false, (some 19), true, [.epsilon 573, .epsilon 576]⟩
     (.node .leaf 576 ⟨12, 71, (some 575), false, false, none, true, [.epsilon 577]⟩ .leaf))) 577
   ⟨1, 71, none, false, false, none, true, [.action 578 0]⟩
   (.node (.node (.node (.node .leaf 578 ⟨1, 71, none, false, false, none, true, [.epsilon 144]⟩ .leaf) 579
      ⟨1, 72, none, false, false, none, false, [.atom 580 (some 47)]⟩
      .leaf) 580
     ⟨1, 72, none, false, false, none, false, [.atom 581 (some 47)]⟩
     (.node .leaf 581 ⟨1, 72, none, false, false, none, true, [.epsilon 585]⟩ .leaf)) 582
    ⟨1, 72, none, false, false, none, false, [.notSet 584 ⟨false, [(10, 11), (13, 14)]⟩]⟩
    (.node (.node .leaf 583 ⟨5, 72, (some 584), false, false, none, true, [.epsilon 582]⟩ .leaf) 584
     ⟨8, 72, none, false, false, none, true, [.epsilon 587]⟩
     (.node .leaf 585 ⟨10, 72, none, false, false, (some 20), true, [.epsilon 583, .epsilon 586]⟩ .leaf))))

def atnTree57 : Tree State :=
  (.node (.node (.node (.node (.node .leaf 587 ⟨9, 72, none, false, false, none, true, [.epsilon 585]⟩ .leaf) 588
      ⟨1, 72, none, false, false, none, true, [.action 589 1]⟩
      .leaf) 589
     ⟨1, 72, none, false, false, none, true, [.epsilon 146]⟩
     (.node .leaf 590 ⟨1, 73, none, false, false, none, false, [.atom 591 (some 47)]⟩ .leaf)) 591
    ⟨1, 73, none, false, false, none, false, [.atom 592 (some 42)]⟩
    (.node (.node .leaf 592 ⟨1, 73, none, false, false, none, true, [.epsilon 596]⟩ .leaf) 593
     ⟨1, 73, none, false, false, none, false, [.wildcard 595]⟩
     (.node .leaf 594 ⟨5, 73, (some 595), false, false, none, true, [.epsilon 593]⟩ .leaf))) 595
   ⟨8, 73, none, false, false, none, true, [.epsilon 598]⟩
   (.node (.node (.node (.node .leaf 596 ⟨10, 73, none, true, false, (some 21), true, [.epsilon 597, .epsilon 594]⟩ .leaf) 597
      ⟨12, 73, (some 598), false, false, none, true, [.epsilon 599]⟩
      .leaf) 598
     ⟨9, 73, none, false, false, none, true, [.epsilon 596]⟩
     (.node .leaf 599 ⟨1, 73, none, false, false, none, false, [.atom 600 (some 42)]⟩ .leaf)) 600
    ⟨1, 73, none, false, false, none, false, [.atom 601 (some 47)]⟩
    (.node (.node .leaf 601 ⟨1, 73, none, false, false, none, true, [.epsilon 602]⟩ .leaf) 602
     ⟨1, 73, none, false, false, none, true, [.action 603 1]⟩
     (.node .leaf 603 ⟨1, 73, none, false, false, none, true, [.epsilon 148]⟩ .leaf))))

def atnTree58 : Tree State :=
  .node atnTree56 586
    ⟨12, 72, (some 587), false, false, none, true, [.epsilon 588]⟩
    atnTree57

def atnTree59 : Tree State :=
  .node atnTree55 567
    ⟨1, 68, none, false, false, none, true, [.epsilon 138]⟩
    atnTree58

def atnTree60 : Tree State :=
  .node atnTree52 529
    ⟨12, 61, (some 528), false, false, none, true, [.epsilon 124]⟩
    atnTree59

def atnTree61 : Tree State :=
  .node atnTree45 453
    ⟨1, 53, none, false, false, none, true, [.rule 109 455 54 0]⟩
    atnTree60

def atnTree62 : Tree State :=
  .node atnTree30 302
    ⟨1, 21, none, false, false, none, false, [.atom 303 (some 105)]⟩
    atnTree61

def lexerRuleToken : List Nat :=
  [1, 2, 3, 4, 5, 6, 7, 8, 9, 10, 11, 12, 13, 14, 15, 16, 17, 18, 19, 20, 21, 22, 23, 24, 25, 26, 27, 28, 29, 30, 31, 32, 33, 34, 35, 36, 37, 38, 39, 40,
      41, 42, 43, 44, 45, 46, 47, 48, 49, 50, 51, 52, 53, 54, 0, 0, 0, 0, 55, 56, 0, 0, 57, 0, 0, 0, 58, 0, 0, 0, 0, 59, 60, 61]

def lexerAtn : Atn :=
  ⟨true, 61, atnTree62.toList,
    [1, 3, 5, 7, 9, 11, 13, 15, 17, 19, 21, 23, 25, 27, 29, 31, 33, 35, 37, 39, 41, 43, 45, 47, 49, 51, 53, 55, 57, 59, 61, 63, 65, 67, 69, 71, 73, 75, 77,
      79, 81, 83, 85, 87, 89, 91, 93, 95, 97, 99, 101, 103, 105, 107, 109, 111, 113, 115, 117, 119, 121, 123, 125, 127, 129, 131, 133, 135, 137, 139, 141,
      143, 145, 147],
    lexerRuleToken, [0],
    [0, 448, 456, 460, 466, 490, 495, 498, 506, 508, 516, 521, 528, 533, 539, 546, 554, 559, 561, 575, 585, 596],
    [⟨2⟩, ⟨3⟩]⟩

set_option maxRecDepth 100000 in
theorem lexerAtn_eq : deserialize lexerAtnData = some lexerAtn := by decide +kernel

theorem atnTree_upTo : atnTree62.upTo 0 = some 604 := by decide +kernel

/-- The automaton of the lexer, with fast access. -/
def lexerNet : Net := ⟨atnTree62.get, [⟨2⟩, ⟨3⟩], lexerRuleToken, 0⟩

theorem lexerNet_eq : (deserialize lexerAtnData).bind Atn.net = some lexerNet := by
  rw [lexerAtn_eq]
  show some (Net.mk _ _ _ _) = some (Net.mk _ _ _ _)
  congr 2
  funext i
  exact (((Tree.upTo_spec _ _ _ atnTree_upTo).2 i).trans (by rw [if_pos (Nat.zero_le i)]; rfl)).symm

end Verif.Lemmas.Gen.Antlr
