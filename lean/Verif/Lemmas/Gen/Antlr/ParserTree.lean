import Verif.Lemmas.Gen.Antlr.Tree
import Verif.Model.Gen.Antlr.Parser
/-!
# The automaton of the parser, as a tree

`parserAtn_eq` checks that this is what the deserializer makes of the data in protobuf_parser.go.
-/
namespace Verif.Lemmas.Gen.Antlr
open Verif.Model.Gen.Antlr

def parserTree0 : Tree State :=
  (.node (.node (.node (.node (.node .leaf 0 ⟨2, 0, none, false, false, none, true, [.epsilon 107]⟩ .leaf) 1
      ⟨7, 0, none, false, false, none, false, []⟩
      .leaf) 2
     ⟨2, 1, none, false, false, none, true, [.epsilon 121]⟩
     (.node .leaf 3 ⟨7, 1, none, false, false, none, true, [.epsilon 108]⟩ .leaf)) 4
    ⟨2, 2, none, false, false, none, true, [.epsilon 126]⟩
    (.node (.node .leaf 5 ⟨7, 2, none, false, false, none, true, [.epsilon 115]⟩ .leaf) 6
     ⟨2, 3, none, false, false, none, true, [.epsilon 133]⟩
     (.node .leaf 7 ⟨7, 3, none, false, false, none, true, [.epsilon 115]⟩ .leaf))) 8
   ⟨2, 4, none, false, false, none, true, [.epsilon 137]⟩
   (.node (.node (.node .leaf 9 ⟨7, 4, none, false, false, none, true, [.epsilon 115, .epsilon 191, .epsilon 312, .epsilon 363, .epsilon 391, .epsilon 411]⟩ .leaf) 10
     ⟨2, 5, none, false, false, none, true, [.epsilon 151]⟩
     (.node .leaf 11 ⟨7, 5, none, false, false, none, true, [.epsilon 139, .epsilon 179, .epsilon 336]⟩ .leaf)) 12
    ⟨2, 6, none, false, false, none, true, [.epsilon 153]⟩
    (.node (.node .leaf 13 ⟨7, 6, none, false, false, none, true, [.epsilon 157]⟩ .leaf) 14
     ⟨2, 7, none, false, false, none, true, [.epsilon 156]⟩
     (.node .leaf 15 ⟨7, 7, none, false, false, none, true, [.epsilon 363, .epsilon 370]⟩ .leaf))))

def parserTree1 : Tree State :=
  (.node (.node (.node (.node .leaf 17 ⟨7, 8, none, false, false, none, true, [.epsilon 164, .epsilon 203, .epsilon 220, .epsilon 258]⟩ .leaf) 18
     ⟨2, 9, none, false, false, none, true, [.epsilon 178]⟩
     (.node .leaf 19 ⟨7, 9, none, false, false, none, true, [.epsilon 175, .epsilon 174]⟩ .leaf)) 20
    ⟨2, 10, none, false, false, none, true, [.epsilon 182]⟩
    (.node (.node .leaf 21 ⟨7, 10, none, false, false, none, true, [.epsilon 166, .epsilon 205, .epsilon 222]⟩ .leaf) 22
     ⟨2, 11, none, false, false, none, true, [.epsilon 184]⟩
     (.node .leaf 23 ⟨7, 11, none, false, false, none, true, [.epsilon 363]⟩ .leaf))) 24
   ⟨2, 12, none, false, false, none, true, [.epsilon 197]⟩
   (.node (.node (.node .leaf 25 ⟨7, 12, none, false, false, none, true, [.epsilon 191]⟩ .leaf) 26
     ⟨2, 13, none, false, false, none, true, [.epsilon 209]⟩
     (.node .leaf 27 ⟨7, 13, none, false, false, none, true, [.epsilon 363]⟩ .leaf)) 28
    ⟨2, 14, none, false, false, none, true, [.epsilon 226]⟩
    (.node (.node .leaf 29 ⟨7, 14, none, false, false, none, true, [.epsilon 212]⟩ .leaf) 30
     ⟨2, 15, none, false, false, none, true, [.epsilon 245]⟩
     (.node .leaf 31 ⟨7, 15, none, false, false, none, true, [.epsilon 159, .epsilon 198, .epsilon 214]⟩ .leaf))))

def parserTree2 : Tree State :=
  .node parserTree0 16
    ⟨2, 8, none, false, false, none, true, [.epsilon 170]⟩
    parserTree1

def parserTree3 : Tree State :=
  (.node (.node (.node (.node .leaf 33 ⟨7, 16, none, false, false, none, true, [.epsilon 312, .epsilon 363]⟩ .leaf) 34
     ⟨2, 17, none, false, false, none, true, [.epsilon 254]⟩
     (.node .leaf 35 ⟨7, 17, none, false, false, none, true, [.epsilon 363]⟩ .leaf)) 36
    ⟨2, 18, none, false, false, none, true, [.epsilon 264]⟩
    (.node (.node .leaf 37 ⟨7, 18, none, false, false, none, true, [.epsilon 251, .epsilon 260]⟩ .leaf) 38
     ⟨2, 19, none, false, false, none, true, [.epsilon 272]⟩
     (.node .leaf 39 ⟨7, 19, none, false, false, none, true, [.epsilon 269, .epsilon 268]⟩ .leaf))) 40
   ⟨2, 20, none, false, false, none, true, [.epsilon 280]⟩
   (.node (.node (.node .leaf 41 ⟨7, 20, none, false, false, none, true, [.epsilon 251]⟩ .leaf) 42
     ⟨2, 21, none, false, false, none, true, [.epsilon 292]⟩
     (.node .leaf 43 ⟨7, 21, none, false, false, none, true, [.epsilon 115]⟩ .leaf)) 44
    ⟨2, 22, none, false, false, none, true, [.epsilon 294]⟩
    (.node (.node .leaf 45 ⟨7, 22, none, false, false, none, true, [.epsilon 293, .epsilon 363]⟩ .leaf) 46
     ⟨2, 23, none, false, false, none, true, [.epsilon 298]⟩
     (.node .leaf 47 ⟨7, 23, none, false, false, none, true, [.epsilon 297]⟩ .leaf))))

def parserTree4 : Tree State :=
  (.node (.node (.node (.node .leaf 49 ⟨7, 24, none, false, false, none, true, [.epsilon 301]⟩ .leaf) 50
     ⟨2, 25, none, false, false, none, true, [.epsilon 313]⟩
     (.node .leaf 51 ⟨7, 25, none, false, false, none, true, [.epsilon 312]⟩ .leaf)) 52
    ⟨2, 26, none, false, false, none, true, [.epsilon 324]⟩
    (.node (.node .leaf 53 ⟨7, 26, none, false, false, none, true, [.epsilon 321]⟩ .leaf) 54
     ⟨2, 27, none, false, false, none, true, [.epsilon 335]⟩
     (.node .leaf 55 ⟨7, 27, none, false, false, none, true, [.epsilon 330, .epsilon 329]⟩ .leaf))) 56
   ⟨2, 28, none, false, false, none, true, [.epsilon 339]⟩
   (.node (.node (.node .leaf 57 ⟨7, 28, none, false, false, none, true, [.epsilon 293, .epsilon 363]⟩ .leaf) 58
     ⟨2, 29, none, false, false, none, true, [.epsilon 343]⟩
     (.node .leaf 59 ⟨7, 29, none, false, false, none, true, [.epsilon 342]⟩ .leaf)) 60
    ⟨2, 30, none, false, false, none, true, [.epsilon 362]⟩
    (.node (.node .leaf 61 ⟨7, 30, none, false, false, none, true, [.epsilon 346]⟩ .leaf) 62
     ⟨2, 31, none, false, false, none, true, [.epsilon 364]⟩
     (.node .leaf 63 ⟨7, 31, none, false, false, none, true, [.epsilon 293, .epsilon 363]⟩ .leaf))))

def parserTree5 : Tree State :=
  .node parserTree3 48
    ⟨2, 24, none, false, false, none, true, [.epsilon 311]⟩
    parserTree4

def parserTree6 : Tree State :=
  .node parserTree2 32
    ⟨2, 16, none, false, false, none, true, [.epsilon 247]⟩
    parserTree5

def parserTree7 : Tree State :=
  (.node (.node (.node (.node .leaf 65 ⟨7, 32, none, false, false, none, true, [.epsilon 293]⟩ .leaf) 66
     ⟨2, 33, none, false, false, none, true, [.epsilon 390]⟩
     (.node .leaf 67 ⟨7, 33, none, false, false, none, true, [.epsilon 381]⟩ .leaf)) 68
    ⟨2, 34, none, false, false, none, true, [.epsilon 392]⟩
    (.node (.node .leaf 69 ⟨7, 34, none, false, false, none, true, [.epsilon 391]⟩ .leaf) 70
     ⟨2, 35, none, false, false, none, true, [.epsilon 431]⟩
     (.node .leaf 71 ⟨7, 35, none, false, false, none, true, [.epsilon 141, .epsilon 181, .epsilon 338, .epsilon 438]⟩ .leaf))) 72
   ⟨2, 36, none, false, false, none, true, [.epsilon 433]⟩
   (.node (.node (.node .leaf 73 ⟨7, 36, none, false, false, none, true, [.epsilon 432]⟩ .leaf) 74
     ⟨2, 37, none, false, false, none, true, [.epsilon 447]⟩
     (.node .leaf 75 ⟨7, 37, none, false, false, none, true, [.epsilon 115, .epsilon 191, .epsilon 312, .epsilon 363, .epsilon 370, .epsilon 391, .epsilon 411]⟩ .leaf)) 76
    ⟨2, 38, none, false, false, none, true, [.epsilon 451]⟩
    (.node (.node .leaf 77 ⟨7, 38, none, false, false, none, true, [.epsilon 314, .epsilon 435, .epsilon 458, .epsilon 457, .epsilon 462, .epsilon 464,
      .epsilon 466, .epsilon 468, .epsilon 470, .epsilon 472, .epsilon 477, .epsilon 490]⟩ .leaf) 78
     ⟨2, 39, none, false, false, none, true, [.epsilon 453]⟩
     (.node .leaf 79 ⟨7, 39, none, false, false, none, true, [.epsilon 135, .epsilon 152, .epsilon 146, .epsilon 150, .epsilon 432]⟩ .leaf))))

def parserTree8 : Tree State :=
  (.node (.node (.node (.node .leaf 81 ⟨7, 40, none, false, false, none, true, [.epsilon 341, .epsilon 485]⟩ .leaf) 82
     ⟨2, 41, none, false, false, none, true, [.epsilon 463]⟩
     (.node .leaf 83 ⟨7, 41, none, false, false, none, true, [.epsilon 296, .epsilon 498]⟩ .leaf)) 84
    ⟨2, 42, none, false, false, none, true, [.epsilon 465]⟩
    (.node (.node .leaf 85 ⟨7, 42, none, false, false, none, true, [.epsilon 160, .epsilon 199, .epsilon 216]⟩ .leaf) 86
     ⟨2, 43, none, false, false, none, true, [.epsilon 467]⟩
     (.node .leaf 87 ⟨7, 43, none, false, false, none, true, [.epsilon 186]⟩ .leaf))) 88
   ⟨2, 44, none, false, false, none, true, [.epsilon 469]⟩
   (.node (.node (.node .leaf 89 ⟨7, 44, none, false, false, none, true, [.epsilon 378]⟩ .leaf) 90
     ⟨2, 45, none, false, false, none, true, [.epsilon 471]⟩
     (.node .leaf 91 ⟨7, 45, none, false, false, none, true, [.epsilon 394]⟩ .leaf)) 92
    ⟨2, 46, none, false, false, none, true, [.epsilon 474]⟩
    (.node (.node .leaf 93 ⟨7, 46, none, false, false, none, true, [.epsilon 246, .epsilon 366, .epsilon 399, .epsilon 406]⟩ .leaf) 94
     ⟨2, 47, none, false, false, none, true, [.epsilon 487]⟩
     (.node .leaf 95 ⟨7, 47, none, false, false, none, true, [.epsilon 246]⟩ .leaf))))

def parserTree9 : Tree State :=
  .node parserTree7 80
    ⟨2, 40, none, false, false, none, true, [.epsilon 461]⟩
    parserTree8

def parserTree10 : Tree State :=
  (.node (.node (.node (.node .leaf 97 ⟨7, 48, none, false, false, none, true, [.epsilon 183, .epsilon 278, .epsilon 277, .epsilon 320, .epsilon 432]⟩ .leaf) 98
     ⟨2, 49, none, false, false, none, true, [.epsilon 502]⟩
     (.node .leaf 99 ⟨7, 49, none, false, false, none, true, [.epsilon 124, .epsilon 131, .epsilon 285, .epsilon 284, .epsilon 432]⟩ .leaf)) 100
    ⟨2, 50, none, false, false, none, true, [.epsilon 506]⟩
    (.node (.node .leaf 101 ⟨7, 50, none, false, false, none, true, [.epsilon 432]⟩ .leaf) 102
     ⟨2, 51, none, false, false, none, true, [.epsilon 508]⟩
     (.node .leaf 103 ⟨7, 51, none, false, false, none, true, [.epsilon 432]⟩ .leaf))) 104
   ⟨2, 52, none, false, false, none, true, [.epsilon 510]⟩
   (.node (.node (.node .leaf 105 ⟨7, 52, none, false, false, none, true, [.epsilon 452]⟩ .leaf) 106
     ⟨1, 0, none, false, false, none, true, [.rule 2 108 1 0]⟩
     (.node .leaf 107 ⟨3, 0, (some 108), false, false, (some 0), true, [.epsilon 106, .epsilon 108]⟩ .leaf)) 108
    ⟨8, 0, none, false, false, none, true, [.epsilon 116]⟩
    (.node (.node .leaf 109 ⟨1, 0, none, false, false, none, true, [.rule 4 115 2 0]⟩ .leaf) 110
     ⟨1, 0, none, false, false, none, true, [.rule 6 115 3 0]⟩
     (.node .leaf 111 ⟨1, 0, none, false, false, none, true, [.rule 8 115 4 0]⟩ .leaf))))

def parserTree11 : Tree State :=
  (.node (.node (.node (.node .leaf 113 ⟨1, 0, none, false, false, none, true, [.rule 74 115 37 0]⟩ .leaf) 114
     ⟨5, 0, (some 115), false, false, (some 1), true, [.epsilon 109, .epsilon 110, .epsilon 111, .epsilon 112, .epsilon 113]⟩
     (.node .leaf 115 ⟨8, 0, none, false, false, none, true, [.epsilon 118]⟩ .leaf)) 116
    ⟨10, 0, none, false, false, (some 2), true, [.epsilon 114, .epsilon 117]⟩
    (.node (.node .leaf 117 ⟨12, 0, (some 118), false, false, none, true, [.epsilon 119]⟩ .leaf) 118
     ⟨9, 0, none, false, false, none, true, [.epsilon 116]⟩
     (.node .leaf 119 ⟨1, 0, none, false, false, none, false, [.atom 120 none]⟩ .leaf))) 120
   ⟨1, 0, none, false, false, none, true, [.epsilon 1]⟩
   (.node (.node (.node .leaf 121 ⟨1, 1, none, false, false, none, false, [.set 122 ⟨false, [(1, 3)]⟩]⟩ .leaf) 122
     ⟨1, 1, none, false, false, none, false, [.atom 123 (some 40)]⟩
     (.node .leaf 123 ⟨1, 1, none, false, false, none, true, [.rule 98 124 49 0]⟩ .leaf)) 124
    ⟨1, 1, none, false, false, none, false, [.atom 125 (some 39)]⟩
    (.node (.node .leaf 125 ⟨1, 1, none, false, false, none, true, [.epsilon 3]⟩ .leaf) 126
     ⟨1, 2, none, false, false, none, false, [.atom 128 (some 3)]⟩
     (.node .leaf 127 ⟨1, 2, none, false, false, none, false, [.set 129 ⟨false, [(4, 6)]⟩]⟩ .leaf))))

def parserTree12 : Tree State :=
  .node parserTree10 112
    ⟨1, 0, none, false, false, none, true, [.rule 42 115 21 0]⟩
    parserTree11

def parserTree13 : Tree State :=
  .node parserTree9 96
    ⟨2, 48, none, false, false, none, true, [.epsilon 499]⟩
    parserTree12

def parserTree14 : Tree State :=
  .node parserTree6 64
    ⟨2, 32, none, false, false, none, true, [.epsilon 376]⟩
    parserTree13

def parserTree15 : Tree State :=
  (.node (.node (.node (.node .leaf 129 ⟨8, 2, none, false, false, none, true, [.epsilon 130]⟩ .leaf) 130
     ⟨1, 2, none, false, false, none, true, [.rule 98 131 49 0]⟩
     (.node .leaf 131 ⟨1, 2, none, false, false, none, false, [.atom 132 (some 39)]⟩ .leaf)) 132
    ⟨1, 2, none, false, false, none, true, [.epsilon 5]⟩
    (.node (.node .leaf 133 ⟨1, 3, none, false, false, none, false, [.atom 134 (some 6)]⟩ .leaf) 134
     ⟨1, 3, none, false, false, none, true, [.rule 78 135 39 0]⟩
     (.node .leaf 135 ⟨1, 3, none, false, false, none, false, [.atom 136 (some 39)]⟩ .leaf))) 136
   ⟨1, 3, none, false, false, none, true, [.epsilon 7]⟩
   (.node (.node (.node .leaf 137 ⟨1, 4, none, false, false, none, false, [.atom 138 (some 7)]⟩ .leaf) 138
     ⟨1, 4, none, false, false, none, true, [.rule 10 139 5 0]⟩
     (.node .leaf 139 ⟨1, 4, none, false, false, none, false, [.atom 140 (some 40)]⟩ .leaf)) 140
    ⟨1, 4, none, false, false, none, true, [.rule 70 141 35 0]⟩
    (.node (.node .leaf 141 ⟨1, 4, none, false, false, none, false, [.atom 142 (some 39)]⟩ .leaf) 142
     ⟨1, 4, none, false, false, none, true, [.epsilon 9]⟩
     (.node .leaf 143 ⟨1, 5, none, false, false, none, true, [.rule 78 152 39 0]⟩ .leaf))))

def parserTree16 : Tree State :=
  (.node (.node (.node (.node .leaf 145 ⟨1, 5, none, false, false, none, true, [.rule 78 146 39 0]⟩ .leaf) 146
     ⟨1, 5, none, false, false, none, false, [.atom 149 (some 42)]⟩
     (.node .leaf 147 ⟨1, 5, none, false, false, none, false, [.atom 148 (some 49)]⟩ .leaf)) 148
    ⟨1, 5, none, false, false, none, true, [.rule 78 150 39 0]⟩
    (.node (.node .leaf 149 ⟨3, 5, (some 150), false, false, (some 4), true, [.epsilon 147, .epsilon 150]⟩ .leaf) 150
     ⟨8, 5, none, false, false, none, true, [.epsilon 152]⟩
     (.node .leaf 151 ⟨3, 5, (some 152), false, false, (some 5), true, [.epsilon 143, .epsilon 144]⟩ .leaf))) 152
   ⟨8, 5, none, false, false, none, true, [.epsilon 11]⟩
   (.node (.node (.node .leaf 153 ⟨1, 6, none, false, false, none, false, [.set 154 ⟨false, [(8, 11)]⟩]⟩ .leaf) 154
     ⟨1, 6, none, false, false, none, true, [.epsilon 13]⟩
     (.node .leaf 155 ⟨1, 7, none, false, false, none, true, [.rule 12 157 6 0]⟩ .leaf)) 156
    ⟨3, 7, (some 157), false, false, (some 6), true, [.epsilon 155, .epsilon 157]⟩
    (.node (.node .leaf 157 ⟨8, 7, none, false, false, none, true, [.epsilon 158]⟩ .leaf) 158
     ⟨1, 7, none, false, false, none, true, [.rule 30 159 15 0]⟩
     (.node .leaf 159 ⟨1, 7, none, false, false, none, true, [.rule 84 160 42 0]⟩ .leaf))))

def parserTree17 : Tree State :=
  .node parserTree15 144
    ⟨1, 5, none, false, false, none, false, [.atom 145 (some 41)]⟩
    parserTree16

def parserTree18 : Tree State :=
  (.node (.node (.node (.node .leaf 161 ⟨1, 7, none, false, false, none, true, [.rule 20 166 10 0]⟩ .leaf) 162
     ⟨1, 7, none, false, false, none, false, [.atom 163 (some 43)]⟩
     (.node .leaf 163 ⟨1, 7, none, false, false, none, true, [.rule 16 164 8 0]⟩ .leaf)) 164
    ⟨1, 7, none, false, false, none, false, [.atom 165 (some 44)]⟩
    (.node (.node .leaf 165 ⟨1, 7, none, false, false, none, true, [.epsilon 167]⟩ .leaf) 166
     ⟨3, 7, (some 167), false, false, (some 7), true, [.epsilon 162, .epsilon 167]⟩
     (.node .leaf 167 ⟨8, 7, none, false, false, none, true, [.epsilon 168]⟩ .leaf))) 168
   ⟨1, 7, none, false, false, none, false, [.atom 169 (some 39)]⟩
   (.node (.node (.node .leaf 169 ⟨1, 7, none, false, false, none, true, [.epsilon 15]⟩ .leaf) 170
     ⟨1, 8, none, false, false, none, true, [.rule 18 175 9 0]⟩
     (.node .leaf 171 ⟨1, 8, none, false, false, none, false, [.atom 172 (some 50)]⟩ .leaf)) 172
    ⟨1, 8, none, false, false, none, true, [.rule 18 174 9 0]⟩
    (.node (.node .leaf 173 ⟨5, 8, (some 174), false, false, none, true, [.epsilon 171]⟩ .leaf) 174
     ⟨8, 8, none, false, false, none, true, [.epsilon 177]⟩
     (.node .leaf 175 ⟨10, 8, none, false, false, (some 8), true, [.epsilon 173, .epsilon 176]⟩ .leaf))))

def parserTree19 : Tree State :=
  (.node (.node (.node (.node .leaf 177 ⟨9, 8, none, false, false, none, true, [.epsilon 175]⟩ .leaf) 178
     ⟨1, 9, none, false, false, none, true, [.rule 10 179 5 0]⟩
     (.node .leaf 179 ⟨1, 9, none, false, false, none, false, [.atom 180 (some 40)]⟩ .leaf)) 180
    ⟨1, 9, none, false, false, none, true, [.rule 70 181 35 0]⟩
    (.node (.node .leaf 181 ⟨1, 9, none, false, false, none, true, [.epsilon 19]⟩ .leaf) 182
     ⟨1, 10, none, false, false, none, true, [.rule 96 183 48 0]⟩
     (.node .leaf 183 ⟨1, 10, none, false, false, none, true, [.epsilon 21]⟩ .leaf))) 184
   ⟨1, 11, none, false, false, none, false, [.atom 185 (some 11)]⟩
   (.node (.node (.node .leaf 185 ⟨1, 11, none, false, false, none, true, [.rule 86 186 43 0]⟩ .leaf) 186
     ⟨1, 11, none, false, false, none, false, [.atom 192 (some 45)]⟩
     (.node .leaf 187 ⟨1, 11, none, false, false, none, true, [.rule 8 191 4 0]⟩ .leaf)) 188
    ⟨1, 11, none, false, false, none, true, [.rule 24 191 12 0]⟩
    (.node (.node .leaf 189 ⟨1, 11, none, false, false, none, true, [.rule 74 191 37 0]⟩ .leaf) 190
     ⟨5, 11, (some 191), false, false, (some 9), true, [.epsilon 187, .epsilon 188, .epsilon 189]⟩
     (.node .leaf 191 ⟨8, 11, none, false, false, none, true, [.epsilon 194]⟩ .leaf))))

def parserTree20 : Tree State :=
  .node parserTree18 176
    ⟨12, 8, (some 177), false, false, none, true, [.epsilon 17]⟩
    parserTree19

def parserTree21 : Tree State :=
  .node parserTree17 160
    ⟨1, 7, none, false, false, none, false, [.atom 161 (some 40)]⟩
    parserTree20

def parserTree22 : Tree State :=
  (.node (.node (.node (.node .leaf 193 ⟨12, 11, (some 194), false, false, none, true, [.epsilon 195]⟩ .leaf) 194
     ⟨9, 11, none, false, false, none, true, [.epsilon 192]⟩
     (.node .leaf 195 ⟨1, 11, none, false, false, none, false, [.atom 196 (some 46)]⟩ .leaf)) 196
    ⟨1, 11, none, false, false, none, true, [.epsilon 23]⟩
    (.node (.node .leaf 197 ⟨1, 12, none, false, false, none, true, [.rule 30 198 15 0]⟩ .leaf) 198
     ⟨1, 12, none, false, false, none, true, [.rule 84 199 42 0]⟩
     (.node .leaf 199 ⟨1, 12, none, false, false, none, false, [.atom 200 (some 40)]⟩ .leaf))) 200
   ⟨1, 12, none, false, false, none, true, [.rule 20 205 10 0]⟩
   (.node (.node (.node .leaf 201 ⟨1, 12, none, false, false, none, false, [.atom 202 (some 43)]⟩ .leaf) 202
     ⟨1, 12, none, false, false, none, true, [.rule 16 203 8 0]⟩
     (.node .leaf 203 ⟨1, 12, none, false, false, none, false, [.atom 204 (some 44)]⟩ .leaf)) 204
    ⟨1, 12, none, false, false, none, true, [.epsilon 206]⟩
    (.node (.node .leaf 205 ⟨3, 12, (some 206), false, false, (some 11), true, [.epsilon 201, .epsilon 206]⟩ .leaf) 206
     ⟨8, 12, none, false, false, none, true, [.epsilon 207]⟩
     (.node .leaf 207 ⟨1, 12, none, false, false, none, false, [.atom 208 (some 39)]⟩ .leaf))))

def parserTree23 : Tree State :=
  (.node (.node (.node (.node .leaf 209 ⟨1, 13, none, false, false, none, false, [.atom 210 (some 12)]⟩ .leaf) 210
     ⟨1, 13, none, false, false, none, false, [.atom 211 (some 47)]⟩
     (.node .leaf 211 ⟨1, 13, none, false, false, none, true, [.rule 28 212 14 0]⟩ .leaf)) 212
    ⟨1, 13, none, false, false, none, false, [.atom 213 (some 50)]⟩
    (.node (.node .leaf 213 ⟨1, 13, none, false, false, none, true, [.rule 30 214 15 0]⟩ .leaf) 214
     ⟨1, 13, none, false, false, none, false, [.atom 215 (some 48)]⟩
     (.node .leaf 215 ⟨1, 13, none, false, false, none, true, [.rule 84 216 42 0]⟩ .leaf))) 216
   ⟨1, 13, none, false, false, none, false, [.atom 217 (some 40)]⟩
   (.node (.node (.node .leaf 217 ⟨1, 13, none, false, false, none, true, [.rule 20 222 10 0]⟩ .leaf) 218
     ⟨1, 13, none, false, false, none, false, [.atom 219 (some 43)]⟩
     (.node .leaf 219 ⟨1, 13, none, false, false, none, true, [.rule 16 220 8 0]⟩ .leaf)) 220
    ⟨1, 13, none, false, false, none, false, [.atom 221 (some 44)]⟩
    (.node (.node .leaf 221 ⟨1, 13, none, false, false, none, true, [.epsilon 223]⟩ .leaf) 222
     ⟨3, 13, (some 223), false, false, (some 12), true, [.epsilon 218, .epsilon 223]⟩
     (.node .leaf 223 ⟨8, 13, none, false, false, none, true, [.epsilon 224]⟩ .leaf))))

def parserTree24 : Tree State :=
  .node parserTree22 208
    ⟨1, 12, none, false, false, none, true, [.epsilon 25]⟩
    parserTree23

def parserTree25 : Tree State :=
  (.node (.node (.node (.node .leaf 225 ⟨1, 13, none, false, false, none, true, [.epsilon 27]⟩ .leaf) 226
     ⟨1, 14, none, false, false, none, false, [.set 227 ⟨false, [(13, 25)]⟩]⟩
     (.node .leaf 227 ⟨1, 14, none, false, false, none, true, [.epsilon 29]⟩ .leaf)) 228
    ⟨1, 15, none, false, false, none, false, [.atom 246 (some 25)]⟩
    (.node (.node .leaf 229 ⟨1, 15, none, false, false, none, false, [.atom 246 (some 26)]⟩ .leaf) 230
     ⟨1, 15, none, false, false, none, false, [.atom 246 (some 13)]⟩
     (.node .leaf 231 ⟨1, 15, none, false, false, none, false, [.atom 246 (some 14)]⟩ .leaf))) 232
   ⟨1, 15, none, false, false, none, false, [.atom 246 (some 15)]⟩
   (.node (.node (.node .leaf 233 ⟨1, 15, none, false, false, none, false, [.atom 246 (some 16)]⟩ .leaf) 234
     ⟨1, 15, none, false, false, none, false, [.atom 246 (some 17)]⟩
     (.node .leaf 235 ⟨1, 15, none, false, false, none, false, [.atom 246 (some 18)]⟩ .leaf)) 236
    ⟨1, 15, none, false, false, none, false, [.atom 246 (some 19)]⟩
    (.node (.node .leaf 237 ⟨1, 15, none, false, false, none, false, [.atom 246 (some 20)]⟩ .leaf) 238
     ⟨1, 15, none, false, false, none, false, [.atom 246 (some 21)]⟩
     (.node .leaf 239 ⟨1, 15, none, false, false, none, false, [.atom 246 (some 22)]⟩ .leaf))))

def parserTree26 : Tree State :=
  (.node (.node (.node (.node .leaf 241 ⟨1, 15, none, false, false, none, false, [.atom 246 (some 24)]⟩ .leaf) 242
     ⟨1, 15, none, false, false, none, false, [.atom 246 (some 27)]⟩
     (.node .leaf 243 ⟨1, 15, none, false, false, none, true, [.rule 92 246 46 0]⟩ .leaf)) 244
    ⟨1, 15, none, false, false, none, true, [.rule 94 246 47 0]⟩
    (.node (.node .leaf 245 ⟨3, 15, (some 246), false, false, (some 13), true, [.epsilon 228, .epsilon 229, .epsilon 230, .epsilon 231, .epsilon 232,
      .epsilon 233, .epsilon 234, .epsilon 235, .epsilon 236, .epsilon 237, .epsilon 238, .epsilon 239, .epsilon 240, .epsilon 241,
      .epsilon 242, .epsilon 243, .epsilon 244]⟩ .leaf) 246
     ⟨8, 15, none, false, false, none, true, [.epsilon 31]⟩
     (.node .leaf 247 ⟨1, 16, none, false, false, none, false, [.atom 250 (some 28)]⟩ .leaf))) 248
   ⟨1, 16, none, false, false, none, true, [.rule 36 251 18 0]⟩
   (.node (.node (.node .leaf 249 ⟨1, 16, none, false, false, none, true, [.rule 40 251 20 0]⟩ .leaf) 250
     ⟨3, 16, (some 251), false, false, (some 14), true, [.epsilon 248, .epsilon 249]⟩
     (.node .leaf 251 ⟨8, 16, none, false, false, none, true, [.epsilon 252]⟩ .leaf)) 252
    ⟨1, 16, none, false, false, none, false, [.atom 253 (some 39)]⟩
    (.node (.node .leaf 253 ⟨1, 16, none, false, false, none, true, [.epsilon 33]⟩ .leaf) 254
     ⟨1, 17, none, false, false, none, false, [.atom 255 (some 29)]⟩
     (.node .leaf 255 ⟨1, 17, none, false, false, none, true, [.rule 36 260 18 0]⟩ .leaf))))

def parserTree27 : Tree State :=
  .node parserTree25 240
    ⟨1, 15, none, false, false, none, false, [.atom 246 (some 23)]⟩
    parserTree26

def parserTree28 : Tree State :=
  .node parserTree24 224
    ⟨1, 13, none, false, false, none, false, [.atom 225 (some 39)]⟩
    parserTree27

def parserTree29 : Tree State :=
  .node parserTree21 192
    ⟨10, 11, none, false, false, (some 10), true, [.epsilon 190, .epsilon 193]⟩
    parserTree28

def parserTree30 : Tree State :=
  .node parserTree14 128
    ⟨3, 2, (some 129), false, false, (some 3), true, [.epsilon 127, .epsilon 129]⟩
    parserTree29

def parserTree31 : Tree State :=
  (.node (.node (.node (.node (.node .leaf 257 ⟨1, 17, none, false, false, none, true, [.rule 16 258 8 0]⟩ .leaf) 258
      ⟨1, 17, none, false, false, none, false, [.atom 259 (some 44)]⟩
      .leaf) 259
     ⟨1, 17, none, false, false, none, true, [.epsilon 261]⟩
     (.node .leaf 260 ⟨3, 17, (some 261), false, false, (some 15), true, [.epsilon 256, .epsilon 261]⟩ .leaf)) 261
    ⟨8, 17, none, false, false, none, true, [.epsilon 262]⟩
    (.node (.node .leaf 262 ⟨1, 17, none, false, false, none, false, [.atom 263 (some 39)]⟩ .leaf) 263
     ⟨1, 17, none, false, false, none, true, [.epsilon 35]⟩
     (.node .leaf 264 ⟨1, 18, none, false, false, none, true, [.rule 38 269 19 0]⟩ .leaf))) 265
   ⟨1, 18, none, false, false, none, false, [.atom 266 (some 50)]⟩
   (.node (.node (.node .leaf 266 ⟨1, 18, none, false, false, none, true, [.rule 38 268 19 0]⟩ .leaf) 267
     ⟨5, 18, (some 268), false, false, none, true, [.epsilon 265]⟩
     (.node .leaf 268 ⟨8, 18, none, false, false, none, true, [.epsilon 271]⟩ .leaf)) 269
    ⟨10, 18, none, false, false, (some 16), true, [.epsilon 267, .epsilon 270]⟩
    (.node (.node .leaf 270 ⟨12, 18, (some 271), false, false, none, true, [.epsilon 37]⟩ .leaf) 271
     ⟨9, 18, none, false, false, none, true, [.epsilon 269]⟩
     (.node .leaf 272 ⟨1, 19, none, false, false, none, true, [.rule 96 278 48 0]⟩ .leaf))))

def parserTree32 : Tree State :=
  (.node (.node (.node (.node .leaf 274 ⟨1, 19, none, false, false, none, true, [.rule 96 277 48 0]⟩ .leaf) 275
     ⟨1, 19, none, false, false, none, false, [.atom 277 (some 31)]⟩
     (.node .leaf 276 ⟨3, 19, (some 277), false, false, (some 17), true, [.epsilon 274, .epsilon 275]⟩ .leaf)) 277
    ⟨8, 19, none, false, false, none, true, [.epsilon 279]⟩
    (.node (.node .leaf 278 ⟨3, 19, (some 279), false, false, (some 18), true, [.epsilon 273, .epsilon 279]⟩ .leaf) 279
     ⟨8, 19, none, false, false, none, true, [.epsilon 39]⟩
     (.node .leaf 280 ⟨1, 20, none, false, false, none, true, [.rule 98 285 49 0]⟩ .leaf))) 281
   ⟨1, 20, none, false, false, none, false, [.atom 282 (some 50)]⟩
   (.node (.node (.node .leaf 282 ⟨1, 20, none, false, false, none, true, [.rule 98 284 49 0]⟩ .leaf) 283
     ⟨5, 20, (some 284), false, false, none, true, [.epsilon 281]⟩
     (.node .leaf 284 ⟨8, 20, none, false, false, none, true, [.epsilon 287]⟩ .leaf)) 285
    ⟨10, 20, none, false, false, (some 19), true, [.epsilon 283, .epsilon 286]⟩
    (.node (.node .leaf 286 ⟨12, 20, (some 287), false, false, none, true, [.epsilon 41]⟩ .leaf) 287
     ⟨9, 20, none, false, false, none, true, [.epsilon 285]⟩
     (.node .leaf 288 ⟨1, 21, none, false, false, none, true, [.rule 56 293 28 0]⟩ .leaf))))

def parserTree33 : Tree State :=
  .node parserTree31 273
    ⟨1, 19, none, false, false, none, false, [.atom 276 (some 30)]⟩
    parserTree32

def parserTree34 : Tree State :=
  (.node (.node (.node (.node .leaf 290 ⟨1, 21, none, false, false, none, true, [.rule 62 293 31 0]⟩ .leaf) 291
     ⟨1, 21, none, false, false, none, true, [.rule 64 293 32 0]⟩
     (.node .leaf 292 ⟨3, 21, (some 293), false, false, (some 20), true, [.epsilon 288, .epsilon 289, .epsilon 290, .epsilon 291]⟩ .leaf)) 293
    ⟨8, 21, none, false, false, none, true, [.epsilon 43]⟩
    (.node (.node .leaf 294 ⟨1, 22, none, false, false, none, false, [.atom 295 (some 32)]⟩ .leaf) 295
     ⟨1, 22, none, false, false, none, true, [.rule 82 296 41 0]⟩
     (.node .leaf 296 ⟨1, 22, none, false, false, none, true, [.rule 46 297 23 0]⟩ .leaf))) 297
   ⟨1, 22, none, false, false, none, true, [.epsilon 45]⟩
   (.node (.node (.node .leaf 298 ⟨1, 23, none, false, false, none, false, [.atom 302 (some 45)]⟩ .leaf) 299
     ⟨1, 23, none, false, false, none, true, [.rule 48 301 24 0]⟩
     (.node .leaf 300 ⟨5, 23, (some 301), false, false, none, true, [.epsilon 299]⟩ .leaf)) 301
    ⟨8, 23, none, false, false, none, true, [.epsilon 304]⟩
    (.node (.node .leaf 302 ⟨10, 23, none, false, false, (some 21), true, [.epsilon 300, .epsilon 303]⟩ .leaf) 303
     ⟨12, 23, (some 304), false, false, none, true, [.epsilon 305]⟩
     (.node .leaf 304 ⟨9, 23, none, false, false, none, true, [.epsilon 302]⟩ .leaf))))

def parserTree35 : Tree State :=
  (.node (.node (.node (.node .leaf 306 ⟨1, 23, none, false, false, none, true, [.epsilon 47]⟩ .leaf) 307
     ⟨1, 24, none, false, false, none, true, [.rule 8 312 4 0]⟩
     (.node .leaf 308 ⟨1, 24, none, false, false, none, true, [.rule 50 312 25 0]⟩ .leaf)) 309
    ⟨1, 24, none, false, false, none, true, [.rule 32 312 16 0]⟩
    (.node (.node .leaf 310 ⟨1, 24, none, false, false, none, true, [.rule 74 312 37 0]⟩ .leaf) 311
     ⟨3, 24, (some 312), false, false, (some 22), true, [.epsilon 307, .epsilon 308, .epsilon 309, .epsilon 310]⟩
     (.node .leaf 312 ⟨8, 24, none, false, false, none, true, [.epsilon 49]⟩ .leaf))) 313
   ⟨1, 25, none, false, false, none, true, [.rule 76 314 38 0]⟩
   (.node (.node (.node .leaf 314 ⟨1, 25, none, false, false, none, false, [.atom 316 (some 40)]⟩ .leaf) 315
     ⟨1, 25, none, false, false, none, false, [.atom 317 (some 53)]⟩
     (.node .leaf 316 ⟨3, 25, (some 317), false, false, (some 23), true, [.epsilon 315, .epsilon 317]⟩ .leaf)) 317
    ⟨8, 25, none, false, false, none, true, [.epsilon 318]⟩
    (.node (.node .leaf 318 ⟨1, 25, none, false, false, none, true, [.rule 96 320 48 0]⟩ .leaf) 319
     ⟨1, 25, none, false, false, none, true, [.rule 52 321 26 0]⟩
     (.node .leaf 320 ⟨3, 25, (some 321), false, false, (some 24), true, [.epsilon 319, .epsilon 321]⟩ .leaf))))

def parserTree36 : Tree State :=
  .node parserTree34 305
    ⟨1, 23, none, false, false, none, false, [.atom 306 (some 46)]⟩
    parserTree35

def parserTree37 : Tree State :=
  .node parserTree33 289
    ⟨1, 21, none, false, false, none, true, [.rule 44 293 22 0]⟩
    parserTree36

def parserTree38 : Tree State :=
  (.node (.node (.node (.node .leaf 322 ⟨1, 25, none, false, false, none, false, [.atom 323 (some 39)]⟩ .leaf) 323
     ⟨1, 25, none, false, false, none, true, [.epsilon 51]⟩
     (.node .leaf 324 ⟨1, 26, none, false, false, none, false, [.atom 325 (some 43)]⟩ .leaf)) 325
    ⟨1, 26, none, false, false, none, true, [.rule 54 330 27 0]⟩
    (.node (.node .leaf 326 ⟨1, 26, none, false, false, none, false, [.atom 327 (some 50)]⟩ .leaf) 327
     ⟨1, 26, none, false, false, none, true, [.rule 54 329 27 0]⟩
     (.node .leaf 328 ⟨5, 26, (some 329), false, false, none, true, [.epsilon 326]⟩ .leaf))) 329
   ⟨8, 26, none, false, false, none, true, [.epsilon 332]⟩
   (.node (.node (.node .leaf 330 ⟨10, 26, none, false, false, (some 25), true, [.epsilon 328, .epsilon 331]⟩ .leaf) 331
     ⟨12, 26, (some 332), false, false, none, true, [.epsilon 333]⟩
     (.node .leaf 332 ⟨9, 26, none, false, false, none, true, [.epsilon 330]⟩ .leaf)) 333
    ⟨1, 26, none, false, false, none, false, [.atom 334 (some 44)]⟩
    (.node (.node .leaf 334 ⟨1, 26, none, false, false, none, true, [.epsilon 53]⟩ .leaf) 335
     ⟨1, 27, none, false, false, none, true, [.rule 10 336 5 0]⟩
     (.node .leaf 336 ⟨1, 27, none, false, false, none, false, [.atom 337 (some 40)]⟩ .leaf))))

def parserTree39 : Tree State :=
  (.node (.node (.node (.node .leaf 338 ⟨1, 27, none, false, false, none, true, [.epsilon 55]⟩ .leaf) 339
     ⟨1, 28, none, false, false, none, false, [.atom 340 (some 33)]⟩
     (.node .leaf 340 ⟨1, 28, none, false, false, none, true, [.rule 80 341 40 0]⟩ .leaf)) 341
    ⟨1, 28, none, false, false, none, true, [.rule 58 342 29 0]⟩
    (.node (.node .leaf 342 ⟨1, 28, none, false, false, none, true, [.epsilon 57]⟩ .leaf) 343
     ⟨1, 29, none, false, false, none, false, [.atom 347 (some 45)]⟩
     (.node .leaf 344 ⟨1, 29, none, false, false, none, true, [.rule 60 346 30 0]⟩ .leaf))) 345
   ⟨5, 29, (some 346), false, false, none, true, [.epsilon 344]⟩
   (.node (.node (.node .leaf 346 ⟨8, 29, none, false, false, none, true, [.epsilon 349]⟩ .leaf) 347
     ⟨10, 29, none, false, false, (some 26), true, [.epsilon 345, .epsilon 348]⟩
     (.node .leaf 348 ⟨12, 29, (some 349), false, false, none, true, [.epsilon 350]⟩ .leaf)) 349
    ⟨9, 29, none, false, false, none, true, [.epsilon 347]⟩
    (.node (.node .leaf 350 ⟨1, 29, none, false, false, none, false, [.atom 351 (some 46)]⟩ .leaf) 351
     ⟨1, 29, none, false, false, none, true, [.epsilon 59]⟩
     (.node .leaf 352 ⟨1, 30, none, false, false, none, true, [.rule 14 363 7 0]⟩ .leaf))))

def parserTree40 : Tree State :=
  .node parserTree38 337
    ⟨1, 27, none, false, false, none, true, [.rule 70 338 35 0]⟩
    parserTree39

def parserTree41 : Tree State :=
  (.node (.node (.node (.node .leaf 354 ⟨1, 30, none, false, false, none, true, [.rule 56 363 28 0]⟩ .leaf) 355
     ⟨1, 30, none, false, false, none, true, [.rule 62 363 31 0]⟩
     (.node .leaf 356 ⟨1, 30, none, false, false, none, true, [.rule 8 363 4 0]⟩ .leaf)) 357
    ⟨1, 30, none, false, false, none, true, [.rule 22 363 11 0]⟩
    (.node (.node .leaf 358 ⟨1, 30, none, false, false, none, true, [.rule 26 363 13 0]⟩ .leaf) 359
     ⟨1, 30, none, false, false, none, true, [.rule 32 363 16 0]⟩
     (.node .leaf 360 ⟨1, 30, none, false, false, none, true, [.rule 34 363 17 0]⟩ .leaf))) 361
   ⟨1, 30, none, false, false, none, true, [.rule 74 363 37 0]⟩
   (.node (.node (.node .leaf 362 ⟨3, 30, (some 363), false, false, (some 27), true, [.epsilon 352, .epsilon 353, .epsilon 354, .epsilon 355, .epsilon 356,
      .epsilon 357, .epsilon 358, .epsilon 359, .epsilon 360, .epsilon 361]⟩ .leaf) 363
     ⟨8, 30, none, false, false, none, true, [.epsilon 61]⟩
     (.node .leaf 364 ⟨1, 31, none, false, false, none, false, [.atom 365 (some 35)]⟩ .leaf)) 365
    ⟨1, 31, none, false, false, none, true, [.rule 92 366 46 0]⟩
    (.node (.node .leaf 366 ⟨1, 31, none, false, false, none, false, [.atom 371 (some 45)]⟩ .leaf) 367
     ⟨1, 31, none, false, false, none, true, [.rule 14 370 7 0]⟩
     (.node .leaf 368 ⟨1, 31, none, false, false, none, true, [.rule 74 370 37 0]⟩ .leaf))))

def parserTree42 : Tree State :=
  (.node (.node (.node (.node .leaf 370 ⟨8, 31, none, false, false, none, true, [.epsilon 373]⟩ .leaf) 371
     ⟨10, 31, none, false, false, (some 29), true, [.epsilon 369, .epsilon 372]⟩
     (.node .leaf 372 ⟨12, 31, (some 373), false, false, none, true, [.epsilon 374]⟩ .leaf)) 373
    ⟨9, 31, none, false, false, none, true, [.epsilon 371]⟩
    (.node (.node .leaf 374 ⟨1, 31, none, false, false, none, false, [.atom 375 (some 46)]⟩ .leaf) 375
     ⟨1, 31, none, false, false, none, true, [.epsilon 63]⟩
     (.node .leaf 376 ⟨1, 32, none, false, false, none, false, [.atom 377 (some 34)]⟩ .leaf))) 377
   ⟨1, 32, none, false, false, none, true, [.rule 88 378 44 0]⟩
   (.node (.node (.node .leaf 378 ⟨1, 32, none, false, false, none, false, [.atom 382 (some 45)]⟩ .leaf) 379
     ⟨1, 32, none, false, false, none, true, [.rule 66 381 33 0]⟩
     (.node .leaf 380 ⟨5, 32, (some 381), false, false, none, true, [.epsilon 379]⟩ .leaf)) 381
    ⟨8, 32, none, false, false, none, true, [.epsilon 384]⟩
    (.node (.node .leaf 382 ⟨10, 32, none, false, false, (some 30), true, [.epsilon 380, .epsilon 383]⟩ .leaf) 383
     ⟨12, 32, (some 384), false, false, none, true, [.epsilon 385]⟩
     (.node .leaf 384 ⟨9, 32, none, false, false, none, true, [.epsilon 382]⟩ .leaf))))

def parserTree43 : Tree State :=
  .node parserTree41 369
    ⟨5, 31, (some 370), false, false, (some 28), true, [.epsilon 367, .epsilon 368]⟩
    parserTree42

def parserTree44 : Tree State :=
  .node parserTree40 353
    ⟨1, 30, none, false, false, none, true, [.rule 44 363 22 0]⟩
    parserTree43

def parserTree45 : Tree State :=
  .node parserTree37 321
    ⟨8, 25, none, false, false, none, true, [.epsilon 322]⟩
    parserTree44

def parserTree46 : Tree State :=
  (.node (.node (.node (.node .leaf 386 ⟨1, 32, none, false, false, none, true, [.epsilon 65]⟩ .leaf) 387
     ⟨1, 33, none, false, false, none, true, [.rule 8 391 4 0]⟩
     (.node .leaf 388 ⟨1, 33, none, false, false, none, true, [.rule 68 391 34 0]⟩ .leaf)) 389
    ⟨1, 33, none, false, false, none, true, [.rule 74 391 37 0]⟩
    (.node (.node .leaf 390 ⟨3, 33, (some 391), false, false, (some 31), true, [.epsilon 387, .epsilon 388, .epsilon 389]⟩ .leaf) 391
     ⟨8, 33, none, false, false, none, true, [.epsilon 67]⟩
     (.node .leaf 392 ⟨1, 34, none, false, false, none, false, [.atom 393 (some 36)]⟩ .leaf))) 393
   ⟨1, 34, none, false, false, none, true, [.rule 90 394 45 0]⟩
   (.node (.node (.node .leaf 394 ⟨1, 34, none, false, false, none, false, [.atom 396 (some 41)]⟩ .leaf) 395
     ⟨1, 34, none, false, false, none, false, [.atom 397 (some 37)]⟩
     (.node .leaf 396 ⟨3, 34, (some 397), false, false, (some 32), true, [.epsilon 395, .epsilon 397]⟩ .leaf)) 397
    ⟨8, 34, none, false, false, none, true, [.epsilon 398]⟩
    (.node (.node .leaf 398 ⟨1, 34, none, false, false, none, true, [.rule 92 399 46 0]⟩ .leaf) 399
     ⟨1, 34, none, false, false, none, false, [.atom 400 (some 42)]⟩
     (.node .leaf 400 ⟨1, 34, none, false, false, none, false, [.atom 401 (some 38)]⟩ .leaf))))

def parserTree47 : Tree State :=
  (.node (.node (.node (.node .leaf 402 ⟨1, 34, none, false, false, none, false, [.atom 404 (some 37)]⟩ .leaf) 403
     ⟨3, 34, (some 404), false, false, (some 33), true, [.epsilon 402, .epsilon 404]⟩
     (.node .leaf 404 ⟨8, 34, none, false, false, none, true, [.epsilon 405]⟩ .leaf)) 405
    ⟨1, 34, none, false, false, none, true, [.rule 92 406 46 0]⟩
    (.node (.node .leaf 406 ⟨1, 34, none, false, false, none, false, [.atom 417 (some 42)]⟩ .leaf) 407
     ⟨1, 34, none, false, false, none, false, [.atom 412 (some 45)]⟩
     (.node .leaf 408 ⟨1, 34, none, false, false, none, true, [.rule 8 411 4 0]⟩ .leaf))) 409
   ⟨1, 34, none, false, false, none, true, [.rule 74 411 37 0]⟩
   (.node (.node (.node .leaf 410 ⟨5, 34, (some 411), false, false, (some 34), true, [.epsilon 408, .epsilon 409]⟩ .leaf) 411
     ⟨8, 34, none, false, false, none, true, [.epsilon 414]⟩
     (.node .leaf 412 ⟨10, 34, none, false, false, (some 35), true, [.epsilon 410, .epsilon 413]⟩ .leaf)) 413
    ⟨12, 34, (some 414), false, false, none, true, [.epsilon 415]⟩
    (.node (.node .leaf 414 ⟨9, 34, none, false, false, none, true, [.epsilon 412]⟩ .leaf) 415
     ⟨1, 34, none, false, false, none, false, [.atom 418 (some 46)]⟩
     (.node .leaf 416 ⟨1, 34, none, false, false, none, false, [.atom 418 (some 39)]⟩ .leaf))))

def parserTree48 : Tree State :=
  .node parserTree46 401
    ⟨1, 34, none, false, false, none, false, [.atom 403 (some 41)]⟩
    parserTree47

def parserTree49 : Tree State :=
  (.node (.node (.node (.node .leaf 418 ⟨8, 34, none, false, false, none, true, [.epsilon 69]⟩ .leaf) 419
     ⟨1, 35, none, false, false, none, true, [.rule 78 432 39 0]⟩
     (.node .leaf 420 ⟨1, 35, none, false, false, none, false, [.set 422 ⟨false, [(52, 54)]⟩]⟩ .leaf)) 421
    ⟨3, 35, (some 422), false, false, (some 37), true, [.epsilon 420, .epsilon 422]⟩
    (.node (.node .leaf 422 ⟨8, 35, none, false, false, none, true, [.epsilon 423]⟩ .leaf) 423
     ⟨1, 35, none, false, false, none, true, [.rule 96 432 48 0]⟩
     (.node .leaf 424 ⟨1, 35, none, false, false, none, false, [.set 426 ⟨false, [(52, 54)]⟩]⟩ .leaf))) 425
   ⟨3, 35, (some 426), false, false, (some 38), true, [.epsilon 424, .epsilon 426]⟩
   (.node (.node (.node .leaf 426 ⟨8, 35, none, false, false, none, true, [.epsilon 427]⟩ .leaf) 427
     ⟨1, 35, none, false, false, none, true, [.rule 102 432 51 0]⟩
     (.node .leaf 428 ⟨1, 35, none, false, false, none, true, [.rule 98 432 49 0]⟩ .leaf)) 429
    ⟨1, 35, none, false, false, none, true, [.rule 100 432 50 0]⟩
    (.node (.node .leaf 430 ⟨1, 35, none, false, false, none, true, [.rule 72 432 36 0]⟩ .leaf) 431
     ⟨3, 35, (some 432), false, false, (some 39), true, [.epsilon 419, .epsilon 421, .epsilon 425, .epsilon 428, .epsilon 429, .epsilon 430]⟩
     (.node .leaf 432 ⟨8, 35, none, false, false, none, true, [.epsilon 71]⟩ .leaf))))

def parserTree50 : Tree State :=
  (.node (.node (.node (.node .leaf 434 ⟨1, 36, none, false, false, none, true, [.rule 76 435 38 0]⟩ .leaf) 435
     ⟨1, 36, none, false, false, none, false, [.atom 436 (some 51)]⟩
     (.node .leaf 436 ⟨1, 36, none, false, false, none, true, [.rule 70 438 35 0]⟩ .leaf)) 437
    ⟨1, 36, none, false, false, none, false, [.set 439 ⟨false, [(39, 40), (50, 51)]⟩]⟩
    (.node (.node .leaf 438 ⟨3, 36, (some 439), false, false, (some 40), true, [.epsilon 437, .epsilon 439]⟩ .leaf) 439
     ⟨8, 36, none, false, false, none, true, [.epsilon 441]⟩
     (.node .leaf 440 ⟨5, 36, (some 441), false, false, none, true, [.epsilon 434]⟩ .leaf))) 441
   ⟨8, 36, none, false, false, none, true, [.epsilon 444]⟩
   (.node (.node (.node .leaf 442 ⟨10, 36, none, false, false, (some 41), true, [.epsilon 440, .epsilon 443]⟩ .leaf) 443
     ⟨12, 36, (some 444), false, false, none, true, [.epsilon 445]⟩
     (.node .leaf 444 ⟨9, 36, none, false, false, none, true, [.epsilon 442]⟩ .leaf)) 445
    ⟨1, 36, none, false, false, none, false, [.atom 446 (some 46)]⟩
    (.node (.node .leaf 446 ⟨1, 36, none, false, false, none, true, [.epsilon 73]⟩ .leaf) 447
     ⟨1, 37, none, false, false, none, false, [.atom 448 (some 39)]⟩
     (.node .leaf 448 ⟨1, 37, none, false, false, none, true, [.epsilon 75]⟩ .leaf))))

def parserTree51 : Tree State :=
  .node parserTree49 433
    ⟨1, 36, none, false, false, none, false, [.atom 442 (some 45)]⟩
    parserTree50

def parserTree52 : Tree State :=
  .node parserTree48 417
    ⟨3, 34, (some 418), false, false, (some 36), true, [.epsilon 407, .epsilon 416]⟩
    parserTree51

def parserTree53 : Tree State :=
  (.node (.node (.node (.node .leaf 450 ⟨1, 38, none, false, false, none, true, [.rule 104 452 52 0]⟩ .leaf) 451
     ⟨3, 38, (some 452), false, false, (some 42), true, [.epsilon 449, .epsilon 450]⟩
     (.node .leaf 452 ⟨8, 38, none, false, false, none, true, [.epsilon 77]⟩ .leaf)) 453
    ⟨1, 39, none, false, false, none, true, [.rule 76 458 38 0]⟩
    (.node (.node .leaf 454 ⟨1, 39, none, false, false, none, false, [.atom 455 (some 49)]⟩ .leaf) 455
     ⟨1, 39, none, false, false, none, true, [.rule 76 457 38 0]⟩
     (.node .leaf 456 ⟨5, 39, (some 457), false, false, none, true, [.epsilon 454]⟩ .leaf))) 457
   ⟨8, 39, none, false, false, none, true, [.epsilon 460]⟩
   (.node (.node (.node .leaf 458 ⟨10, 39, none, false, false, (some 43), true, [.epsilon 456, .epsilon 459]⟩ .leaf) 459
     ⟨12, 39, (some 460), false, false, none, true, [.epsilon 79]⟩
     (.node .leaf 460 ⟨9, 39, none, false, false, none, true, [.epsilon 458]⟩ .leaf)) 461
    ⟨1, 40, none, false, false, none, true, [.rule 76 462 38 0]⟩
    (.node (.node .leaf 462 ⟨1, 40, none, false, false, none, true, [.epsilon 81]⟩ .leaf) 463
     ⟨1, 41, none, false, false, none, true, [.rule 76 464 38 0]⟩
     (.node .leaf 464 ⟨1, 41, none, false, false, none, true, [.epsilon 83]⟩ .leaf))))

def parserTree54 : Tree State :=
  (.node (.node (.node (.node .leaf 466 ⟨1, 42, none, false, false, none, true, [.epsilon 85]⟩ .leaf) 467
     ⟨1, 43, none, false, false, none, true, [.rule 76 468 38 0]⟩
     (.node .leaf 468 ⟨1, 43, none, false, false, none, true, [.epsilon 87]⟩ .leaf)) 469
    ⟨1, 44, none, false, false, none, true, [.rule 76 470 38 0]⟩
    (.node (.node .leaf 470 ⟨1, 44, none, false, false, none, true, [.epsilon 89]⟩ .leaf) 471
     ⟨1, 45, none, false, false, none, true, [.rule 76 472 38 0]⟩
     (.node .leaf 472 ⟨1, 45, none, false, false, none, true, [.epsilon 91]⟩ .leaf))) 473
   ⟨1, 46, none, false, false, none, false, [.atom 475 (some 49)]⟩
   (.node (.node (.node .leaf 474 ⟨3, 46, (some 475), false, false, (some 44), true, [.epsilon 473, .epsilon 475]⟩ .leaf) 475
     ⟨8, 46, none, false, false, none, true, [.epsilon 481]⟩
     (.node .leaf 476 ⟨1, 46, none, false, false, none, true, [.rule 76 477 38 0]⟩ .leaf)) 477
    ⟨1, 46, none, false, false, none, false, [.atom 478 (some 49)]⟩
    (.node (.node .leaf 478 ⟨1, 46, none, false, false, none, true, [.epsilon 480]⟩ .leaf) 479
     ⟨5, 46, (some 480), false, false, none, true, [.epsilon 476]⟩
     (.node .leaf 480 ⟨8, 46, none, false, false, none, true, [.epsilon 483]⟩ .leaf))))

def parserTree55 : Tree State :=
  .node parserTree53 465
    ⟨1, 42, none, false, false, none, true, [.rule 76 466 38 0]⟩
    parserTree54

def parserTree56 : Tree State :=
  (.node (.node (.node (.node .leaf 482 ⟨12, 46, (some 483), false, false, none, true, [.epsilon 484]⟩ .leaf) 483
     ⟨9, 46, none, false, false, none, true, [.epsilon 481]⟩
     (.node .leaf 484 ⟨1, 46, none, false, false, none, true, [.rule 80 485 40 0]⟩ .leaf)) 485
    ⟨1, 46, none, false, false, none, true, [.epsilon 93]⟩
    (.node (.node .leaf 486 ⟨1, 47, none, false, false, none, false, [.atom 488 (some 49)]⟩ .leaf) 487
     ⟨3, 47, (some 488), false, false, (some 46), true, [.epsilon 486, .epsilon 488]⟩
     (.node .leaf 488 ⟨8, 47, none, false, false, none, true, [.epsilon 494]⟩ .leaf))) 489
   ⟨1, 47, none, false, false, none, true, [.rule 76 490 38 0]⟩
   (.node (.node (.node .leaf 490 ⟨1, 47, none, false, false, none, false, [.atom 491 (some 49)]⟩ .leaf) 491
     ⟨1, 47, none, false, false, none, true, [.epsilon 493]⟩
     (.node .leaf 492 ⟨5, 47, (some 493), false, false, none, true, [.epsilon 489]⟩ .leaf)) 493
    ⟨8, 47, none, false, false, none, true, [.epsilon 496]⟩
    (.node (.node .leaf 494 ⟨10, 47, none, false, false, (some 47), true, [.epsilon 492, .epsilon 495]⟩ .leaf) 495
     ⟨12, 47, (some 496), false, false, none, true, [.epsilon 497]⟩
     (.node .leaf 496 ⟨9, 47, none, false, false, none, true, [.epsilon 494]⟩ .leaf))))

def parserTree57 : Tree State :=
  (.node (.node (.node (.node .leaf 498 ⟨1, 47, none, false, false, none, true, [.epsilon 95]⟩ .leaf) 499
     ⟨1, 48, none, false, false, none, false, [.atom 500 (some 57)]⟩
     (.node .leaf 500 ⟨1, 48, none, false, false, none, true, [.epsilon 97]⟩ .leaf)) 501
    ⟨1, 49, none, false, false, none, false, [.atom 503 (some 54)]⟩
    (.node (.node .leaf 502 ⟨4, 49, (some 503), false, false, none, true, [.epsilon 501]⟩ .leaf) 503
     ⟨8, 49, none, false, false, none, true, [.epsilon 504]⟩
     (.node .leaf 504 ⟨11, 49, none, false, false, (some 48), true, [.epsilon 502, .epsilon 505]⟩ .leaf))) 505
   ⟨12, 49, (some 504), false, false, none, true, [.epsilon 99]⟩
   (.node (.node (.node .leaf 506 ⟨1, 50, none, false, false, none, false, [.atom 507 (some 55)]⟩ .leaf) 507
     ⟨1, 50, none, false, false, none, true, [.epsilon 101]⟩
     (.node .leaf 508 ⟨1, 51, none, false, false, none, false, [.atom 509 (some 56)]⟩ .leaf)) 509
    ⟨1, 51, none, false, false, none, true, [.epsilon 103]⟩
    (.node (.node .leaf 510 ⟨1, 52, none, false, false, none, false, [.set 511 ⟨false, [(1, 9), (10, 39), (55, 56)]⟩]⟩ .leaf) 511
     ⟨1, 52, none, false, false, none, true, [.epsilon 105]⟩
     (.node .leaf 512 ⟨1, 52, none, false, false, none, false, []⟩ .leaf))))

def parserTree58 : Tree State :=
  .node parserTree56 497
    ⟨1, 47, none, false, false, none, true, [.rule 82 498 41 0]⟩
    parserTree57

def parserTree59 : Tree State :=
  .node parserTree55 481
    ⟨10, 46, none, false, false, (some 45), true, [.epsilon 479, .epsilon 482]⟩
    parserTree58

def parserTree60 : Tree State :=
  .node parserTree52 449
    ⟨1, 38, none, false, false, none, false, [.atom 452 (some 58)]⟩
    parserTree59

def parserTree61 : Tree State :=
  .node parserTree45 385
    ⟨1, 32, none, false, false, none, false, [.atom 386 (some 46)]⟩
    parserTree60

def parserTree62 : Tree State :=
  .node parserTree30 256
    ⟨1, 17, none, false, false, none, false, [.atom 257 (some 43)]⟩
    parserTree61

/-- The states of the automaton. -/
abbrev parserTree : Tree State := parserTree62

def parserAtn : Atn :=
  ⟨false, 61, parserTree.toList,
    [0, 2, 4, 6, 8, 10, 12, 14, 16, 18, 20, 22, 24, 26, 28, 30, 32, 34, 36, 38, 40, 42, 44, 46, 48, 50, 52, 54, 56, 58, 60, 62, 64, 66, 68, 70, 72, 74, 76,
      78, 80, 82, 84, 86, 88, 90, 92, 94, 96, 98, 100, 102, 104],
    [0, 0, 0, 0, 0, 0, 0, 0, 0, 0, 0, 0, 0, 0, 0, 0, 0, 0, 0, 0, 0, 0, 0, 0, 0, 0, 0, 0, 0, 0, 0, 0, 0, 0, 0, 0, 0, 0, 0, 0, 0, 0, 0, 0, 0, 0, 0, 0, 0, 0,
      0, 0, 0], [],
    [107, 114, 116, 128, 149, 151, 156, 166, 175, 190, 192, 205, 222, 245, 250, 260, 269, 276, 278, 285, 292, 302, 311, 316, 320, 330, 347, 362, 369, 371,
      382, 390, 396, 403, 410, 412, 417, 421, 425, 431, 438, 442, 451, 458, 474, 481, 487, 494, 504],
    []⟩

set_option maxRecDepth 100000 in
theorem parserAtn_eq : deserialize parserAtnData = some parserAtn := by decide +kernel

theorem parserTree_upTo : parserTree.upTo 0 = some 513 := by decide +kernel

theorem parserAtn_get (i : Nat) : parserAtn.states[i]? = parserTree.get i :=
  (((Tree.upTo_spec _ _ _ parserTree_upTo).2 i).trans (by rw [if_pos (Nat.zero_le i)]; rfl)).symm

theorem protoGram_next (s t : Nat) : protoGram.next s t = nextOk parserTree.get 61 1000 s t := by
  simp only [protoGram, parserAtn_eq]
  rw [show (fun i => parserAtn.states[i]?) = parserTree.get from funext parserAtn_get]
  rfl

end Verif.Lemmas.Gen.Antlr
