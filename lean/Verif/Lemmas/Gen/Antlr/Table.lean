import Verif.Lemmas.Gen.Antlr.Tree
/-!
# The states of the DFA of the lexer

A table that is checked in `Rows*.lean`: for each state the configurations, the token that is accepted, and the targets of characters.
-/
namespace Verif.Lemmas.Gen.Antlr
open Verif.Model.Gen.Antlr

def row0 : Row :=
  ⟨[⟨149, 1, [], false, none⟩, ⟨156, 2, [], false, none⟩, ⟨164, 3, [], false, none⟩, ⟨171, 4, [], false, none⟩, ⟨176, 5, [], false, none⟩,
    ⟨183, 6, [], false, none⟩, ⟨191, 7, [], false, none⟩, ⟨198, 8, [], false, none⟩, ⟨207, 9, [], false, none⟩, ⟨216, 10, [], false, none⟩,
    ⟨225, 11, [], false, none⟩, ⟨231, 12, [], false, none⟩, ⟨235, 13, [], false, none⟩, ⟨241, 14, [], false, none⟩, ⟨247, 15, [], false, none⟩,
    ⟨254, 16, [], false, none⟩, ⟨261, 17, [], false, none⟩, ⟨268, 18, [], false, none⟩, ⟨275, 19, [], false, none⟩, ⟨283, 20, [], false, none⟩,
    ⟨291, 21, [], false, none⟩, ⟨300, 22, [], false, none⟩, ⟨309, 23, [], false, none⟩, ⟨314, 24, [], false, none⟩, ⟨321, 25, [], false, none⟩,
    ⟨328, 26, [], false, none⟩, ⟨334, 27, [], false, none⟩, ⟨340, 28, [], false, none⟩, ⟨349, 29, [], false, none⟩, ⟨360, 30, [], false, none⟩,
    ⟨363, 31, [], false, none⟩, ⟨367, 32, [], false, none⟩, ⟨372, 33, [], false, none⟩, ⟨380, 34, [], false, none⟩, ⟨388, 35, [], false, none⟩,
    ⟨395, 36, [], false, none⟩, ⟨399, 37, [], false, none⟩, ⟨406, 38, [], false, none⟩, ⟨414, 39, [], false, none⟩, ⟨416, 40, [], false, none⟩,
    ⟨418, 41, [], false, none⟩, ⟨420, 42, [], false, none⟩, ⟨422, 43, [], false, none⟩, ⟨424, 44, [], false, none⟩, ⟨426, 45, [], false, none⟩,
    ⟨428, 46, [], false, none⟩, ⟨430, 47, [], false, none⟩, ⟨432, 48, [], false, none⟩, ⟨434, 49, [], false, none⟩, ⟨436, 50, [], false, none⟩,
    ⟨438, 51, [], false, none⟩, ⟨440, 52, [], false, none⟩, ⟨442, 53, [], false, none⟩, ⟨444, 54, [], false, none⟩, ⟨452, 54, [], false, none⟩,
    ⟨481, 55, [], false, none⟩, ⟨485, 55, [], false, none⟩, ⟨566, 56, [527, 493], false, none⟩, ⟨566, 56, [527, 501], false, none⟩,
    ⟨434, 56, [504], false, none⟩, ⟨510, 56, [], false, none⟩, ⟨513, 56, [], false, none⟩, ⟨535, 57, [534], false, none⟩, ⟨542, 57, [534], false, none⟩,
    ⟨549, 57, [534], false, none⟩, ⟨564, 58, [561], false, none⟩, ⟨572, 59, [], false, none⟩, ⟨579, 60, [], false, none⟩, ⟨590, 61, [], false, none⟩],
    none,
    [(9, none), (11, some 1), (12, none), (14, some 1), (32, none), (33, some 1), (34, none), (35, some 2), (39, none), (40, some 3), (41, some 4),
    (42, some 5), (43, none), (44, some 6), (45, some 7), (46, some 8), (47, some 9), (48, some 10), (49, some 11), (58, some 12), (59, some 13),
    (60, some 14), (61, some 15), (62, some 16), (63, some 17), (65, none), (91, some 18), (92, some 19), (93, none), (94, some 20), (95, none),
    (96, some 18), (97, none), (98, some 18), (99, some 21), (100, some 18), (101, some 22), (102, some 23), (103, some 24), (105, some 18),
    (106, some 25), (109, some 18), (110, some 26), (111, some 27), (112, some 28), (113, some 29), (114, some 18), (115, some 30), (116, some 31),
    (117, some 32), (118, some 33), (119, some 18), (120, some 34), (123, some 18), (124, some 35), (125, none), (126, some 36), (1114112, none)]⟩

def row1 : Row :=
  ⟨[⟨572, 59, [], false, none⟩, ⟨144, 59, [], false, some [⟨2⟩]⟩],
    some (59, some [⟨2⟩]),
    [(9, none), (11, some 1), (12, none), (14, some 1), (32, none), (33, some 1), (1114112, none)]⟩

def row2 : Row :=
  ⟨[⟨459, 54, [], true, none⟩, ⟨468, 54, [467, 455], true, none⟩, ⟨473, 54, [467, 455], true, none⟩, ⟨478, 54, [467, 455], true, none⟩,
    ⟨465, 54, [455], true, none⟩],
    none,
    [(1, none), (10, some 2), (11, none), (34, some 2), (35, some 37), (92, some 2), (93, some 38), (1114112, some 2)]⟩

def row3 : Row :=
  ⟨[⟨451, 54, [], true, none⟩, ⟨468, 54, [467, 447], true, none⟩, ⟨473, 54, [467, 447], true, none⟩, ⟨478, 54, [467, 447], true, none⟩,
    ⟨465, 54, [447], true, none⟩],
    none,
    [(1, none), (10, some 3), (11, none), (39, some 3), (40, some 37), (92, some 3), (93, some 39), (1114112, some 3)]⟩

def row4 : Row :=
  ⟨[⟨82, 41, [], false, none⟩],
    some (41, none),
    [(1114112, none)]⟩

def row5 : Row :=
  ⟨[⟨84, 42, [], false, none⟩],
    some (42, none),
    [(1114112, none)]⟩

def row6 : Row :=
  ⟨[⟨104, 52, [], false, none⟩],
    some (52, none),
    [(1114112, none)]⟩

def row7 : Row :=
  ⟨[⟨100, 50, [], false, none⟩],
    some (50, none),
    [(1114112, none)]⟩

def row8 : Row :=
  ⟨[⟨106, 53, [], false, none⟩],
    some (53, none),
    [(1114112, none)]⟩

def row9 : Row :=
  ⟨[⟨98, 49, [], false, none⟩, ⟨566, 56, [527, 506], false, none⟩],
    some (49, none),
    [(48, none), (58, some 40), (1114112, none)]⟩

def row10 : Row :=
  ⟨[⟨580, 60, [], false, none⟩, ⟨591, 61, [], false, none⟩],
    none,
    [(42, none), (43, some 41), (47, none), (48, some 42), (1114112, none)]⟩

def row11 : Row :=
  ⟨[⟨566, 56, [527, 493], false, none⟩, ⟨434, 56, [495], false, none⟩, ⟨566, 56, [527, 501], false, none⟩, ⟨518, 56, [502], false, none⟩,
    ⟨568, 57, [545, 534], false, none⟩, ⟨126, 57, [], false, none⟩, ⟨550, 57, [534], false, none⟩],
    some (57, none),
    [(46, none), (47, some 43), (48, none), (56, some 44), (58, some 45), (69, none), (70, some 46), (88, none), (89, some 47), (101, none),
    (102, some 46), (120, none), (121, some 47), (1114112, none)]⟩

def row12 : Row :=
  ⟨[⟨566, 56, [527, 493], false, none⟩, ⟨434, 56, [495], false, none⟩, ⟨566, 56, [527, 501], false, none⟩, ⟨518, 56, [502], false, none⟩,
    ⟨566, 57, [538, 534], false, none⟩, ⟨126, 57, [], false, none⟩],
    some (57, none),
    [(46, none), (47, some 43), (48, none), (58, some 12), (69, none), (70, some 46), (101, none), (102, some 46), (1114112, none)]⟩

def row13 : Row :=
  ⟨[⟨102, 51, [], false, none⟩],
    some (51, none),
    [(1114112, none)]⟩

def row14 : Row :=
  ⟨[⟨78, 39, [], false, none⟩],
    some (39, none),
    [(1114112, none)]⟩

def row15 : Row :=
  ⟨[⟨94, 47, [], false, none⟩],
    some (47, none),
    [(1114112, none)]⟩

def row16 : Row :=
  ⟨[⟨80, 40, [], false, none⟩],
    some (40, none),
    [(1114112, none)]⟩

def row17 : Row :=
  ⟨[⟨96, 48, [], false, none⟩],
    some (48, none),
    [(1114112, none)]⟩

def row18 : Row :=
  ⟨[⟨564, 58, [560], false, none⟩, ⟨566, 58, [560], false, none⟩, ⟨134, 58, [], false, none⟩],
    some (58, none),
    [(48, none), (58, some 18), (65, none), (91, some 18), (95, none), (96, some 18), (97, none), (123, some 18), (1114112, none)]⟩

def row19 : Row :=
  ⟨[⟨86, 43, [], false, none⟩],
    some (43, none),
    [(1114112, none)]⟩

def row20 : Row :=
  ⟨[⟨88, 44, [], false, none⟩],
    some (44, none),
    [(1114112, none)]⟩

def row21 : Row :=
  ⟨[⟨310, 23, [], false, none⟩, ⟨335, 27, [], false, none⟩, ⟨564, 58, [560], false, none⟩, ⟨566, 58, [560], false, none⟩, ⟨134, 58, [], false, none⟩],
    some (58, none),
    [(48, none), (58, some 18), (65, none), (91, some 18), (95, none), (96, some 18), (97, none), (111, some 18), (112, some 48), (121, some 18),
    (122, some 49), (123, some 18), (1114112, none)]⟩

def row22 : Row :=
  ⟨[⟨322, 25, [], false, none⟩, ⟨564, 58, [560], false, none⟩, ⟨566, 58, [560], false, none⟩, ⟨134, 58, [], false, none⟩],
    some (58, none),
    [(48, none), (58, some 18), (65, none), (91, some 18), (95, none), (96, some 18), (97, none), (111, some 18), (112, some 50), (123, some 18),
    (1114112, none)]⟩

def row23 : Row :=
  ⟨[⟨157, 2, [], false, none⟩, ⟨350, 29, [], false, none⟩, ⟨368, 32, [], false, none⟩, ⟨389, 35, [], false, none⟩, ⟨564, 58, [560], false, none⟩,
    ⟨566, 58, [560], false, none⟩, ⟨134, 58, [], false, none⟩],
    some (58, none),
    [(48, none), (58, some 18), (65, none), (91, some 18), (95, none), (96, some 18), (97, none), (100, some 18), (101, some 51), (110, some 18),
    (111, some 52), (120, some 18), (121, some 53), (123, some 18), (1114112, none)]⟩

def row24 : Row :=
  ⟨[⟨276, 19, [], false, none⟩, ⟨284, 20, [], false, none⟩, ⟨329, 26, [], false, none⟩, ⟨486, 55, [], false, none⟩, ⟨564, 58, [560], false, none⟩,
    ⟨566, 58, [560], false, none⟩, ⟨134, 58, [], false, none⟩],
    some (58, none),
    [(48, none), (58, some 18), (65, none), (91, some 18), (95, none), (96, some 18), (97, none), (98, some 54), (105, some 18), (106, some 55),
    (108, some 18), (109, some 56), (123, some 18), (1114112, none)]⟩

def row25 : Row :=
  ⟨[⟨165, 3, [], false, none⟩, ⟨236, 13, [], false, none⟩, ⟨242, 14, [], false, none⟩, ⟨511, 56, [], false, none⟩, ⟨564, 58, [560], false, none⟩,
    ⟨566, 58, [560], false, none⟩, ⟨134, 58, [], false, none⟩],
    some (58, none),
    [(48, none), (58, some 18), (65, none), (91, some 18), (95, none), (96, some 18), (97, none), (109, some 18), (110, some 57), (111, some 58),
    (123, some 18), (1114112, none)]⟩

def row26 : Row :=
  ⟨[⟨232, 12, [], false, none⟩, ⟨364, 31, [], false, none⟩, ⟨373, 33, [], false, none⟩, ⟨564, 58, [560], false, none⟩, ⟨566, 58, [560], false, none⟩,
    ⟨134, 58, [], false, none⟩],
    some (58, none),
    [(48, none), (58, some 18), (65, none), (91, some 18), (95, none), (96, some 18), (97, none), (98, some 59), (101, some 18), (102, some 60),
    (123, some 18), (1114112, none)]⟩

def row27 : Row :=
  ⟨[⟨514, 56, [], false, none⟩, ⟨564, 58, [560], false, none⟩, ⟨566, 58, [560], false, none⟩, ⟨134, 58, [], false, none⟩],
    some (58, none),
    [(48, none), (58, some 18), (65, none), (91, some 18), (95, none), (96, some 18), (97, none), (98, some 61), (123, some 18), (1114112, none)]⟩

def row28 : Row :=
  ⟨[⟨192, 7, [], false, none⟩, ⟨199, 8, [], false, none⟩, ⟨226, 11, [], false, none⟩, ⟨564, 58, [560], false, none⟩, ⟨566, 58, [560], false, none⟩,
    ⟨134, 58, [], false, none⟩],
    some (58, none),
    [(48, none), (58, some 18), (65, none), (91, some 18), (95, none), (96, some 18), (97, none), (110, some 18), (111, some 62), (112, some 18),
    (113, some 63), (123, some 18), (1114112, none)]⟩

def row29 : Row :=
  ⟨[⟨177, 5, [], false, none⟩, ⟨184, 6, [], false, none⟩, ⟨564, 58, [560], false, none⟩, ⟨566, 58, [560], false, none⟩, ⟨134, 58, [], false, none⟩],
    some (58, none),
    [(48, none), (58, some 18), (65, none), (91, some 18), (95, none), (96, some 18), (97, none), (98, some 64), (117, some 18), (118, some 65),
    (123, some 18), (1114112, none)]⟩

def row30 : Row :=
  ⟨[⟨208, 9, [], false, none⟩, ⟨217, 10, [], false, none⟩, ⟨341, 28, [], false, none⟩, ⟨396, 36, [], false, none⟩, ⟨407, 38, [], false, none⟩,
    ⟨564, 58, [560], false, none⟩, ⟨566, 58, [560], false, none⟩, ⟨134, 58, [], false, none⟩],
    some (58, none),
    [(48, none), (58, some 18), (65, none), (91, some 18), (95, none), (96, some 18), (97, none), (101, some 18), (102, some 66), (112, some 18),
    (113, some 67), (123, some 18), (1114112, none)]⟩

def row31 : Row :=
  ⟨[⟨150, 1, [], false, none⟩, ⟨262, 17, [], false, none⟩, ⟨269, 18, [], false, none⟩, ⟨292, 21, [], false, none⟩, ⟨301, 22, [], false, none⟩,
    ⟨315, 24, [], false, none⟩, ⟨381, 34, [], false, none⟩, ⟨400, 37, [], false, none⟩, ⟨564, 58, [560], false, none⟩, ⟨566, 58, [560], false, none⟩,
    ⟨134, 58, [], false, none⟩],
    some (58, none),
    [(48, none), (58, some 18), (65, none), (91, some 18), (95, none), (96, some 18), (97, none), (101, some 18), (102, some 68), (103, some 69),
    (105, some 18), (106, some 70), (116, some 18), (117, some 71), (121, some 18), (122, some 72), (123, some 18), (1114112, none)]⟩

def row32 : Row :=
  ⟨[⟨361, 30, [], false, none⟩, ⟨482, 55, [], false, none⟩, ⟨564, 58, [560], false, none⟩, ⟨566, 58, [560], false, none⟩, ⟨134, 58, [], false, none⟩],
    some (58, none),
    [(48, none), (58, some 18), (65, none), (91, some 18), (95, none), (96, some 18), (97, none), (111, some 18), (112, some 73), (114, some 18),
    (115, some 74), (123, some 18), (1114112, none)]⟩

def row33 : Row :=
  ⟨[⟨248, 15, [], false, none⟩, ⟨255, 16, [], false, none⟩, ⟨564, 58, [560], false, none⟩, ⟨566, 58, [560], false, none⟩, ⟨134, 58, [], false, none⟩],
    some (58, none),
    [(48, none), (58, some 18), (65, none), (91, some 18), (95, none), (96, some 18), (97, none), (105, some 18), (106, some 75), (123, some 18),
    (1114112, none)]⟩

def row34 : Row :=
  ⟨[⟨172, 4, [], false, none⟩, ⟨564, 58, [560], false, none⟩, ⟨566, 58, [560], false, none⟩, ⟨134, 58, [], false, none⟩],
    some (58, none),
    [(48, none), (58, some 18), (65, none), (91, some 18), (95, none), (96, some 18), (97, none), (101, some 18), (102, some 76), (123, some 18),
    (1114112, none)]⟩

def row35 : Row :=
  ⟨[⟨90, 45, [], false, none⟩],
    some (45, none),
    [(1114112, none)]⟩

def row36 : Row :=
  ⟨[⟨92, 46, [], false, none⟩],
    some (46, none),
    [(1114112, none)]⟩

def row37 : Row :=
  ⟨[⟨108, 54, [], true, none⟩],
    some (54, none),
    [(1114112, none)]⟩

def row38 : Row :=
  ⟨[⟨469, 54, [467, 455], true, none⟩, ⟨568, 54, [475, 467, 455], true, none⟩, ⟨479, 54, [467, 455], true, none⟩],
    none,
    [(34, none), (35, some 2), (39, none), (40, some 2), (48, none), (56, some 77), (88, none), (89, some 78), (92, none), (93, some 2), (97, none),
    (99, some 2), (102, none), (103, some 2), (110, none), (111, some 2), (114, none), (115, some 2), (116, none), (117, some 2), (118, none),
    (119, some 2), (120, none), (121, some 78), (1114112, none)]⟩

def row39 : Row :=
  ⟨[⟨469, 54, [467, 447], true, none⟩, ⟨568, 54, [475, 467, 447], true, none⟩, ⟨479, 54, [467, 447], true, none⟩],
    none,
    [(34, none), (35, some 3), (39, none), (40, some 3), (48, none), (56, some 79), (88, none), (89, some 80), (92, none), (93, some 3), (97, none),
    (99, some 3), (102, none), (103, some 3), (110, none), (111, some 3), (114, none), (115, some 3), (116, none), (117, some 3), (118, none),
    (119, some 3), (120, none), (121, some 80), (1114112, none)]⟩

def row40 : Row :=
  ⟨[⟨566, 56, [527, 506], false, none⟩, ⟨518, 56, [507], false, none⟩, ⟨120, 56, [], false, none⟩],
    some (56, none),
    [(48, none), (58, some 40), (69, none), (70, some 81), (101, none), (102, some 81), (1114112, none)]⟩

def row41 : Row :=
  ⟨[⟨599, 61, [], true, none⟩, ⟨593, 61, [], true, none⟩],
    none,
    [(42, some 41), (43, some 82), (1114112, some 41)]⟩

def row42 : Row :=
  ⟨[⟨582, 60, [], false, none⟩, ⟨146, 60, [], false, some [⟨3⟩]⟩],
    some (60, some [⟨3⟩]),
    [(10, some 42), (11, none), (13, some 42), (14, none), (1114112, some 42)]⟩

def row43 : Row :=
  ⟨[⟨566, 56, [527, 496], false, none⟩, ⟨518, 56, [499], false, none⟩, ⟨120, 56, [], false, none⟩],
    some (56, none),
    [(48, none), (58, some 43), (69, none), (70, some 83), (101, none), (102, some 83), (1114112, none)]⟩

def row44 : Row :=
  ⟨[⟨566, 56, [527, 493], false, none⟩, ⟨434, 56, [495], false, none⟩, ⟨566, 56, [527, 501], false, none⟩, ⟨518, 56, [502], false, none⟩,
    ⟨568, 57, [545, 534], false, none⟩, ⟨126, 57, [], false, none⟩],
    some (57, none),
    [(46, none), (47, some 43), (48, none), (56, some 44), (58, some 45), (69, none), (70, some 46), (101, none), (102, some 46), (1114112, none)]⟩

def row45 : Row :=
  ⟨[⟨566, 56, [527, 493], false, none⟩, ⟨434, 56, [495], false, none⟩, ⟨566, 56, [527, 501], false, none⟩, ⟨518, 56, [502], false, none⟩],
    none,
    [(46, none), (47, some 43), (48, none), (58, some 45), (69, none), (70, some 46), (101, none), (102, some 46), (1114112, none)]⟩

def row46 : Row :=
  ⟨[⟨440, 56, [522, 502], false, none⟩, ⟨442, 56, [522, 502], false, none⟩, ⟨566, 56, [527, 524, 502], false, none⟩],
    none,
    [(43, none), (44, some 84), (45, none), (46, some 84), (48, none), (58, some 85), (1114112, none)]⟩

def row47 : Row :=
  ⟨[⟨570, 57, [553, 534], false, none⟩],
    none,
    [(48, none), (58, some 86), (65, none), (71, some 86), (97, none), (103, some 86), (1114112, none)]⟩

def row48 : Row :=
  ⟨[⟨311, 23, [], false, none⟩, ⟨564, 58, [560], false, none⟩, ⟨566, 58, [560], false, none⟩, ⟨134, 58, [], false, none⟩],
    some (58, none),
    [(48, none), (58, some 18), (65, none), (91, some 18), (95, none), (96, some 18), (97, none), (111, some 18), (112, some 87), (123, some 18),
    (1114112, none)]⟩

def row49 : Row :=
  ⟨[⟨336, 27, [], false, none⟩, ⟨564, 58, [560], false, none⟩, ⟨566, 58, [560], false, none⟩, ⟨134, 58, [], false, none⟩],
    some (58, none),
    [(48, none), (58, some 18), (65, none), (91, some 18), (95, none), (96, some 18), (97, none), (116, some 18), (117, some 88), (123, some 18),
    (1114112, none)]⟩

def row50 : Row :=
  ⟨[⟨323, 25, [], false, none⟩, ⟨564, 58, [560], false, none⟩, ⟨566, 58, [560], false, none⟩, ⟨134, 58, [], false, none⟩],
    some (58, none),
    [(48, none), (58, some 18), (65, none), (91, some 18), (95, none), (96, some 18), (97, none), (117, some 18), (118, some 89), (123, some 18),
    (1114112, none)]⟩

def row51 : Row :=
  ⟨[⟨158, 2, [], false, none⟩, ⟨564, 58, [560], false, none⟩, ⟨566, 58, [560], false, none⟩, ⟨134, 58, [], false, none⟩],
    some (58, none),
    [(48, none), (58, some 18), (65, none), (91, some 18), (95, none), (96, some 18), (97, none), (105, some 18), (106, some 90), (123, some 18),
    (1114112, none)]⟩

def row52 : Row :=
  ⟨[⟨369, 32, [], false, none⟩, ⟨564, 58, [560], false, none⟩, ⟨566, 58, [560], false, none⟩, ⟨134, 58, [], false, none⟩],
    some (58, none),
    [(48, none), (58, some 18), (65, none), (91, some 18), (95, none), (96, some 18), (97, none), (117, some 18), (118, some 91), (123, some 18),
    (1114112, none)]⟩

def row53 : Row :=
  ⟨[⟨351, 29, [], false, none⟩, ⟨390, 35, [], false, none⟩, ⟨564, 58, [560], false, none⟩, ⟨566, 58, [560], false, none⟩, ⟨134, 58, [], false, none⟩],
    some (58, none),
    [(48, none), (58, some 18), (65, none), (91, some 18), (95, none), (96, some 18), (97, none), (116, some 18), (117, some 92), (123, some 18),
    (1114112, none)]⟩

def row54 : Row :=
  ⟨[⟨487, 55, [], false, none⟩, ⟨564, 58, [560], false, none⟩, ⟨566, 58, [560], false, none⟩, ⟨134, 58, [], false, none⟩],
    some (58, none),
    [(48, none), (58, some 18), (65, none), (91, some 18), (95, none), (96, some 18), (97, none), (108, some 18), (109, some 93), (123, some 18),
    (1114112, none)]⟩

def row55 : Row :=
  ⟨[⟨277, 19, [], false, none⟩, ⟨285, 20, [], false, none⟩, ⟨564, 58, [560], false, none⟩, ⟨566, 58, [560], false, none⟩, ⟨134, 58, [], false, none⟩],
    some (58, none),
    [(48, none), (58, some 18), (65, none), (91, some 18), (95, none), (96, some 18), (97, none), (120, some 18), (121, some 94), (123, some 18),
    (1114112, none)]⟩

def row56 : Row :=
  ⟨[⟨330, 26, [], false, none⟩, ⟨564, 58, [560], false, none⟩, ⟨566, 58, [560], false, none⟩, ⟨134, 58, [], false, none⟩],
    some (58, none),
    [(48, none), (58, some 18), (65, none), (91, some 18), (95, none), (96, some 18), (97, none), (111, some 18), (112, some 95), (123, some 18),
    (1114112, none)]⟩

def row57 : Row :=
  ⟨[⟨166, 3, [], false, none⟩, ⟨564, 58, [560], false, none⟩, ⟨566, 58, [560], false, none⟩, ⟨134, 58, [], false, none⟩],
    some (58, none),
    [(48, none), (58, some 18), (65, none), (91, some 18), (95, none), (96, some 18), (97, none), (112, some 18), (113, some 96), (123, some 18),
    (1114112, none)]⟩

def row58 : Row :=
  ⟨[⟨237, 13, [], false, none⟩, ⟨243, 14, [], false, none⟩, ⟨512, 56, [], false, none⟩, ⟨564, 58, [560], false, none⟩, ⟨566, 58, [560], false, none⟩,
    ⟨134, 58, [], false, none⟩],
    some (58, none),
    [(48, none), (58, some 18), (65, none), (91, some 18), (95, none), (96, some 18), (97, none), (102, some 18), (103, some 97), (116, some 18),
    (117, some 98), (123, some 18), (1114112, none)]⟩

def row59 : Row :=
  ⟨[⟨233, 12, [], false, none⟩, ⟨365, 31, [], false, none⟩, ⟨564, 58, [560], false, none⟩, ⟨566, 58, [560], false, none⟩, ⟨134, 58, [], false, none⟩],
    some (58, none),
    [(48, none), (58, some 18), (65, none), (91, some 18), (95, none), (96, some 18), (97, none), (112, some 18), (113, some 99), (120, some 18),
    (121, some 100), (123, some 18), (1114112, none)]⟩

def row60 : Row :=
  ⟨[⟨374, 33, [], false, none⟩, ⟨564, 58, [560], false, none⟩, ⟨566, 58, [560], false, none⟩, ⟨134, 58, [], false, none⟩],
    some (58, none),
    [(48, none), (58, some 18), (65, none), (91, some 18), (95, none), (96, some 18), (97, none), (115, some 18), (116, some 101), (123, some 18),
    (1114112, none)]⟩

def row61 : Row :=
  ⟨[⟨515, 56, [], false, none⟩, ⟨564, 58, [560], false, none⟩, ⟨566, 58, [560], false, none⟩, ⟨134, 58, [], false, none⟩],
    some (58, none),
    [(48, none), (58, some 18), (65, none), (91, some 18), (95, none), (96, some 18), (97, none), (110, some 18), (111, some 97), (123, some 18),
    (1114112, none)]⟩

def row62 : Row :=
  ⟨[⟨227, 11, [], false, none⟩, ⟨564, 58, [560], false, none⟩, ⟨566, 58, [560], false, none⟩, ⟨134, 58, [], false, none⟩],
    some (58, none),
    [(48, none), (58, some 18), (65, none), (91, some 18), (95, none), (96, some 18), (97, none), (101, some 18), (102, some 102), (123, some 18),
    (1114112, none)]⟩

def row63 : Row :=
  ⟨[⟨193, 7, [], false, none⟩, ⟨200, 8, [], false, none⟩, ⟨564, 58, [560], false, none⟩, ⟨566, 58, [560], false, none⟩, ⟨134, 58, [], false, none⟩],
    some (58, none),
    [(48, none), (58, some 18), (65, none), (91, some 18), (95, none), (96, some 18), (97, none), (116, some 18), (117, some 103), (123, some 18),
    (1114112, none)]⟩

def row64 : Row :=
  ⟨[⟨185, 6, [], false, none⟩, ⟨564, 58, [560], false, none⟩, ⟨566, 58, [560], false, none⟩, ⟨134, 58, [], false, none⟩],
    some (58, none),
    [(48, none), (58, some 18), (65, none), (91, some 18), (95, none), (96, some 18), (97, none), (99, some 18), (100, some 104), (123, some 18),
    (1114112, none)]⟩

def row65 : Row :=
  ⟨[⟨178, 5, [], false, none⟩, ⟨564, 58, [560], false, none⟩, ⟨566, 58, [560], false, none⟩, ⟨134, 58, [], false, none⟩],
    some (58, none),
    [(48, none), (58, some 18), (65, none), (91, some 18), (95, none), (96, some 18), (97, none), (98, some 18), (99, some 105), (123, some 18),
    (1114112, none)]⟩

def row66 : Row :=
  ⟨[⟨209, 9, [], false, none⟩, ⟨218, 10, [], false, none⟩, ⟨342, 28, [], false, none⟩, ⟨408, 38, [], false, none⟩, ⟨564, 58, [560], false, none⟩,
    ⟨566, 58, [560], false, none⟩, ⟨134, 58, [], false, none⟩],
    some (58, none),
    [(48, none), (58, some 18), (65, none), (91, some 18), (95, none), (96, some 18), (97, none), (112, some 18), (113, some 106), (114, some 107),
    (115, some 18), (116, some 108), (117, some 109), (123, some 18), (1114112, none)]⟩

def row67 : Row :=
  ⟨[⟨397, 36, [], false, none⟩, ⟨564, 58, [560], false, none⟩, ⟨566, 58, [560], false, none⟩, ⟨134, 58, [], false, none⟩],
    some (58, none),
    [(48, none), (58, some 18), (65, none), (91, some 18), (95, none), (96, some 18), (97, none), (99, some 18), (100, some 110), (123, some 18),
    (1114112, none)]⟩

def row68 : Row :=
  ⟨[⟨382, 34, [], false, none⟩, ⟨564, 58, [560], false, none⟩, ⟨566, 58, [560], false, none⟩, ⟨134, 58, [], false, none⟩],
    some (58, none),
    [(48, none), (58, some 18), (65, none), (91, some 18), (95, none), (96, some 18), (97, none), (114, some 18), (115, some 111), (123, some 18),
    (1114112, none)]⟩

def row69 : Row :=
  ⟨[⟨293, 21, [], false, none⟩, ⟨302, 22, [], false, none⟩, ⟨564, 58, [560], false, none⟩, ⟨566, 58, [560], false, none⟩, ⟨134, 58, [], false, none⟩],
    some (58, none),
    [(48, none), (58, some 18), (65, none), (91, some 18), (95, none), (96, some 18), (97, none), (105, some 18), (106, some 112), (123, some 18),
    (1114112, none)]⟩

def row70 : Row :=
  ⟨[⟨263, 17, [], false, none⟩, ⟨270, 18, [], false, none⟩, ⟨564, 58, [560], false, none⟩, ⟨566, 58, [560], false, none⟩, ⟨134, 58, [], false, none⟩],
    some (58, none),
    [(48, none), (58, some 18), (65, none), (91, some 18), (95, none), (96, some 18), (97, none), (110, some 18), (111, some 113), (123, some 18),
    (1114112, none)]⟩

def row71 : Row :=
  ⟨[⟨316, 24, [], false, none⟩, ⟨401, 37, [], false, none⟩, ⟨564, 58, [560], false, none⟩, ⟨566, 58, [560], false, none⟩, ⟨134, 58, [], false, none⟩],
    some (58, none),
    [(48, none), (58, some 18), (65, none), (91, some 18), (95, none), (96, some 18), (97, none), (114, some 18), (115, some 114), (123, some 18),
    (1114112, none)]⟩

def row72 : Row :=
  ⟨[⟨151, 1, [], false, none⟩, ⟨564, 58, [560], false, none⟩, ⟨566, 58, [560], false, none⟩, ⟨134, 58, [], false, none⟩],
    some (58, none),
    [(48, none), (58, some 18), (65, none), (91, some 18), (95, none), (96, some 18), (97, none), (110, some 18), (111, some 115), (123, some 18),
    (1114112, none)]⟩

def row73 : Row :=
  ⟨[⟨60, 30, [], false, none⟩, ⟨564, 58, [560], false, none⟩, ⟨566, 58, [560], false, none⟩, ⟨134, 58, [], false, none⟩],
    some (30, none),
    [(48, none), (58, some 18), (65, none), (91, some 18), (95, none), (96, some 18), (97, none), (123, some 18), (1114112, none)]⟩

def row74 : Row :=
  ⟨[⟨483, 55, [], false, none⟩, ⟨564, 58, [560], false, none⟩, ⟨566, 58, [560], false, none⟩, ⟨134, 58, [], false, none⟩],
    some (58, none),
    [(48, none), (58, some 18), (65, none), (91, some 18), (95, none), (96, some 18), (97, none), (117, some 18), (118, some 116), (123, some 18),
    (1114112, none)]⟩

def row75 : Row :=
  ⟨[⟨249, 15, [], false, none⟩, ⟨256, 16, [], false, none⟩, ⟨564, 58, [560], false, none⟩, ⟨566, 58, [560], false, none⟩, ⟨134, 58, [], false, none⟩],
    some (58, none),
    [(48, none), (58, some 18), (65, none), (91, some 18), (95, none), (96, some 18), (97, none), (110, some 18), (111, some 117), (123, some 18),
    (1114112, none)]⟩

def row76 : Row :=
  ⟨[⟨173, 4, [], false, none⟩, ⟨564, 58, [560], false, none⟩, ⟨566, 58, [560], false, none⟩, ⟨134, 58, [], false, none⟩],
    some (58, none),
    [(48, none), (58, some 18), (65, none), (91, some 18), (95, none), (96, some 18), (97, none), (98, some 118), (123, some 18), (1114112, none)]⟩

def row77 : Row :=
  ⟨[⟨568, 54, [476, 467, 455], true, none⟩],
    none,
    [(48, none), (56, some 119), (1114112, none)]⟩

def row78 : Row :=
  ⟨[⟨570, 54, [471, 467, 455], true, none⟩],
    none,
    [(48, none), (58, some 120), (65, none), (71, some 120), (97, none), (103, some 120), (1114112, none)]⟩

def row79 : Row :=
  ⟨[⟨568, 54, [476, 467, 447], true, none⟩],
    none,
    [(48, none), (56, some 121), (1114112, none)]⟩

def row80 : Row :=
  ⟨[⟨570, 54, [471, 467, 447], true, none⟩],
    none,
    [(48, none), (58, some 122), (65, none), (71, some 122), (97, none), (103, some 122), (1114112, none)]⟩

def row81 : Row :=
  ⟨[⟨440, 56, [522, 507], false, none⟩, ⟨442, 56, [522, 507], false, none⟩, ⟨566, 56, [527, 524, 507], false, none⟩],
    none,
    [(43, none), (44, some 123), (45, none), (46, some 123), (48, none), (58, some 124), (1114112, none)]⟩

def row82 : Row :=
  ⟨[⟨600, 61, [], true, none⟩, ⟨599, 61, [], true, none⟩, ⟨593, 61, [], true, none⟩],
    none,
    [(42, some 41), (43, some 82), (47, some 41), (48, some 125), (1114112, some 41)]⟩

def row83 : Row :=
  ⟨[⟨440, 56, [522, 499], false, none⟩, ⟨442, 56, [522, 499], false, none⟩, ⟨566, 56, [527, 524, 499], false, none⟩],
    none,
    [(43, none), (44, some 126), (45, none), (46, some 126), (48, none), (58, some 127), (1114112, none)]⟩

def row84 : Row :=
  ⟨[⟨566, 56, [527, 524, 502], false, none⟩],
    none,
    [(48, none), (58, some 85), (1114112, none)]⟩

def row85 : Row :=
  ⟨[⟨566, 56, [527, 524, 502], false, none⟩, ⟨120, 56, [], false, none⟩],
    some (56, none),
    [(48, none), (58, some 85), (1114112, none)]⟩

def row86 : Row :=
  ⟨[⟨570, 57, [553, 534], false, none⟩, ⟨126, 57, [], false, none⟩],
    some (57, none),
    [(48, none), (58, some 86), (65, none), (71, some 86), (97, none), (103, some 86), (1114112, none)]⟩

def row87 : Row :=
  ⟨[⟨312, 23, [], false, none⟩, ⟨564, 58, [560], false, none⟩, ⟨566, 58, [560], false, none⟩, ⟨134, 58, [], false, none⟩],
    some (58, none),
    [(48, none), (58, some 18), (65, none), (91, some 18), (95, none), (96, some 18), (97, none), (108, some 18), (109, some 128), (123, some 18),
    (1114112, none)]⟩

def row88 : Row :=
  ⟨[⟨337, 27, [], false, none⟩, ⟨564, 58, [560], false, none⟩, ⟨566, 58, [560], false, none⟩, ⟨134, 58, [], false, none⟩],
    some (58, none),
    [(48, none), (58, some 18), (65, none), (91, some 18), (95, none), (96, some 18), (97, none), (101, some 18), (102, some 129), (123, some 18),
    (1114112, none)]⟩

def row89 : Row :=
  ⟨[⟨324, 25, [], false, none⟩, ⟨564, 58, [560], false, none⟩, ⟨566, 58, [560], false, none⟩, ⟨134, 58, [], false, none⟩],
    some (58, none),
    [(48, none), (58, some 18), (65, none), (91, some 18), (95, none), (96, some 18), (97, none), (98, some 18), (99, some 130), (123, some 18),
    (1114112, none)]⟩

def row90 : Row :=
  ⟨[⟨159, 2, [], false, none⟩, ⟨564, 58, [560], false, none⟩, ⟨566, 58, [560], false, none⟩, ⟨134, 58, [], false, none⟩],
    some (58, none),
    [(48, none), (58, some 18), (65, none), (91, some 18), (95, none), (96, some 18), (97, none), (116, some 18), (117, some 131), (123, some 18),
    (1114112, none)]⟩

def row91 : Row :=
  ⟨[⟨370, 32, [], false, none⟩, ⟨564, 58, [560], false, none⟩, ⟨566, 58, [560], false, none⟩, ⟨134, 58, [], false, none⟩],
    some (58, none),
    [(48, none), (58, some 18), (65, none), (91, some 18), (95, none), (96, some 18), (97, none), (109, some 18), (110, some 132), (123, some 18),
    (1114112, none)]⟩

def row92 : Row :=
  ⟨[⟨352, 29, [], false, none⟩, ⟨391, 35, [], false, none⟩, ⟨564, 58, [560], false, none⟩, ⟨566, 58, [560], false, none⟩, ⟨134, 58, [], false, none⟩],
    some (58, none),
    [(48, none), (58, some 18), (65, none), (91, some 18), (95, none), (96, some 18), (97, none), (101, some 18), (102, some 133), (123, some 18),
    (1114112, none)]⟩

def row93 : Row :=
  ⟨[⟨488, 55, [], false, none⟩, ⟨564, 58, [560], false, none⟩, ⟨566, 58, [560], false, none⟩, ⟨134, 58, [], false, none⟩],
    some (58, none),
    [(48, none), (58, some 18), (65, none), (91, some 18), (95, none), (96, some 18), (97, none), (115, some 18), (116, some 134), (123, some 18),
    (1114112, none)]⟩

def row94 : Row :=
  ⟨[⟨278, 19, [], false, none⟩, ⟨286, 20, [], false, none⟩, ⟨564, 58, [560], false, none⟩, ⟨566, 58, [560], false, none⟩, ⟨134, 58, [], false, none⟩],
    some (58, none),
    [(48, none), (58, some 18), (65, none), (91, some 18), (95, none), (96, some 18), (97, none), (101, some 18), (102, some 135), (123, some 18),
    (1114112, none)]⟩

def row95 : Row :=
  ⟨[⟨331, 26, [], false, none⟩, ⟨564, 58, [560], false, none⟩, ⟨566, 58, [560], false, none⟩, ⟨134, 58, [], false, none⟩],
    some (58, none),
    [(48, none), (58, some 18), (65, none), (91, some 18), (95, none), (96, some 18), (97, none), (98, some 136), (123, some 18), (1114112, none)]⟩

def row96 : Row :=
  ⟨[⟨167, 3, [], false, none⟩, ⟨564, 58, [560], false, none⟩, ⟨566, 58, [560], false, none⟩, ⟨134, 58, [], false, none⟩],
    some (58, none),
    [(48, none), (58, some 18), (65, none), (91, some 18), (95, none), (96, some 18), (97, none), (111, some 18), (112, some 137), (123, some 18),
    (1114112, none)]⟩

def row97 : Row :=
  ⟨[⟨120, 56, [], false, none⟩, ⟨564, 58, [560], false, none⟩, ⟨566, 58, [560], false, none⟩, ⟨134, 58, [], false, none⟩],
    some (56, none),
    [(48, none), (58, some 18), (65, none), (91, some 18), (95, none), (96, some 18), (97, none), (123, some 18), (1114112, none)]⟩

def row98 : Row :=
  ⟨[⟨238, 13, [], false, none⟩, ⟨244, 14, [], false, none⟩, ⟨564, 58, [560], false, none⟩, ⟨566, 58, [560], false, none⟩, ⟨134, 58, [], false, none⟩],
    some (58, none),
    [(48, none), (51, some 18), (52, some 138), (54, some 18), (55, some 139), (58, some 18), (65, none), (91, some 18), (95, none), (96, some 18),
    (97, none), (123, some 18), (1114112, none)]⟩

def row99 : Row :=
  ⟨[⟨24, 12, [], false, none⟩, ⟨564, 58, [560], false, none⟩, ⟨566, 58, [560], false, none⟩, ⟨134, 58, [], false, none⟩],
    some (12, none),
    [(48, none), (58, some 18), (65, none), (91, some 18), (95, none), (96, some 18), (97, none), (123, some 18), (1114112, none)]⟩

def row100 : Row :=
  ⟨[⟨62, 31, [], false, none⟩, ⟨564, 58, [560], false, none⟩, ⟨566, 58, [560], false, none⟩, ⟨134, 58, [], false, none⟩],
    some (31, none),
    [(48, none), (58, some 18), (65, none), (91, some 18), (95, none), (96, some 18), (97, none), (123, some 18), (1114112, none)]⟩

def row101 : Row :=
  ⟨[⟨375, 33, [], false, none⟩, ⟨564, 58, [560], false, none⟩, ⟨566, 58, [560], false, none⟩, ⟨134, 58, [], false, none⟩],
    some (58, none),
    [(48, none), (58, some 18), (65, none), (91, some 18), (95, none), (96, some 18), (97, none), (115, some 18), (116, some 140), (123, some 18),
    (1114112, none)]⟩

def row102 : Row :=
  ⟨[⟨228, 11, [], false, none⟩, ⟨564, 58, [560], false, none⟩, ⟨566, 58, [560], false, none⟩, ⟨134, 58, [], false, none⟩],
    some (58, none),
    [(48, none), (58, some 18), (65, none), (91, some 18), (95, none), (96, some 18), (97, none), (111, some 18), (112, some 141), (123, some 18),
    (1114112, none)]⟩

def row103 : Row :=
  ⟨[⟨194, 7, [], false, none⟩, ⟨201, 8, [], false, none⟩, ⟨564, 58, [560], false, none⟩, ⟨566, 58, [560], false, none⟩, ⟨134, 58, [], false, none⟩],
    some (58, none),
    [(48, none), (58, some 18), (65, none), (91, some 18), (95, none), (96, some 18), (97, none), (105, some 18), (106, some 142), (123, some 18),
    (1114112, none)]⟩

def row104 : Row :=
  ⟨[⟨186, 6, [], false, none⟩, ⟨564, 58, [560], false, none⟩, ⟨566, 58, [560], false, none⟩, ⟨134, 58, [], false, none⟩],
    some (58, none),
    [(48, none), (58, some 18), (65, none), (91, some 18), (95, none), (96, some 18), (97, none), (107, some 18), (108, some 143), (123, some 18),
    (1114112, none)]⟩

def row105 : Row :=
  ⟨[⟨179, 5, [], false, none⟩, ⟨564, 58, [560], false, none⟩, ⟨566, 58, [560], false, none⟩, ⟨134, 58, [], false, none⟩],
    some (58, none),
    [(48, none), (58, some 18), (65, none), (91, some 18), (95, none), (96, some 18), (97, none), (108, some 18), (109, some 144), (123, some 18),
    (1114112, none)]⟩

def row106 : Row :=
  ⟨[⟨219, 10, [], false, none⟩, ⟨564, 58, [560], false, none⟩, ⟨566, 58, [560], false, none⟩, ⟨134, 58, [], false, none⟩],
    some (58, none),
    [(48, none), (58, some 18), (65, none), (91, some 18), (95, none), (96, some 18), (97, none), (101, some 18), (102, some 145), (123, some 18),
    (1114112, none)]⟩

def row107 : Row :=
  ⟨[⟨210, 9, [], false, none⟩, ⟨564, 58, [560], false, none⟩, ⟨566, 58, [560], false, none⟩, ⟨134, 58, [], false, none⟩],
    some (58, none),
    [(48, none), (58, some 18), (65, none), (91, some 18), (95, none), (96, some 18), (97, none), (117, some 18), (118, some 146), (123, some 18),
    (1114112, none)]⟩

def row108 : Row :=
  ⟨[⟨343, 28, [], false, none⟩, ⟨564, 58, [560], false, none⟩, ⟨566, 58, [560], false, none⟩, ⟨134, 58, [], false, none⟩],
    some (58, none),
    [(48, none), (58, some 18), (65, none), (91, some 18), (95, none), (96, some 18), (97, none), (101, some 18), (102, some 147), (123, some 18),
    (1114112, none)]⟩

def row109 : Row :=
  ⟨[⟨409, 38, [], false, none⟩, ⟨564, 58, [560], false, none⟩, ⟨566, 58, [560], false, none⟩, ⟨134, 58, [], false, none⟩],
    some (58, none),
    [(48, none), (58, some 18), (65, none), (91, some 18), (95, none), (96, some 18), (97, none), (117, some 18), (118, some 148), (123, some 18),
    (1114112, none)]⟩

def row110 : Row :=
  ⟨[⟨72, 36, [], false, none⟩, ⟨564, 58, [560], false, none⟩, ⟨566, 58, [560], false, none⟩, ⟨134, 58, [], false, none⟩],
    some (36, none),
    [(48, none), (58, some 18), (65, none), (91, some 18), (95, none), (96, some 18), (97, none), (123, some 18), (1114112, none)]⟩

def row111 : Row :=
  ⟨[⟨383, 34, [], false, none⟩, ⟨564, 58, [560], false, none⟩, ⟨566, 58, [560], false, none⟩, ⟨134, 58, [], false, none⟩],
    some (58, none),
    [(48, none), (58, some 18), (65, none), (91, some 18), (95, none), (96, some 18), (97, none), (118, some 18), (119, some 149), (123, some 18),
    (1114112, none)]⟩

def row112 : Row :=
  ⟨[⟨294, 21, [], false, none⟩, ⟨303, 22, [], false, none⟩, ⟨564, 58, [560], false, none⟩, ⟨566, 58, [560], false, none⟩, ⟨134, 58, [], false, none⟩],
    some (58, none),
    [(48, none), (58, some 18), (65, none), (91, some 18), (95, none), (96, some 18), (97, none), (120, some 18), (121, some 150), (123, some 18),
    (1114112, none)]⟩

def row113 : Row :=
  ⟨[⟨264, 17, [], false, none⟩, ⟨271, 18, [], false, none⟩, ⟨564, 58, [560], false, none⟩, ⟨566, 58, [560], false, none⟩, ⟨134, 58, [], false, none⟩],
    some (58, none),
    [(48, none), (58, some 18), (65, none), (91, some 18), (95, none), (96, some 18), (97, none), (116, some 18), (117, some 151), (123, some 18),
    (1114112, none)]⟩

def row114 : Row :=
  ⟨[⟨317, 24, [], false, none⟩, ⟨402, 37, [], false, none⟩, ⟨564, 58, [560], false, none⟩, ⟨566, 58, [560], false, none⟩, ⟨134, 58, [], false, none⟩],
    some (58, none),
    [(48, none), (58, some 18), (65, none), (91, some 18), (95, none), (96, some 18), (97, none), (101, some 18), (102, some 152), (105, some 18),
    (106, some 153), (123, some 18), (1114112, none)]⟩

def row115 : Row :=
  ⟨[⟨152, 1, [], false, none⟩, ⟨564, 58, [560], false, none⟩, ⟨566, 58, [560], false, none⟩, ⟨134, 58, [], false, none⟩],
    some (58, none),
    [(48, none), (58, some 18), (65, none), (91, some 18), (95, none), (96, some 18), (97, none), (116, some 18), (117, some 154), (123, some 18),
    (1114112, none)]⟩

def row116 : Row :=
  ⟨[⟨484, 55, [], false, none⟩, ⟨564, 58, [560], false, none⟩, ⟨566, 58, [560], false, none⟩, ⟨134, 58, [], false, none⟩],
    some (58, none),
    [(48, none), (58, some 18), (65, none), (91, some 18), (95, none), (96, some 18), (97, none), (101, some 18), (102, some 155), (123, some 18),
    (1114112, none)]⟩

def row117 : Row :=
  ⟨[⟨250, 15, [], false, none⟩, ⟨257, 16, [], false, none⟩, ⟨564, 58, [560], false, none⟩, ⟨566, 58, [560], false, none⟩, ⟨134, 58, [], false, none⟩],
    some (58, none),
    [(48, none), (58, some 18), (65, none), (91, some 18), (95, none), (96, some 18), (97, none), (116, some 18), (117, some 156), (123, some 18),
    (1114112, none)]⟩

def row118 : Row :=
  ⟨[⟨174, 4, [], false, none⟩, ⟨564, 58, [560], false, none⟩, ⟨566, 58, [560], false, none⟩, ⟨134, 58, [], false, none⟩],
    some (58, none),
    [(48, none), (58, some 18), (65, none), (91, some 18), (95, none), (96, some 18), (97, none), (107, some 18), (108, some 157), (123, some 18),
    (1114112, none)]⟩

def row119 : Row :=
  ⟨[⟨568, 54, [477, 467, 455], true, none⟩],
    none,
    [(48, none), (56, some 2), (1114112, none)]⟩

def row120 : Row :=
  ⟨[⟨570, 54, [472, 467, 455], true, none⟩],
    none,
    [(48, none), (58, some 2), (65, none), (71, some 2), (97, none), (103, some 2), (1114112, none)]⟩

def row121 : Row :=
  ⟨[⟨568, 54, [477, 467, 447], true, none⟩],
    none,
    [(48, none), (56, some 3), (1114112, none)]⟩

def row122 : Row :=
  ⟨[⟨570, 54, [472, 467, 447], true, none⟩],
    none,
    [(48, none), (58, some 3), (65, none), (71, some 3), (97, none), (103, some 3), (1114112, none)]⟩

def row123 : Row :=
  ⟨[⟨566, 56, [527, 524, 507], false, none⟩],
    none,
    [(48, none), (58, some 124), (1114112, none)]⟩

def row124 : Row :=
  ⟨[⟨566, 56, [527, 524, 507], false, none⟩, ⟨120, 56, [], false, none⟩],
    some (56, none),
    [(48, none), (58, some 124), (1114112, none)]⟩

def row125 : Row :=
  ⟨[⟨148, 61, [], true, some [⟨3⟩]⟩],
    some (61, some [⟨3⟩]),
    [(1114112, none)]⟩

def row126 : Row :=
  ⟨[⟨566, 56, [527, 524, 499], false, none⟩],
    none,
    [(48, none), (58, some 127), (1114112, none)]⟩

def row127 : Row :=
  ⟨[⟨566, 56, [527, 524, 499], false, none⟩, ⟨120, 56, [], false, none⟩],
    some (56, none),
    [(48, none), (58, some 127), (1114112, none)]⟩

def row128 : Row :=
  ⟨[⟨46, 23, [], false, none⟩, ⟨564, 58, [560], false, none⟩, ⟨566, 58, [560], false, none⟩, ⟨134, 58, [], false, none⟩],
    some (23, none),
    [(48, none), (58, some 18), (65, none), (91, some 18), (95, none), (96, some 18), (97, none), (123, some 18), (1114112, none)]⟩

def row129 : Row :=
  ⟨[⟨338, 27, [], false, none⟩, ⟨564, 58, [560], false, none⟩, ⟨566, 58, [560], false, none⟩, ⟨134, 58, [], false, none⟩],
    some (58, none),
    [(48, none), (58, some 18), (65, none), (91, some 18), (95, none), (96, some 18), (97, none), (115, some 18), (116, some 158), (123, some 18),
    (1114112, none)]⟩

def row130 : Row :=
  ⟨[⟨325, 25, [], false, none⟩, ⟨564, 58, [560], false, none⟩, ⟨566, 58, [560], false, none⟩, ⟨134, 58, [], false, none⟩],
    some (58, none),
    [(48, none), (58, some 18), (65, none), (91, some 18), (95, none), (96, some 18), (97, none), (108, some 18), (109, some 159), (123, some 18),
    (1114112, none)]⟩

def row131 : Row :=
  ⟨[⟨160, 2, [], false, none⟩, ⟨564, 58, [560], false, none⟩, ⟨566, 58, [560], false, none⟩, ⟨134, 58, [], false, none⟩],
    some (58, none),
    [(48, none), (58, some 18), (65, none), (91, some 18), (95, none), (96, some 18), (97, none), (105, some 18), (106, some 160), (123, some 18),
    (1114112, none)]⟩

def row132 : Row :=
  ⟨[⟨64, 32, [], false, none⟩, ⟨564, 58, [560], false, none⟩, ⟨566, 58, [560], false, none⟩, ⟨134, 58, [], false, none⟩],
    some (32, none),
    [(48, none), (58, some 18), (65, none), (91, some 18), (95, none), (96, some 18), (97, none), (123, some 18), (1114112, none)]⟩

def row133 : Row :=
  ⟨[⟨353, 29, [], false, none⟩, ⟨392, 35, [], false, none⟩, ⟨564, 58, [560], false, none⟩, ⟨566, 58, [560], false, none⟩, ⟨134, 58, [], false, none⟩],
    some (58, none),
    [(48, none), (58, some 18), (65, none), (91, some 18), (95, none), (96, some 18), (97, none), (110, some 18), (111, some 161), (123, some 18),
    (1114112, none)]⟩

def row134 : Row :=
  ⟨[⟨489, 55, [], false, none⟩, ⟨564, 58, [560], false, none⟩, ⟨566, 58, [560], false, none⟩, ⟨134, 58, [], false, none⟩],
    some (58, none),
    [(48, none), (58, some 18), (65, none), (91, some 18), (95, none), (96, some 18), (97, none), (101, some 18), (102, some 155), (123, some 18),
    (1114112, none)]⟩

def row135 : Row :=
  ⟨[⟨279, 19, [], false, none⟩, ⟨287, 20, [], false, none⟩, ⟨564, 58, [560], false, none⟩, ⟨566, 58, [560], false, none⟩, ⟨134, 58, [], false, none⟩],
    some (58, none),
    [(48, none), (58, some 18), (65, none), (91, some 18), (95, none), (96, some 18), (97, none), (100, some 18), (101, some 162), (123, some 18),
    (1114112, none)]⟩

def row136 : Row :=
  ⟨[⟨332, 26, [], false, none⟩, ⟨564, 58, [560], false, none⟩, ⟨566, 58, [560], false, none⟩, ⟨134, 58, [], false, none⟩],
    some (58, none),
    [(48, none), (58, some 18), (65, none), (91, some 18), (95, none), (96, some 18), (97, none), (116, some 18), (117, some 163), (123, some 18),
    (1114112, none)]⟩

def row137 : Row :=
  ⟨[⟨168, 3, [], false, none⟩, ⟨564, 58, [560], false, none⟩, ⟨566, 58, [560], false, none⟩, ⟨134, 58, [], false, none⟩],
    some (58, none),
    [(48, none), (58, some 18), (65, none), (91, some 18), (95, none), (96, some 18), (97, none), (114, some 18), (115, some 164), (123, some 18),
    (1114112, none)]⟩

def row138 : Row :=
  ⟨[⟨239, 13, [], false, none⟩, ⟨564, 58, [560], false, none⟩, ⟨566, 58, [560], false, none⟩, ⟨134, 58, [], false, none⟩],
    some (58, none),
    [(48, none), (50, some 18), (51, some 165), (58, some 18), (65, none), (91, some 18), (95, none), (96, some 18), (97, none), (123, some 18),
    (1114112, none)]⟩

def row139 : Row :=
  ⟨[⟨245, 14, [], false, none⟩, ⟨564, 58, [560], false, none⟩, ⟨566, 58, [560], false, none⟩, ⟨134, 58, [], false, none⟩],
    some (58, none),
    [(48, none), (52, some 18), (53, some 166), (58, some 18), (65, none), (91, some 18), (95, none), (96, some 18), (97, none), (123, some 18),
    (1114112, none)]⟩

def row140 : Row :=
  ⟨[⟨376, 33, [], false, none⟩, ⟨564, 58, [560], false, none⟩, ⟨566, 58, [560], false, none⟩, ⟨134, 58, [], false, none⟩],
    some (58, none),
    [(48, none), (58, some 18), (65, none), (91, some 18), (95, none), (96, some 18), (97, none), (98, some 167), (123, some 18), (1114112, none)]⟩

def row141 : Row :=
  ⟨[⟨229, 11, [], false, none⟩, ⟨564, 58, [560], false, none⟩, ⟨566, 58, [560], false, none⟩, ⟨134, 58, [], false, none⟩],
    some (58, none),
    [(48, none), (58, some 18), (65, none), (91, some 18), (95, none), (96, some 18), (97, none), (102, some 18), (103, some 168), (123, some 18),
    (1114112, none)]⟩

def row142 : Row :=
  ⟨[⟨195, 7, [], false, none⟩, ⟨202, 8, [], false, none⟩, ⟨564, 58, [560], false, none⟩, ⟨566, 58, [560], false, none⟩, ⟨134, 58, [], false, none⟩],
    some (58, none),
    [(48, none), (58, some 18), (65, none), (91, some 18), (95, none), (96, some 18), (97, none), (111, some 18), (112, some 169), (123, some 18),
    (1114112, none)]⟩

def row143 : Row :=
  ⟨[⟨187, 6, [], false, none⟩, ⟨564, 58, [560], false, none⟩, ⟨566, 58, [560], false, none⟩, ⟨134, 58, [], false, none⟩],
    some (58, none),
    [(48, none), (58, some 18), (65, none), (91, some 18), (95, none), (96, some 18), (97, none), (98, some 170), (123, some 18), (1114112, none)]⟩

def row144 : Row :=
  ⟨[⟨180, 5, [], false, none⟩, ⟨564, 58, [560], false, none⟩, ⟨566, 58, [560], false, none⟩, ⟨134, 58, [], false, none⟩],
    some (58, none),
    [(48, none), (58, some 18), (65, none), (91, some 18), (95, none), (96, some 18), (97, none), (105, some 18), (106, some 171), (123, some 18),
    (1114112, none)]⟩

def row145 : Row :=
  ⟨[⟨220, 10, [], false, none⟩, ⟨564, 58, [560], false, none⟩, ⟨566, 58, [560], false, none⟩, ⟨134, 58, [], false, none⟩],
    some (58, none),
    [(48, none), (58, some 18), (65, none), (91, some 18), (95, none), (96, some 18), (97, none), (98, some 172), (123, some 18), (1114112, none)]⟩

def row146 : Row :=
  ⟨[⟨211, 9, [], false, none⟩, ⟨564, 58, [560], false, none⟩, ⟨566, 58, [560], false, none⟩, ⟨134, 58, [], false, none⟩],
    some (58, none),
    [(48, none), (58, some 18), (65, none), (91, some 18), (95, none), (96, some 18), (97, none), (105, some 18), (106, some 173), (123, some 18),
    (1114112, none)]⟩

def row147 : Row :=
  ⟨[⟨344, 28, [], false, none⟩, ⟨564, 58, [560], false, none⟩, ⟨566, 58, [560], false, none⟩, ⟨134, 58, [], false, none⟩],
    some (58, none),
    [(48, none), (58, some 18), (65, none), (91, some 18), (95, none), (96, some 18), (97, none), (114, some 18), (115, some 174), (123, some 18),
    (1114112, none)]⟩

def row148 : Row :=
  ⟨[⟨410, 38, [], false, none⟩, ⟨564, 58, [560], false, none⟩, ⟨566, 58, [560], false, none⟩, ⟨134, 58, [], false, none⟩],
    some (58, none),
    [(48, none), (58, some 18), (65, none), (91, some 18), (95, none), (96, some 18), (97, none), (114, some 18), (115, some 175), (123, some 18),
    (1114112, none)]⟩

def row149 : Row :=
  ⟨[⟨384, 34, [], false, none⟩, ⟨564, 58, [560], false, none⟩, ⟨566, 58, [560], false, none⟩, ⟨134, 58, [], false, none⟩],
    some (58, none),
    [(48, none), (58, some 18), (65, none), (91, some 18), (95, none), (96, some 18), (97, none), (105, some 18), (106, some 176), (123, some 18),
    (1114112, none)]⟩

def row150 : Row :=
  ⟨[⟨295, 21, [], false, none⟩, ⟨304, 22, [], false, none⟩, ⟨564, 58, [560], false, none⟩, ⟨566, 58, [560], false, none⟩, ⟨134, 58, [], false, none⟩],
    some (58, none),
    [(48, none), (58, some 18), (65, none), (91, some 18), (95, none), (96, some 18), (97, none), (101, some 18), (102, some 177), (123, some 18),
    (1114112, none)]⟩

def row151 : Row :=
  ⟨[⟨265, 17, [], false, none⟩, ⟨272, 18, [], false, none⟩, ⟨564, 58, [560], false, none⟩, ⟨566, 58, [560], false, none⟩, ⟨134, 58, [], false, none⟩],
    some (58, none),
    [(48, none), (51, some 18), (52, some 178), (54, some 18), (55, some 179), (58, some 18), (65, none), (91, some 18), (95, none), (96, some 18),
    (97, none), (123, some 18), (1114112, none)]⟩

def row152 : Row :=
  ⟨[⟨403, 37, [], false, none⟩, ⟨564, 58, [560], false, none⟩, ⟨566, 58, [560], false, none⟩, ⟨134, 58, [], false, none⟩],
    some (58, none),
    [(48, none), (58, some 18), (65, none), (91, some 18), (95, none), (96, some 18), (97, none), (98, some 180), (123, some 18), (1114112, none)]⟩

def row153 : Row :=
  ⟨[⟨318, 24, [], false, none⟩, ⟨564, 58, [560], false, none⟩, ⟨566, 58, [560], false, none⟩, ⟨134, 58, [], false, none⟩],
    some (58, none),
    [(48, none), (58, some 18), (65, none), (91, some 18), (95, none), (96, some 18), (97, none), (110, some 18), (111, some 181), (123, some 18),
    (1114112, none)]⟩

def row154 : Row :=
  ⟨[⟨153, 1, [], false, none⟩, ⟨564, 58, [560], false, none⟩, ⟨566, 58, [560], false, none⟩, ⟨134, 58, [], false, none⟩],
    some (58, none),
    [(48, none), (58, some 18), (65, none), (91, some 18), (95, none), (96, some 18), (97, none), (98, some 182), (123, some 18), (1114112, none)]⟩

def row155 : Row :=
  ⟨[⟨118, 55, [], false, none⟩, ⟨564, 58, [560], false, none⟩, ⟨566, 58, [560], false, none⟩, ⟨134, 58, [], false, none⟩],
    some (55, none),
    [(48, none), (58, some 18), (65, none), (91, some 18), (95, none), (96, some 18), (97, none), (123, some 18), (1114112, none)]⟩

def row156 : Row :=
  ⟨[⟨251, 15, [], false, none⟩, ⟨258, 16, [], false, none⟩, ⟨564, 58, [560], false, none⟩, ⟨566, 58, [560], false, none⟩, ⟨134, 58, [], false, none⟩],
    some (58, none),
    [(48, none), (51, some 18), (52, some 183), (54, some 18), (55, some 184), (58, some 18), (65, none), (91, some 18), (95, none), (96, some 18),
    (97, none), (123, some 18), (1114112, none)]⟩

def row157 : Row :=
  ⟨[⟨8, 4, [], false, none⟩, ⟨564, 58, [560], false, none⟩, ⟨566, 58, [560], false, none⟩, ⟨134, 58, [], false, none⟩],
    some (4, none),
    [(48, none), (58, some 18), (65, none), (91, some 18), (95, none), (96, some 18), (97, none), (123, some 18), (1114112, none)]⟩

def row158 : Row :=
  ⟨[⟨54, 27, [], false, none⟩, ⟨564, 58, [560], false, none⟩, ⟨566, 58, [560], false, none⟩, ⟨134, 58, [], false, none⟩],
    some (27, none),
    [(48, none), (58, some 18), (65, none), (91, some 18), (95, none), (96, some 18), (97, none), (123, some 18), (1114112, none)]⟩

def row159 : Row :=
  ⟨[⟨326, 25, [], false, none⟩, ⟨564, 58, [560], false, none⟩, ⟨566, 58, [560], false, none⟩, ⟨134, 58, [], false, none⟩],
    some (58, none),
    [(48, none), (58, some 18), (65, none), (91, some 18), (95, none), (96, some 18), (97, none), (101, some 18), (102, some 185), (123, some 18),
    (1114112, none)]⟩

def row160 : Row :=
  ⟨[⟨161, 2, [], false, none⟩, ⟨564, 58, [560], false, none⟩, ⟨566, 58, [560], false, none⟩, ⟨134, 58, [], false, none⟩],
    some (58, none),
    [(48, none), (58, some 18), (65, none), (91, some 18), (95, none), (96, some 18), (97, none), (111, some 18), (112, some 186), (123, some 18),
    (1114112, none)]⟩

def row161 : Row :=
  ⟨[⟨354, 29, [], false, none⟩, ⟨393, 35, [], false, none⟩, ⟨564, 58, [560], false, none⟩, ⟨566, 58, [560], false, none⟩, ⟨134, 58, [], false, none⟩],
    some (58, none),
    [(48, none), (58, some 18), (65, none), (91, some 18), (95, none), (96, some 18), (97, none), (100, some 18), (101, some 187), (115, some 18),
    (116, some 188), (123, some 18), (1114112, none)]⟩

def row162 : Row :=
  ⟨[⟨280, 19, [], false, none⟩, ⟨288, 20, [], false, none⟩, ⟨564, 58, [560], false, none⟩, ⟨566, 58, [560], false, none⟩, ⟨134, 58, [], false, none⟩],
    some (58, none),
    [(48, none), (51, some 18), (52, some 189), (54, some 18), (55, some 190), (58, some 18), (65, none), (91, some 18), (95, none), (96, some 18),
    (97, none), (123, some 18), (1114112, none)]⟩

def row163 : Row :=
  ⟨[⟨52, 26, [], false, none⟩, ⟨564, 58, [560], false, none⟩, ⟨566, 58, [560], false, none⟩, ⟨134, 58, [], false, none⟩],
    some (26, none),
    [(48, none), (58, some 18), (65, none), (91, some 18), (95, none), (96, some 18), (97, none), (123, some 18), (1114112, none)]⟩

def row164 : Row :=
  ⟨[⟨169, 3, [], false, none⟩, ⟨564, 58, [560], false, none⟩, ⟨566, 58, [560], false, none⟩, ⟨134, 58, [], false, none⟩],
    some (58, none),
    [(48, none), (58, some 18), (65, none), (91, some 18), (95, none), (96, some 18), (97, none), (116, some 18), (117, some 191), (123, some 18),
    (1114112, none)]⟩

def row165 : Row :=
  ⟨[⟨26, 13, [], false, none⟩, ⟨564, 58, [560], false, none⟩, ⟨566, 58, [560], false, none⟩, ⟨134, 58, [], false, none⟩],
    some (13, none),
    [(48, none), (58, some 18), (65, none), (91, some 18), (95, none), (96, some 18), (97, none), (123, some 18), (1114112, none)]⟩

def row166 : Row :=
  ⟨[⟨28, 14, [], false, none⟩, ⟨564, 58, [560], false, none⟩, ⟨566, 58, [560], false, none⟩, ⟨134, 58, [], false, none⟩],
    some (14, none),
    [(48, none), (58, some 18), (65, none), (91, some 18), (95, none), (96, some 18), (97, none), (123, some 18), (1114112, none)]⟩

def row167 : Row :=
  ⟨[⟨377, 33, [], false, none⟩, ⟨564, 58, [560], false, none⟩, ⟨566, 58, [560], false, none⟩, ⟨134, 58, [], false, none⟩],
    some (58, none),
    [(48, none), (58, some 18), (65, none), (91, some 18), (95, none), (96, some 18), (97, none), (103, some 18), (104, some 192), (123, some 18),
    (1114112, none)]⟩

def row168 : Row :=
  ⟨[⟨22, 11, [], false, none⟩, ⟨564, 58, [560], false, none⟩, ⟨566, 58, [560], false, none⟩, ⟨134, 58, [], false, none⟩],
    some (11, none),
    [(48, none), (58, some 18), (65, none), (91, some 18), (95, none), (96, some 18), (97, none), (123, some 18), (1114112, none)]⟩

def row169 : Row :=
  ⟨[⟨196, 7, [], false, none⟩, ⟨203, 8, [], false, none⟩, ⟨564, 58, [560], false, none⟩, ⟨566, 58, [560], false, none⟩, ⟨134, 58, [], false, none⟩],
    some (58, none),
    [(48, none), (58, some 18), (65, none), (91, some 18), (95, none), (96, some 18), (97, none), (110, some 18), (111, some 193), (123, some 18),
    (1114112, none)]⟩

def row170 : Row :=
  ⟨[⟨188, 6, [], false, none⟩, ⟨564, 58, [560], false, none⟩, ⟨566, 58, [560], false, none⟩, ⟨134, 58, [], false, none⟩],
    some (58, none),
    [(48, none), (58, some 18), (65, none), (91, some 18), (95, none), (96, some 18), (97, none), (103, some 18), (104, some 194), (123, some 18),
    (1114112, none)]⟩

def row171 : Row :=
  ⟨[⟨181, 5, [], false, none⟩, ⟨564, 58, [560], false, none⟩, ⟨566, 58, [560], false, none⟩, ⟨134, 58, [], false, none⟩],
    some (58, none),
    [(48, none), (58, some 18), (65, none), (91, some 18), (95, none), (96, some 18), (97, none), (99, some 18), (100, some 195), (123, some 18),
    (1114112, none)]⟩

def row172 : Row :=
  ⟨[⟨221, 10, [], false, none⟩, ⟨564, 58, [560], false, none⟩, ⟨566, 58, [560], false, none⟩, ⟨134, 58, [], false, none⟩],
    some (58, none),
    [(48, none), (58, some 18), (65, none), (91, some 18), (95, none), (96, some 18), (97, none), (116, some 18), (117, some 196), (123, some 18),
    (1114112, none)]⟩

def row173 : Row :=
  ⟨[⟨212, 9, [], false, none⟩, ⟨564, 58, [560], false, none⟩, ⟨566, 58, [560], false, none⟩, ⟨134, 58, [], false, none⟩],
    some (58, none),
    [(48, none), (58, some 18), (65, none), (91, some 18), (95, none), (96, some 18), (97, none), (114, some 18), (115, some 197), (123, some 18),
    (1114112, none)]⟩

def row174 : Row :=
  ⟨[⟨345, 28, [], false, none⟩, ⟨564, 58, [560], false, none⟩, ⟨566, 58, [560], false, none⟩, ⟨134, 58, [], false, none⟩],
    some (58, none),
    [(48, none), (58, some 18), (65, none), (91, some 18), (95, none), (96, some 18), (97, none), (118, some 18), (119, some 198), (123, some 18),
    (1114112, none)]⟩

def row175 : Row :=
  ⟨[⟨411, 38, [], false, none⟩, ⟨564, 58, [560], false, none⟩, ⟨566, 58, [560], false, none⟩, ⟨134, 58, [], false, none⟩],
    some (58, none),
    [(48, none), (58, some 18), (65, none), (91, some 18), (95, none), (96, some 18), (97, none), (110, some 18), (111, some 199), (123, some 18),
    (1114112, none)]⟩

def row176 : Row :=
  ⟨[⟨385, 34, [], false, none⟩, ⟨564, 58, [560], false, none⟩, ⟨566, 58, [560], false, none⟩, ⟨134, 58, [], false, none⟩],
    some (58, none),
    [(48, none), (58, some 18), (65, none), (91, some 18), (95, none), (96, some 18), (97, none), (99, some 18), (100, some 200), (123, some 18),
    (1114112, none)]⟩

def row177 : Row :=
  ⟨[⟨296, 21, [], false, none⟩, ⟨305, 22, [], false, none⟩, ⟨564, 58, [560], false, none⟩, ⟨566, 58, [560], false, none⟩, ⟨134, 58, [], false, none⟩],
    some (58, none),
    [(48, none), (58, some 18), (65, none), (91, some 18), (95, none), (96, some 18), (97, none), (100, some 18), (101, some 201), (123, some 18),
    (1114112, none)]⟩

def row178 : Row :=
  ⟨[⟨266, 17, [], false, none⟩, ⟨564, 58, [560], false, none⟩, ⟨566, 58, [560], false, none⟩, ⟨134, 58, [], false, none⟩],
    some (58, none),
    [(48, none), (50, some 18), (51, some 202), (58, some 18), (65, none), (91, some 18), (95, none), (96, some 18), (97, none), (123, some 18),
    (1114112, none)]⟩

def row179 : Row :=
  ⟨[⟨273, 18, [], false, none⟩, ⟨564, 58, [560], false, none⟩, ⟨566, 58, [560], false, none⟩, ⟨134, 58, [], false, none⟩],
    some (58, none),
    [(48, none), (52, some 18), (53, some 203), (58, some 18), (65, none), (91, some 18), (95, none), (96, some 18), (97, none), (123, some 18),
    (1114112, none)]⟩

def row180 : Row :=
  ⟨[⟨404, 37, [], false, none⟩, ⟨564, 58, [560], false, none⟩, ⟨566, 58, [560], false, none⟩, ⟨134, 58, [], false, none⟩],
    some (58, none),
    [(48, none), (58, some 18), (65, none), (91, some 18), (95, none), (96, some 18), (97, none), (109, some 18), (110, some 204), (123, some 18),
    (1114112, none)]⟩

def row181 : Row :=
  ⟨[⟨319, 24, [], false, none⟩, ⟨564, 58, [560], false, none⟩, ⟨566, 58, [560], false, none⟩, ⟨134, 58, [], false, none⟩],
    some (58, none),
    [(48, none), (58, some 18), (65, none), (91, some 18), (95, none), (96, some 18), (97, none), (103, some 18), (104, some 205), (123, some 18),
    (1114112, none)]⟩

def row182 : Row :=
  ⟨[⟨154, 1, [], false, none⟩, ⟨564, 58, [560], false, none⟩, ⟨566, 58, [560], false, none⟩, ⟨134, 58, [], false, none⟩],
    some (58, none),
    [(48, none), (58, some 18), (65, none), (91, some 18), (95, none), (96, some 18), (97, none), (120, some 18), (121, some 206), (123, some 18),
    (1114112, none)]⟩

def row183 : Row :=
  ⟨[⟨252, 15, [], false, none⟩, ⟨564, 58, [560], false, none⟩, ⟨566, 58, [560], false, none⟩, ⟨134, 58, [], false, none⟩],
    some (58, none),
    [(48, none), (50, some 18), (51, some 207), (58, some 18), (65, none), (91, some 18), (95, none), (96, some 18), (97, none), (123, some 18),
    (1114112, none)]⟩

def row184 : Row :=
  ⟨[⟨259, 16, [], false, none⟩, ⟨564, 58, [560], false, none⟩, ⟨566, 58, [560], false, none⟩, ⟨134, 58, [], false, none⟩],
    some (58, none),
    [(48, none), (52, some 18), (53, some 208), (58, some 18), (65, none), (91, some 18), (95, none), (96, some 18), (97, none), (123, some 18),
    (1114112, none)]⟩

def row185 : Row :=
  ⟨[⟨50, 25, [], false, none⟩, ⟨564, 58, [560], false, none⟩, ⟨566, 58, [560], false, none⟩, ⟨134, 58, [], false, none⟩],
    some (25, none),
    [(48, none), (58, some 18), (65, none), (91, some 18), (95, none), (96, some 18), (97, none), (123, some 18), (1114112, none)]⟩

def row186 : Row :=
  ⟨[⟨162, 2, [], false, none⟩, ⟨564, 58, [560], false, none⟩, ⟨566, 58, [560], false, none⟩, ⟨134, 58, [], false, none⟩],
    some (58, none),
    [(48, none), (58, some 18), (65, none), (91, some 18), (95, none), (96, some 18), (97, none), (110, some 18), (111, some 209), (123, some 18),
    (1114112, none)]⟩

def row187 : Row :=
  ⟨[⟨70, 35, [], false, none⟩, ⟨564, 58, [560], false, none⟩, ⟨566, 58, [560], false, none⟩, ⟨134, 58, [], false, none⟩],
    some (35, none),
    [(48, none), (58, some 18), (65, none), (91, some 18), (95, none), (96, some 18), (97, none), (123, some 18), (1114112, none)]⟩

def row188 : Row :=
  ⟨[⟨355, 29, [], false, none⟩, ⟨564, 58, [560], false, none⟩, ⟨566, 58, [560], false, none⟩, ⟨134, 58, [], false, none⟩],
    some (58, none),
    [(48, none), (58, some 18), (65, none), (91, some 18), (95, none), (96, some 18), (97, none), (105, some 18), (106, some 210), (123, some 18),
    (1114112, none)]⟩

def row189 : Row :=
  ⟨[⟨281, 19, [], false, none⟩, ⟨564, 58, [560], false, none⟩, ⟨566, 58, [560], false, none⟩, ⟨134, 58, [], false, none⟩],
    some (58, none),
    [(48, none), (50, some 18), (51, some 211), (58, some 18), (65, none), (91, some 18), (95, none), (96, some 18), (97, none), (123, some 18),
    (1114112, none)]⟩

def row190 : Row :=
  ⟨[⟨289, 20, [], false, none⟩, ⟨564, 58, [560], false, none⟩, ⟨566, 58, [560], false, none⟩, ⟨134, 58, [], false, none⟩],
    some (58, none),
    [(48, none), (52, some 18), (53, some 212), (58, some 18), (65, none), (91, some 18), (95, none), (96, some 18), (97, none), (123, some 18),
    (1114112, none)]⟩

def row191 : Row :=
  ⟨[⟨6, 3, [], false, none⟩, ⟨564, 58, [560], false, none⟩, ⟨566, 58, [560], false, none⟩, ⟨134, 58, [], false, none⟩],
    some (3, none),
    [(48, none), (58, some 18), (65, none), (91, some 18), (95, none), (96, some 18), (97, none), (123, some 18), (1114112, none)]⟩

def row192 : Row :=
  ⟨[⟨378, 33, [], false, none⟩, ⟨564, 58, [560], false, none⟩, ⟨566, 58, [560], false, none⟩, ⟨134, 58, [], false, none⟩],
    some (58, none),
    [(48, none), (58, some 18), (65, none), (91, some 18), (95, none), (96, some 18), (97, none), (101, some 18), (102, some 213), (123, some 18),
    (1114112, none)]⟩

def row193 : Row :=
  ⟨[⟨14, 7, [], false, none⟩, ⟨204, 8, [], false, none⟩, ⟨564, 58, [560], false, none⟩, ⟨566, 58, [560], false, none⟩, ⟨134, 58, [], false, none⟩],
    some (7, none),
    [(48, none), (58, some 18), (65, none), (91, some 18), (95, none), (96, some 18), (97, none), (98, some 214), (123, some 18), (1114112, none)]⟩

def row194 : Row :=
  ⟨[⟨189, 6, [], false, none⟩, ⟨564, 58, [560], false, none⟩, ⟨566, 58, [560], false, none⟩, ⟨134, 58, [], false, none⟩],
    some (58, none),
    [(48, none), (58, some 18), (65, none), (91, some 18), (95, none), (96, some 18), (97, none), (101, some 18), (102, some 215), (123, some 18),
    (1114112, none)]⟩

def row195 : Row :=
  ⟨[⟨10, 5, [], false, none⟩, ⟨564, 58, [560], false, none⟩, ⟨566, 58, [560], false, none⟩, ⟨134, 58, [], false, none⟩],
    some (5, none),
    [(48, none), (58, some 18), (65, none), (91, some 18), (95, none), (96, some 18), (97, none), (123, some 18), (1114112, none)]⟩

def row196 : Row :=
  ⟨[⟨222, 10, [], false, none⟩, ⟨564, 58, [560], false, none⟩, ⟨566, 58, [560], false, none⟩, ⟨134, 58, [], false, none⟩],
    some (58, none),
    [(48, none), (58, some 18), (65, none), (91, some 18), (95, none), (96, some 18), (97, none), (101, some 18), (102, some 216), (123, some 18),
    (1114112, none)]⟩

def row197 : Row :=
  ⟨[⟨213, 9, [], false, none⟩, ⟨564, 58, [560], false, none⟩, ⟨566, 58, [560], false, none⟩, ⟨134, 58, [], false, none⟩],
    some (58, none),
    [(48, none), (58, some 18), (65, none), (91, some 18), (95, none), (96, some 18), (97, none), (101, some 18), (102, some 217), (123, some 18),
    (1114112, none)]⟩

def row198 : Row :=
  ⟨[⟨346, 28, [], false, none⟩, ⟨564, 58, [560], false, none⟩, ⟨566, 58, [560], false, none⟩, ⟨134, 58, [], false, none⟩],
    some (58, none),
    [(48, none), (58, some 18), (65, none), (91, some 18), (95, none), (96, some 18), (97, none), (101, some 18), (102, some 218), (123, some 18),
    (1114112, none)]⟩

def row199 : Row :=
  ⟨[⟨412, 38, [], false, none⟩, ⟨564, 58, [560], false, none⟩, ⟨566, 58, [560], false, none⟩, ⟨134, 58, [], false, none⟩],
    some (58, none),
    [(48, none), (58, some 18), (65, none), (91, some 18), (95, none), (96, some 18), (97, none), (115, some 18), (116, some 219), (123, some 18),
    (1114112, none)]⟩

def row200 : Row :=
  ⟨[⟨386, 34, [], false, none⟩, ⟨564, 58, [560], false, none⟩, ⟨566, 58, [560], false, none⟩, ⟨134, 58, [], false, none⟩],
    some (58, none),
    [(48, none), (58, some 18), (65, none), (91, some 18), (95, none), (96, some 18), (97, none), (101, some 18), (102, some 220), (123, some 18),
    (1114112, none)]⟩

def row201 : Row :=
  ⟨[⟨297, 21, [], false, none⟩, ⟨306, 22, [], false, none⟩, ⟨564, 58, [560], false, none⟩, ⟨566, 58, [560], false, none⟩, ⟨134, 58, [], false, none⟩],
    some (58, none),
    [(48, none), (51, some 18), (52, some 221), (54, some 18), (55, some 222), (58, some 18), (65, none), (91, some 18), (95, none), (96, some 18),
    (97, none), (123, some 18), (1114112, none)]⟩

def row202 : Row :=
  ⟨[⟨34, 17, [], false, none⟩, ⟨564, 58, [560], false, none⟩, ⟨566, 58, [560], false, none⟩, ⟨134, 58, [], false, none⟩],
    some (17, none),
    [(48, none), (58, some 18), (65, none), (91, some 18), (95, none), (96, some 18), (97, none), (123, some 18), (1114112, none)]⟩

def row203 : Row :=
  ⟨[⟨36, 18, [], false, none⟩, ⟨564, 58, [560], false, none⟩, ⟨566, 58, [560], false, none⟩, ⟨134, 58, [], false, none⟩],
    some (18, none),
    [(48, none), (58, some 18), (65, none), (91, some 18), (95, none), (96, some 18), (97, none), (123, some 18), (1114112, none)]⟩

def row204 : Row :=
  ⟨[⟨74, 37, [], false, none⟩, ⟨564, 58, [560], false, none⟩, ⟨566, 58, [560], false, none⟩, ⟨134, 58, [], false, none⟩],
    some (37, none),
    [(48, none), (58, some 18), (65, none), (91, some 18), (95, none), (96, some 18), (97, none), (123, some 18), (1114112, none)]⟩

def row205 : Row :=
  ⟨[⟨48, 24, [], false, none⟩, ⟨564, 58, [560], false, none⟩, ⟨566, 58, [560], false, none⟩, ⟨134, 58, [], false, none⟩],
    some (24, none),
    [(48, none), (58, some 18), (65, none), (91, some 18), (95, none), (96, some 18), (97, none), (123, some 18), (1114112, none)]⟩

def row206 : Row :=
  ⟨[⟨2, 1, [], false, none⟩, ⟨564, 58, [560], false, none⟩, ⟨566, 58, [560], false, none⟩, ⟨134, 58, [], false, none⟩],
    some (1, none),
    [(48, none), (58, some 18), (65, none), (91, some 18), (95, none), (96, some 18), (97, none), (123, some 18), (1114112, none)]⟩

def row207 : Row :=
  ⟨[⟨30, 15, [], false, none⟩, ⟨564, 58, [560], false, none⟩, ⟨566, 58, [560], false, none⟩, ⟨134, 58, [], false, none⟩],
    some (15, none),
    [(48, none), (58, some 18), (65, none), (91, some 18), (95, none), (96, some 18), (97, none), (123, some 18), (1114112, none)]⟩

def row208 : Row :=
  ⟨[⟨32, 16, [], false, none⟩, ⟨564, 58, [560], false, none⟩, ⟨566, 58, [560], false, none⟩, ⟨134, 58, [], false, none⟩],
    some (16, none),
    [(48, none), (58, some 18), (65, none), (91, some 18), (95, none), (96, some 18), (97, none), (123, some 18), (1114112, none)]⟩

def row209 : Row :=
  ⟨[⟨4, 2, [], false, none⟩, ⟨564, 58, [560], false, none⟩, ⟨566, 58, [560], false, none⟩, ⟨134, 58, [], false, none⟩],
    some (2, none),
    [(48, none), (58, some 18), (65, none), (91, some 18), (95, none), (96, some 18), (97, none), (123, some 18), (1114112, none)]⟩

def row210 : Row :=
  ⟨[⟨356, 29, [], false, none⟩, ⟨564, 58, [560], false, none⟩, ⟨566, 58, [560], false, none⟩, ⟨134, 58, [], false, none⟩],
    some (58, none),
    [(48, none), (58, some 18), (65, none), (91, some 18), (95, none), (96, some 18), (97, none), (111, some 18), (112, some 223), (123, some 18),
    (1114112, none)]⟩

def row211 : Row :=
  ⟨[⟨38, 19, [], false, none⟩, ⟨564, 58, [560], false, none⟩, ⟨566, 58, [560], false, none⟩, ⟨134, 58, [], false, none⟩],
    some (19, none),
    [(48, none), (58, some 18), (65, none), (91, some 18), (95, none), (96, some 18), (97, none), (123, some 18), (1114112, none)]⟩

def row212 : Row :=
  ⟨[⟨40, 20, [], false, none⟩, ⟨564, 58, [560], false, none⟩, ⟨566, 58, [560], false, none⟩, ⟨134, 58, [], false, none⟩],
    some (20, none),
    [(48, none), (58, some 18), (65, none), (91, some 18), (95, none), (96, some 18), (97, none), (123, some 18), (1114112, none)]⟩

def row213 : Row :=
  ⟨[⟨66, 33, [], false, none⟩, ⟨564, 58, [560], false, none⟩, ⟨566, 58, [560], false, none⟩, ⟨134, 58, [], false, none⟩],
    some (33, none),
    [(48, none), (58, some 18), (65, none), (91, some 18), (95, none), (96, some 18), (97, none), (123, some 18), (1114112, none)]⟩

def row214 : Row :=
  ⟨[⟨205, 8, [], false, none⟩, ⟨564, 58, [560], false, none⟩, ⟨566, 58, [560], false, none⟩, ⟨134, 58, [], false, none⟩],
    some (58, none),
    [(48, none), (58, some 18), (65, none), (91, some 18), (95, none), (96, some 18), (97, none), (108, some 18), (109, some 224), (123, some 18),
    (1114112, none)]⟩

def row215 : Row :=
  ⟨[⟨12, 6, [], false, none⟩, ⟨564, 58, [560], false, none⟩, ⟨566, 58, [560], false, none⟩, ⟨134, 58, [], false, none⟩],
    some (6, none),
    [(48, none), (58, some 18), (65, none), (91, some 18), (95, none), (96, some 18), (97, none), (123, some 18), (1114112, none)]⟩

def row216 : Row :=
  ⟨[⟨223, 10, [], false, none⟩, ⟨564, 58, [560], false, none⟩, ⟨566, 58, [560], false, none⟩, ⟨134, 58, [], false, none⟩],
    some (58, none),
    [(48, none), (58, some 18), (65, none), (91, some 18), (95, none), (96, some 18), (97, none), (100, some 18), (101, some 225), (123, some 18),
    (1114112, none)]⟩

def row217 : Row :=
  ⟨[⟨214, 9, [], false, none⟩, ⟨564, 58, [560], false, none⟩, ⟨566, 58, [560], false, none⟩, ⟨134, 58, [], false, none⟩],
    some (58, none),
    [(48, none), (58, some 18), (65, none), (91, some 18), (95, none), (96, some 18), (97, none), (100, some 18), (101, some 226), (123, some 18),
    (1114112, none)]⟩

def row218 : Row :=
  ⟨[⟨347, 28, [], false, none⟩, ⟨564, 58, [560], false, none⟩, ⟨566, 58, [560], false, none⟩, ⟨134, 58, [], false, none⟩],
    some (58, none),
    [(48, none), (58, some 18), (65, none), (91, some 18), (95, none), (96, some 18), (97, none), (100, some 18), (101, some 227), (123, some 18),
    (1114112, none)]⟩

def row219 : Row :=
  ⟨[⟨76, 38, [], false, none⟩, ⟨564, 58, [560], false, none⟩, ⟨566, 58, [560], false, none⟩, ⟨134, 58, [], false, none⟩],
    some (38, none),
    [(48, none), (58, some 18), (65, none), (91, some 18), (95, none), (96, some 18), (97, none), (123, some 18), (1114112, none)]⟩

def row220 : Row :=
  ⟨[⟨68, 34, [], false, none⟩, ⟨564, 58, [560], false, none⟩, ⟨566, 58, [560], false, none⟩, ⟨134, 58, [], false, none⟩],
    some (34, none),
    [(48, none), (58, some 18), (65, none), (91, some 18), (95, none), (96, some 18), (97, none), (123, some 18), (1114112, none)]⟩

def row221 : Row :=
  ⟨[⟨298, 21, [], false, none⟩, ⟨564, 58, [560], false, none⟩, ⟨566, 58, [560], false, none⟩, ⟨134, 58, [], false, none⟩],
    some (58, none),
    [(48, none), (50, some 18), (51, some 228), (58, some 18), (65, none), (91, some 18), (95, none), (96, some 18), (97, none), (123, some 18),
    (1114112, none)]⟩

def row222 : Row :=
  ⟨[⟨307, 22, [], false, none⟩, ⟨564, 58, [560], false, none⟩, ⟨566, 58, [560], false, none⟩, ⟨134, 58, [], false, none⟩],
    some (58, none),
    [(48, none), (52, some 18), (53, some 229), (58, some 18), (65, none), (91, some 18), (95, none), (96, some 18), (97, none), (123, some 18),
    (1114112, none)]⟩

def row223 : Row :=
  ⟨[⟨357, 29, [], false, none⟩, ⟨564, 58, [560], false, none⟩, ⟨566, 58, [560], false, none⟩, ⟨134, 58, [], false, none⟩],
    some (58, none),
    [(48, none), (58, some 18), (65, none), (91, some 18), (95, none), (96, some 18), (97, none), (110, some 18), (111, some 230), (123, some 18),
    (1114112, none)]⟩

def row224 : Row :=
  ⟨[⟨16, 8, [], false, none⟩, ⟨564, 58, [560], false, none⟩, ⟨566, 58, [560], false, none⟩, ⟨134, 58, [], false, none⟩],
    some (8, none),
    [(48, none), (58, some 18), (65, none), (91, some 18), (95, none), (96, some 18), (97, none), (123, some 18), (1114112, none)]⟩

def row225 : Row :=
  ⟨[⟨20, 10, [], false, none⟩, ⟨564, 58, [560], false, none⟩, ⟨566, 58, [560], false, none⟩, ⟨134, 58, [], false, none⟩],
    some (10, none),
    [(48, none), (58, some 18), (65, none), (91, some 18), (95, none), (96, some 18), (97, none), (123, some 18), (1114112, none)]⟩

def row226 : Row :=
  ⟨[⟨18, 9, [], false, none⟩, ⟨564, 58, [560], false, none⟩, ⟨566, 58, [560], false, none⟩, ⟨134, 58, [], false, none⟩],
    some (9, none),
    [(48, none), (58, some 18), (65, none), (91, some 18), (95, none), (96, some 18), (97, none), (123, some 18), (1114112, none)]⟩

def row227 : Row :=
  ⟨[⟨56, 28, [], false, none⟩, ⟨564, 58, [560], false, none⟩, ⟨566, 58, [560], false, none⟩, ⟨134, 58, [], false, none⟩],
    some (28, none),
    [(48, none), (58, some 18), (65, none), (91, some 18), (95, none), (96, some 18), (97, none), (123, some 18), (1114112, none)]⟩

def row228 : Row :=
  ⟨[⟨42, 21, [], false, none⟩, ⟨564, 58, [560], false, none⟩, ⟨566, 58, [560], false, none⟩, ⟨134, 58, [], false, none⟩],
    some (21, none),
    [(48, none), (58, some 18), (65, none), (91, some 18), (95, none), (96, some 18), (97, none), (123, some 18), (1114112, none)]⟩

def row229 : Row :=
  ⟨[⟨44, 22, [], false, none⟩, ⟨564, 58, [560], false, none⟩, ⟨566, 58, [560], false, none⟩, ⟨134, 58, [], false, none⟩],
    some (22, none),
    [(48, none), (58, some 18), (65, none), (91, some 18), (95, none), (96, some 18), (97, none), (123, some 18), (1114112, none)]⟩

def row230 : Row :=
  ⟨[⟨358, 29, [], false, none⟩, ⟨564, 58, [560], false, none⟩, ⟨566, 58, [560], false, none⟩, ⟨134, 58, [], false, none⟩],
    some (58, none),
    [(48, none), (58, some 18), (65, none), (91, some 18), (95, none), (96, some 18), (97, none), (115, some 18), (116, some 231), (123, some 18),
    (1114112, none)]⟩

def row231 : Row :=
  ⟨[⟨58, 29, [], false, none⟩, ⟨564, 58, [560], false, none⟩, ⟨566, 58, [560], false, none⟩, ⟨134, 58, [], false, none⟩],
    some (29, none),
    [(48, none), (58, some 18), (65, none), (91, some 18), (95, none), (96, some 18), (97, none), (123, some 18), (1114112, none)]⟩

def table : Tree Row :=
  (.node
   (.node
    (.node
     (.node
      (.node
       (.node (.node (.node .leaf 0 row0 .leaf) 1 row1 (.node .leaf 2 row2 .leaf)) 3 row3 (.node (.node .leaf 4 row4 .leaf) 5 row5 (.node .leaf 6 row6 .leaf))) 7 row7
       (.node (.node (.node .leaf 8 row8 .leaf) 9 row9 (.node .leaf 10 row10 .leaf)) 11 row11 (.node (.node .leaf 12 row12 .leaf) 13 row13 .leaf))) 14 row14
      (.node
       (.node (.node (.node .leaf 15 row15 .leaf) 16 row16 (.node .leaf 17 row17 .leaf)) 18 row18 (.node (.node .leaf 19 row19 .leaf) 20 row20 (.node .leaf 21 row21 .leaf))) 22 row22
       (.node (.node (.node .leaf 23 row23 .leaf) 24 row24 (.node .leaf 25 row25 .leaf)) 26 row26 (.node (.node .leaf 27 row27 .leaf) 28 row28 .leaf)))) 29 row29
     (.node
      (.node
       (.node (.node (.node .leaf 30 row30 .leaf) 31 row31 (.node .leaf 32 row32 .leaf)) 33 row33 (.node (.node .leaf 34 row34 .leaf) 35 row35 (.node .leaf 36 row36 .leaf))) 37 row37
       (.node (.node (.node .leaf 38 row38 .leaf) 39 row39 (.node .leaf 40 row40 .leaf)) 41 row41 (.node (.node .leaf 42 row42 .leaf) 43 row43 .leaf))) 44 row44
      (.node
       (.node (.node (.node .leaf 45 row45 .leaf) 46 row46 (.node .leaf 47 row47 .leaf)) 48 row48 (.node (.node .leaf 49 row49 .leaf) 50 row50 .leaf)) 51 row51
       (.node (.node (.node .leaf 52 row52 .leaf) 53 row53 (.node .leaf 54 row54 .leaf)) 55 row55 (.node (.node .leaf 56 row56 .leaf) 57 row57 .leaf))))) 58 row58
    (.node
     (.node
      (.node
       (.node (.node (.node .leaf 59 row59 .leaf) 60 row60 (.node .leaf 61 row61 .leaf)) 62 row62 (.node (.node .leaf 63 row63 .leaf) 64 row64 (.node .leaf 65 row65 .leaf))) 66 row66
       (.node (.node (.node .leaf 67 row67 .leaf) 68 row68 (.node .leaf 69 row69 .leaf)) 70 row70 (.node (.node .leaf 71 row71 .leaf) 72 row72 .leaf))) 73 row73
      (.node
       (.node (.node (.node .leaf 74 row74 .leaf) 75 row75 (.node .leaf 76 row76 .leaf)) 77 row77 (.node (.node .leaf 78 row78 .leaf) 79 row79 .leaf)) 80 row80
       (.node (.node (.node .leaf 81 row81 .leaf) 82 row82 (.node .leaf 83 row83 .leaf)) 84 row84 (.node (.node .leaf 85 row85 .leaf) 86 row86 .leaf)))) 87 row87
     (.node
      (.node
       (.node (.node (.node .leaf 88 row88 .leaf) 89 row89 (.node .leaf 90 row90 .leaf)) 91 row91 (.node (.node .leaf 92 row92 .leaf) 93 row93 (.node .leaf 94 row94 .leaf))) 95 row95
       (.node (.node (.node .leaf 96 row96 .leaf) 97 row97 (.node .leaf 98 row98 .leaf)) 99 row99 (.node (.node .leaf 100 row100 .leaf) 101 row101 .leaf))) 102 row102
      (.node
       (.node (.node (.node .leaf 103 row103 .leaf) 104 row104 (.node .leaf 105 row105 .leaf)) 106 row106 (.node (.node .leaf 107 row107 .leaf) 108 row108 .leaf)) 109 row109
       (.node (.node (.node .leaf 110 row110 .leaf) 111 row111 (.node .leaf 112 row112 .leaf)) 113 row113 (.node (.node .leaf 114 row114 .leaf) 115 row115 .leaf)))))) 116 row116
   (.node
    (.node
     (.node
      (.node
       (.node (.node (.node .leaf 117 row117 .leaf) 118 row118 (.node .leaf 119 row119 .leaf)) 120 row120 (.node (.node .leaf 121 row121 .leaf) 122 row122 (.node .leaf 123 row123 .leaf))) 124 row124
       (.node (.node (.node .leaf 125 row125 .leaf) 126 row126 (.node .leaf 127 row127 .leaf)) 128 row128 (.node (.node .leaf 129 row129 .leaf) 130 row130 .leaf))) 131 row131
      (.node
       (.node (.node (.node .leaf 132 row132 .leaf) 133 row133 (.node .leaf 134 row134 .leaf)) 135 row135 (.node (.node .leaf 136 row136 .leaf) 137 row137 .leaf)) 138 row138
       (.node (.node (.node .leaf 139 row139 .leaf) 140 row140 (.node .leaf 141 row141 .leaf)) 142 row142 (.node (.node .leaf 143 row143 .leaf) 144 row144 .leaf)))) 145 row145
     (.node
      (.node
       (.node (.node (.node .leaf 146 row146 .leaf) 147 row147 (.node .leaf 148 row148 .leaf)) 149 row149 (.node (.node .leaf 150 row150 .leaf) 151 row151 (.node .leaf 152 row152 .leaf))) 153 row153
       (.node (.node (.node .leaf 154 row154 .leaf) 155 row155 (.node .leaf 156 row156 .leaf)) 157 row157 (.node (.node .leaf 158 row158 .leaf) 159 row159 .leaf))) 160 row160
      (.node
       (.node (.node (.node .leaf 161 row161 .leaf) 162 row162 (.node .leaf 163 row163 .leaf)) 164 row164 (.node (.node .leaf 165 row165 .leaf) 166 row166 .leaf)) 167 row167
       (.node (.node (.node .leaf 168 row168 .leaf) 169 row169 (.node .leaf 170 row170 .leaf)) 171 row171 (.node (.node .leaf 172 row172 .leaf) 173 row173 .leaf))))) 174 row174
    (.node
     (.node
      (.node
       (.node (.node (.node .leaf 175 row175 .leaf) 176 row176 (.node .leaf 177 row177 .leaf)) 178 row178 (.node (.node .leaf 179 row179 .leaf) 180 row180 (.node .leaf 181 row181 .leaf))) 182 row182
       (.node (.node (.node .leaf 183 row183 .leaf) 184 row184 (.node .leaf 185 row185 .leaf)) 186 row186 (.node (.node .leaf 187 row187 .leaf) 188 row188 .leaf))) 189 row189
      (.node
       (.node (.node (.node .leaf 190 row190 .leaf) 191 row191 (.node .leaf 192 row192 .leaf)) 193 row193 (.node (.node .leaf 194 row194 .leaf) 195 row195 .leaf)) 196 row196
       (.node (.node (.node .leaf 197 row197 .leaf) 198 row198 (.node .leaf 199 row199 .leaf)) 200 row200 (.node (.node .leaf 201 row201 .leaf) 202 row202 .leaf)))) 203 row203
     (.node
      (.node
       (.node (.node (.node .leaf 204 row204 .leaf) 205 row205 (.node .leaf 206 row206 .leaf)) 207 row207 (.node (.node .leaf 208 row208 .leaf) 209 row209 (.node .leaf 210 row210 .leaf))) 211 row211
       (.node (.node (.node .leaf 212 row212 .leaf) 213 row213 (.node .leaf 214 row214 .leaf)) 215 row215 (.node (.node .leaf 216 row216 .leaf) 217 row217 .leaf))) 218 row218
      (.node
       (.node (.node (.node .leaf 219 row219 .leaf) 220 row220 (.node .leaf 221 row221 .leaf)) 222 row222 (.node (.node .leaf 223 row223 .leaf) 224 row224 .leaf)) 225 row225
       (.node (.node (.node .leaf 226 row226 .leaf) 227 row227 (.node .leaf 228 row228 .leaf)) 229 row229 (.node (.node .leaf 230 row230 .leaf) 231 row231 .leaf)))))))

end Verif.Lemmas.Gen.Antlr
