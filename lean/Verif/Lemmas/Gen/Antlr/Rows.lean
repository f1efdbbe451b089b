import Verif.Lemmas.Gen.Antlr.AtnTree
import Verif.Lemmas.Gen.Antlr.Table
/-!
# Checks of the table of the lexer against the simulator
-/
namespace Verif.Lemmas.Gen.Antlr
open Verif.Model.Gen.Antlr

set_option maxRecDepth 100000

theorem startSet_eq : lexerNet.startSet = some row0.cfgs := by decide +kernel

def rows0 : List Row := [row0, row1, row2, row3, row4, row5, row6, row7, row8, row9, row10, row11, row12, row13, row14, row15, row16, row17, row18, row19]

theorem rows0_ok : rows0.all (rowOk lexerNet table) = true := by decide +kernel

def rows1 : List Row := [row20, row21, row22, row23, row24, row25, row26, row27, row28, row29, row30, row31, row32, row33, row34, row35, row36, row37, row38, row39]

theorem rows1_ok : rows1.all (rowOk lexerNet table) = true := by decide +kernel

def rows2 : List Row := [row40, row41, row42, row43, row44, row45, row46, row47, row48, row49, row50, row51, row52, row53, row54, row55, row56, row57, row58, row59]

theorem rows2_ok : rows2.all (rowOk lexerNet table) = true := by decide +kernel

def rows3 : List Row := [row60, row61, row62, row63, row64, row65, row66, row67, row68, row69, row70, row71, row72, row73, row74, row75, row76, row77, row78, row79]

theorem rows3_ok : rows3.all (rowOk lexerNet table) = true := by decide +kernel

def rows4 : List Row := [row80, row81, row82, row83, row84, row85, row86, row87, row88, row89, row90, row91, row92, row93, row94, row95, row96, row97, row98, row99]

theorem rows4_ok : rows4.all (rowOk lexerNet table) = true := by decide +kernel

def rows5 : List Row := [row100, row101, row102, row103, row104, row105, row106, row107, row108, row109, row110, row111, row112, row113, row114, row115, row116, row117,
  row118, row119]

theorem rows5_ok : rows5.all (rowOk lexerNet table) = true := by decide +kernel

def rows6 : List Row := [row120, row121, row122, row123, row124, row125, row126, row127, row128, row129, row130, row131, row132, row133, row134, row135, row136, row137,
  row138, row139]

theorem rows6_ok : rows6.all (rowOk lexerNet table) = true := by decide +kernel

def rows7 : List Row := [row140, row141, row142, row143, row144, row145, row146, row147, row148, row149, row150, row151, row152, row153, row154, row155, row156, row157,
  row158, row159]

theorem rows7_ok : rows7.all (rowOk lexerNet table) = true := by decide +kernel

def rows8 : List Row := [row160, row161, row162, row163, row164, row165, row166, row167, row168, row169, row170, row171, row172, row173, row174, row175, row176, row177,
  row178, row179]

theorem rows8_ok : rows8.all (rowOk lexerNet table) = true := by decide +kernel

def rows9 : List Row := [row180, row181, row182, row183, row184, row185, row186, row187, row188, row189, row190, row191, row192, row193, row194, row195, row196, row197,
  row198, row199]

theorem rows9_ok : rows9.all (rowOk lexerNet table) = true := by decide +kernel

def rows10 : List Row := [row200, row201, row202, row203, row204, row205, row206, row207, row208, row209, row210, row211, row212, row213, row214, row215, row216, row217,
  row218, row219]

theorem rows10_ok : rows10.all (rowOk lexerNet table) = true := by decide +kernel

def rows11 : List Row := [row220, row221, row222, row223, row224, row225, row226, row227, row228, row229, row230, row231]

theorem rows11_ok : rows11.all (rowOk lexerNet table) = true := by decide +kernel

theorem table_toList : table.toList = rows0 ++ rows1 ++ rows2 ++ rows3 ++ rows4 ++ rows5 ++ rows6 ++ rows7 ++ rows8 ++ rows9 ++ rows10 ++ rows11 := rfl

theorem table_upTo : table.upTo 0 = some 232 := by decide +kernel

theorem table_all : table.toList.all (rowOk lexerNet table) = true := by
  rw [table_toList]
  simp only [List.all_append, rows0_ok, rows1_ok, rows2_ok, rows3_ok, rows4_ok, rows5_ok, rows6_ok, rows7_ok, rows8_ok, rows9_ok, rows10_ok, rows11_ok, Bool.and_self]

/-- The hash values of the states. -/
def tableHashes : List Nat :=
  [1293676186, 3874943448, 960352024, 2570734776, 798979866, 4141263735, 3473872547, 3831404749, 529288095, 2473994308, 182704593, 4235098672,
    2264473608, 3895794307, 3062037848, 3084849584, 2598494985, 962605197, 2558233927, 534248945, 2326736444, 3075154256, 3093673568, 275306826,
    2603629743, 69881401, 3050406038, 2421171920, 3864003162, 4036756061, 446684942, 4287679387, 2720076140, 2607361847, 1967745480, 3269392531,
    417642723, 2287448671, 3816037721, 240639692, 827498712, 4012248167, 4123672216, 2069887937, 4199528292, 1560896410, 3255223913, 2184063296,
    4010152191, 2687844759, 717520350, 547983475, 1691448111, 2630710138, 391598398, 2700660679, 584669974, 3377281092, 593178480, 1141403804, 2651565280,
    672743709, 1986920562, 1414640269, 2908717964, 901199386, 3319523974, 1031813598, 2494774523, 1804613254, 2080577849, 4178472204, 2426475911,
    815644578, 164974191, 373899647, 636385845, 10812792, 3093206188, 1161697497, 3306350304, 533578401, 3863536949, 456171087, 3796946917, 1936594764,
    1415577831, 2748080378, 778733329, 813265962, 2622853003, 337915, 3638104736, 2410215214, 3922124959, 2852947899, 510286736, 2414007299, 1668255592,
    500407615, 2080224081, 3525438422, 1376193702, 685862912, 212566208, 473866036, 467629602, 3648651861, 4191127695, 639277462, 3291759710, 1123968251,
    3239826440, 4165223225, 1649925011, 790533389, 2415061754, 2553401147, 3993456402, 659669001, 920913296, 3774018564, 2397988568, 3998948072,
    923094138, 4153702891, 3635831438, 1064295113, 3928562557, 466963632, 1339213535, 2542246680, 4132679727, 3815843938, 763724006, 3573350856,
    2458428229, 3577444285, 2850553951, 1652049608, 150827619, 771598903, 2972397615, 1171448122, 3583533152, 1580249826, 2921907513, 3675155633,
    1744754431, 43837156, 4218984570, 3849700598, 3188899702, 2663793002, 95561471, 3491647846, 1222392877, 1714112431, 2879539905, 2666332128,
    3799027681, 2938102047, 1419405068, 1806826701, 76760668, 1670939812, 2936911129, 3187244154, 2326344772, 4065158852, 2380726798, 3935827222,
    2793734971, 1851603800, 3942880377, 786310975, 2970341459, 811722674, 2158330753, 2800481880, 2767127733, 801548964, 3635416911, 2602493901,
    1561483317, 2718275806, 449450369, 3616550694, 1276720836, 283083607, 1504172471, 2735919749, 2036324131, 2021567420, 85011230, 1624452515,
    1770846346, 145260840, 489863985, 1576325473, 3728534655, 1473325863, 4236016237, 2612624354, 3540930555, 3224768788, 3509722350, 2480669885,
    2584864656, 1680580954, 3163805668, 23298487, 899295960, 514424721, 896156190, 2078001327, 3926371823, 1866181540, 115365920, 1841970248, 333731027,
    3807681798, 2393578721, 1232448300, 2784387732, 4221288765, 1631866023, 3273644330, 860798215, 3135328610, 2637661157, 4240022652]

theorem table_hashes : table.toList.map (fun r => setHash r.cfgs) = tableHashes := by decide +kernel

theorem tableHashes_nodup : tableHashes.Nodup := by decide +kernel

end Verif.Lemmas.Gen.Antlr
