import Verif.Model.Parser
/-!
# The grammar and the states of the parser

This file is made by tools/parser_gen.py from src/compiler/asn_compiler.yacc and src/compiler/autogen_copy/asn_compiler.hpp.

`rhsOf r`: the right-hand side of rule `r` of asn_compiler.yacc, in bison's numbering of the symbols.  `kernelOf s`: the rules the parser may be in
the middle of in state `s`, with the position reached; 16 bits each, the rule (12 bits) and the position (4).  `startsOf s`: the rules that may start there.  `rankOf s`: how many reductions the parser may
make from state `s` without taking a symbol that is never empty off its stack.
-/
namespace FastBer.Parser

def rhs0 : List (List Nat) := [
   [], [154, 0], [155], [155, 154], [228, 51, 236, 237, 238, 121, 36, 239, 227, 56], [124, 181, 125], [158], [376], [159], [375, 138, 376],
   [111], [30], [372, 121, 161], [157], [162], [43, 124, 163, 125, 180], [164], [163, 137, 164], [167], [171], [173], [174], [176], [178]]

def rhs1 : List (List Nat) := [
   [24], [25], [165], [166, 138, 165], [168, 169], [24], [168, 24], [89], [50, 263], [], [89], [113], [], [25, 263, 170, 172], [89],
   [50, 349], [], [25, 165, 170, 172], [24, 263, 170, 175], [89], [50, 270], [], [24, 157, 177], [89]]

def rhs2 : List (List Nat) := [
   [50, 189], [], [28, 157, 179], [89], [50], [], [120, 104, 156], [], [182], [181, 182], [184], [183], [128, 181, 129], [185, 165], [186],
   [185, 186], [], [377], [137], [188], [22], [375, 138, 22], [187], [190]]

def rhs3 : List (List Nat) := [
   [191], [193], [124, 192, 137, 148, 125], [165, 196], [124, 194, 125], [195], [194, 195], [186], [196], [263], [267], [198], [372],
   [375, 138, 372], [372, 197, 121, 200], [124, 201, 125], [337], [337, 137, 122], [122], [122, 137, 337], [337, 137, 122, 137, 337],
   [159, 138, 166], [372, 138, 166], [204]]

def rhs4 : List (List Nat) := [
   [205], [206], [207], [372, 208, 121, 263], [374, 208, 263, 121, 267], [372, 208, 263, 121, 267], [372, 208, 121, 161], [124, 209, 125],
   [210], [209, 137, 210], [211, 141, 249], [249], [212], [249], [263], [157], [187], [213, 138, 166], [74, 87, 157], [258], [372], [259],
   [374], [219]]

def rhs5 : List (List Nat) := [
   [221], [226], [46, 40, 124, 220, 125], [212, 141, 267], [212, 141, 189], [197], [263], [157], [122], [], [200], [200, 124, 222, 125],
   [223], [222, 137, 223], [144, 225], [144, 138, 224, 225], [138, 224], [], [373], [225, 138, 373], [47, 263], [54, 40, 267],
   [47, 263, 54, 40, 267], []]

def rhs6 : List (List Nat) := [
   [375, 229], [230], [231], [], [124, 232, 125], [230, 315], [233], [233, 232], [310], [234], [235], [4], [373, 126, 234, 127], [16, 75],
   [], [59, 106], [70, 106], [35, 106], [], [61, 71], [], [240, 242, 250], [], [60, 241, 142]]

def rhs7 : List (List Nat) := [
   [60, 31, 142], [], [247], [], [72, 243, 142], [], [244], [], [245], [244, 245], [247, 64, 246], [375], [375, 307], [248],
   [247, 137, 248], [249], [372], [372, 124, 125], [374], [251], [251, 250], [260], [261], [160]]

def rhs8 : List (List Nat) := [
   [262], [199], [203], [258], [372], [254], [374], [255], [216, 124, 256, 125], [217, 124, 256, 125], [257], [257, 137, 256], [263], [266],
   [157], [372, 138, 372], [375, 138, 374], [372, 121, 263], [374, 263, 121, 267], [372, 263, 121, 270], [264], [331], [252], [299]]

def rhs9 : List (List Nat) := [
   [214], [32], [283], [272], [328], [295], [324], [326], [327], [320], [278], [321], [65], [215], [274], [314], [287], [202], [85], [306],
   [286], [282], [319], [313]]

def rhs10 : List (List Nat) := [
   [288], [292], [293], [294], [300], [322], [325], [116], [373, 263], [273], [315], [34], [323], [7], [9], [11], [47, 267], [253],
   [150, 126, 4, 127], [141], [277], [6], [202], [267, 141, 267]]

def rhs11 : List (List Nat) := [
   [374, 138, 24], [374, 138, 25], [24], [25], [124, 271, 125], [269], [89], [268], [40], [120], [266], [149], [76], [267, 137, 267],
   [268, 137, 267], [267, 145, 267], [269, 145, 267], [124, 336, 125], [267], [271, 267], [39], [110], [63], [76]]

def rhs12 : List (List Nat) := [
   [76, 124, 275, 125], [276], [275, 137, 276], [373, 126, 277, 127], [373, 126, 253, 127], [4], [5], [57, 124, 279, 125], [280],
   [280, 137, 122, 370], [280, 137, 122, 370, 137, 280], [122, 370], [281], [280, 137, 281], [373], [276], [96], [37, 103],
   [37, 103, 124, 284, 125], [285], [284, 137, 285], [373, 126, 4, 127], [373, 126, 253, 127], [86, 103]]

def rhs13 : List (List Nat) := [
   [34], [99, 124, 125], [99, 124, 289, 125], [290], [290, 137, 122, 370], [290, 137, 122, 370, 137, 290],
   [290, 137, 122, 370, 137, 290, 137, 122], [290, 137, 122, 370, 137, 290, 137, 122, 137, 290], [122, 370, 137, 290],
   [122, 370, 137, 290, 137, 122], [122, 370], [122, 370, 137, 122], [291], [290, 137, 291], [263], [263, 89], [263, 50, 349], [265],
   [265, 89], [265, 50, 349], [45, 87, 263], [99, 87, 263], [99, 87, 265], [100, 124, 125]]

def rhs14 : List (List Nat) := [
   [100, 124, 289, 125], [100, 87, 263], [100, 87, 265], [42, 124, 296, 125], [297], [298], [298, 137, 122], [298, 137, 122, 137, 298],
   [265], [298, 137, 265], [373, 130, 263], [301], [302, 263], [302, 70, 263], [302, 59, 263], [128, 303, 305, 304, 129], [16, 141], [],
   [4], [253], [114], [33], [95], []]

def rhs15 : List (List Nat) := [
   [84, 69], [124, 308, 125], [124, 253, 308, 125], [309], [309, 308], [310], [311], [312], [373], [4], [253], [373, 126, 311, 127], [97],
   [88], [133, 316, 317, 133], [140, 318], [140, 318, 317], [], [17], [18], [98], [53, 91], [62], [108]]

def rhs16 : List (List Nat) := [
   [20], [48], [109], [49], [52], [329], [330], [38], [66], [67], [68], [78], [83], [94], [107], [105], [115], [117], [118], [119],
   [41, 103], [263, 333], [332], [100, 333, 87, 263]]

def rhs17 : List (List Nat) := [
   [100, 357, 87, 263], [99, 333, 87, 263], [99, 357, 87, 263], [100, 333, 87, 265], [100, 357, 87, 265], [99, 333, 87, 265],
   [99, 357, 87, 265], [126, 334, 370, 127], [335], [218], [336], [337], [337, 137, 122], [337, 137, 122, 137, 337], [338], [31, 344],
   [340], [339, 345, 340], [338], [342], [341, 346, 342], [340], [347], [343, 344]]

def rhs18 : List (List Nat) := [
   [347], [58, 347], [145], [112], [146], [77], [348], [126, 336, 127], [349], [350], [352], [359], [357], [358], [360], [368], [369],
   [273], [34], [323], [7], [9], [11], [149]]

def rhs19 : List (List Nat) := [
   [253], [277], [6], [351, 263], [73], [353, 123, 354], [355], [355, 130], [356], [130, 356], [349], [80], [349], [79], [102, 333], [263],
   [64, 333], [120, 44, 361], [120, 45, 362], [333], [], [124, 122, 125], [124, 122, 137, 363, 125], [124, 363, 125]]

def rhs20 : List (List Nat) := [
   [364], [364, 137, 363], [373, 365], [366, 367], [333], [], [93], [29], [89], [], [90, 267], [101, 13], [132, 371], [], [277], [253],
   [263, 141, 267], [149], [150], [150], [149], [149], [149], [29]]

def rhs21 : List (List Nat) := [
   [30], [31], [33], [34], [35], [36], [37], [38], [39], [40], [41], [42], [43], [44], [45], [46], [47], [48], [49], [50], [51], [52], [53],
   [54]]

def rhs22 : List (List Nat) := [
   [55], [56], [57], [58], [59], [60], [61], [62], [63], [64], [69], [70], [71], [72], [73], [74], [75], [76], [77], [79], [80], [81], [82],
   [84]]

def rhs23 : List (List Nat) := [
   [86], [87], [88], [89], [90], [91], [92], [93], [95], [96], [97], [98], [99], [100], [101], [102], [103], [104], [106], [108], [109],
   [110], [111], [112]]

def rhs24 : List (List Nat) := [
   [113], [114], [120]]

/-- The right-hand side of rule `r`. -/
def rhsOf (r : Nat) : List Nat := ([rhs0, rhs1, rhs2, rhs3, rhs4, rhs5, rhs6, rhs7, rhs8, rhs9, rhs10, rhs11, rhs12, rhs13, rhs14, rhs15, rhs16, rhs17, rhs18, rhs19, rhs20,
   rhs21, rhs22, rhs23, rhs24].getD (r / 24) []).getD (r % 24) []

def kernels0 : List Nat := [
   0x0, 0x1f41, 0x11, 0x310021, 0x41, 0x901, 0x12, 0x32, 0x42, 0x941, 0x902, 0x9510911, 0x921, 0x9d1, 0x43, 0x9b1, 0x1f21, 0x942, 0x9710961,
   0x991, 0x9a1, 0x981, 0x170109c1, 0x1761, 0x952, 0x9d2, 0xa11, 0x9f1, 0xa01, 0x44]

def kernels1 : List Nat := [
   0x943, 0x972, 0x9c2, 0x1771, 0x1762, 0xa12, 0x9f2, 0xa02, 0xa31, 0x45, 0x9c3, 0x17a1, 0x17b1, 0x1772, 0x1781, 0x1763, 0xa32, 0x46, 0x9c4,
   0x1782, 0x1764, 0x47, 0x1783, 0xa810a71, 0x48, 0xa51, 0xa82, 0x1f11, 0x1f31, 0xa72]

def kernels2 : List Nat := [
   0xb610aa1, 0xb51, 0xb71, 0xb910b81, 0xba1, 0x49, 0xac1, 0xa52, 0xa83, 0xa73, 0xb62, 0xb92, 0x4a, 0xac2, 0xb110ae1, 0xb01, 0xb610b21,
   0xbf1, 0xc11, 0xc21, 0x5f1, 0x601, 0x611, 0x621, 0xa53, 0xbc10bb1, 0xbd1, 0xbe1, 0xc01, 0xd310d11066106510631056100c1]

def kernels3 : List Nat := [
   0xd210641, 0xb63, 0xb93, 0xac3, 0xb12, 0xb22, 0xbc2, 0x441, 0xb1, 0xd91, 0x1381, 0x13211311, 0x1871, 0x11c1, 0x1941, 0x1531, 0x1811,
   0x1831, 0x1841, 0x17d1, 0x1271, 0x17e1, 0xe41, 0x1881, 0x1891, 0x18a1, 0x721, 0x120111f1, 0x18b1, 0x18c1]

def kernels4 : List Nat := [
   0x1681, 0xea1, 0x1371, 0x1751, 0x18d1, 0x1301, 0x1741, 0x17c1, 0x19e119d119a1199114e114d113a11391, 0x19c119b11981197115211511150114f1,
   0x18f1, 0x18e1, 0x17f1, 0x1821, 0xa1, 0x1901, 0xf71, 0x1911, 0x1921, 0x1931, 0xd1200c2, 0x671, 0x15f1, 0x1f411f11, 0x5d1, 0x701, 0x431,
   0x562, 0x531, 0xe91]

def kernels5 : List Nat := [
   0x66206520632, 0x711, 0xd81, 0xe51, 0xc81, 0xd61, 0xc51, 0xc310731, 0x19510d32, 0xd41, 0xdb1, 0xe61, 0xe21, 0xed1, 0xda1, 0xec1, 0xe81,
   0xf01, 0xf11, 0xf21, 0xf31, 0xdd1, 0xd71, 0xf41, 0x15b1, 0x15e115d115c1, 0xeb1, 0xef1, 0xe71, 0xee1]

def kernels6 : List Nat := [
   0xe11, 0xe31, 0xf51, 0xde1, 0xf61, 0xdf1, 0xe01, 0xdc1, 0x1851, 0x1861, 0xd51, 0x1961, 0xcf10c41074105e10541, 0x15a1, 0x5510451, 0x642,
   0x19510d22, 0xcf10c41074105e1, 0x451, 0xb23, 0xb410b31, 0x13221312, 0x1942, 0x1532, 0x17d2, 0x1272, 0x722, 0x1202, 0x1682, 0x1372]

def kernels7 : List Nat := [
   0x14e214d2, 0x1d61, 0x13a21392, 0x19f1, 0x19d21992, 0x19e219a2, 0x15221512, 0x150214f2, 0x19b21972, 0x19c21982, 0xf1, 0x1f511f411f11,
   0xd1, 0x61, 0x5d10081, 0xc3, 0xe1, 0x19510d13, 0x4510091, 0x71, 0x1f311f21, 0x6f1, 0x6910672, 0x681, 0x6a1, 0x6c1, 0x6d106b1, 0x195106e1,
   0xcf10c410b910b81074105e1, 0x1601]

def kernels8 : List Nat := [
   0x15f2, 0x5d2, 0x563, 0x6630633, 0x19510653, 0x712, 0xc82, 0xd33, 0x1952, 0x15e2, 0x15d2, 0x195115c2, 0xcf205e2, 0x15a2, 0x5520452,
   0x19510643, 0xd23, 0x452, 0x16a11691, 0xb42, 0x1323, 0x1581, 0x1533, 0x1541, 0x1591157115611551, 0xf81, 0x12b1, 0x12f1, 0x1273,
   0x12d112a112911281]

def kernels9 : List Nat := [
   0x12c1, 0x12e112411231, 0x1f511f41, 0x723, 0x81, 0x91, 0x12211203, 0x1211, 0x12411231, 0x195114d3, 0x14e3, 0x15a10f81, 0x1d62, 0x14c1,
   0x1431142114111401, 0x1393, 0x1951148114711461, 0x14b114a11491, 0x13a3, 0x145113f113e113d113c113b1, 0x1441, 0x1251, 0x1261, 0x1ca1,
   0x1c41, 0x1c51, 0x1c61, 0x1801, 0x1a71, 0x1c211381]

def kernels10 : List Nat := [
   0x7a1, 0x8e108c1, 0x8d1, 0x11e1, 0x1d81, 0x1cc1, 0x1d31, 0x1ea1, 0x1eb1, 0x11d1, 0x1da11d91, 0x571, 0x1b71, 0x1f411f111c71, 0x8310821,
   0xc91, 0x1a11, 0x771, 0x781, 0x791, 0x1c81, 0xc71, 0x751, 0x1d711951, 0x1c11, 0x1c91, 0x1c31, 0x19f2, 0x1a01, 0x1a21]

def kernels11 : List Nat := [
   0x1a511a411a31, 0x1aa11a61, 0x1a91, 0x1ad11a81, 0x1ac1, 0x1ab1, 0x1af1, 0x1b011ae1, 0x1b61, 0x1d211b81, 0x1b91, 0x1cb1, 0x1ba1, 0x1cd1,
   0x1cf11ce1, 0x1bc1, 0x1bd1, 0x1bb1, 0x1be1, 0x1bf1, 0x1c01, 0xc610761, 0xd010451, 0x19d31993, 0x19e319a3, 0x19511513, 0x1523, 0x14f3,
   0x1503, 0x19b31973]

def kernels12 : List Nat := [
   0x19c31983, 0xf2, 0x4520092, 0x673, 0x692, 0x6a2, 0x1602, 0x1651, 0x1661, 0x1641, 0x15f3, 0x181, 0x191, 0x1a1, 0x5d301b1, 0x564, 0x664,
   0x19510634, 0x654, 0x71301b1, 0x1051, 0xfd1, 0xfe1, 0xff1, 0x10a1, 0x10b1, 0x13810fb1, 0x1101, 0x1001, 0x120111f11141]

def kernels13 : List Nat := [
   0x10e1, 0x1111, 0x10c1, 0x1031, 0x1f511f411f111131, 0x1f311f211021, 0xce1, 0x10610e91, 0x1011, 0xc83, 0xcb10ca1, 0x19510cc1, 0x11210cd1,
   0x117111511071, 0x116110f1, 0x118110d1, 0xf91, 0x1041, 0xfa1, 0xfc1, 0x109110810c610761, 0xd0104510091, 0x1191, 0xd34, 0x195115e3,
   0x195115d3, 0x5e301b1, 0xcf3, 0x195115a3, 0x453]

def kernels14 : List Nat := [
   0x553, 0x644, 0xfb1, 0x1141, 0x1f411f111131, 0x1f311021, 0x1061, 0x1121, 0x1171115110710d24, 0x5e1, 0xd01, 0x1711, 0x172116a2, 0x1692,
   0x16c116b1, 0x16d1, 0x16e1, 0x16f1, 0x17311701, 0x13411324, 0x1331, 0x13611351, 0x1534, 0x159215721562, 0x19510f82, 0x1ec1, 0x12b2,
   0x1274, 0x12d212a21292, 0x12421232]

def kernels15 : List Nat := [
   0x92, 0x1204, 0x1222, 0x14c2, 0x1432142214121402, 0x1482, 0x1472, 0x14b2, 0x14a2, 0x13a4, 0x145213f213e213d213c2, 0x1b11, 0x1a72, 0x7a2,
   0x195108e208c2, 0x8d2, 0x1d82, 0x1ea2117111511071, 0x1eb2, 0x1d92, 0x1da2, 0x5b105a1, 0x572, 0x5c105910581, 0x1b72, 0x832, 0xc92, 0x19f3,
   0x1a521a42, 0x1b31]

def kernels16 : List Nat := [
   0x1b21, 0x1a92, 0x1b51, 0x1b41, 0x1ac2, 0x1af2, 0x1cb21951, 0x1cd2, 0x1cf2, 0xd020452, 0x19941951, 0x19d4, 0x19a41951, 0x19e4, 0x1504,
   0x19741951, 0x19b4, 0x19841951, 0x19c4, 0x2e102a101d1, 0x2910251, 0x321, 0x11100f3, 0x101, 0x121, 0x1e101c1, 0x131, 0x141, 0x151, 0x161]

def kernels17 : List Nat := [
   0x171, 0x1f51, 0x93, 0x693, 0x6a3, 0x1621, 0x1631, 0x15f4, 0x1b2, 0x1171115110710655, 0x1171115110711002, 0x11a1117111511071, 0x11b110c2,
   0x1022, 0xc84, 0xcb2, 0x1152, 0x1072, 0x1172, 0x1162, 0x1182, 0x10921082, 0xd0204520092, 0x1192, 0x1171115110710645, 0x5e2, 0xd02,
   0x1721, 0x16a3, 0x1693]

def kernels18 : List Nat := [
   0x16c2, 0x1732, 0x1325, 0x1342, 0x13621352, 0x15731563, 0x1593, 0x1ef1, 0x1f011951, 0x1ee1, 0x1ec2, 0x12a31293, 0x12d3, 0x1243, 0x1233,
   0x1223, 0x195114c3, 0x143314131403, 0x1c21, 0x1f411c71, 0x1483, 0x14b3, 0x13f313e313d313c3, 0x1453, 0x1b12, 0x7a3, 0x8e3,
   0x11711151107108d3, 0x1db1, 0x1d93]

def kernels19 : List Nat := [
   0x1df11de11dd1, 0x1da3, 0x5b2, 0x573, 0x5c20592, 0x1b73, 0x8710861, 0x8510833, 0x841, 0xc93, 0x19f4, 0x1a531a43, 0x1ad11a93, 0x1ac3,
   0x1d51, 0x1d11, 0x1d41, 0x1cd3, 0x1d01, 0xd03, 0x2e2, 0x195102a2, 0x292, 0x19510252, 0x322, 0xf4, 0x112, 0x1e2, 0x201, 0x1f1]

def kernels20 : List Nat := [
   0x1c2, 0x15f5, 0x1b3, 0x10c3, 0x11b2117111511071, 0x1023, 0xcb3, 0x1171115311511071, 0x1171115110731071, 0x1173117111511071,
   0x1171116311511071, 0x1183117111511071, 0x1083, 0x1093, 0x1193, 0x16a4, 0x1733, 0x1343, 0x1353, 0x1363, 0x1574, 0x1f02, 0x12a41294,
   0x1244, 0x1234, 0x1434, 0x145114141404, 0x13f413e413d413c4, 0x801, 0x7f106f1]

def kernels21 : List Nat := [
   0x7d1, 0x7c107b1, 0x7a4, 0x195107e106e1, 0x55104510091, 0x8e4, 0x1de21dd2, 0x1df2, 0x1e111e01, 0x1e21, 0x5b3, 0x5c30593, 0x872,
   0x8b10862, 0x8a1, 0x834, 0x852, 0xc94, 0x1a54, 0x1d12, 0x301, 0x2f1, 0x2e3, 0x221, 0x231, 0x2a3, 0x293, 0x253, 0x341, 0x331]

def kernels22 : List Nat := [
   0x323, 0x361, 0xf5, 0x113, 0x19510202, 0x1024, 0x1734, 0x1354, 0x1364, 0x15911575, 0x1f03117111511071, 0x12a5, 0x14521415,
   0x13f513e513d5, 0x7c207b2, 0x7a5, 0x55204520092, 0x11711151107108e5, 0x1dd3, 0x1de3, 0x1df3, 0x1e12, 0x1e41, 0x1e22, 0x1e31, 0x5c4,
   0x881, 0x873, 0x8b2, 0x853]

def kernels23 : List Nat := [
   0x1a55, 0x4c104a1, 0x461, 0x302, 0x471, 0x481, 0x491, 0x2c1, 0x2b1, 0x2a4, 0x271, 0x261, 0x294, 0x254, 0x362, 0x1592, 0x12d112a6, 0x1416,
   0x145113f613e613d6, 0x10c104c104a1, 0x7c3, 0x11711151107107b3, 0x1f511f11, 0x1de4, 0x1e13, 0x1e71, 0x1e81, 0x1e61, 0x1e32, 0x5c5]

def kernels24 : List Nat := [
   0x882, 0x8b10874, 0x8b3, 0x10a10181, 0x10b10191, 0x1f71, 0x1f8100b1, 0x1f91, 0x1fa1, 0x1fb113810fb1, 0x1fc1, 0x1fd1, 0x1fe113211311,
   0x1ff11871, 0x200111c1, 0x20111101, 0x20211941, 0x20311531, 0x2041, 0x2051, 0x2061, 0x2071, 0x20811001, 0x20911811, 0x20a11831, 0x20b1,
   0x20c1, 0x20d11841, 0x20e117d1, 0x20f1]

def kernels25 : List Nat := [
   0x2101, 0x2111, 0x21211271, 0x2131, 0x2141, 0x2151, 0x2161, 0x217117e1, 0x218111e1, 0x2191, 0x21a1, 0x21b1, 0x21c1, 0x21d1, 0x21e1,
   0x21f10721, 0x2201, 0x2211120111f11141, 0x2221, 0x2231, 0x2241, 0x2251, 0x2261, 0x22711681, 0x22811371, 0x2291, 0x22a11751, 0x22b110e1,
   0x22c1, 0x22d1]

def kernels26 : List Nat := [
   0x22e1, 0x22f1, 0x2301, 0x23111301, 0x23211741, 0x233117c1, 0x234119e119d119a1199114e114d113a11391,
   0x235119c119b11981197115211511150114f1, 0x2361, 0x2371, 0x2381, 0x2391, 0x23a1, 0x23b117f1, 0x23c11821, 0x23d111d1, 0x23e100a1, 0x23f1,
   0x2401, 0x2411, 0x24211111, 0x421, 0x1f611f411f111131, 0x4b1, 0x4f1, 0x4a2, 0x4e104c2, 0x4d1, 0x501, 0x19510511]

def kernels27 : List Nat := [
   0x1171115110710521, 0x411, 0x2c2, 0x272, 0x51, 0x363, 0x12d2, 0x145213f713e7, 0x11a11171115110710521, 0x1de5, 0x4b2, 0x4a3, 0x4c3, 0x4e2,
   0x1f81, 0x1fb1, 0x1fe1, 0x1ff1, 0x2001, 0x2011, 0x2021, 0x2031, 0x2081, 0x2091, 0x20a1, 0x20d1, 0x20e1, 0x2121, 0x2171, 0x2181]

def kernels28 : List Nat := [
   0x21f1, 0x2211, 0x2271, 0x2281, 0x22a1, 0x22b1, 0x2311, 0x2321, 0x2331, 0x2341, 0x2351, 0x23b1, 0x23c1, 0x23d1, 0x23e1, 0x2421, 0x3c1,
   0x1f61, 0x3910052, 0x381, 0x3b1, 0x3a1, 0x3f103d1, 0x3e1, 0x13f813e8, 0x4a4, 0x3c20391, 0x53, 0x392, 0x3d2]

def kernels29 : List Nat := [
   0x3f2, 0x13f9, 0x4a5, 0x3c3, 0x145113fa, 0x1452]

def starts0 : List Nat := [
   0x1f4009000040003000200010, 0x0, 0x0, 0x1f400900004000300020, 0x0, 0x9500940093009200910, 0x0, 0x0, 0x9e009d0,
   0x1f20170009c009b009a00990098009700960, 0x0, 0x1760, 0x0, 0x0, 0xa200a100a0009f0, 0x0, 0x0, 0x0, 0x1f20170009c009b009a00990098009700960,
   0x0, 0x0, 0x0, 0x0, 0x1770, 0x0, 0x0, 0x0, 0x0, 0x0, 0xa400a30]

def starts1 : List Nat := [
   0x0, 0x0, 0x9b0, 0x17b017a0, 0x17901780, 0x0, 0x0, 0x0, 0x0, 0x0, 0x0, 0x0, 0x0, 0x0, 0x17b017a0, 0x0, 0x0, 0x0, 0x0, 0x17901780, 0x0,
   0xa900a800a700a600a50, 0x0, 0x1f301f100ba00b900b800b700b600b500ab00aa0, 0x8f0, 0xad00ac0, 0x0, 0x0, 0x0, 0x0]

def starts2 : List Nat := [
   0x0, 0x0, 0x0, 0x0, 0x0, 0x0, 0x1f301f100ba00b900b800b700b600b500b200b100b000af00ae0,
   0x1f301f100d300d200d100c200c100c000bf00be00bd00bc00bb0066006500640063006200610060005f0056000c0, 0x0, 0x0, 0x1f301f100ba00b900b800b70,
   0x0, 0x0, 0x0, 0x1f301f100ba00b900b800b700b600b500b20, 0x0, 0x0, 0x0, 0x0, 0x0, 0x0, 0x0, 0x0, 0x0, 0x0,
   0x1f301f100d300d200d100c200c100c000bf00be00bd00bc00bb0066006500640063006200610060005f0056000c0, 0x0, 0x0, 0x0,
   0x1f401f201f1019e019d019c019b019a0199019801970196019501940193019201910190018f018e018d018c018b018a018901880187018601850184018301820181017f017e017d017c017501740168015f015e015d015c015b015a0153015201510150014f014e014d013a01390138013701320131013001270120011f011c00f700f600f500f400f300f200f100f000ef00ee00ed00ec00eb00ea00e900e800e700e600e500e400e300e200e100e000df00de00dd00dc00db00da00d900d800d700d600d500d400cf00c800c500c400c3007400730072007100700067005e005d005500540053004500440043000b000a0]

def starts3 : List Nat := [
   0x1f401f201f1019e019d019c019b019a0199019801970196019501940193019201910190018f018e018d018c018b018a018901880187018601850184018301820181017f017e017d017c017501740168015f015e015d015c015b015a0153015201510150014f014e014d013a01390138013701320131013001270120011f011c00f700f600f500f400f300f200f100f000ef00ee00ed00ec00eb00ea00e900e800e700e600e500e400e300e200e100e000df00de00dd00dc00db00da00d900d800d700d600d500d400cf00c800c500c400c3007400730072007100700067005e005d004500440043000b000a0,
   0x0, 0x0, 0x0, 0x0, 0x1f400b400b30, 0x0, 0x0, 0x0, 0x0, 0x0, 0x0, 0x0, 0x0, 0x0, 0x0, 0x0, 0x0, 0x0, 0x0, 0x0, 0x0, 0x0, 0x0, 0x0, 0x0,
   0x0, 0x0, 0x0, 0x0]

def starts4 : List Nat := [
   0x0, 0x0, 0x0, 0x0, 0x0, 0x0, 0x0, 0x0, 0x1d6019f0, 0x1d6019f0, 0x0, 0x0, 0x0, 0x0, 0x0, 0x0, 0x0, 0x0, 0x0, 0x0,
   0x1f501f401f201f1019e019d019c019b019a0199019801970196019501940193019201910190018f018e018d018c018b018a018901880187018601850184018301820181017f017e017d017c017501740168015f015e015d015c015b015a0153015201510150014f014e014d013a01390138013701320131013001270120011f011c00f700f600f500f400f300f200f100f000ef00ee00ed00ec00eb00ea00e900e800e700e600e500e400e300e200e100e000df00de00dd00dc00db00da00d900d800d700d600d500d400cf00c800c500c400c300740073007200710070005e005d004500440043000f000e000d000b000a00090008000700060,
   0x1f501f401f301f201f1019e019d019c019b019a0199019801970196019501940193019201910190018f018e018d018c018b018a018901880187018601850184018301820181017f017e017d017c017501740168015f015e015d015c015b015a0153015201510150014f014e014d013a01390138013701320131013001270120011f011c00f700f600f500f400f300f200f100f000ef00ee00ed00ec00eb00ea00e900e800e700e600e500e400e300e200e100e000df00de00dd00dc00db00da00d900d800d700d600d500d400cf00c800c500c400c300ba00b900b800740073007200710070006f006e006d006c006b006a00690068005e005d004500440043000b000a00090008000700060,
   0x16101600, 0x0, 0x0, 0x0, 0x0, 0x0, 0x0, 0x0]

def starts5 : List Nat := [
   0x1f401f201f1019e019d019c019b019a0199019801970196019501940193019201910190018f018e018d018c018b018a018901880187018601850184018301820181017f017e017d017c017501740168015f015e015d015c015b015a0153015201510150014f014e014d013a01390138013701320131013001270120011f011c00f700f600f500f400f300f200f100f000ef00ee00ed00ec00eb00ea00e900e800e700e600e500e400e300e200e100e000df00de00dd00dc00db00da00d900d800d700d600d500d400cf00c800c500c400c300740073007200710070005e005d004500440043000b000a0,
   0x0, 0x0, 0x0, 0x0, 0x0, 0x0, 0x0, 0x19f0, 0x0, 0x0, 0x0, 0x0, 0x0, 0x0, 0x0, 0x0, 0x0, 0x0, 0x0, 0x0, 0x0, 0x0, 0x0, 0x0,
   0x1f401f201f1019e019d019c019b019a0199019801970196019501940193019201910190018f018e018d018c018b018a018901880187018601850184018301820181017f017e017d017c017501740168015f015e015d015c015b015a0153015201510150014f014e014d013a01390138013701320131013001270120011f011c00f700f600f500f400f300f200f100f000ef00ee00ed00ec00eb00ea00e900e800e700e600e500e400e300e200e100e000df00de00dd00dc00db00da00d900d800d700d600d500d400cf00c800c500c400c300740073007200710070005e005d004500440043000b000a0,
   0x0, 0x0, 0x0, 0x0]

def starts6 : List Nat := [
   0x0, 0x0, 0x0, 0x0, 0x0, 0x0, 0x0, 0x0, 0x0, 0x0, 0x0, 0x0, 0x0, 0x0, 0x0,
   0x1f401f201f1019e019d019c019b019a0199019801970196019501940193019201910190018f018e018d018c018b018a018901880187018601850184018301820181017f017e017d017c017501740168015f015e015d015c015b015a0153015201510150014f014e014d013a01390138013701320131013001270120011f011c00f700f600f500f400f300f200f100f000ef00ee00ed00ec00eb00ea00e900e800e700e600e500e400e300e200e100e000df00de00dd00dc00db00da00d900d800d700d600d500d400cf00c800c500c400c300740073007200710070005e005d004500440043000b000a0,
   0x19f0, 0x0, 0x0, 0x0, 0x16a01690, 0x0, 0x0, 0x1f201590158015701560155015400f80, 0x0, 0x1f2012f012e012d012c012b012a01290128012401230,
   0x1f501f4000b000a00090008000700060, 0x1f201240123012201210, 0x0, 0x0]

def starts7 : List Nat := [
   0x1f401f201f1019e019d019c019b019a0199019801970196019501940193019201910190018f018e018d018c018b018a018901880187018601850184018301820181017f017e017d017c017501740168015f015e015d015c015b015a0153015201510150014f014e014d013a01390138013701320131013001270120011f011c00f800f700f600f500f400f300f200f100f000ef00ee00ed00ec00eb00ea00e900e800e700e600e500e400e300e200e100e000df00de00dd00dc00db00da00d900d800d700d600d500d400cf00c800c500c400c300740073007200710070005e005d004500440043000b000a0,
   0x19f0,
   0x1f401f201f1019e019d019c019b019a0199019801970196019501940193019201910190018f018e018d018c018b018a018901880187018601850184018301820181017f017e017d017c017501740168015f015e015d015c015b015a0153015201510150014f014e014d014c014b014a0149014801470146014501440143014201410140013f013e013d013c013b013a01390138013701320131013001270120011f011c00f800f700f600f500f400f300f200f100f000ef00ee00ed00ec00eb00ea00e900e800e700e600e500e400e300e200e100e000df00de00dd00dc00db00da00d900d800d700d600d500d400cf00c800c500c400c300740073007200710070005e005d004500440043000b000a0,
   0x1f401f301f201f101eb01ea01da01d901d801d701d601d301d201cf01ce01cd01cc01cb01ca01c901c801c701c601c501c401c301c201c101c001bf01be01bd01bc01bb01ba01b901b801b701b601b001af01ae01ad01ac01ab01aa01a901a801a701a601a501a401a301a201a101a0019e019d019c019b019a0199019801970196019501940193019201910190018f018e018d018c018b018a0189018801870186018501840183018201810180017f017e017d017c017501740168015f015e015d015c015b015a0153015201510150014f014e014d013a0139013801370132013101300127012601250120011f011e011d011c00f700f600f500f400f300f200f100f000ef00ee00ed00ec00eb00ea00e900e800e700e600e500e400e300e200e100e000df00de00dd00dc00db00da00d900d800d700d600d500d400d000cf00c900c800c700c600c500c400c3008e008d008c00830082007a0079007800770076007500740073007200710070005e005d0057004500440043000b000a0,
   0x0, 0x0,
   0x1f401f201f1019e019d019c019b019a0199019801970196019501940193019201910190018f018e018d018c018b018a018901880187018601850184018301820181017f017e017d017c017501740168015f015e015d015c015b015a0153015201510150014f014e014d013a01390138013701320131013001270120011f011c00f800f700f600f500f400f300f200f100f000ef00ee00ed00ec00eb00ea00e900e800e700e600e500e400e300e200e100e000df00de00dd00dc00db00da00d900d800d700d600d500d400cf00c800c500c400c300740073007200710070005e005d004500440043000b000a0,
   0x1f401f201f1019e019d019c019b019a0199019801970196019501940193019201910190018f018e018d018c018b018a018901880187018601850184018301820181017f017e017d017c017501740168015f015e015d015c015b015a0153015201510150014f014e014d014c014b014a0149014801470146014501440143014201410140013f013e013d013c013b013a01390138013701320131013001270120011f011c00f800f700f600f500f400f300f200f100f000ef00ee00ed00ec00eb00ea00e900e800e700e600e500e400e300e200e100e000df00de00dd00dc00db00da00d900d800d700d600d500d400cf00c800c500c400c300740073007200710070005e005d004500440043000b000a0,
   0x0, 0x0, 0x0, 0x0, 0x0, 0x0, 0x0, 0x0, 0x0, 0x19f0, 0x0, 0x0, 0x0, 0x0, 0x0, 0x0, 0x0, 0x0, 0x0, 0x19f0, 0x0, 0x0]

def starts8 : List Nat := [
   0x1670166016501640, 0x1b001a001900180, 0x570,
   0x1f501f401f201f1019e019d019c019b019a0199019801970196019501940193019201910190018f018e018d018c018b018a018901880187018601850184018301820181017f017e017d017c017501740168015f015e015d015c015b015a0153015201510150014f014e014d013a01390138013701320131013001270120011f011c00f700f600f500f400f300f200f100f000ef00ee00ed00ec00eb00ea00e900e800e700e600e500e400e300e200e100e000df00de00dd00dc00db00da00d900d800d700d600d500d400cf00c800c500c400c300740073007200710070005e005d004500440043000f000e000d000b000a00090008000700060,
   0x19f0, 0x1b001a001900180,
   0x1f501f401f301f201f1019e019d019c019b019a0199019801970196019501940193019201910190018f018e018d018c018b018a0189018801870186018501840183018201810180017f017e017d017c0176017501740168015f015e015d015c015b015a0153015201510150014f014e014d013a0139013801370132013101300127012601250120011f011e011d011c011801170116011501140113011201110110010f010e010d010c010b010a010901080107010601050104010301020101010000ff00fe00fd00fc00fb00fa00f900f700f600f500f400f300f200f100f000ef00ee00ed00ec00eb00ea00e900e800e700e600e500e400e300e200e100e000df00de00dd00dc00db00da00d900d800d700d600d500d400d000cf00ce00cd00cc00cb00ca00c900c800c700c600c500c400c30076007500740073007200710070005e005d004500440043000b000a00090008000700060,
   0x1190, 0x0,
   0x1f401f201f1019e019d019c019b019a0199019801970196019501940193019201910190018f018e018d018c018b018a018901880187018601850184018301820181017f017e017d017c017501740168015f015e015d015c015b015a0153015201510150014f014e014d013a01390138013701320131013001270120011f011c00f700f600f500f400f300f200f100f000ef00ee00ed00ec00eb00ea00e900e800e700e600e500e400e300e200e100e000df00de00dd00dc00db00da00d900d800d700d600d500d400cf00c800c500c400c300740073007200710070005e005d004500440043000b000a0,
   0x1f401f201f1019e019d019c019b019a0199019801970196019501940193019201910190018f018e018d018c018b018a018901880187018601850184018301820181017f017e017d017c017501740168015f015e015d015c015b015a0153015201510150014f014e014d013a01390138013701320131013001270120011f011c00f700f600f500f400f300f200f100f000ef00ee00ed00ec00eb00ea00e900e800e700e600e500e400e300e200e100e000df00de00dd00dc00db00da00d900d800d700d600d500d400cf00c800c500c400c300740073007200710070005e005d004500440043000b000a0,
   0x19f0, 0x1f1001b001a001900180,
   0x1f401f201f1019e019d019c019b019a0199019801970196019501940193019201910190018f018e018d018c018b018a018901880187018601850184018301820181017f017e017d017c017501740168015f015e015d015c015b015a0153015201510150014f014e014d013a01390138013701320131013001270120011f011c00f700f600f500f400f300f200f100f000ef00ee00ed00ec00eb00ea00e900e800e700e600e500e400e300e200e100e000df00de00dd00dc00db00da00d900d800d700d600d500d400cf00c800c500c400c300740073007200710070005e005d004500440043000b000a0,
   0x1f10, 0x19f0,
   0x1f401f301f10180017601260125011e011d011801170116011501140113011201110110010f010e010d010c010b010a010901080107010601050104010301020101010000ff00fe00fd00fc00fb00fa00f900d000c900c700c600760075005e005d000b000a0,
   0x0, 0x1f401f301f20173017201710170016f016e016d016c016b00d000c900c700c6007600750, 0x0, 0x1f201360135013401330, 0x0, 0x0, 0x0, 0x0,
   0x1f401f201f1019e019d019c019b019a0199019801970196019501940193019201910190018f018e018d018c018b018a018901880187018601850184018301820181017f017e017d017c017501740168015f015e015d015c015b015a0153015201510150014f014e014d013a01390138013701320131013001270120011f011c00f700f600f500f400f300f200f100f000ef00ee00ed00ec00eb00ea00e900e800e700e600e500e400e300e200e100e000df00de00dd00dc00db00da00d900d800d700d600d500d400cf00c800c500c400c300740073007200710070005e005d004500440043000b000a0,
   0x1ed01ec0, 0x0, 0x0, 0x0]

def starts9 : List Nat := [
   0x0, 0x0, 0x0, 0x0, 0x0, 0x0, 0x0, 0x0, 0x0, 0x19f0, 0x0,
   0x1f401f201f1019e019d019c019b019a0199019801970196019501940193019201910190018f018e018d018c018b018a018901880187018601850184018301820181017f017e017d017c017501740168015f015e015d015c015b015a0153015201510150014f014e014d013a01390138013701320131013001270120011f011c00f700f600f500f400f300f200f100f000ef00ee00ed00ec00eb00ea00e900e800e700e600e500e400e300e200e100e000df00de00dd00dc00db00da00d900d800d700d600d500d400cf00c800c500c400c300740073007200710070005e005d004500440043000b000a0,
   0x0, 0x0, 0x1ed01ec0, 0x0, 0x19f0, 0x0, 0x0, 0x0, 0x0, 0x0, 0x0, 0x0, 0x0, 0x0, 0x0, 0x0, 0x1b10, 0x0]

def starts10 : List Nat := [
   0x0,
   0x1f401f201f1019e019d019c019b019a0199019801970196019501940193019201910190018f018e018d018c018b018a018901880187018601850184018301820181017f017e017d017c017501740168015f015e015d015c015b015a0153015201510150014f014e014d013a01390138013701320131013001270120011f011c00f700f600f500f400f300f200f100f000ef00ee00ed00ec00eb00ea00e900e800e700e600e500e400e300e200e100e000df00de00dd00dc00db00da00d900d800d700d600d500d400cf00c800c500c400c300740073007200710070005e005d004500440043000b000a0,
   0x0, 0x0, 0x19f0, 0x0, 0x0,
   0x1f401f301f10180017601260125011e011d011801170116011501140113011201110110010f010e010d010c010b010a010901080107010601050104010301020101010000ff00fe00fd00fc00fb00fa00f900d000c900c700c600760075005e005d000b000a0,
   0x0, 0x0, 0x0,
   0x1f401f301f201f101eb01ea01da01d901d801d701d601d301d201cf01ce01cd01cc01cb01ca01c901c801c701c601c501c401c301c201c101c001bf01be01bd01bc01bb01ba01b901b801b701b601b001af01ae01ad01ac01ab01aa01a901a801a701a6019e019d019c019b019a0199019801970196019501940193019201910190018f018e018d018c018b018a0189018801870186018501840183018201810180017f017e017d017c017501740168015f015e015d015c015b015a0153015201510150014f014e014d013a0139013801370132013101300127012601250120011f011e011d011c00f700f600f500f400f300f200f100f000ef00ee00ed00ec00eb00ea00e900e800e700e600e500e400e300e200e100e000df00de00dd00dc00db00da00d900d800d700d600d500d400d000cf00c900c800c700c600c500c400c30076007500740073007200710070005e005d005c005b005a00590058004500440043000b000a0,
   0x1f401f301f201f101eb01ea01da01d901d801d701d601d301d201cf01ce01cd01cc01cb01ca01c901c801c701c601c501c401c301c201c101c001bf01be01bd01bc01bb01ba01b901b801b701b601b001af01ae01ad01ac01ab01aa01a901a801a701a601a501a401a3019e019d019c019b019a0199019801970196019501940193019201910190018f018e018d018c018b018a0189018801870186018501840183018201810180017f017e017d017c017501740168015f015e015d015c015b015a0153015201510150014f014e014d013a0139013801370132013101300127012601250120011f011e011d011c00f700f600f500f400f300f200f100f000ef00ee00ed00ec00eb00ea00e900e800e700e600e500e400e300e200e100e000df00de00dd00dc00db00da00d900d800d700d600d500d400d000cf00c900c800c700c600c500c400c30076007500740073007200710070005e005d004500440043000b000a0,
   0x0, 0x0, 0x0, 0x0, 0x0, 0x0, 0x0, 0x0, 0x0, 0x0, 0x19f0, 0x0, 0x0, 0x0, 0x1ed01ec0, 0x0, 0x0]

def starts11 : List Nat := [
   0x0, 0x0, 0x1b301b20, 0x0, 0x1b501b40, 0x0, 0x1b10, 0x0, 0x0, 0x0, 0x0,
   0x1f401f201f1019e019d019c019b019a0199019801970196019501940193019201910190018f018e018d018c018b018a018901880187018601850184018301820181017f017e017d017c017501740168015f015e015d015c015b015a0153015201510150014f014e014d013a01390138013701320131013001270120011f011c00f700f600f500f400f300f200f100f000ef00ee00ed00ec00eb00ea00e900e800e700e600e500e400e300e200e100e000df00de00dd00dc00db00da00d900d800d700d600d500d400cf00c800c500c400c300740073007200710070005e005d004500440043000b000a0,
   0x0, 0x0, 0x0, 0x0, 0x0, 0x0, 0x0, 0x0, 0x0, 0x0, 0x0,
   0x1f401f201f1019e019d019c019b019a0199019801970196019501940193019201910190018f018e018d018c018b018a018901880187018601850184018301820181017f017e017d017c017501740168015f015e015d015c015b015a0153015201510150014f014e014d013a01390138013701320131013001270120011f011c00f800f700f600f500f400f300f200f100f000ef00ee00ed00ec00eb00ea00e900e800e700e600e500e400e300e200e100e000df00de00dd00dc00db00da00d900d800d700d600d500d400cf00c800c500c400c300740073007200710070005e005d004500440043000b000a0,
   0x1f401f201f1019e019d019c019b019a0199019801970196019501940193019201910190018f018e018d018c018b018a018901880187018601850184018301820181017f017e017d017c017501740168015f015e015d015c015b015a0153015201510150014f014e014d013a01390138013701320131013001270120011f011c00f800f700f600f500f400f300f200f100f000ef00ee00ed00ec00eb00ea00e900e800e700e600e500e400e300e200e100e000df00de00dd00dc00db00da00d900d800d700d600d500d400cf00c800c500c400c300740073007200710070005e005d004500440043000b000a0,
   0x19f0, 0x0, 0x0, 0x0,
   0x1f401f201f1019e019d019c019b019a0199019801970196019501940193019201910190018f018e018d018c018b018a018901880187018601850184018301820181017f017e017d017c017501740168015f015e015d015c015b015a0153015201510150014f014e014d013a01390138013701320131013001270120011f011c00f800f700f600f500f400f300f200f100f000ef00ee00ed00ec00eb00ea00e900e800e700e600e500e400e300e200e100e000df00de00dd00dc00db00da00d900d800d700d600d500d400cf00c800c500c400c300740073007200710070005e005d004500440043000b000a0]

def starts12 : List Nat := [
   0x1f401f201f1019e019d019c019b019a0199019801970196019501940193019201910190018f018e018d018c018b018a018901880187018601850184018301820181017f017e017d017c017501740168015f015e015d015c015b015a0153015201510150014f014e014d013a01390138013701320131013001270120011f011c00f800f700f600f500f400f300f200f100f000ef00ee00ed00ec00eb00ea00e900e800e700e600e500e400e300e200e100e000df00de00dd00dc00db00da00d900d800d700d600d500d400cf00c800c500c400c300740073007200710070005e005d004500440043000b000a0,
   0x32002e002a00290025001e001d001c001700160015001400130012001100100, 0x1f50, 0x0,
   0x1f501f401f301f201f1019e019d019c019b019a0199019801970196019501940193019201910190018f018e018d018c018b018a018901880187018601850184018301820181017f017e017d017c017501740168015f015e015d015c015b015a0153015201510150014f014e014d013a01390138013701320131013001270120011f011c00f700f600f500f400f300f200f100f000ef00ee00ed00ec00eb00ea00e900e800e700e600e500e400e300e200e100e000df00de00dd00dc00db00da00d900d800d700d600d500d400cf00c800c500c400c300ba00b900b800740073007200710070006f006e006d006c006b006a005e005d004500440043000b000a00090008000700060,
   0x1f301f100ba00b900b80, 0x0, 0x0, 0x0, 0x0, 0x1f401f30163016200d000c900c700c6007600750, 0x0, 0x0, 0x0, 0x0, 0x0, 0x0, 0x19f0,
   0x1f401f301f10180017601260125011e011d011801170116011501140113011201110110010f010e010d010c010b010a010901080107010601050104010301020101010000ff00fe00fd00fc00fb00fa00f900d000c900c700c600760075005e005d000b000a0,
   0x0, 0x0, 0x0, 0x0, 0x0, 0x0, 0x0, 0x0, 0x0,
   0x1f401f301f10180017601260125011e011d011801170116011501140113011201110110010f010e010d010c010b010a010901080107010601050104010301020101010000ff00fe00fd00fc00fb00fa00f900d000c900c700c600760075005e005d000b000a0,
   0x0]

def starts13 : List Nat := [
   0x0, 0x0,
   0x1f401f301f10180017601260125011e011d011b011a011801170116011501140113011201110110010f010e010d010c010b010a010901080107010601050104010301020101010000ff00fe00fd00fc00fb00fa00f900d000c900c700c600760075005e005d000b000a0,
   0x0, 0x0, 0x0, 0x0, 0x0, 0x0, 0x0, 0x0, 0x19f0, 0x0, 0x0, 0x0, 0x0, 0x0, 0x0, 0x0, 0x0, 0x0, 0x0,
   0x1f401f301f201f101eb01ea01da01d901d801d701d601d301d201cf01ce01cd01cc01cb01ca01c901c801c701c601c501c401c301c201c101c001bf01be01bd01bc01bb01ba01b901b801b701b601b001af01ae01ad01ac01ab01aa01a901a801a701a601a501a401a3019e019d019c019b019a0199019801970196019501940193019201910190018f018e018d018c018b018a0189018801870186018501840183018201810180017f017e017d017c017501740168015f015e015d015c015b015a0153015201510150014f014e014d013a0139013801370132013101300127012601250120011f011e011d011c00f700f600f500f400f300f200f100f000ef00ee00ed00ec00eb00ea00e900e800e700e600e500e400e300e200e100e000df00de00dd00dc00db00da00d900d800d700d600d500d400d000cf00c900c800c700c600c500c400c30076007500740073007200710070005e005d004500440043000b000a0,
   0x0, 0x19f0, 0x19f0, 0x0, 0x0, 0x19f0, 0x0]

def starts14 : List Nat := [
   0x0,
   0x1f401f301f10180017601260125011e011d011801170116011501140113011201110110010f010e010d010c010b010a010901080107010601050104010301020101010000ff00fe00fd00fc00fb00fa00f900d000c900c700c600760075005e005d000b000a0,
   0x0, 0x0, 0x0, 0x0, 0x0, 0x0, 0x0, 0x0, 0x0, 0x0, 0x1f401f301f20173017201710170016f016e016d016c016b00d000c900c700c6007600750, 0x0,
   0x1f401f301f20173017201710170016f016e016d016c016b00d000c900c700c6007600750, 0x0, 0x0, 0x0, 0x0, 0x0, 0x0, 0x0, 0x0, 0x1f200f80, 0x19f0,
   0x1f401f301f201f101f001ef01ee019e019d019c019b019a0199019801970196019501940193019201910190018f018e018d018c018b018a018901880187018601850184018301820181017f017e017d017c017501740168015f015e015d015c015b015a0153015201510150014f014e014d013a0139013801370132013101300127012601250120011f011c00f700f600f500f400f300f200f100f000ef00ee00ed00ec00eb00ea00e900e800e700e600e500e400e300e200e100e000df00de00dd00dc00db00da00d900d800d700d600d500d400d000cf00c900c800c700c600c500c400c30076007500740073007200710070005e005d004500440043000b000a0,
   0x0, 0x0, 0x1f2012f012e012401230, 0x1f401f30126012500d000c900c700c6007600750]

def starts15 : List Nat := [
   0x1f50, 0x0, 0x1f2012401230,
   0x1f401f201f1019e019d019c019b019a0199019801970196019501940193019201910190018f018e018d018c018b018a018901880187018601850184018301820181017f017e017d017c017501740168015f015e015d015c015b015a0153015201510150014f014e014d013a01390138013701320131013001270120011f011c00f700f600f500f400f300f200f100f000ef00ee00ed00ec00eb00ea00e900e800e700e600e500e400e300e200e100e000df00de00dd00dc00db00da00d900d800d700d600d500d400cf00c800c500c400c300740073007200710070005e005d004500440043000b000a0,
   0x0, 0x1f401f301ca01c901c801c701c601c501c401c301c201c1018001260125011e011d00d000c900c700c6007600750, 0x0,
   0x1f401f301ca01c901c801c701c601c501c401c301c201c1018001260125011e011d00d000c900c700c6007600750, 0x0, 0x0,
   0x1f401f201f1019e019d019c019b019a0199019801970196019501940193019201910190018f018e018d018c018b018a018901880187018601850184018301820181017f017e017d017c017501740168015f015e015d015c015b015a0153015201510150014f014e014d014c014b014a0149014801470146013a01390138013701320131013001270120011f011c00f800f700f600f500f400f300f200f100f000ef00ee00ed00ec00eb00ea00e900e800e700e600e500e400e300e200e100e000df00de00dd00dc00db00da00d900d800d700d600d500d400cf00c800c500c400c300740073007200710070005e005d004500440043000b000a0,
   0x1f401f301f201f101eb01ea01da01d901d801d701d601d301d201cf01ce01cd01cc01cb01ca01c901c801c701c601c501c401c301c201c101c001bf01be01bd01bc01bb01ba01b901b801b701b6019e019d019c019b019a0199019801970196019501940193019201910190018f018e018d018c018b018a0189018801870186018501840183018201810180017f017e017d017c017501740168015f015e015d015c015b015a0153015201510150014f014e014d013a0139013801370132013101300127012601250120011f011e011d011c00f700f600f500f400f300f200f100f000ef00ee00ed00ec00eb00ea00e900e800e700e600e500e400e300e200e100e000df00de00dd00dc00db00da00d900d800d700d600d500d400d000cf00c900c800c700c600c500c400c30076007500740073007200710070005e005d004500440043000b000a0,
   0x0, 0x0, 0x19f0,
   0x1f401f301f10180017601260125011e011d011801170116011501140113011201110110010f010e010d010c010b010a010901080107010601050104010301020101010000ff00fe00fd00fc00fb00fa00f900d000c900c700c600760075005e005d000b000a0,
   0x0, 0x0, 0x0, 0x1db019f0, 0x1df01de01dd01dc0, 0x0, 0x0, 0x0, 0x0, 0x870086008500840,
   0x1f501f401f301f201f1019e019d019c019b019a0199019801970196019501940193019201910190018f018e018d018c018b018a0189018801870186018501840183018201810180017f017e017d017c0176017501740168015f015e015d015c015b015a0153015201510150014f014e014d013a0139013801370132013101300127012601250120011f011e011d011c011801170116011501140113011201110110010f010e010d010c010b010a010901080107010601050104010301020101010000ff00fe00fd00fc00fb00fa00f900f700f600f500f400f300f200f100f000ef00ee00ed00ec00eb00ea00e900e800e700e600e500e400e300e200e100e000df00de00dd00dc00db00da00d900d800d700d600d500d400d000cf00ce00cd00cc00cb00ca00c900c800c700c600c500c400c30076007500740073007200710070005e005d004500440043000b000a00090008000700060,
   0x0, 0x0, 0x0]

def starts16 : List Nat := [
   0x0,
   0x1f401f301f201f101eb01ea01da01d901d801d701d601d301d201cf01ce01cd01cc01cb01ca01c901c801c701c601c501c401c301c201c101c001bf01be01bd01bc01bb01ba01b901b801b701b601b001af01ae01ad01ac01ab019e019d019c019b019a0199019801970196019501940193019201910190018f018e018d018c018b018a0189018801870186018501840183018201810180017f017e017d017c017501740168015f015e015d015c015b015a0153015201510150014f014e014d013a0139013801370132013101300127012601250120011f011e011d011c00f700f600f500f400f300f200f100f000ef00ee00ed00ec00eb00ea00e900e800e700e600e500e400e300e200e100e000df00de00dd00dc00db00da00d900d800d700d600d500d400d000cf00c900c800c700c600c500c400c30076007500740073007200710070005e005d004500440043000b000a0,
   0x0, 0x0,
   0x1f401f301f201f101eb01ea01da01d901d801d701d601d301d201cf01ce01cd01cc01cb01ca01c901c801c701c601c501c401c301c201c101c001bf01be01bd01bc01bb01ba01b901b801b701b601b001af01ae019e019d019c019b019a0199019801970196019501940193019201910190018f018e018d018c018b018a0189018801870186018501840183018201810180017f017e017d017c017501740168015f015e015d015c015b015a0153015201510150014f014e014d013a0139013801370132013101300127012601250120011f011e011d011c00f700f600f500f400f300f200f100f000ef00ee00ed00ec00eb00ea00e900e800e700e600e500e400e300e200e100e000df00de00dd00dc00db00da00d900d800d700d600d500d400d000cf00c900c800c700c600c500c400c30076007500740073007200710070005e005d004500440043000b000a0,
   0x0, 0x19f0, 0x1f401f301d501d401d101d001ca01c901c801c701c601c501c401c301c201c1018001260125011e011d00d000c900c700c6007600750, 0x0, 0x1f30,
   0x19f0, 0x0, 0x19f0, 0x0, 0x0, 0x19f0, 0x0, 0x19f0, 0x0,
   0x1f501f401f201f1019e019d019c019b019a0199019801970196019501940193019201910190018f018e018d018c018b018a018901880187018601850184018301820181017f017e017d017c017501740168015f015e015d015c015b015a0153015201510150014f014e014d013a01390138013701320131013001270120011f011c00f700f600f500f400f300f200f100f000ef00ee00ed00ec00eb00ea00e900e800e700e600e500e400e300e200e100e000df00de00dd00dc00db00da00d900d800d700d600d500d400cf00c800c500c400c300740073007200710070005e005d004500440043000b000a00090008000700060,
   0x1f401f201f1019e019d019c019b019a0199019801970196019501940193019201910190018f018e018d018c018b018a018901880187018601850184018301820181017f017e017d017c017501740168015f015e015d015c015b015a0153015201510150014f014e014d013a01390138013701320131013001270120011f011c00f700f600f500f400f300f200f100f000ef00ee00ed00ec00eb00ea00e900e800e700e600e500e400e300e200e100e000df00de00dd00dc00db00da00d900d800d700d600d500d400cf00c800c500c400c300740073007200710070005e005d00450044004300190018000b000a0,
   0x1f501f4000b000a00090008000700060, 0x0, 0x0, 0x0, 0x210020001f0, 0x0, 0x0, 0x0, 0x0]

def starts17 : List Nat := [
   0x0, 0x0, 0x0, 0x0, 0x0, 0x0, 0x0, 0x0, 0x1900180, 0x0, 0x0, 0x0,
   0x1f401f301f10180017601260125011e011d011801170116011501140113011201110110010f010e010d010c010b010a010901080107010601050104010301020101010000ff00fe00fd00fc00fb00fa00f900d000c900c700c600760075005e005d000b000a0,
   0x0, 0x0,
   0x1f501f401f301f201f1019e019d019c019b019a0199019801970196019501940193019201910190018f018e018d018c018b018a0189018801870186018501840183018201810180017f017e017d017c0176017501740168015f015e015d015c015b015a0153015201510150014f014e014d013a0139013801370132013101300127012601250120011f011e011d011c011801170116011501140113011201110110010f010e010d010c010b010a010901080107010601050104010301020101010000ff00fe00fd00fc00fb00fa00f900f700f600f500f400f300f200f100f000ef00ee00ed00ec00eb00ea00e900e800e700e600e500e400e300e200e100e000df00de00dd00dc00db00da00d900d800d700d600d500d400d000cf00ce00cd00cc00cb00ca00c900c800c700c600c500c400c30076007500740073007200710070005e005d004500440043000b000a00090008000700060,
   0x1f401f301f10180017601260125011e011d011801170116011501140113011201110110010f010e010d010c010b010a010901080107010601050104010301020101010000ff00fe00fd00fc00fb00fa00f900d000c900c700c600760075005e005d000b000a0,
   0x1f401f301f10180017601260125011e011d011801170116011501140113011201110110010f010e010d010c010b010a010901080107010601050104010301020101010000ff00fe00fd00fc00fb00fa00f900d000c900c700c600760075005e005d000b000a0,
   0x1f401f301f10180017601260125011e011d011801170116011501140113011201110110010f010e010d010c010b010a010901080107010601050104010301020101010000ff00fe00fd00fc00fb00fa00f900d000c900c700c600760075005e005d000b000a0,
   0x1f401f301f10180017601260125011e011d011801170116011501140113011201110110010f010e010d010c010b010a010901080107010601050104010301020101010000ff00fe00fd00fc00fb00fa00f900d000c900c700c600760075005e005d000b000a0,
   0x1f401f301f10180017601260125011e011d011801170116011501140113011201110110010f010e010d010c010b010a010901080107010601050104010301020101010000ff00fe00fd00fc00fb00fa00f900d000c900c700c600760075005e005d000b000a0,
   0x0, 0x1f501f30, 0x0, 0x0, 0x1b001a001900180, 0x1f30, 0x0, 0x0, 0x0]

def starts18 : List Nat := [
   0x0, 0x1f401f30172017100d000c900c700c6007600750, 0x0, 0x1f2013601350, 0x1f401f300d000c900c700c6007600750, 0x0, 0x0, 0x0, 0x19f0, 0x0,
   0x0, 0x1ed01ec0, 0x0, 0x0, 0x0, 0x0, 0x19f0,
   0x1f401f201f1019e019d019c019b019a0199019801970196019501940193019201910190018f018e018d018c018b018a018901880187018601850184018301820181017f017e017d017c017501740168015f015e015d015c015b015a0153015201510150014f014e014d014c014b014a014901480147014601450144013a01390138013701320131013001270120011f011c00f800f700f600f500f400f300f200f100f000ef00ee00ed00ec00eb00ea00e900e800e700e600e500e400e300e200e100e000df00de00dd00dc00db00da00d900d800d700d600d500d400cf00c800c500c400c300740073007200710070005e005d004500440043000b000a0,
   0x0, 0x0, 0x0, 0x0, 0x1ed01ec0, 0x0, 0x0,
   0x1f501f401f201f1019e019d019c019b019a0199019801970196019501940193019201910190018f018e018d018c018b018a018901880187018601850184018301820181017f017e017d017c017501740168015f015e015d015c015b015a0153015201510150014f014e014d013a01390138013701320131013001270120011f011c00f700f600f500f400f300f200f100f000ef00ee00ed00ec00eb00ea00e900e800e700e600e500e400e300e200e100e000df00de00dd00dc00db00da00d900d800d700d600d500d400cf00c800c500c400c300810080007f007e007d007c007b00740073007200710070006f006e005e005d005500540053004500440043000b000a00090008000700060,
   0x0, 0x0, 0x0, 0x0]

def starts19 : List Nat := [
   0x1f201e201e101e00, 0x0,
   0x1f401f301f201f101eb01ea01da01d901d801d701d601d301d201cf01ce01cd01cc01cb01ca01c901c801c701c601c501c401c301c201c101c001bf01be01bd01bc01bb01ba01b901b801b701b601b001af01ae01ad01ac01ab01aa01a901a801a701a6019e019d019c019b019a0199019801970196019501940193019201910190018f018e018d018c018b018a0189018801870186018501840183018201810180017f017e017d017c017501740168015f015e015d015c015b015a0153015201510150014f014e014d013a0139013801370132013101300127012601250120011f011e011d011c00f700f600f500f400f300f200f100f000ef00ee00ed00ec00eb00ea00e900e800e700e600e500e400e300e200e100e000df00de00dd00dc00db00da00d900d800d700d600d500d400d000cf00c900c800c700c600c500c400c30076007500740073007200710070005e005d004500440043000b000a0,
   0x0, 0x0, 0x0, 0x1f2008b008a0, 0x0, 0x0, 0x0, 0x0, 0x0, 0x0, 0x0, 0x0,
   0x1f401f301d501d401ca01c901c801c701c601c501c401c301c201c1018001260125011e011d00d000c900c700c6007600750, 0x0, 0x0, 0x0, 0x0,
   0x310030002f0, 0x19f0024002300220, 0x24002300220, 0x19f0024002300220, 0x35003400330, 0x3700360,
   0x32002e002a00290025001e001d001c0017001600150014001300120, 0x0,
   0x1f401f201f1019e019d019c019b019a0199019801970196019501940193019201910190018f018e018d018c018b018a018901880187018601850184018301820181017f017e017d017c017501740168015f015e015d015c015b015a0153015201510150014f014e014d013a01390138013701320131013001270120011f011c00f700f600f500f400f300f200f100f000ef00ee00ed00ec00eb00ea00e900e800e700e600e500e400e300e200e100e000df00de00dd00dc00db00da00d900d800d700d600d500d400cf00c800c500c400c300740073007200710070005e005d004500440043000b000a0,
   0x0]

def starts20 : List Nat := [
   0x0, 0x0, 0x0, 0x0, 0x0, 0x0, 0x0, 0x0, 0x0, 0x0, 0x0, 0x0, 0x0, 0x0, 0x0, 0x0, 0x0, 0x0, 0x0, 0x0, 0x1f20159015800f80,
   0x1f401f301f10180017601260125011e011d011801170116011501140113011201110110010f010e010d010c010b010a010901080107010601050104010301020101010000ff00fe00fd00fc00fb00fa00f900d000c900c700c600760075005e005d000b000a0,
   0x0, 0x0, 0x0, 0x0, 0x0, 0x0, 0x0, 0x0]

def starts21 : List Nat := [
   0x0, 0x0, 0x0, 0x19f0, 0x0,
   0x1f401f301f10180017601260125011e011d011801170116011501140113011201110110010f010e010d010c010b010a010901080107010601050104010301020101010000ff00fe00fd00fc00fb00fa00f900d000c900c700c600760075005e005d000b000a0,
   0x0, 0x0, 0x0, 0x1e501e401e3019f0, 0x0, 0x0, 0x8900880, 0x0, 0x0, 0x0, 0x8700860, 0x0,
   0x1f401f301f201f101eb01ea01da01d901d801d701d601d301d201cf01ce01cd01cc01cb01ca01c901c801c701c601c501c401c301c201c101c001bf01be01bd01bc01bb01ba01b901b801b701b601b001af01ae01ad01ac01ab01aa01a901a801a701a6019e019d019c019b019a0199019801970196019501940193019201910190018f018e018d018c018b018a0189018801870186018501840183018201810180017f017e017d017c017501740168015f015e015d015c015b015a0153015201510150014f014e014d013a0139013801370132013101300127012601250120011f011e011d011c00f700f600f500f400f300f200f100f000ef00ee00ed00ec00eb00ea00e900e800e700e600e500e400e300e200e100e000df00de00dd00dc00db00da00d900d800d700d600d500d400d000cf00c900c800c700c600c500c400c30076007500740073007200710070005e005d004500440043000b000a0,
   0x0, 0x1f4004c004a00490048004700460045004400430, 0x0, 0x0, 0x0, 0x0, 0x2d002c002b0, 0x28002700260, 0x28002700260, 0x0, 0x0]

def starts22 : List Nat := [
   0x0, 0x0, 0x0, 0x0, 0x19f0, 0x0, 0x0, 0x0, 0x0, 0x0, 0x0, 0x1f2012f012e012d012c012401230,
   0x1f401f201f1019e019d019c019b019a0199019801970196019501940193019201910190018f018e018d018c018b018a018901880187018601850184018301820181017f017e017d017c017501740168015f015e015d015c015b015a0153015201510150014f014e014d014c014b014a0149014801470146013a01390138013701320131013001270120011f011c00f800f700f600f500f400f300f200f100f000ef00ee00ed00ec00eb00ea00e900e800e700e600e500e400e300e200e100e000df00de00dd00dc00db00da00d900d800d700d600d500d400cf00c800c500c400c300740073007200710070005e005d004500440043000b000a0,
   0x1f401f201f1019e019d019c019b019a0199019801970196019501940193019201910190018f018e018d018c018b018a018901880187018601850184018301820181017f017e017d017c017501740168015f015e015d015c015b015a0153015201510150014f014e014d014c014b014a014901480147014601450144013a01390138013701320131013001270120011f011c00f800f700f600f500f400f300f200f100f000ef00ee00ed00ec00eb00ea00e900e800e700e600e500e400e300e200e100e000df00de00dd00dc00db00da00d900d800d700d600d500d400cf00c800c500c400c300740073007200710070005e005d004500440043000b000a0,
   0x1f401f301f10180017601260125011e011d011801170116011501140113011201110110010f010e010d010c010b010a010901080107010601050104010301020101010000ff00fe00fd00fc00fb00fa00f900d000c900c700c600760075005e005d004c004a0049004800470046004500440043000b000a0,
   0x0, 0x1f501f10, 0x0, 0x0, 0x1f201e201e101e00, 0x0, 0x1f201e201e101e00, 0x0, 0x0, 0x1e901e801e701e60,
   0x1f401f301f201f101eb01ea01da01d901d801d701d601d301d201cf01ce01cd01cc01cb01ca01c901c801c701c601c501c401c301c201c101c001bf01be01bd01bc01bb01ba01b901b801b701b601b001af01ae01ad01ac01ab01aa01a901a801a701a6019e019d019c019b019a0199019801970196019501940193019201910190018f018e018d018c018b018a0189018801870186018501840183018201810180017f017e017d017c017501740168015f015e015d015c015b015a0153015201510150014f014e014d013a0139013801370132013101300127012601250120011f011e011d011c00f700f600f500f400f300f200f100f000ef00ee00ed00ec00eb00ea00e900e800e700e600e500e400e300e200e100e000df00de00dd00dc00db00da00d900d800d700d600d500d400d000cf00c900c800c700c600c500c400c30076007500740073007200710070005e005d004500440043000b000a0,
   0x8900880, 0x1f2008b008a0, 0x1f20, 0x0]

def starts23 : List Nat := [
   0x0,
   0x24202410240023f023e023d023c023b023a0239023802370236023502340233023202310230022f022e022d022c022b022a0229022802270226022502240223022202210220021f021e021d021c021b021a0219021802170216021502140213021202110210020f020e020d020c020b020a020902080207020602050204020302020201020001ff01fe01fd01fc01fb01fa01f901f801f701f601f401f301f201f1019e019d019c019b019a0199019801970196019501940193019201910190018f018e018d018c018b018a0189018801870186018501840183018201810180017f017e017d017c0176017501740168015f015e015d015c015b015a0153015201510150014f014e014d013a0139013801370132013101300127012601250120011f011e011d011c011801170116011501140113011201110110010f010e010d010c010b010a010901080107010601050104010301020101010000ff00fe00fd00fc00fb00fa00f900f700f600f500f400f300f200f100f000ef00ee00ed00ec00eb00ea00e900e800e700e600e500e400e300e200e100e000df00de00dd00dc00db00da00d900d800d700d600d500d400d000cf00c900c800c700c600c500c400c30076007500740073007200710070005e005d005200510050004f004e004d004b0045004400430042004100190018000b000a0,
   0x0, 0x0, 0x0, 0x0, 0x0, 0x1190, 0x0, 0x0,
   0x1f401f301ca01c901c801c701c601c501c401c301c201c1018001260125011e011d00d000c900c700c6007600750, 0x0, 0x0, 0x0, 0x50, 0x1f200f80, 0x0,
   0x0, 0x0,
   0x24202410240023f023e023d023c023b023a0239023802370236023502340233023202310230022f022e022d022c022b022a0229022802270226022502240223022202210220021f021e021d021c021b021a0219021802170216021502140213021202110210020f020e020d020c020b020a020902080207020602050204020302020201020001ff01fe01fd01fc01fb01fa01f901f801f701f601f401f301f201f1019e019d019c019b019a0199019801970196019501940193019201910190018f018e018d018c018b018a0189018801870186018501840183018201810180017f017e017d017c0176017501740168015f015e015d015c015b015a0153015201510150014f014e014d013a0139013801370132013101300127012601250120011f011e011d011c011b011a011801170116011501140113011201110110010f010e010d010c010b010a010901080107010601050104010301020101010000ff00fe00fd00fc00fb00fa00f900f700f600f500f400f300f200f100f000ef00ee00ed00ec00eb00ea00e900e800e700e600e500e400e300e200e100e000df00de00dd00dc00db00da00d900d800d700d600d500d400d000cf00c900c800c700c600c500c400c30076007500740073007200710070005e005d005200510050004f004e004d004b0045004400430042004100190018000b000a0,
   0x0, 0x0, 0x0, 0x0, 0x0, 0x0, 0x0, 0x0, 0x0, 0x0]

def starts24 : List Nat := [
   0x0, 0x0, 0x0, 0x0, 0x0, 0x0, 0x0, 0x0, 0x0, 0x0, 0x0, 0x0, 0x0, 0x0, 0x0, 0x0, 0x0, 0x0, 0x0, 0x0, 0x0, 0x0,
   0x1f401f301f10180017601260125011e011d011801170116011501140113011201110110010f010e010d010c010b010a010901080107010601050104010301020101010000ff00fe00fd00fc00fb00fa00f900d000c900c700c600760075005e005d000b000a0,
   0x0, 0x0, 0x0, 0x0, 0x0, 0x0, 0x0]

def starts25 : List Nat := [
   0x0, 0x0, 0x0, 0x0, 0x0, 0x0, 0x0, 0x0, 0x0, 0x0, 0x0, 0x0, 0x0, 0x0, 0x0, 0x0, 0x0, 0x0, 0x0, 0x0, 0x0, 0x0, 0x0, 0x0, 0x0, 0x0, 0x0,
   0x0, 0x0, 0x0]

def starts26 : List Nat := [
   0x0, 0x0, 0x0, 0x0, 0x0, 0x0, 0x1d6019f0, 0x1d6019f0, 0x0, 0x0, 0x0, 0x0, 0x0, 0x0, 0x0, 0x0, 0x0, 0x0, 0x0, 0x0, 0x0, 0x0, 0x0,
   0x1f401f301f201f1019e019d019c019b019a0199019801970196019501940193019201910190018f018e018d018c018b018a0189018801870186018501840183018201810180017f017e017d017c0176017501740168015f015e015d015c015b015a0153015201510150014f014e014d013a0139013801370132013101300127012601250120011f011e011d011c011801170116011501140113011201110110010f010e010d010c010b010a010901080107010601050104010301020101010000ff00fe00fd00fc00fb00fa00f900f700f600f500f400f300f200f100f000ef00ee00ed00ec00eb00ea00e900e800e700e600e500e400e300e200e100e000df00de00dd00dc00db00da00d900d800d700d600d500d400d000cf00c900c800c700c600c500c400c30076007500740073007200710070005e005d00520051004500440043000b000a0,
   0x0, 0x0,
   0x24202410240023f023e023d023c023b023a0239023802370236023502340233023202310230022f022e022d022c022b022a0229022802270226022502240223022202210220021f021e021d021c021b021a0219021802170216021502140213021202110210020f020e020d020c020b020a020902080207020602050204020302020201020001ff01fe01fd01fc01fb01fa01f901f801f701f601f401f301f201f1019e019d019c019b019a0199019801970196019501940193019201910190018f018e018d018c018b018a0189018801870186018501840183018201810180017f017e017d017c0176017501740168015f015e015d015c015b015a0153015201510150014f014e014d013a0139013801370132013101300127012601250120011f011e011d011c011801170116011501140113011201110110010f010e010d010c010b010a010901080107010601050104010301020101010000ff00fe00fd00fc00fb00fa00f900f700f600f500f400f300f200f100f000ef00ee00ed00ec00eb00ea00e900e800e700e600e500e400e300e200e100e000df00de00dd00dc00db00da00d900d800d700d600d500d400d000cf00c900c800c700c600c500c400c30076007500740073007200710070005e005d005200510050004f00450044004300420041000b000a0,
   0x0, 0x0, 0x19f0]

def starts27 : List Nat := [
   0x0, 0x0, 0x0, 0x0,
   0x24202410240023f023e023d023c023b023a0239023802370236023502340233023202310230022f022e022d022c022b022a0229022802270226022502240223022202210220021f021e021d021c021b021a0219021802170216021502140213021202110210020f020e020d020c020b020a020902080207020602050204020302020201020001ff01fe01fd01fc01fb01fa01f901f801f701f6004200410040003f003e003d003c003b003a003900380,
   0x0, 0x1f2012f012e012401230,
   0x1f401f201f1019e019d019c019b019a0199019801970196019501940193019201910190018f018e018d018c018b018a018901880187018601850184018301820181017f017e017d017c017501740168015f015e015d015c015b015a0153015201510150014f014e014d014c014b014a0149014801470146013a01390138013701320131013001270120011f011c00f800f700f600f500f400f300f200f100f000ef00ee00ed00ec00eb00ea00e900e800e700e600e500e400e300e200e100e000df00de00dd00dc00db00da00d900d800d700d600d500d400cf00c800c500c400c300740073007200710070005e005d004500440043000b000a0,
   0x0, 0x0, 0x0, 0x0, 0x0, 0x0, 0x0, 0x0, 0x0, 0x0, 0x0, 0x0, 0x0, 0x0, 0x0, 0x0, 0x0, 0x0, 0x0, 0x0, 0x0, 0x0]

def starts28 : List Nat := [
   0x0, 0x0, 0x0, 0x0, 0x0, 0x0, 0x0, 0x0, 0x0, 0x0, 0x0, 0x0, 0x0, 0x0, 0x0, 0x0,
   0x24202410240023f023e023d023c023b023a0239023802370236023502340233023202310230022f022e022d022c022b022a0229022802270226022502240223022202210220021f021e021d021c021b021a0219021802170216021502140213021202110210020f020e020d020c020b020a020902080207020602050204020302020201020001ff01fe01fd01fc01fb01fa01f901f801f701f6004200410040003f003e003d003c003b003a003900380,
   0x0,
   0x24202410240023f023e023d023c023b023a0239023802370236023502340233023202310230022f022e022d022c022b022a0229022802270226022502240223022202210220021f021e021d021c021b021a0219021802170216021502140213021202110210020f020e020d020c020b020a020902080207020602050204020302020201020001ff01fe01fd01fc01fb01fa01f901f801f701f6004200410040003f003e003d003c003b003a0,
   0x0, 0x0, 0x0,
   0x24202410240023f023e023d023c023b023a0239023802370236023502340233023202310230022f022e022d022c022b022a0229022802270226022502240223022202210220021f021e021d021c021b021a0219021802170216021502140213021202110210020f020e020d020c020b020a020902080207020602050204020302020201020001ff01fe01fd01fc01fb01fa01f901f801f701f600420041001900180,
   0x0, 0x0, 0x0,
   0x24202410240023f023e023d023c023b023a0239023802370236023502340233023202310230022f022e022d022c022b022a0229022802270226022502240223022202210220021f021e021d021c021b021a0219021802170216021502140213021202110210020f020e020d020c020b020a020902080207020602050204020302020201020001ff01fe01fd01fc01fb01fa01f901f801f701f6004200410040003f003e003d003c003b003a0,
   0x0, 0x0, 0x0]

def starts29 : List Nat := [
   0x0,
   0x1f401f201f1019e019d019c019b019a0199019801970196019501940193019201910190018f018e018d018c018b018a018901880187018601850184018301820181017f017e017d017c017501740168015f015e015d015c015b015a0153015201510150014f014e014d014c014b014a014901480147014601450144013a01390138013701320131013001270120011f011c00f800f700f600f500f400f300f200f100f000ef00ee00ed00ec00eb00ea00e900e800e700e600e500e400e300e200e100e000df00de00dd00dc00db00da00d900d800d700d600d500d400cf00c800c500c400c300740073007200710070005e005d004500440043000b000a0,
   0x0, 0x0, 0x0,
   0x1f401f201f1019e019d019c019b019a0199019801970196019501940193019201910190018f018e018d018c018b018a018901880187018601850184018301820181017f017e017d017c017501740168015f015e015d015c015b015a0153015201510150014f014e014d014c014b014a0149014801470146013a01390138013701320131013001270120011f011c00f800f700f600f500f400f300f200f100f000ef00ee00ed00ec00eb00ea00e900e800e700e600e500e400e300e200e100e000df00de00dd00dc00db00da00d900d800d700d600d500d400cf00c800c500c400c300740073007200710070005e005d004500440043000b000a0]

def kernelTable : List (List Nat) := [kernels0, kernels1, kernels2, kernels3, kernels4, kernels5, kernels6, kernels7, kernels8, kernels9, kernels10, kernels11, kernels12,
   kernels13, kernels14, kernels15, kernels16, kernels17, kernels18, kernels19, kernels20, kernels21, kernels22, kernels23, kernels24,
   kernels25, kernels26, kernels27, kernels28, kernels29]

def startTable : List (List Nat) := [starts0, starts1, starts2, starts3, starts4, starts5, starts6, starts7, starts8, starts9, starts10, starts11, starts12, starts13,
   starts14, starts15, starts16, starts17, starts18, starts19, starts20, starts21, starts22, starts23, starts24, starts25, starts26,
   starts27, starts28, starts29]

def decodePositions : Nat → Nat → List (Nat × Nat)
  | 0, _ => []
  | fuel + 1, n => if n = 0 then [] else ((n >>> 4) % 4096, n % 16) :: decodePositions fuel (n >>> 16)

def decodeStarts : Nat → Nat → List Nat
  | 0, _ => []
  | fuel + 1, n => if n = 0 then [] else (n >>> 4) % 4096 :: decodeStarts fuel (n >>> 16)

/-- Rules begun in state `s` and the positions reached in them. -/
def kernelOf (s : Nat) : List (Nat × Nat) :=
  if s < 876 then decodePositions 256 ((kernelTable.getD (s / 30) []).getD (s % 30) 0) else []

/-- Rules that may start in state `s`. -/
def startsOf (s : Nat) : List Nat :=
  if s < 876 then decodeStarts 256 ((startTable.getD (s / 30) []).getD (s % 30) 0) else []

def rankTable : Nat :=
  0x0000004001000033214144444444444444444444444444444444000003000100333210020e3544446ee4444444eee444445e44444444e444444446e444444444e44ee44444445ef444e4444550000300000100000000000000022101000001042000000000000000000000000011100000000001010051000010001000000000000000000000000000030000112221010202010001000000000100100100330000001010100000000030000000000000001000011000122222421000500000000000000011011000001011000000000000000100000001000001032221033000457e25000000000006555555022105d27e5055e05e5555550000001550000000000000000000caaaaaa10a0aa980706054321bbbb1cb333204e000c00210c000e0cbbbbcc2103302000000100204321032021030000000000000000000010d2210102d30010331e00000000000000000000100d0000ddceedddddddddddd0edcddddddddddddc0ddc0dc00d10210e200fffdf4eeff00eeefe0d0ffe0fffde00eee00ef0ed4200000000222103333222010000000010332100d4011102010000002200000010000100000032221063200010300201030

def rankOf (s : Nat) : Nat := (rankTable >>> (4 * s)) % 16

/-- Symbols that may be empty. -/
def mayBeEmpty (x : Nat) : Bool := [169, 170, 172, 175, 177, 179, 180, 185, 220, 224, 227, 229, 236, 237, 238, 239, 240, 241, 242, 243, 303, 305, 317, 362, 365, 366, 367, 370].contains x

end FastBer.Parser
