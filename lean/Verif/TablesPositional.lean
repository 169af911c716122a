import Verif.RangeTable

/-
Generated by tools/gentables.py from /repo/shaping/uipctables.go: the literals and the variables which publish them.
All ranges have stride 1.
-/

namespace Uax.Shaping

/-- /repo/shaping/uipctables.go:7-156, `UIPC_Bottom`. -/
def UIPC_Bottom : RangeTable := ⟨[
  (0x0, 0x0), (0x93c, 0x93c), (0x941, 0x944), (0x94d, 0x94d), (0x952, 0x952), (0x956, 0x957),
  (0x962, 0x963), (0x9bc, 0x9bc), (0x9c1, 0x9c4), (0x9cd, 0x9cd), (0x9e2, 0x9e3), (0xa3c, 0xa3c),
  (0xa41, 0xa42), (0xa4d, 0xa4d), (0xa51, 0xa51), (0xa75, 0xa75), (0xabc, 0xabc), (0xac1, 0xac4),
  (0xacd, 0xacd), (0xae2, 0xae3), (0xb3c, 0xb3c), (0xb41, 0xb44), (0xb4d, 0xb4d), (0xb62, 0xb63),
  (0xc56, 0xc56), (0xc62, 0xc63), (0xcbc, 0xcbc), (0xce2, 0xce3), (0xd43, 0xd44), (0xd62, 0xd63),
  (0xdd4, 0xdd4), (0xdd6, 0xdd6), (0xe38, 0xe3a), (0xeb8, 0xeba), (0xebc, 0xebc), (0xf18, 0xf19),
  (0xf35, 0xf35), (0xf37, 0xf37), (0xf71, 0xf71), (0xf74, 0xf75), (0xf84, 0xf84), (0xf8d, 0xf97),
  (0xf99, 0xfbc), (0xfc6, 0xfc6), (0x102f, 0x1030), (0x1037, 0x1037), (0x103d, 0x103e), (0x1058, 0x1059),
  (0x105e, 0x1060), (0x1082, 0x1082), (0x108d, 0x108d), (0x1713, 0x1714), (0x1733, 0x1734), (0x1753, 0x1753),
  (0x1773, 0x1773), (0x17bb, 0x17bd), (0x1922, 0x1922), (0x1932, 0x1932), (0x1939, 0x1939), (0x193b, 0x193b),
  (0x1a18, 0x1a18), (0x1a56, 0x1a56), (0x1a5b, 0x1a5e), (0x1a69, 0x1a6a), (0x1a6c, 0x1a6c), (0x1a7f, 0x1a7f),
  (0x1b38, 0x1b3a), (0x1b6c, 0x1b6c), (0x1ba2, 0x1ba3), (0x1ba5, 0x1ba5), (0x1bac, 0x1bad), (0x1c2c, 0x1c2c),
  (0x1c37, 0x1c37), (0x1cd5, 0x1cd9), (0x1cdc, 0x1cdf), (0x1ced, 0x1ced), (0xa825, 0xa825), (0xa82c, 0xa82c),
  (0xa8c4, 0xa8c4), (0xa92b, 0xa92d), (0xa947, 0xa949), (0xa94b, 0xa94e), (0xa9b8, 0xa9b9), (0xa9bd, 0xa9bd),
  (0xaa2d, 0xaa2d), (0xaa32, 0xaa32), (0xaa35, 0xaa36), (0xaab4, 0xaab4), (0xaaec, 0xaaec), (0xabe8, 0xabe8),
  (0xabed, 0xabed)], [
  (0x10a02, 0x10a03), (0x10a0c, 0x10a0e), (0x10a39, 0x10a3a), (0x1103c, 0x11041), (0x110b3, 0x110b4), (0x110b9, 0x110ba),
  (0x1112a, 0x1112b), (0x11131, 0x11132), (0x11173, 0x11173), (0x111b6, 0x111bb), (0x111c9, 0x111ca), (0x111cc, 0x111cc),
  (0x1122f, 0x1122f), (0x112e3, 0x112e4), (0x112e9, 0x112ea), (0x1133b, 0x1133c), (0x11438, 0x1143d), (0x11442, 0x11442),
  (0x11446, 0x11446), (0x114b3, 0x114b8), (0x114c2, 0x114c3), (0x115b2, 0x115b5), (0x115bf, 0x115c0), (0x115dc, 0x115dd),
  (0x11633, 0x11638), (0x1163f, 0x1163f), (0x116b0, 0x116b1), (0x116b7, 0x116b7), (0x1171d, 0x1171d), (0x11724, 0x11725),
  (0x11728, 0x11728), (0x1182f, 0x11832), (0x11839, 0x1183a), (0x11943, 0x11943), (0x119d4, 0x119d7), (0x119e0, 0x119e0),
  (0x11a02, 0x11a03), (0x11a0a, 0x11a0a), (0x11a33, 0x11a34), (0x11a3b, 0x11a3e), (0x11a52, 0x11a53), (0x11a59, 0x11a5b),
  (0x11a8a, 0x11a95), (0x11c32, 0x11c36), (0x11c3f, 0x11c3f), (0x11c92, 0x11ca7), (0x11caa, 0x11cb0), (0x11cb2, 0x11cb2),
  (0x11d36, 0x11d36), (0x11d42, 0x11d42), (0x11d44, 0x11d44), (0x11d47, 0x11d47)], 1⟩

/-- /repo/shaping/uipctables.go:158-168, `UIPC_Top_And_Bottom`. -/
def UIPC_Top_And_Bottom : RangeTable := ⟨[
  (0x0, 0x0), (0xc48, 0xc48), (0xf73, 0xf73), (0xf76, 0xf79), (0xf81, 0xf81), (0x1b3c, 0x1b3c)], [], 1⟩

/-- /repo/shaping/uipctables.go:170-178, `UIPC_Bottom_And_Right`. -/
def UIPC_Bottom_And_Right : RangeTable := ⟨[
  (0x0, 0x0), (0x1b3b, 0x1b3b), (0xa9be, 0xa9be), (0xa9c0, 0xa9c0)], [], 1⟩

/-- /repo/shaping/uipctables.go:180-186, `UIPC_Top_And_Bottom_And_Left`. -/
def UIPC_Top_And_Bottom_And_Left : RangeTable := ⟨[
  (0x0, 0x0), (0x103c, 0x103c)], [], 1⟩

/-- /repo/shaping/uipctables.go:188-198, `UIPC_Overstruck`. -/
def UIPC_Overstruck : RangeTable := ⟨[
  (0x0, 0x0), (0x1cd4, 0x1cd4), (0x1ce2, 0x1ce8)], [
  (0x10a01, 0x10a01)], 1⟩

/-- /repo/shaping/uipctables.go:200-253, `UIPC_Left`. -/
def UIPC_Left : RangeTable := ⟨[
  (0x0, 0x0), (0x93f, 0x93f), (0x94e, 0x94e), (0x9bf, 0x9bf), (0x9c7, 0x9c8), (0xa3f, 0xa3f),
  (0xabf, 0xabf), (0xb47, 0xb47), (0xbc6, 0xbc8), (0xd46, 0xd48), (0xdd9, 0xdd9), (0xddb, 0xddb),
  (0xf3f, 0xf3f), (0x1031, 0x1031), (0x1084, 0x1084), (0x17c1, 0x17c3), (0x1a19, 0x1a19), (0x1a55, 0x1a55),
  (0x1a6e, 0x1a72), (0x1b3e, 0x1b3f), (0x1ba6, 0x1ba6), (0x1c27, 0x1c28), (0x1c34, 0x1c35), (0xa9ba, 0xa9bb),
  (0xaa2f, 0xaa30), (0xaa34, 0xaa34), (0xaaeb, 0xaaeb), (0xaaee, 0xaaee)], [
  (0x110b1, 0x110b1), (0x1112c, 0x1112c), (0x111b4, 0x111b4), (0x111ce, 0x111ce), (0x112e1, 0x112e1), (0x11347, 0x11348),
  (0x11436, 0x11436), (0x114b1, 0x114b1), (0x114b9, 0x114b9), (0x115b0, 0x115b0), (0x115b8, 0x115b8), (0x116ae, 0x116ae),
  (0x11726, 0x11726), (0x1182d, 0x1182d), (0x11935, 0x11935), (0x11937, 0x11937), (0x119d2, 0x119d2), (0x119e4, 0x119e4),
  (0x11cb1, 0x11cb1)], 1⟩

/-- /repo/shaping/uipctables.go:255-275, `UIPC_Left_And_Right`. -/
def UIPC_Left_And_Right : RangeTable := ⟨[
  (0x0, 0x0), (0x9cb, 0x9cc), (0xb4b, 0xb4b), (0xbca, 0xbcc), (0xd4a, 0xd4c), (0xddc, 0xddc),
  (0xdde, 0xdde), (0x17c0, 0x17c0), (0x17c4, 0x17c5), (0x1b40, 0x1b41)], [
  (0x1134b, 0x1134c), (0x114bc, 0x114bc), (0x114be, 0x114be), (0x115ba, 0x115ba)], 1⟩

/-- /repo/shaping/uipctables.go:277-476, `UIPC_Top`. -/
def UIPC_Top : RangeTable := ⟨[
  (0x0, 0x0), (0x900, 0x902), (0x93a, 0x93a), (0x945, 0x948), (0x951, 0x951), (0x953, 0x955),
  (0x981, 0x981), (0x9fe, 0x9fe), (0xa01, 0xa02), (0xa47, 0xa48), (0xa4b, 0xa4c), (0xa70, 0xa71),
  (0xa81, 0xa82), (0xac5, 0xac5), (0xac7, 0xac8), (0xafa, 0xaff), (0xb01, 0xb01), (0xb3f, 0xb3f),
  (0xb55, 0xb56), (0xb82, 0xb82), (0xbc0, 0xbc0), (0xbcd, 0xbcd), (0xc00, 0xc00), (0xc04, 0xc04),
  (0xc3e, 0xc40), (0xc46, 0xc47), (0xc4a, 0xc4d), (0xc55, 0xc55), (0xc81, 0xc81), (0xcbf, 0xcbf),
  (0xcc6, 0xcc6), (0xccc, 0xccd), (0xd00, 0xd01), (0xd3b, 0xd3c), (0xd4d, 0xd4e), (0xd81, 0xd81),
  (0xdca, 0xdca), (0xdd2, 0xdd3), (0xe31, 0xe31), (0xe34, 0xe37), (0xe47, 0xe4e), (0xeb1, 0xeb1),
  (0xeb4, 0xeb7), (0xebb, 0xebb), (0xec8, 0xecd), (0xf39, 0xf39), (0xf72, 0xf72), (0xf7a, 0xf7e),
  (0xf80, 0xf80), (0xf82, 0xf83), (0xf86, 0xf87), (0x102d, 0x102e), (0x1032, 0x1036), (0x103a, 0x103a),
  (0x1071, 0x1074), (0x1085, 0x1086), (0x109d, 0x109d), (0x1712, 0x1712), (0x1732, 0x1732), (0x1752, 0x1752),
  (0x1772, 0x1772), (0x17b7, 0x17ba), (0x17c6, 0x17c6), (0x17c9, 0x17d1), (0x17d3, 0x17d3), (0x17dd, 0x17dd),
  (0x1920, 0x1921), (0x1927, 0x1928), (0x193a, 0x193a), (0x1a17, 0x1a17), (0x1a1b, 0x1a1b), (0x1a58, 0x1a5a),
  (0x1a62, 0x1a62), (0x1a65, 0x1a68), (0x1a6b, 0x1a6b), (0x1a73, 0x1a7c), (0x1b00, 0x1b03), (0x1b34, 0x1b34),
  (0x1b36, 0x1b37), (0x1b42, 0x1b42), (0x1b6b, 0x1b6b), (0x1b6d, 0x1b73), (0x1b80, 0x1b81), (0x1ba4, 0x1ba4),
  (0x1ba8, 0x1ba9), (0x1be6, 0x1be6), (0x1be8, 0x1be9), (0x1bed, 0x1bed), (0x1bef, 0x1bf1), (0x1c2d, 0x1c33),
  (0x1c36, 0x1c36), (0x1cd0, 0x1cd2), (0x1cda, 0x1cdb), (0x1ce0, 0x1ce0), (0x1cf4, 0x1cf4), (0x1dfb, 0x1dfb),
  (0x20f0, 0x20f0), (0xa802, 0xa802), (0xa806, 0xa806), (0xa80b, 0xa80b), (0xa826, 0xa826), (0xa8c5, 0xa8c5),
  (0xa8e0, 0xa8f1), (0xa8ff, 0xa8ff), (0xa94a, 0xa94a), (0xa94f, 0xa951), (0xa980, 0xa982), (0xa9b3, 0xa9b3),
  (0xa9b6, 0xa9b7), (0xa9bc, 0xa9bc), (0xa9e5, 0xa9e5), (0xaa29, 0xaa2c), (0xaa2e, 0xaa2e), (0xaa31, 0xaa31),
  (0xaa43, 0xaa43), (0xaa4c, 0xaa4c), (0xaa7c, 0xaa7c), (0xaab0, 0xaab0), (0xaab2, 0xaab3), (0xaab7, 0xaab8),
  (0xaabe, 0xaabf), (0xaac1, 0xaac1), (0xaaed, 0xaaed), (0xabe5, 0xabe5)], [
  (0x10a05, 0x10a05), (0x10a0f, 0x10a0f), (0x10a38, 0x10a38), (0x11001, 0x11001), (0x11038, 0x1103b), (0x11042, 0x11046),
  (0x11080, 0x11081), (0x110b5, 0x110b6), (0x11100, 0x11102), (0x11127, 0x11129), (0x1112d, 0x1112d), (0x11130, 0x11130),
  (0x11134, 0x11134), (0x11180, 0x11181), (0x111bc, 0x111be), (0x111c2, 0x111c3), (0x111cb, 0x111cb), (0x111cf, 0x111cf),
  (0x11230, 0x11231), (0x11234, 0x11234), (0x11236, 0x11237), (0x1123e, 0x1123e), (0x112df, 0x112df), (0x112e5, 0x112e8),
  (0x11300, 0x11301), (0x11340, 0x11340), (0x11366, 0x1136c), (0x11370, 0x11374), (0x1143e, 0x1143f), (0x11443, 0x11444),
  (0x1145e, 0x1145e), (0x114ba, 0x114ba), (0x114bf, 0x114c0), (0x115bc, 0x115bd), (0x11639, 0x1163a), (0x1163d, 0x1163d),
  (0x11640, 0x11640), (0x116ab, 0x116ab), (0x116ad, 0x116ad), (0x116b2, 0x116b5), (0x1171f, 0x1171f), (0x11722, 0x11723),
  (0x11727, 0x11727), (0x11729, 0x1172b), (0x11833, 0x11837), (0x1193b, 0x1193c), (0x1193f, 0x1193f), (0x11941, 0x11941),
  (0x119da, 0x119db), (0x11a01, 0x11a01), (0x11a04, 0x11a09), (0x11a35, 0x11a38), (0x11a3a, 0x11a3a), (0x11a51, 0x11a51),
  (0x11a54, 0x11a56), (0x11a84, 0x11a89), (0x11a96, 0x11a96), (0x11a98, 0x11a98), (0x11c30, 0x11c31), (0x11c38, 0x11c3d),
  (0x11cb3, 0x11cb3), (0x11cb5, 0x11cb6), (0x11d31, 0x11d35), (0x11d3a, 0x11d3a), (0x11d3c, 0x11d3d), (0x11d3f, 0x11d41),
  (0x11d43, 0x11d43), (0x11d90, 0x11d91), (0x11d95, 0x11d95)], 1⟩

/-- /repo/shaping/uipctables.go:478-648, `UIPC_Right`. -/
def UIPC_Right : RangeTable := ⟨[
  (0x0, 0x0), (0x903, 0x903), (0x93b, 0x93b), (0x93e, 0x93e), (0x940, 0x940), (0x949, 0x94c),
  (0x94f, 0x94f), (0x982, 0x983), (0x9be, 0x9be), (0x9c0, 0x9c0), (0x9d7, 0x9d7), (0xa03, 0xa03),
  (0xa3e, 0xa3e), (0xa40, 0xa40), (0xa83, 0xa83), (0xabe, 0xabe), (0xac0, 0xac0), (0xacb, 0xacc),
  (0xb02, 0xb03), (0xb3e, 0xb3e), (0xb40, 0xb40), (0xbbe, 0xbbf), (0xbc1, 0xbc2), (0xbd7, 0xbd7),
  (0xc01, 0xc03), (0xc41, 0xc44), (0xc82, 0xc83), (0xcbe, 0xcbe), (0xcc1, 0xcc4), (0xcd5, 0xcd6),
  (0xd02, 0xd03), (0xd3e, 0xd42), (0xd57, 0xd57), (0xd82, 0xd83), (0xdcf, 0xdd1), (0xdd8, 0xdd8),
  (0xddf, 0xddf), (0xdf2, 0xdf3), (0xe30, 0xe30), (0xe32, 0xe33), (0xe45, 0xe45), (0xeb0, 0xeb0),
  (0xeb2, 0xeb3), (0xf3e, 0xf3e), (0xf7f, 0xf7f), (0x102b, 0x102c), (0x1038, 0x1038), (0x103b, 0x103b),
  (0x1056, 0x1057), (0x1062, 0x1064), (0x1067, 0x106d), (0x1083, 0x1083), (0x1087, 0x108c), (0x108f, 0x108f),
  (0x109a, 0x109c), (0x17b6, 0x17b6), (0x17c7, 0x17c8), (0x1923, 0x1924), (0x1929, 0x192b), (0x1930, 0x1931),
  (0x1933, 0x1938), (0x19b0, 0x19b4), (0x19b8, 0x19b9), (0x19bb, 0x19c0), (0x19c8, 0x19c9), (0x1a1a, 0x1a1a),
  (0x1a57, 0x1a57), (0x1a61, 0x1a61), (0x1a63, 0x1a64), (0x1a6d, 0x1a6d), (0x1b04, 0x1b04), (0x1b35, 0x1b35),
  (0x1b44, 0x1b44), (0x1b82, 0x1b82), (0x1ba1, 0x1ba1), (0x1ba7, 0x1ba7), (0x1baa, 0x1baa), (0x1be7, 0x1be7),
  (0x1bea, 0x1bec), (0x1bee, 0x1bee), (0x1bf2, 0x1bf3), (0x1c24, 0x1c26), (0x1c2a, 0x1c2b), (0x1ce1, 0x1ce1),
  (0x1cf7, 0x1cf7), (0xa823, 0xa824), (0xa827, 0xa827), (0xa880, 0xa881), (0xa8b4, 0xa8c3), (0xa952, 0xa953),
  (0xa983, 0xa983), (0xa9b4, 0xa9b5), (0xaa33, 0xaa33), (0xaa4d, 0xaa4d), (0xaa7b, 0xaa7b), (0xaa7d, 0xaa7d),
  (0xaab1, 0xaab1), (0xaaba, 0xaaba), (0xaabd, 0xaabd), (0xaaef, 0xaaef), (0xaaf5, 0xaaf5), (0xabe3, 0xabe4),
  (0xabe6, 0xabe7), (0xabe9, 0xabea), (0xabec, 0xabec)], [
  (0x11000, 0x11000), (0x11002, 0x11002), (0x11082, 0x11082), (0x110b0, 0x110b0), (0x110b2, 0x110b2), (0x110b7, 0x110b8),
  (0x11145, 0x11146), (0x11182, 0x11182), (0x111b3, 0x111b3), (0x111b5, 0x111b5), (0x111c0, 0x111c0), (0x1122c, 0x1122e),
  (0x11235, 0x11235), (0x112e0, 0x112e0), (0x112e2, 0x112e2), (0x11302, 0x11303), (0x1133e, 0x1133f), (0x11341, 0x11344),
  (0x1134d, 0x1134d), (0x11357, 0x11357), (0x11362, 0x11363), (0x11435, 0x11435), (0x11437, 0x11437), (0x11440, 0x11441),
  (0x11445, 0x11445), (0x114b0, 0x114b0), (0x114b2, 0x114b2), (0x114bd, 0x114bd), (0x114c1, 0x114c1), (0x115af, 0x115af),
  (0x115b1, 0x115b1), (0x115be, 0x115be), (0x11630, 0x11632), (0x1163b, 0x1163c), (0x1163e, 0x1163e), (0x116ac, 0x116ac),
  (0x116af, 0x116af), (0x116b6, 0x116b6), (0x11720, 0x11721), (0x1182c, 0x1182c), (0x1182e, 0x1182e), (0x11838, 0x11838),
  (0x11930, 0x11934), (0x1193d, 0x1193d), (0x11940, 0x11940), (0x119d1, 0x119d1), (0x119d3, 0x119d3), (0x119dc, 0x119df),
  (0x11a39, 0x11a39), (0x11a57, 0x11a58), (0x11a97, 0x11a97), (0x11c2f, 0x11c2f), (0x11c3e, 0x11c3e), (0x11ca9, 0x11ca9),
  (0x11cb4, 0x11cb4), (0x11d46, 0x11d46), (0x11d8a, 0x11d8e), (0x11d93, 0x11d94), (0x11d96, 0x11d96)], 1⟩

/-- /repo/shaping/uipctables.go:650-658, `UIPC_Top_And_Left_And_Right`. -/
def UIPC_Top_And_Left_And_Right : RangeTable := ⟨[
  (0x0, 0x0), (0xb4c, 0xb4c), (0xddd, 0xddd), (0x17bf, 0x17bf)], [], 1⟩

/-- /repo/shaping/uipctables.go:660-664, `UIPC_Top_And_Bottom_And_Right`. -/
def UIPC_Top_And_Bottom_And_Right : RangeTable := ⟨[
  (0x0, 0x0)], [], 0⟩

/-- /repo/shaping/uipctables.go:666-677, `UIPC_Visual_Order_Left`. -/
def UIPC_Visual_Order_Left : RangeTable := ⟨[
  (0x0, 0x0), (0xe40, 0xe44), (0xec0, 0xec4), (0x19b5, 0x19b7), (0x19ba, 0x19ba), (0xaab5, 0xaab6),
  (0xaab9, 0xaab9)], [], 1⟩

/-- /repo/shaping/uipctables.go:679-694, `UIPC_Top_And_Right`. -/
def UIPC_Top_And_Right : RangeTable := ⟨[
  (0x0, 0x0), (0xac9, 0xac9), (0xb57, 0xb57), (0xcc0, 0xcc0), (0xcc7, 0xcc8), (0xcca, 0xccb),
  (0x1925, 0x1926), (0x1b43, 0x1b43)], [
  (0x111bf, 0x111bf)], 1⟩

/-- /repo/shaping/uipctables.go:696-708, `UIPC_Top_And_Left`. -/
def UIPC_Top_And_Left : RangeTable := ⟨[
  (0x0, 0x0), (0xb48, 0xb48), (0xdda, 0xdda), (0x17be, 0x17be), (0x1c29, 0x1c29)], [
  (0x114bb, 0x114bb)], 1⟩

/-- /repo/shaping/uipctables.go:710-714, `UIPC_Bottom_And_Left`. -/
def UIPC_Bottom_And_Left : RangeTable := ⟨[
  (0x0, 0x0)], [], 0⟩

/-- All tables of the file, with their public names. -/
def positional : List (String × RangeTable) := [
  ("UIPC_Bottom", UIPC_Bottom),
  ("UIPC_Top_And_Bottom", UIPC_Top_And_Bottom),
  ("UIPC_Bottom_And_Right", UIPC_Bottom_And_Right),
  ("UIPC_Top_And_Bottom_And_Left", UIPC_Top_And_Bottom_And_Left),
  ("UIPC_Overstruck", UIPC_Overstruck),
  ("UIPC_Left", UIPC_Left),
  ("UIPC_Left_And_Right", UIPC_Left_And_Right),
  ("UIPC_Top", UIPC_Top),
  ("UIPC_Right", UIPC_Right),
  ("UIPC_Top_And_Left_And_Right", UIPC_Top_And_Left_And_Right),
  ("UIPC_Top_And_Bottom_And_Right", UIPC_Top_And_Bottom_And_Right),
  ("UIPC_Visual_Order_Left", UIPC_Visual_Order_Left),
  ("UIPC_Top_And_Right", UIPC_Top_And_Right),
  ("UIPC_Top_And_Left", UIPC_Top_And_Left),
  ("UIPC_Bottom_And_Left", UIPC_Bottom_And_Left)]

end Uax.Shaping
