import Verif.RangeTable

/-
Generated by tools/gentables.py from /repo/shaping/uisctables.go: the literals and the variables which publish them.
All ranges have stride 1.
-/

namespace Uax.Shaping

/-- /repo/shaping/uisctables.go:7-39, `UISC_Nukta`. -/
def UISC_Nukta : RangeTable := ⟨[
  (0x0, 0x0), (0x93c, 0x93c), (0x9bc, 0x9bc), (0xa3c, 0xa3c), (0xabc, 0xabc), (0xafd, 0xaff),
  (0xb3c, 0xb3c), (0xcbc, 0xcbc), (0xf39, 0xf39), (0x1b34, 0x1b34), (0x1be6, 0x1be6), (0x1c37, 0x1c37),
  (0xa9b3, 0xa9b3)], [
  (0x10a38, 0x10a3a), (0x110ba, 0x110ba), (0x11173, 0x11173), (0x111ca, 0x111ca), (0x11236, 0x11236), (0x112e9, 0x112e9),
  (0x1133b, 0x1133c), (0x11446, 0x11446), (0x114c3, 0x114c3), (0x115c0, 0x115c0), (0x116b7, 0x116b7), (0x1183a, 0x1183a),
  (0x11943, 0x11943)], 1⟩

/-- /repo/shaping/uisctables.go:41-51, `UISC_Consonant_Prefixed`. -/
def UISC_Consonant_Prefixed : RangeTable := ⟨[
  (0x0, 0x0)], [
  (0x111c2, 0x111c3), (0x1193f, 0x1193f), (0x11a3a, 0x11a3a)], 1⟩

/-- /repo/shaping/uisctables.go:53-57, `UISC_Modifying_Letter`. -/
def UISC_Modifying_Letter : RangeTable := ⟨[
  (0x0, 0x0)], [], 0⟩

/-- /repo/shaping/uisctables.go:59-78, `UISC_Tone_Mark`. -/
def UISC_Tone_Mark : RangeTable := ⟨[
  (0x0, 0x0), (0xe48, 0xe4b), (0xec8, 0xecb), (0x1037, 0x1037), (0x1063, 0x1064), (0x1069, 0x106d),
  (0x1087, 0x108d), (0x108f, 0x108f), (0x109a, 0x109b), (0x19c8, 0x19c9), (0x1a75, 0x1a79), (0xa92b, 0xa92d),
  (0xaa7b, 0xaa7d), (0xaabf, 0xaabf), (0xaac1, 0xaac1)], [], 1⟩

/-- /repo/shaping/uisctables.go:80-89, `UISC_Gemination_Mark`. -/
def UISC_Gemination_Mark : RangeTable := ⟨[
  (0x0, 0x0), (0xa71, 0xa71)], [
  (0x11237, 0x11237)], 1⟩

/-- /repo/shaping/uisctables.go:91-132, `UISC_Visarga`. -/
def UISC_Visarga : RangeTable := ⟨[
  (0x0, 0x0), (0x903, 0x903), (0x983, 0x983), (0xa03, 0xa03), (0xa83, 0xa83), (0xb03, 0xb03),
  (0xc03, 0xc03), (0xc83, 0xc83), (0xd03, 0xd03), (0xd83, 0xd83), (0xf7f, 0xf7f), (0x1038, 0x1038),
  (0x17c7, 0x17c7), (0x1b04, 0x1b04), (0x1b82, 0x1b82), (0xa881, 0xa881), (0xa983, 0xa983), (0xaaf5, 0xaaf5)], [
  (0x10a0f, 0x10a0f), (0x11002, 0x11002), (0x11082, 0x11082), (0x11102, 0x11102), (0x11182, 0x11182), (0x11303, 0x11303),
  (0x11445, 0x11445), (0x114c1, 0x114c1), (0x115be, 0x115be), (0x1163e, 0x1163e), (0x116ac, 0x116ac), (0x11838, 0x11838),
  (0x119df, 0x119df), (0x11a39, 0x11a39), (0x11a97, 0x11a97), (0x11c3e, 0x11c3e), (0x11d41, 0x11d41)], 1⟩

/-- /repo/shaping/uisctables.go:134-149, `UISC_Consonant_Final`. -/
def UISC_Consonant_Final : RangeTable := ⟨[
  (0x0, 0x0), (0x1930, 0x1931), (0x1933, 0x1939), (0x19c1, 0x19c7), (0x1a58, 0x1a59), (0x1bbe, 0x1bbf),
  (0x1bf0, 0x1bf1), (0x1c2d, 0x1c33), (0xa94f, 0xa952), (0xaa40, 0xaa4d), (0xabdb, 0xabe2)], [], 1⟩

/-- /repo/shaping/uisctables.go:151-202, `UISC_Number`. -/
def UISC_Number : RangeTable := ⟨[
  (0x0, 0x0), (0x30, 0x39), (0x966, 0x96f), (0x9e6, 0x9ef), (0xa66, 0xa6f), (0xae6, 0xaef),
  (0xb66, 0xb6f), (0xbe6, 0xbef), (0xc66, 0xc6f), (0xce6, 0xcef), (0xd66, 0xd6f), (0xde6, 0xdef),
  (0xe50, 0xe59), (0xed0, 0xed9), (0xf20, 0xf33), (0x1040, 0x1049), (0x1090, 0x1099), (0x17e0, 0x17e9),
  (0x1946, 0x194f), (0x19d0, 0x19da), (0x1a80, 0x1a89), (0x1a90, 0x1a99), (0x1b50, 0x1b59), (0x1bb0, 0x1bb9),
  (0x1c40, 0x1c49), (0xa8d0, 0xa8d9), (0xa900, 0xa909), (0xa9d0, 0xa9d9), (0xa9f0, 0xa9f9), (0xaa50, 0xaa59),
  (0xabf0, 0xabf9)], [
  (0x10a40, 0x10a48), (0x11066, 0x1106f), (0x11136, 0x1113f), (0x111d0, 0x111d9), (0x111e1, 0x111f4), (0x112f0, 0x112f9),
  (0x11450, 0x11459), (0x114d0, 0x114d9), (0x11650, 0x11659), (0x116c0, 0x116c9), (0x11730, 0x1173b), (0x11950, 0x11959),
  (0x11c50, 0x11c6c), (0x11d50, 0x11d59)], 2⟩

/-- /repo/shaping/uisctables.go:204-231, `UISC_Pure_Killer`. -/
def UISC_Pure_Killer : RangeTable := ⟨[
  (0x0, 0x0), (0xd3b, 0xd3c), (0xe3a, 0xe3a), (0xe4e, 0xe4e), (0xeba, 0xeba), (0xf84, 0xf84),
  (0x103a, 0x103a), (0x1714, 0x1714), (0x1734, 0x1734), (0x17d1, 0x17d1), (0x1a7a, 0x1a7a), (0x1baa, 0x1baa),
  (0x1bf2, 0x1bf3), (0xa82c, 0xa82c), (0xa953, 0xa953), (0xabed, 0xabed)], [
  (0x11134, 0x11134), (0x112ea, 0x112ea), (0x1172b, 0x1172b), (0x1193d, 0x1193d), (0x11a34, 0x11a34)], 1⟩

/-- /repo/shaping/uisctables.go:233-326, `UISC_Vowel_Independent`. -/
def UISC_Vowel_Independent : RangeTable := ⟨[
  (0x0, 0x0), (0x904, 0x914), (0x960, 0x961), (0x972, 0x977), (0x985, 0x98c), (0x98f, 0x990),
  (0x993, 0x994), (0x9e0, 0x9e1), (0xa05, 0xa0a), (0xa0f, 0xa10), (0xa13, 0xa14), (0xa85, 0xa8d),
  (0xa8f, 0xa91), (0xa93, 0xa94), (0xae0, 0xae1), (0xb05, 0xb0c), (0xb0f, 0xb10), (0xb13, 0xb14),
  (0xb60, 0xb61), (0xb85, 0xb8a), (0xb8e, 0xb90), (0xb92, 0xb94), (0xc05, 0xc0c), (0xc0e, 0xc10),
  (0xc12, 0xc14), (0xc60, 0xc61), (0xc85, 0xc8c), (0xc8e, 0xc90), (0xc92, 0xc94), (0xce0, 0xce1),
  (0xd05, 0xd0c), (0xd0e, 0xd10), (0xd12, 0xd14), (0xd5f, 0xd61), (0xd85, 0xd96), (0x1021, 0x102a),
  (0x1052, 0x1055), (0x1700, 0x1702), (0x1720, 0x1722), (0x1740, 0x1742), (0x1760, 0x1762), (0x17a3, 0x17b3),
  (0x1a4d, 0x1a52), (0x1b05, 0x1b12), (0x1b83, 0x1b89), (0x1be4, 0x1be5), (0xa800, 0xa801), (0xa803, 0xa805),
  (0xa882, 0xa891), (0xa8fe, 0xa8fe), (0xa984, 0xa988), (0xa98c, 0xa98e), (0xaa00, 0xaa05), (0xaae0, 0xaae1),
  (0xabce, 0xabcf), (0xabd1, 0xabd1)], [
  (0x11005, 0x11012), (0x11083, 0x1108c), (0x11103, 0x11106), (0x11183, 0x11190), (0x11200, 0x11207), (0x11280, 0x11283),
  (0x112b0, 0x112b9), (0x11305, 0x1130c), (0x1130f, 0x11310), (0x11313, 0x11314), (0x11360, 0x11361), (0x11400, 0x1140d),
  (0x11481, 0x1148e), (0x11580, 0x1158d), (0x115d8, 0x115db), (0x11600, 0x1160d), (0x11680, 0x11689), (0x11800, 0x11809),
  (0x11900, 0x11906), (0x11909, 0x11909), (0x119a0, 0x119a7), (0x119aa, 0x119ad), (0x11a00, 0x11a00), (0x11a50, 0x11a50),
  (0x11c00, 0x11c08), (0x11c0a, 0x11c0d), (0x11d00, 0x11d06), (0x11d08, 0x11d09), (0x11d0b, 0x11d0b), (0x11d60, 0x11d65),
  (0x11d67, 0x11d68)], 1⟩

/-- /repo/shaping/uisctables.go:328-349, `UISC_Consonant_Placeholder`. -/
def UISC_Consonant_Placeholder : RangeTable := ⟨[
  (0x0, 0x0), (0x2d, 0x2d), (0xa0, 0xa0), (0xd7, 0xd7), (0x980, 0x980), (0xa72, 0xa73),
  (0x104b, 0x104b), (0x104e, 0x104e), (0x1900, 0x1900), (0x1cfa, 0x1cfa), (0x2010, 0x2014), (0x25cc, 0x25cc),
  (0xaa74, 0xaa76)], [
  (0x11a3f, 0x11a3f), (0x11a45, 0x11a45)], 4⟩

/-- /repo/shaping/uisctables.go:351-355, `UISC_Consonant_Head_Letter`. -/
def UISC_Consonant_Head_Letter : RangeTable := ⟨[
  (0x0, 0x0)], [], 0⟩

/-- /repo/shaping/uisctables.go:357-361, `UISC_Non_Joiner`. -/
def UISC_Non_Joiner : RangeTable := ⟨[
  (0x0, 0x0)], [], 0⟩

/-- /repo/shaping/uisctables.go:363-381, `UISC_Invisible_Stacker`. -/
def UISC_Invisible_Stacker : RangeTable := ⟨[
  (0x0, 0x0), (0x1039, 0x1039), (0x17d2, 0x17d2), (0x1a60, 0x1a60), (0x1bab, 0x1bab), (0xaaf6, 0xaaf6)], [
  (0x10a3f, 0x10a3f), (0x11133, 0x11133), (0x1193e, 0x1193e), (0x11a47, 0x11a47), (0x11a99, 0x11a99), (0x11d45, 0x11d45)], 1⟩

/-- /repo/shaping/uisctables.go:383-387, `UISC_Consonant_Initial_Postfixed`. -/
def UISC_Consonant_Initial_Postfixed : RangeTable := ⟨[
  (0x0, 0x0)], [], 0⟩

/-- /repo/shaping/uisctables.go:389-393, `UISC_Joiner`. -/
def UISC_Joiner : RangeTable := ⟨[
  (0x0, 0x0)], [], 0⟩

/-- /repo/shaping/uisctables.go:395-457, `UISC_Bindu`. -/
def UISC_Bindu : RangeTable := ⟨[
  (0x0, 0x0), (0x900, 0x902), (0x981, 0x982), (0x9fc, 0x9fc), (0xa01, 0xa02), (0xa70, 0xa70),
  (0xa81, 0xa82), (0xb01, 0xb02), (0xb82, 0xb82), (0xc00, 0xc02), (0xc04, 0xc04), (0xc80, 0xc82),
  (0xd00, 0xd02), (0xd04, 0xd04), (0xd81, 0xd82), (0xe4d, 0xe4d), (0xecd, 0xecd), (0xf7e, 0xf7e),
  (0xf82, 0xf83), (0x1036, 0x1036), (0x17c6, 0x17c6), (0x1932, 0x1932), (0x1a74, 0x1a74), (0x1b00, 0x1b02),
  (0x1b80, 0x1b80), (0x1c34, 0x1c35), (0xa80b, 0xa80b), (0xa873, 0xa873), (0xa880, 0xa880), (0xa8c5, 0xa8c5),
  (0xa8f2, 0xa8f3), (0xa980, 0xa981)], [
  (0x10a0e, 0x10a0e), (0x11000, 0x11001), (0x11080, 0x11081), (0x11100, 0x11101), (0x11180, 0x11181), (0x111cf, 0x111cf),
  (0x11234, 0x11234), (0x112df, 0x112df), (0x11300, 0x11302), (0x1135e, 0x1135f), (0x11443, 0x11444), (0x1145f, 0x1145f),
  (0x114bf, 0x114c0), (0x115bc, 0x115bd), (0x1163d, 0x1163d), (0x116ab, 0x116ab), (0x11837, 0x11837), (0x1193b, 0x1193c),
  (0x119de, 0x119de), (0x11a35, 0x11a38), (0x11a96, 0x11a96), (0x11c3c, 0x11c3d), (0x11cb5, 0x11cb6), (0x11d40, 0x11d40)], 1⟩

/-- /repo/shaping/uisctables.go:459-492, `UISC_Virama`. -/
def UISC_Virama : RangeTable := ⟨[
  (0x0, 0x0), (0x94d, 0x94d), (0x9cd, 0x9cd), (0xa4d, 0xa4d), (0xacd, 0xacd), (0xb4d, 0xb4d),
  (0xbcd, 0xbcd), (0xc4d, 0xc4d), (0xccd, 0xccd), (0xd4d, 0xd4d), (0xdca, 0xdca), (0x1b44, 0x1b44),
  (0xa806, 0xa806), (0xa8c4, 0xa8c4), (0xa9c0, 0xa9c0)], [
  (0x11046, 0x11046), (0x110b9, 0x110b9), (0x111c0, 0x111c0), (0x11235, 0x11235), (0x1134d, 0x1134d), (0x11442, 0x11442),
  (0x114c2, 0x114c2), (0x115bf, 0x115bf), (0x1163f, 0x1163f), (0x116b6, 0x116b6), (0x11839, 0x11839), (0x119e0, 0x119e0)], 1⟩

/-- /repo/shaping/uisctables.go:494-632, `UISC_Vowel_Dependent`. -/
def UISC_Vowel_Dependent : RangeTable := ⟨[
  (0x0, 0x0), (0x93a, 0x93b), (0x93e, 0x94c), (0x94e, 0x94f), (0x955, 0x957), (0x962, 0x963),
  (0x9be, 0x9c4), (0x9c7, 0x9c8), (0x9cb, 0x9cc), (0x9d7, 0x9d7), (0x9e2, 0x9e3), (0xa3e, 0xa42),
  (0xa47, 0xa48), (0xa4b, 0xa4c), (0xabe, 0xac5), (0xac7, 0xac9), (0xacb, 0xacc), (0xae2, 0xae3),
  (0xb3e, 0xb44), (0xb47, 0xb48), (0xb4b, 0xb4c), (0xb55, 0xb57), (0xb62, 0xb63), (0xbbe, 0xbc2),
  (0xbc6, 0xbc8), (0xbca, 0xbcc), (0xbd7, 0xbd7), (0xc3e, 0xc44), (0xc46, 0xc48), (0xc4a, 0xc4c),
  (0xc55, 0xc56), (0xc62, 0xc63), (0xcbe, 0xcc4), (0xcc6, 0xcc8), (0xcca, 0xccc), (0xcd5, 0xcd6),
  (0xce2, 0xce3), (0xd3e, 0xd44), (0xd46, 0xd48), (0xd4a, 0xd4c), (0xd57, 0xd57), (0xd62, 0xd63),
  (0xdcf, 0xdd4), (0xdd6, 0xdd6), (0xdd8, 0xddf), (0xdf2, 0xdf3), (0xe30, 0xe39), (0xe40, 0xe45),
  (0xe47, 0xe47), (0xeb0, 0xeb9), (0xebb, 0xebb), (0xec0, 0xec4), (0xf71, 0xf7d), (0xf80, 0xf81),
  (0x102b, 0x1035), (0x1056, 0x1059), (0x1062, 0x1062), (0x1067, 0x1068), (0x1071, 0x1074), (0x1083, 0x1086),
  (0x109c, 0x109d), (0x1712, 0x1713), (0x1732, 0x1733), (0x1752, 0x1753), (0x1772, 0x1773), (0x17b6, 0x17c5),
  (0x17c8, 0x17c8), (0x1920, 0x1928), (0x193a, 0x193a), (0x19b0, 0x19c0), (0x1a17, 0x1a1b), (0x1a61, 0x1a73),
  (0x1b35, 0x1b43), (0x1ba4, 0x1ba9), (0x1be7, 0x1bef), (0x1c26, 0x1c2c), (0xa802, 0xa802), (0xa823, 0xa827),
  (0xa8b5, 0xa8c3), (0xa8ff, 0xa8ff), (0xa947, 0xa94e), (0xa9b4, 0xa9bc), (0xa9e5, 0xa9e5), (0xaa29, 0xaa32),
  (0xaab0, 0xaabe), (0xaaeb, 0xaaef), (0xabe3, 0xabea)], [
  (0x10a01, 0x10a03), (0x10a05, 0x10a06), (0x10a0c, 0x10a0d), (0x11038, 0x11045), (0x110b0, 0x110b8), (0x11127, 0x11132),
  (0x11145, 0x11146), (0x111b3, 0x111bf), (0x111cb, 0x111cc), (0x111ce, 0x111ce), (0x1122c, 0x11233), (0x112e0, 0x112e8),
  (0x1133e, 0x11344), (0x11347, 0x11348), (0x1134b, 0x1134c), (0x11357, 0x11357), (0x11362, 0x11363), (0x11435, 0x11441),
  (0x114b0, 0x114be), (0x115af, 0x115b5), (0x115b8, 0x115bb), (0x115dc, 0x115dd), (0x11630, 0x1163c), (0x11640, 0x11640),
  (0x116ad, 0x116b5), (0x11720, 0x1172a), (0x1182c, 0x11836), (0x11930, 0x11935), (0x11937, 0x11938), (0x119d1, 0x119d7),
  (0x119da, 0x119dd), (0x119e4, 0x119e4), (0x11a01, 0x11a0a), (0x11a51, 0x11a5b), (0x11c2f, 0x11c36), (0x11c38, 0x11c3b),
  (0x11cb0, 0x11cb4), (0x11d31, 0x11d36), (0x11d3a, 0x11d3a), (0x11d3c, 0x11d3d), (0x11d3f, 0x11d3f), (0x11d43, 0x11d43),
  (0x11d8a, 0x11d8e), (0x11d90, 0x11d91), (0x11d93, 0x11d94)], 1⟩

/-- /repo/shaping/uisctables.go:634-793, `UISC_Consonant`. -/
def UISC_Consonant : RangeTable := ⟨[
  (0x0, 0x0), (0x915, 0x939), (0x958, 0x95f), (0x978, 0x97f), (0x995, 0x9a8), (0x9aa, 0x9b0),
  (0x9b2, 0x9b2), (0x9b6, 0x9b9), (0x9dc, 0x9dd), (0x9df, 0x9df), (0x9f0, 0x9f1), (0xa15, 0xa28),
  (0xa2a, 0xa30), (0xa32, 0xa33), (0xa35, 0xa36), (0xa38, 0xa39), (0xa59, 0xa5c), (0xa5e, 0xa5e),
  (0xa95, 0xaa8), (0xaaa, 0xab0), (0xab2, 0xab3), (0xab5, 0xab9), (0xaf9, 0xaf9), (0xb15, 0xb28),
  (0xb2a, 0xb30), (0xb32, 0xb33), (0xb35, 0xb39), (0xb5c, 0xb5d), (0xb5f, 0xb5f), (0xb71, 0xb71),
  (0xb95, 0xb95), (0xb99, 0xb9a), (0xb9c, 0xb9c), (0xb9e, 0xb9f), (0xba3, 0xba4), (0xba8, 0xbaa),
  (0xbae, 0xbb9), (0xc15, 0xc28), (0xc2a, 0xc39), (0xc58, 0xc5a), (0xc95, 0xca8), (0xcaa, 0xcb3),
  (0xcb5, 0xcb9), (0xcde, 0xcde), (0xd15, 0xd3a), (0xd9a, 0xdb1), (0xdb3, 0xdbb), (0xdbd, 0xdbd),
  (0xdc0, 0xdc6), (0xe01, 0xe2e), (0xe81, 0xe82), (0xe84, 0xe84), (0xe86, 0xe8a), (0xe8c, 0xea3),
  (0xea5, 0xea5), (0xea7, 0xeae), (0xedc, 0xedf), (0xf40, 0xf47), (0xf49, 0xf6c), (0x1000, 0x1020),
  (0x103f, 0x103f), (0x1050, 0x1051), (0x105a, 0x105d), (0x1061, 0x1061), (0x1065, 0x1066), (0x106e, 0x1070),
  (0x1075, 0x1081), (0x108e, 0x108e), (0x1703, 0x170c), (0x170e, 0x1711), (0x1723, 0x1731), (0x1743, 0x1751),
  (0x1763, 0x176c), (0x176e, 0x1770), (0x1780, 0x17a2), (0x1901, 0x191e), (0x1950, 0x1962), (0x1980, 0x19ab),
  (0x1a00, 0x1a16), (0x1a20, 0x1a4c), (0x1a53, 0x1a54), (0x1b13, 0x1b33), (0x1b45, 0x1b4b), (0x1b8a, 0x1ba0),
  (0x1bae, 0x1baf), (0x1bbb, 0x1bbd), (0x1bc0, 0x1be3), (0x1c00, 0x1c23), (0x1c4d, 0x1c4f), (0xa807, 0xa80a),
  (0xa80c, 0xa822), (0xa840, 0xa85d), (0xa862, 0xa865), (0xa869, 0xa870), (0xa872, 0xa872), (0xa892, 0xa8b3),
  (0xa90a, 0xa921), (0xa930, 0xa946), (0xa989, 0xa98b), (0xa98f, 0xa9b2), (0xa9e0, 0xa9e4), (0xa9e7, 0xa9ef),
  (0xa9fa, 0xa9fe), (0xaa06, 0xaa28), (0xaa60, 0xaa6f), (0xaa71, 0xaa73), (0xaa7a, 0xaa7a), (0xaa7e, 0xaaaf),
  (0xaae2, 0xaaea), (0xabc0, 0xabcd), (0xabd0, 0xabd0), (0xabd2, 0xabda)], [
  (0x10a00, 0x10a00), (0x10a10, 0x10a13), (0x10a15, 0x10a17), (0x10a19, 0x10a35), (0x11013, 0x11037), (0x1108d, 0x110af),
  (0x11107, 0x11126), (0x11144, 0x11144), (0x11147, 0x11147), (0x11155, 0x11172), (0x11191, 0x111b2), (0x11208, 0x11211),
  (0x11213, 0x1122b), (0x11284, 0x11286), (0x11288, 0x11288), (0x1128a, 0x1128d), (0x1128f, 0x1129d), (0x1129f, 0x112a8),
  (0x112ba, 0x112de), (0x11315, 0x11328), (0x1132a, 0x11330), (0x11332, 0x11333), (0x11335, 0x11339), (0x1140e, 0x11434),
  (0x1148f, 0x114af), (0x1158e, 0x115ae), (0x1160e, 0x1162f), (0x1168a, 0x116aa), (0x116b8, 0x116b8), (0x11700, 0x1171a),
  (0x1180a, 0x1182b), (0x1190c, 0x11913), (0x11915, 0x11916), (0x11918, 0x1192f), (0x119ae, 0x119d0), (0x11a0b, 0x11a32),
  (0x11a5c, 0x11a83), (0x11c0e, 0x11c2e), (0x11c72, 0x11c8f), (0x11d0c, 0x11d30), (0x11d6c, 0x11d89)], 1⟩

/-- /repo/shaping/uisctables.go:795-804, `UISC_Vowel`. -/
def UISC_Vowel : RangeTable := ⟨[
  (0x0, 0x0), (0x1963, 0x196d), (0xa85e, 0xa861), (0xa866, 0xa866), (0xa922, 0xa92a)], [], 1⟩

/-- /repo/shaping/uisctables.go:806-824, `UISC_Consonant_Subjoined`. -/
def UISC_Consonant_Subjoined : RangeTable := ⟨[
  (0x0, 0x0), (0xf8d, 0xf97), (0xf99, 0xfbc), (0x1929, 0x192b), (0x1a57, 0x1a57), (0x1a5b, 0x1a5e),
  (0x1ba1, 0x1ba3), (0x1bac, 0x1bad), (0x1c24, 0x1c25), (0xa867, 0xa868), (0xa871, 0xa871)], [
  (0x11c92, 0x11ca7)], 1⟩

/-- /repo/shaping/uisctables.go:826-844, `UISC_Cantillation_Mark`. -/
def UISC_Cantillation_Mark : RangeTable := ⟨[
  (0x0, 0x0), (0x951, 0x952), (0xa51, 0xa51), (0xafa, 0xafc), (0x1cd0, 0x1cd2), (0x1cd4, 0x1ce1),
  (0x1cf4, 0x1cf4), (0x1cf7, 0x1cf9), (0x20f0, 0x20f0), (0xa8e0, 0xa8f1)], [
  (0x1123e, 0x1123e), (0x11366, 0x1136c)], 1⟩

/-- /repo/shaping/uisctables.go:846-850, `UISC_Register_Shifter`. -/
def UISC_Register_Shifter : RangeTable := ⟨[
  (0x0, 0x0)], [], 0⟩

/-- /repo/shaping/uisctables.go:852-877, `UISC_Syllable_Modifier`. -/
def UISC_Syllable_Modifier : RangeTable := ⟨[
  (0x0, 0x0), (0xb2, 0xb3), (0x9fe, 0x9fe), (0xf35, 0xf35), (0xf37, 0xf37), (0xfc6, 0xfc6),
  (0x17cb, 0x17cb), (0x17ce, 0x17d0), (0x17d3, 0x17d3), (0x17dd, 0x17dd), (0x193b, 0x193b), (0x1a7b, 0x1a7c),
  (0x1a7f, 0x1a7f), (0x1c36, 0x1c36), (0x1dfb, 0x1dfb), (0x2074, 0x2074), (0x2082, 0x2084)], [
  (0x111c9, 0x111c9), (0x1145e, 0x1145e)], 2⟩

/-- /repo/shaping/uisctables.go:879-883, `UISC_Number_Joiner`. -/
def UISC_Number_Joiner : RangeTable := ⟨[
  (0x0, 0x0)], [], 0⟩

/-- /repo/shaping/uisctables.go:885-908, `UISC_Avagraha`. -/
def UISC_Avagraha : RangeTable := ⟨[
  (0x0, 0x0), (0x93d, 0x93d), (0x9bd, 0x9bd), (0xabd, 0xabd), (0xb3d, 0xb3d), (0xc3d, 0xc3d),
  (0xcbd, 0xcbd), (0xd3d, 0xd3d), (0xf85, 0xf85), (0x17dc, 0x17dc), (0x1bba, 0x1bba)], [
  (0x111c1, 0x111c1), (0x1133d, 0x1133d), (0x11447, 0x11447), (0x114c4, 0x114c4), (0x119e1, 0x119e1), (0x11a9d, 0x11a9d)], 1⟩

/-- /repo/shaping/uisctables.go:910-918, `UISC_Consonant_Dead`. -/
def UISC_Consonant_Dead : RangeTable := ⟨[
  (0x0, 0x0), (0x9ce, 0x9ce), (0xd54, 0xd56), (0xd7a, 0xd7f)], [], 1⟩

/-- /repo/shaping/uisctables.go:920-929, `UISC_Consonant_Preceding_Repha`. -/
def UISC_Consonant_Preceding_Repha : RangeTable := ⟨[
  (0x0, 0x0), (0xd4e, 0xd4e)], [
  (0x11941, 0x11941)], 1⟩

/-- /repo/shaping/uisctables.go:931-951, `UISC_Consonant_Medial`. -/
def UISC_Consonant_Medial : RangeTable := ⟨[
  (0x0, 0x0), (0xa75, 0xa75), (0xebc, 0xebd), (0x103b, 0x103e), (0x105e, 0x1060), (0x1082, 0x1082),
  (0x1a55, 0x1a56), (0xa8b4, 0xa8b4), (0xa9bd, 0xa9bf), (0xaa33, 0xaa36)], [
  (0x1171d, 0x1171f), (0x11940, 0x11940), (0x11942, 0x11942), (0x11a3b, 0x11a3e)], 1⟩

/-- /repo/shaping/uisctables.go:953-959, `UISC_Consonant_Killer`. -/
def UISC_Consonant_Killer : RangeTable := ⟨[
  (0x0, 0x0), (0xe4c, 0xe4c)], [], 1⟩

/-- /repo/shaping/uisctables.go:961-965, `UISC_Brahmi_Joining_Number`. -/
def UISC_Brahmi_Joining_Number : RangeTable := ⟨[
  (0x0, 0x0)], [], 0⟩

/-- /repo/shaping/uisctables.go:967-977, `UISC_Consonant_With_Stacker`. -/
def UISC_Consonant_With_Stacker : RangeTable := ⟨[
  (0x0, 0x0), (0xcf1, 0xcf2), (0x1cf5, 0x1cf6)], [
  (0x11003, 0x11004)], 1⟩

/-- /repo/shaping/uisctables.go:979-987, `UISC_Consonant_Succeeding_Repha`. -/
def UISC_Consonant_Succeeding_Repha : RangeTable := ⟨[
  (0x0, 0x0), (0x17cc, 0x17cc), (0x1b03, 0x1b03), (0x1b81, 0x1b81)], [], 1⟩

/-- /repo/shaping/uisctables.go:989-996, `UISC_Tone_Letter`. -/
def UISC_Tone_Letter : RangeTable := ⟨[
  (0x0, 0x0), (0x1970, 0x1974), (0xaac0, 0xaac0)], [], 1⟩

/-- All tables of the file, with their public names. -/
def syllabic : List (String × RangeTable) := [
  ("UISC_Nukta", UISC_Nukta),
  ("UISC_Consonant_Prefixed", UISC_Consonant_Prefixed),
  ("UISC_Modifying_Letter", UISC_Modifying_Letter),
  ("UISC_Tone_Mark", UISC_Tone_Mark),
  ("UISC_Gemination_Mark", UISC_Gemination_Mark),
  ("UISC_Visarga", UISC_Visarga),
  ("UISC_Consonant_Final", UISC_Consonant_Final),
  ("UISC_Number", UISC_Number),
  ("UISC_Pure_Killer", UISC_Pure_Killer),
  ("UISC_Vowel_Independent", UISC_Vowel_Independent),
  ("UISC_Consonant_Placeholder", UISC_Consonant_Placeholder),
  ("UISC_Consonant_Head_Letter", UISC_Consonant_Head_Letter),
  ("UISC_Non_Joiner", UISC_Non_Joiner),
  ("UISC_Invisible_Stacker", UISC_Invisible_Stacker),
  ("UISC_Consonant_Initial_Postfixed", UISC_Consonant_Initial_Postfixed),
  ("UISC_Joiner", UISC_Joiner),
  ("UISC_Bindu", UISC_Bindu),
  ("UISC_Virama", UISC_Virama),
  ("UISC_Vowel_Dependent", UISC_Vowel_Dependent),
  ("UISC_Consonant", UISC_Consonant),
  ("UISC_Vowel", UISC_Vowel),
  ("UISC_Consonant_Subjoined", UISC_Consonant_Subjoined),
  ("UISC_Cantillation_Mark", UISC_Cantillation_Mark),
  ("UISC_Register_Shifter", UISC_Register_Shifter),
  ("UISC_Syllable_Modifier", UISC_Syllable_Modifier),
  ("UISC_Number_Joiner", UISC_Number_Joiner),
  ("UISC_Avagraha", UISC_Avagraha),
  ("UISC_Consonant_Dead", UISC_Consonant_Dead),
  ("UISC_Consonant_Preceding_Repha", UISC_Consonant_Preceding_Repha),
  ("UISC_Consonant_Medial", UISC_Consonant_Medial),
  ("UISC_Consonant_Killer", UISC_Consonant_Killer),
  ("UISC_Brahmi_Joining_Number", UISC_Brahmi_Joining_Number),
  ("UISC_Consonant_With_Stacker", UISC_Consonant_With_Stacker),
  ("UISC_Consonant_Succeeding_Repha", UISC_Consonant_Succeeding_Repha),
  ("UISC_Tone_Letter", UISC_Tone_Letter)]

end Uax.Shaping
