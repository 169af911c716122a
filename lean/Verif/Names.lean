import Verif.BidiReorder

/-
Model of the String methods for classes, directions, kinds of tokens and
results of the bidi algorithm: /repo/grapheme/graphemeclasses.go,
/repo/uax29/uax29classes.go, /repo/emoji/emojiclasses.go,
/repo/internal/ucdparse/tokentype_string.go, /repo/bidi/scanner.go,
/repo/bidi/doc.go and /repo/bidi/reordering.go.

A class is an index into a table of positions in one long string. Strings are
lists of characters; as all characters are ASCII, these are the bytes. A slice
or an index out of range is a panic, `none`.
-/
namespace Uax.Names

/-- The slice `s[a:b]` of a string (graphemeclasses.go:64, uax29classes.go:69, emojiclasses.go:46,
tokentype_string.go:27, scanner.go:436, 440). -/
def slice (s : List Char) (a b : Nat) : Option (List Char) :=
  if a ≤ b ∧ b ≤ s.length then some ((s.take b).drop a) else none

/-- `name[index[i]:index[i+1]]`, the last line of the String methods (graphemeclasses.go:64,
uax29classes.go:69, emojiclasses.go:46, tokentype_string.go:27, scanner.go:436, 440). -/
def entry (name : List Char) (index : List Nat) (i : Nat) : Option (List Char) :=
  match index[i]?, index[i + 1]? with
  | some a, some b => slice name a b
  | _, _ => none

/-- strconv.FormatInt with base 10, as used in graphemeclasses.go:62, uax29classes.go:67, emojiclasses.go:44,
tokentype_string.go:25, scanner.go:438. -/
def formatInt (i : Int) : List Char := i.repr.toList

/-- _GraphemeClass_name, graphemeclasses.go:48 -/
def graphemeName : List Char := "CRClassLFClassPrependClassControlClassExtendClassRegional_IndicatorClassSpacingMarkClassLClassVClassTClassLVClassLVTClassZWJClass".toList

/-- _GraphemeClass_index, graphemeclasses.go:50-51 -/
def graphemeIndex : List Nat := [0, 7, 14, 26, 38, 49, 72, 88, 94, 100, 106, 113, 121, 129]

/-- GraphemeClass.String, graphemeclasses.go:54-65; sot, eot and Any are 1000, 1001 and 999 (lines 37-39). -/
def graphemeString (c : Int) : Option (List Char) :=
  if c = 1000 then some "sot".toList
  else if c = 1001 then some "eot".toList
  else if c = 999 then some "Any".toList
  else if c < 0 ∨ c ≥ (graphemeIndex.length - 1 : Int) then some ("GraphemeClass(".toList ++ formatInt c ++ ")".toList)
  else entry graphemeName graphemeIndex c.toNat

/-- _UAX29Class_name, uax29classes.go:53 -/
def wordName : List Char := "ALetterClassCRClassDouble_QuoteClassExtendClassExtendNumLetClassFormatClassHebrew_LetterClassKatakanaClassLFClassMidLetterClassMidNumClassMidNumLetClassNewlineClassNumericClassRegional_IndicatorClassSingle_QuoteClassWSegSpaceClassZWJClass".toList

/-- _UAX29Class_index, uax29classes.go:55-56 -/
def wordIndex : List Nat := [0, 12, 19, 36, 47, 64, 75, 93, 106, 113, 127, 138, 152, 164, 176, 199, 216, 230, 238]

/-- UAX29Class.String, uax29classes.go:59-70; sot, eot and Other are 1000, 1001 and 999 (lines 42-44). -/
def wordString (c : Int) : Option (List Char) :=
  if c = 1000 then some "sot".toList
  else if c = 1001 then some "eot".toList
  else if c = 999 then some "Other".toList
  else if c < 0 ∨ c ≥ (wordIndex.length - 1 : Int) then some ("UAX29Class(".toList ++ formatInt c ++ ")".toList)
  else entry wordName wordIndex c.toNat

/-- _EmojisClass_name, emojiclasses.go:37 -/
def emojiName : List Char := "EmojiClassEmoji_PresentationClassEmoji_ModifierClassEmoji_Modifier_BaseClassEmoji_ComponentClassExtended_PictographicClass".toList

/-- _EmojisClass_index, emojiclasses.go:39 -/
def emojiIndex : List Nat := [0, 10, 33, 52, 76, 96, 122]

/-- EmojisClass.String, emojiclasses.go:42-47 -/
def emojiString (c : Int) : Option (List Char) :=
  if c < 0 ∨ c ≥ (emojiIndex.length - 1 : Int) then some ("EmojisClass(".toList ++ formatInt c ++ ")".toList)
  else entry emojiName emojiIndex c.toNat

/-- _TokenType_name, tokentype_string.go:19 -/
def tokenName : List Char := "undefinedeofemptyDocumentdocRootsingleDataItemrangeDataItem".toList

/-- _TokenType_index, tokentype_string.go:21 -/
def tokenIndex : List Nat := [0, 9, 12, 25, 32, 46, 59]

/-- TokenType.String, tokentype_string.go:23-28 -/
def tokenString (c : Int) : Option (List Char) :=
  if c < 0 ∨ c ≥ (tokenIndex.length - 1 : Int) then some ("TokenType(".toList ++ formatInt c ++ ")".toList)
  else entry tokenName tokenIndex c.toNat

open Bidi

/-- claszname, scanner.go:422 -/
def bidiName : List Char := "LRENESETANCSBSWSONBNNSMALControlNumLRORLOLRERLEPDFLRIRLIFSIPDI----------".toList

/-- claszadd, scanner.go:423 -/
def bidiAdd : List Char := "BRACKOBRACKCNI<max>------".toList

/-- claszindex, scanner.go:425 -/
def bidiIndex : List Nat := [0, 1, 2, 4, 6, 8, 10, 12, 13, 14, 16, 18, 20, 23, 25, 32, 35, 38, 41, 44, 47, 50, 53, 56, 59, 62]

/-- claszaddinx, scanner.go:426 -/
def bidiAddIndex : List Nat := [0, 6, 12, 14, 19, 20]

/-- classString, scanner.go:429-441. Classes are unsigned; `i - cBRACKO` is not less than 0, as cBRACKO is
the class after PDI. -/
def bidiString (i : Class) : Option (List Char) :=
  if i = cNULL then some "cNULL".toList
  else if i > cPDI then
    if i > cPDI ∧ i ≤ cMAX then entry bidiAdd bidiAddIndex (i - cBRACKO)
    else some ("bidi_class(".toList ++ formatInt i ++ ")".toList)
  else entry bidiName bidiIndex i

/-- Direction.String, doc.go:92-100, for the two directions. -/
def dirString : Dir → List Char
  | .ltr => "L2R".toList
  | .rtl => "R2L".toList

/-- ResolvedLevels.String, reordering.go:33-39 -/
def levelsString (rl : Levels) : Option (List Char) :=
  rl.scraps.foldlM (fun b s => (bidiString s.clz).map fun c =>
    b ++ ("[".toList ++ formatInt s.l ++ "-".toList ++ c ++ "-".toList ++ formatInt s.r ++ "] ".toList)) []

/-- Run.String, reordering.go:172-179; `…` stands for itself. -/
def runString (r : VRun) : Option (List Char) :=
  (r.scraps.foldlM (fun b s => (bidiString s.clz).map fun c =>
    b ++ (" ".toList ++ formatInt s.l ++ "…".toList ++ formatInt s.r ++ "|".toList ++ c))
    ("(".toList ++ dirString r.dir ++ " ".toList ++ formatInt r.length)).map fun s => s ++ ")".toList

end Uax.Names
