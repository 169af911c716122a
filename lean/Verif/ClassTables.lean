import Verif.Grapheme
import Verif.Word
import Verif.RangeTable
import Verif.TablesGrapheme
import Verif.TablesWord
import Verif.TablesEmoji

/-
The class tables of /repo, after set-up: `setupGraphemeClasses` (grapheme/graphemeclasses.go:67-2594),
`setupUAX29Classes` (uax29/uax29classes.go:72-4137) and `setupEmojisClasses` (emoji/emojiclasses.go:49-865).

`rangetable.New` (golang.org/x/text) and `unicode.Is` are not part of /repo: the table made of some runes is
taken to contain exactly these runes.
-/

namespace Uax

/-- `rangeFromGraphemeClass`, the table of each class (none for the classes above ZWJ). -/
def gTable : GClass → List (Nat × Nat)
  | .CR => TabG.CR | .LF => TabG.LF | .Prepend => TabG.Prepend | .Control => TabG.Control | .Extend => TabG.Extend
  | .RI => TabG.Regional_Indicator | .SpacingMark => TabG.SpacingMark | .L => TabG.L | .V => TabG.V | .T => TabG.T
  | .LV => TabG.LV | .LVT => TabG.LVT | .ZWJ => TabG.ZWJ | .Pict => [] | .Any => [] | .eot => []

/-- The tables used by the grapheme breaker. -/
def realG : GTables := ⟨fun c r => inRanges (gTable c) r, fun r => inRanges TabE.Extended_Pictographic r⟩

/-- `rangeFromUAX29Class`, the table of each class (none for the classes above ZWJ). -/
def wTable : WClass → List (Nat × Nat)
  | .ALetter => TabW.ALetter | .CR => TabW.CR | .DoubleQuote => TabW.Double_Quote | .Extend => TabW.Extend
  | .ExtendNumLet => TabW.ExtendNumLet | .Format => TabW.Format | .HebrewLetter => TabW.Hebrew_Letter
  | .Katakana => TabW.Katakana | .LF => TabW.LF | .MidLetter => TabW.MidLetter | .MidNum => TabW.MidNum
  | .MidNumLet => TabW.MidNumLet | .Newline => TabW.Newline | .Numeric => TabW.Numeric | .RI => TabW.Regional_Indicator
  | .SingleQuote => TabW.Single_Quote | .WSegSpace => TabW.WSegSpace | .ZWJ => TabW.ZWJ | .Pict => [] | .Other => [] | .eot => []

/-- The tables used by the word breaker. -/
def realW : WTables := ⟨fun c r => inRanges (wTable c) r, fun r => inRanges TabE.Extended_Pictographic r⟩

/-! ### Emoji classes -/

/-- emoji/emojiclasses.go:21-28, the classes. -/
inductive EClass where
  | Emoji | Presentation | Modifier | ModifierBase | Component | Pictographic
deriving DecidableEq, Repr

/-- `rangeFromEmojisClass`. -/
def eTable : EClass → List (Nat × Nat)
  | .Emoji => TabE.Emoji | .Presentation => TabE.Emoji_Presentation | .Modifier => TabE.Emoji_Modifier
  | .ModifierBase => TabE.Emoji_Modifier_Base | .Component => TabE.Emoji_Component | .Pictographic => TabE.Extended_Pictographic

/-- The classes 0 … Extended_PictographicClass, emoji.go:36. -/
def eClasses : List EClass := [.Emoji, .Presentation, .Modifier, .ModifierBase, .Component, .Pictographic]

/-- emoji.go:35-43, `EmojisClassForRune`; -1 is `none`. -/
def emojisClassForRune (r : Int) : Option EClass := eClasses.find? fun c => inRanges (eTable c) r

end Uax
