import Verif.Word
import Verif.SpecGrapheme

/-! Word boundaries according to UAX#29, as a list of rules of which the first one that applies decides. -/

namespace Uax

/-- A character: its word break property and whether it is Extended_Pictographic. -/
structure WChar where
  wb : WClass
  pict : Bool

namespace SpecWord

/-- AHLetter, MidNumLetQ: the macros of UAX#29. -/
def AHLetter : List WClass := [.ALetter, .HebrewLetter]
def MidNumLetQ : List WClass := [.MidNumLet, .SingleQuote]

/-- Extend, Format and ZWJ are ignored (WB4). -/
def ignorable (x : WChar) : Bool := decide (x.wb ∈ [.Extend, .Format, .ZWJ])

def strip (l : List WChar) : List WChar := l.dropWhile ignorable

/-- The first character of `l` has one of the properties `cs`. -/
def starts (cs : List WClass) (l : List WChar) : Bool := (l.head?.map fun x => decide (x.wb ∈ cs)).getD false

end SpecWord

open SpecWord in
/-- Is there a boundary between the text `bef` (nearest character first) and the text `aft`?
With `far = false` rule WB7b does not look through ignorable characters after the double quote. -/
def wBoundary (far : Bool) : List WChar → List WChar → Bool
  | [], _ => true                                                                  -- WB1
  | _, [] => true                                                                  -- WB2
  | a :: bef, b :: aft =>
    let prev := strip (a :: bef)
    let before := strip prev.tail
    let next := strip aft
    if a.wb = .CR ∧ b.wb = .LF then false                                          -- WB3
    else if a.wb ∈ [.Newline, .CR, .LF] then true                                  -- WB3a
    else if b.wb ∈ [.Newline, .CR, .LF] then true                                  -- WB3b
    else if a.wb = .ZWJ ∧ b.pict = true then false                                 -- WB3c
    else if a.wb = .WSegSpace ∧ b.wb = .WSegSpace then false                       -- WB3d
    else if ignorable b then false                                                 -- WB4
    else if starts AHLetter prev ∧ b.wb ∈ AHLetter then false                      -- WB5
    else if starts AHLetter prev ∧ b.wb ∈ .MidLetter :: MidNumLetQ ∧ starts AHLetter next then false -- WB6
    else if starts AHLetter before ∧ starts (.MidLetter :: MidNumLetQ) prev ∧ b.wb ∈ AHLetter then false -- WB7
    else if starts [.HebrewLetter] prev ∧ b.wb = .SingleQuote then false           -- WB7a
    else if starts [.HebrewLetter] prev ∧ b.wb = .DoubleQuote ∧
      starts [.HebrewLetter] (if far then next else aft) then false                -- WB7b
    else if starts [.HebrewLetter] before ∧ starts [.DoubleQuote] prev ∧ b.wb = .HebrewLetter then false -- WB7c
    else if starts [.Numeric] prev ∧ b.wb = .Numeric then false                    -- WB8
    else if starts AHLetter prev ∧ b.wb = .Numeric then false                      -- WB9
    else if starts [.Numeric] prev ∧ b.wb ∈ AHLetter then false                    -- WB10
    else if starts [.Numeric] before ∧ starts (.MidNum :: MidNumLetQ) prev ∧ b.wb = .Numeric then false -- WB11
    else if starts [.Numeric] prev ∧ b.wb ∈ .MidNum :: MidNumLetQ ∧ starts [.Numeric] next then false -- WB12
    else if starts [.Katakana] prev ∧ b.wb = .Katakana then false                  -- WB13
    else if starts [.ALetter, .HebrewLetter, .Numeric, .Katakana, .ExtendNumLet] prev ∧ b.wb = .ExtendNumLet then false -- WB13a
    else if starts [.ExtendNumLet] prev ∧ b.wb ∈ [.ALetter, .HebrewLetter, .Numeric, .Katakana] then false -- WB13b
    else if b.wb = .RI ∧ (((a :: bef).filter fun x => !ignorable x).takeWhile fun x => x.wb == .RI).length % 2 = 1 then false -- WB15, WB16
    else true                                                                      -- WB999

/-- The words of a text whose runes are the characters `ch`. -/
def words (far : Bool) (ch : Int → WChar) (text : List Int) : List (List Int) :=
  cutAfter (fun i => wBoundary far ((text.take (i + 1)).map ch).reverse ((text.drop (i + 1)).map ch)) text

end Uax
