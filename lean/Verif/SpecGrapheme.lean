import Verif.Grapheme
import Verif.SpecSegment

/-! Grapheme cluster boundaries according to UAX#29 (the version without GB9c, see
/repo/grapheme/doc.go), as a list of rules of which the first one that applies decides. -/

namespace Uax

/-- Control, CR or LF. -/
def GClass.isCtl (c : GClass) : Bool := c == .CR || c == .LF || c == .Control

/-- Is there a boundary between the text `bef` (nearest character first) and the text `aft`?
The flag allows to leave out rule GB9b. -/
def gBoundary (useGB9b : Bool) : List GClass → List GClass → Bool
  | [], _ => true                                                    -- GB1
  | _, [] => true                                                    -- GB2
  | a :: bef, b :: _ =>
    if a = .CR ∧ b = .LF then false                                  -- GB3
    else if a.isCtl then true                                        -- GB4
    else if b.isCtl then true                                        -- GB5
    else if a = .L ∧ b ∈ [.L, .V, .LV, .LVT] then false              -- GB6
    else if a ∈ [.LV, .V] ∧ b ∈ [.V, .T] then false                  -- GB7
    else if a ∈ [.LVT, .T] ∧ b = .T then false                       -- GB8
    else if b ∈ [.Extend, .ZWJ] then false                           -- GB9
    else if b = .SpacingMark then false                              -- GB9a
    else if useGB9b = true ∧ a = .Prepend then false                 -- GB9b
    else if (bef.dropWhile (· == .Extend)).head? = some .Pict ∧ a = .ZWJ ∧ b = .Pict then false -- GB11
    else if b = .RI ∧ ((a :: bef).takeWhile (· == .RI)).length % 2 = 1 then false -- GB12, GB13
    else true                                                        -- GB999

/-- Cut a text after every rune `i` with `cut i`. -/
def cutAfter (cut : Nat → Bool) (text : List Int) : List (List Int) :=
  (pieces (·.2) [] (text.mapIdx fun i r => (r, cut i))).map (·.map (·.1))

/-- The grapheme clusters of a text whose runes have the classes `cls`. -/
def clusters (useGB9b : Bool) (cls : Int → GClass) (text : List Int) : List (List Int) :=
  cutAfter (fun i => gBoundary useGB9b ((text.take (i + 1)).map cls).reverse ((text.drop (i + 1)).map cls)) text

end Uax
