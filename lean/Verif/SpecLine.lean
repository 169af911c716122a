import Verif.Line
import Verif.SpecGrapheme

/-! Line break opportunities according to UAX#14, as listed in /repo/uax14/rules.go:46-112: a list
of rules of which the first one that applies decides. -/

namespace Uax
namespace SpecLine

/-- Combining marks and ZWJ (LB9). -/
def mark (c : LClass) : Bool := decide (c ∈ [.CM, .ZWJ])

/-- Marks do not combine with what is before them if there is nothing, or one of these (LB9). -/
def alone : List LClass → Bool
  | [] => true
  | c :: _ => decide (c ∈ [.BK, .CR, .LF, .NL, .SP, .ZW])

/-- A text, nearest character first, with combining sequences replaced by their base characters, LB9 and LB10. -/
def collapse : List LClass → List LClass
  | [] => []
  | c :: h => if mark c then (if alone (collapse h) then .AL :: collapse h else collapse h) else c :: collapse h

/-- The same, but with the class of the base character repeated for every mark. -/
def repeated : List LClass → List LClass
  | [] => []
  | c :: h => if mark c then (if alone (repeated h) then .AL else (repeated h).headD .AL) :: repeated h else c :: repeated h

/-- An odd number of flags at the end. -/
def oddFlags (h : List LClass) : Bool := (h.takeWhile (· == .RI)).length % 2 == 1

/-- The same, but a flag with marks is always the first one of a pair. -/
def oddFlagsMarks : List LClass → Bool
  | [] => false
  | c :: h => if mark c then decide ((repeated h).head? = some .RI) else if c = .RI then !oddFlagsMarks h else false

/-- The nearest character that is not a space. -/
def beforeSpaces (h : List LClass) : LClass := (h.dropWhile (· == .SP)).headD .sot

/-- The text ends with NU (NU | SY | IS)*. -/
def number (h : List LClass) : Bool := decide ((h.dropWhile fun c => c == .SY || c == .IS).head? = some .NU)

/-- LB25: inside of ( PR | PO) ? ( OP | HY ) ? NU (NU | SY | IS) * (CL | CP) ? ( PR | PO) ?. -/
def lb25 (h : List LClass) (d : LClass) (next : Option LClass) : Bool :=
  let a := h.headD .sot
  decide (a ∈ [LClass.PR, .PO]) && (d == .NU || decide (d ∈ [LClass.OP, .HY]) && next == some .NU)
  || decide (a ∈ [LClass.OP, .HY]) && d == .NU
  || number h && decide (d ∈ [LClass.NU, .SY, .IS, .CL, .CP])
  || (number h || decide (a ∈ [LClass.CL, .CP]) && number h.tail) && decide (d ∈ [LClass.PO, .PR])

/-- Break opportunity between `h` (nearest class first) and `d`, which is followed by `next`. The
classes are resolved (LB1, LB9, LB10). `flags`: there is an odd number of flags at the end of `h`. -/
def allowed (flags : Bool) (h : List LClass) (d : LClass) (next : Option LClass) : Bool :=
  let a := h.headD .sot
  let b := beforeSpaces h
  if a ∈ [LClass.BK, .LF, .NL] then true                                          -- LB4, LB5
  else if a = .CR then decide (d ≠ .LF)                                           -- LB5
  else if d ∈ [LClass.BK, .CR, .LF, .NL] then false                               -- LB6
  else if d ∈ [LClass.SP, .ZW] then false                                         -- LB7
  else if b = .ZW then true                                                       -- LB8
  else if d = .WJ ∨ a = .WJ then false                                            -- LB11
  else if a = .GL then false                                                      -- LB12
  else if d = .GL ∧ a ∉ [LClass.SP, .BA, .HY] then false                          -- LB12a
  else if d ∈ [LClass.CL, .CP, .EX, .IS, .SY] then false                          -- LB13
  else if b = .OP then false                                                      -- LB14
  else if b = .QU ∧ d = .OP then false                                            -- LB15
  else if b ∈ [LClass.CL, .CP] ∧ d = .NS then false                               -- LB16
  else if b = .B2 ∧ d = .B2 then false                                            -- LB17
  else if a = .SP then true                                                       -- LB18
  else if d = .QU ∨ a = .QU then false                                            -- LB19
  else if d = .CB ∨ a = .CB then true                                             -- LB20
  else if d ∈ [LClass.BA, .HY, .NS] ∨ a = .BB then false                          -- LB21
  else if a ∈ [LClass.HY, .BA] ∧ h.tail.head? = some .HL then false               -- LB21a
  else if a = .SY ∧ d = .HL then false                                            -- LB21b
  else if a ∈ [LClass.AL, .HL, .EX, .ID, .EB, .EM, .IN, .NU] ∧ d = .IN then false -- LB22
  else if a ∈ [LClass.AL, .HL] ∧ d = .NU then false                               -- LB23
  else if a = .NU ∧ d ∈ [LClass.AL, .HL] then false                               -- LB23
  else if a = .PR ∧ d ∈ [LClass.ID, .EB, .EM] then false                          -- LB23a
  else if a ∈ [LClass.ID, .EB, .EM] ∧ d = .PO then false                          -- LB23a
  else if a ∈ [LClass.PR, .PO] ∧ d ∈ [LClass.AL, .HL] then false                  -- LB24
  else if a ∈ [LClass.AL, .HL] ∧ d ∈ [LClass.PR, .PO] then false                  -- LB24
  else if lb25 h d next = true then false                                         -- LB25
  else if a = .JL ∧ d ∈ [LClass.JL, .JV, .H2, .H3] then false                     -- LB26
  else if a ∈ [LClass.JV, .H2] ∧ d ∈ [LClass.JV, .JT] then false                  -- LB26
  else if a ∈ [LClass.JT, .H3] ∧ d = .JT then false                               -- LB26
  else if a ∈ [LClass.JL, .JV, .JT, .H2, .H3] ∧ d ∈ [LClass.IN, .PO] then false   -- LB27
  else if a = .PR ∧ d ∈ [LClass.JL, .JV, .JT, .H2, .H3] then false                -- LB27
  else if a ∈ [LClass.AL, .HL] ∧ d ∈ [LClass.AL, .HL] then false                  -- LB28
  else if a = .IS ∧ d ∈ [LClass.AL, .HL] then false                               -- LB29
  else if a ∈ [LClass.AL, .HL, .NU] ∧ d = .OP then false                          -- LB30
  else if a = .CP ∧ d ∈ [LClass.AL, .HL, .NU] then false                          -- LB30
  else if flags = true ∧ d = .RI then false                                       -- LB30a
  else if a = .EB ∧ d = .EM then false                                            -- LB30b
  else true                                                                       -- LB31

end SpecLine

/-- LB1: the class that a character of class `c` is taken for; `m`: it is a mark (general category
Mn or Mc). -/
def SpecLine.lb1 (c : LClass) (m : Bool) : LClass :=
  match c, m with
  | .AI, _ | .SG, _ | .XX, _ | .SA, false => .AL
  | .SA, true => .CM
  | .CJ, _ => .NS
  | c, _ => c

open SpecLine in
/-- Is there a break opportunity between the text `bef` (nearest character first) and the text `aft`?
The classes are those of LB1. With `std = true` as in UAX#14. With `std = false` there are
these differences: LB8a is missing; for the later rules, marks count like repetitions of their base
character; a flag with marks is always the first one of a pair. -/
def lBoundary (std : Bool) : List LClass → List LClass → Bool
  | [], _ => false                                                                -- LB2
  | _, [] => true                                                                 -- LB3
  | a :: bef, d :: aft =>
    if std = true then
      if mark d = true ∧ alone (collapse (a :: bef)) = false then false           -- LB9
      else if a = .ZWJ ∧ d ∉ [LClass.BK, .CR, .LF, .NL, .SP, .ZW] then false      -- LB8a
      else allowed (oddFlags (collapse (a :: bef))) (collapse (a :: bef)) (if mark d then .AL else d) (aft.dropWhile mark).head?
    else
      if mark d = true ∧ alone (repeated (a :: bef)) = false then false
      else allowed (oddFlagsMarks (a :: bef)) (repeated (a :: bef)) (if mark d then .AL else d) aft.head?

/-- The lines that result if a text, whose runes have the classes `cls`, is broken wherever possible. -/
def lines (std : Bool) (cls : Int → LClass) (text : List Int) : List (List Int) :=
  cutAfter (fun i => lBoundary std ((text.take (i + 1)).map cls).reverse ((text.drop (i + 1)).map cls)) text

end Uax
