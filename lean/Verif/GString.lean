import Verif.Utf8
import Verif.Run
import Verif.Grapheme
import Verif.SpecSegment

/-
Model of /repo/uax.go and /repo/grapheme/string.go, grapheme strings.

Strings are lists of bytes. Loops which need not end are given a number of rounds; `Run.running`
means that they are not finished by then. `SetupGraphemeClasses` (line 41) is the table parameter.
Tracing and the reader's unused field `pos` are omitted. `makeShortString` and `makeMidString`, and
the methods of the two types, are the same text but for the type of the offsets (and the
initial capacities of slices, which are not modelled), so that there is one model with the number
of values of this type as a parameter.
-/

namespace Uax

/-- uax.go:9-18: the loop, with the loop variable `i`, which the Go code never changes. -/
def firstLegalLoop (s : List Nat) : Nat → Nat → Run (Int × List Nat)
  | 0, _ => .running
  | n + 1, i =>
    match s[i]? with
    | none => .returns (-1, s.take i)                          -- 9: i >= l
    | some b =>
      if Utf8.runeStart b then                                 -- 10
        if (Utf8.decode (s.drop i)).1 ≠ Utf8.runeError then .returns (i, s.take i) else .returns (-1, s.take i)
      else firstLegalLoop s n i

/-- uax.go:7-20, `PositionOfFirstLegalRune`, with at most `n` rounds. -/
def positionOfFirstLegalRune (n : Nat) (s : List Nat) : Run (Int × List Nat) := firstLegalLoop s n 0

/-- grapheme/string.go:190-199, `ReadRune`: `none` is `io.EOF`, otherwise rune, size and the
remaining input. -/
def readRune (input : List Nat) : Option (Int × Nat × List Nat) :=
  let (r, size) := Utf8.decode input
  if r = Utf8.runeError then none else some (r, size, input.drop size)

/-- The runes a reader of grapheme/string.go:185-199 delivers until it reports `io.EOF`, which it then goes on to do. `n` is at
least the number of bytes. -/
def readAll : Nat → List Nat → List (Int × Nat)
  | 0, _ => []
  | n + 1, input =>
    match readRune input with
    | none => []
    | some (r, size, rest) => (r, size) :: readAll n rest

/-- string.go:169-183, `prepareBreaking` and `makeGraphemeBreaker`. A negative start makes the slice
expression panic. -/
def prepareBreaking (n : Nat) (s : List Nat) : Run (Seg Graph.GBrk) :=
  (positionOfFirstLegalRune n s).andThen fun (start, _) =>
    if start < 0 then .panics
    else
      let input := s.drop start.toNat
      .returns ((Seg.new [Graph.new]).initReader (readAll input.length input) none)

/-- segment.go:238-244, `Bytes`. -/
def bytesOf (runes : List Int) : List Nat := runes.flatMap Utf8.encode

/-- string.go:71-74 and 120-123. -/
structure GString where
  content : List Nat
  breaks : List Nat
deriving DecidableEq, Repr

/-- string.go:83-89 and 132-138: the offsets, with the conversion to a type of `m` values. -/
def offsets (m : Nat) : Nat → List (List Int) → List Nat
  | _, [] => []
  | br, seg :: segs => (br + (bytesOf seg).length) % m :: offsets m (br + (bytesOf seg).length) segs

/-- string.go:76-94 and 125-143, `makeShortString` (`m` = 256) and `makeMidString` (`m` = 65536). -/
def makeString (T : GTables) (m n : Nat) (s : List Nat) : Run GString :=
  (prepareBreaking n s).andThen fun seg =>
    match seg.collect (Graph.breaker T) n with
    | none => .panics
    | some (_, false) => .running
    | some (segs, true) => .returns ⟨s, 0 :: offsets m 0 (segs.map (·.runes))⟩

/-- string.go:40-49, `StringFromString`, and 65-67, `StringFromBytes`. -/
def stringFromString (T : GTables) (n : Nat) (s : List Nat) : Run GString :=
  if s.length < 255 then makeString T 256 n s
  else if s.length < 65535 then makeString T 65536 n s
  else .panics

/-- string.go:96-105 and 145-154, `Nth`. `none`: panic. -/
def GString.nth (g : GString) (n : Int) : Option (List Nat) :=
  if n < 0 ∨ n > max ((g.breaks.length : Int) - 2) 0 then none
  else if g.breaks.length < 2 then some []
  else
    match g.breaks[n.toNat]?, g.breaks[n.toNat + 1]? with
    | some l, some r => if l ≤ r ∧ r ≤ g.content.length then some ((g.content.drop l).take (r - l)) else none
    | _, _ => none

/-- string.go:107-112 and 156-161, `Len`. -/
def GString.len (g : GString) : Int := if g.breaks.length < 2 then 0 else (g.breaks.length : Int) - 1

/-- string.go:114-116 and 163-165, `String`. -/
def GString.str (g : GString) : List Nat := g.content

end Uax
