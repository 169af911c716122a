import Verif.Ucd

/-!
Specification of files of the Unicode Character Database, after UAX#44, 4.2: lines which are blank or comments, and rows. A row starts with
a code point or a range of code points in hexadecimal, and fields follow which are separated by semicolons; a comment starts
with a number sign.
-/

namespace Uax.Ucd

/-- Hexadecimal digits. -/
def IsHex (c : Nat) : Prop := (48 ≤ c ∧ c ≤ 57) ∨ (97 ≤ c ∧ c ≤ 102) ∨ (65 ≤ c ∧ c ≤ 70)

instance : DecidablePred IsHex := fun c => by unfold IsHex; infer_instance

/-- The value of a hexadecimal digit, and of a number. -/
def hexDigit (c : Nat) : Nat := if c ≤ 57 then c - 48 else if c ≤ 70 then c - 55 else c - 87

def hexValue (s : Line) : Nat := s.foldl (fun n c => 16 * n + hexDigit c) 0

/-- A row of a file. -/
structure Row where
  first : Line
  last : Option Line
  gap : Line
  fields : List Line
  comment : Option Line
deriving DecidableEq, Repr

/-- Fields, separated by semicolons. -/
def joinFields : List Line → Line
  | [] => []
  | [f] => f
  | f :: fs => f ++ 59 :: joinFields fs

def Row.line (r : Row) : Line :=
  r.first ++ (match r.last with | some h => 46 :: 46 :: h | none => []) ++ r.gap ++ 59 :: (joinFields r.fields ++
    match r.comment with | some c => 35 :: c | none => [])

/-- The code points a row is about. -/
def Row.range (r : Row) : Nat × Nat := (hexValue r.first, hexValue (r.last.getD r.first))

/-- Code points are below 2^31, fields contain no separators, and the comment no number sign; if there are several fields, the first is not
empty. -/
structure Row.Valid (r : Row) : Prop where
  first : r.first ≠ [] ∧ (∀ c ∈ r.first, IsHex c) ∧ hexValue r.first < 0x80000000
  last : ∀ h ∈ r.last, h ≠ [] ∧ (∀ c ∈ h, IsHex c) ∧ hexValue h < 0x80000000
  gap : ∀ c ∈ r.gap, c = 32 ∨ c = 9
  fields : r.fields ≠ [] ∧ ∀ f ∈ r.fields, 59 ∉ f ∧ 35 ∉ f
  head : 1 < r.fields.length → r.fields.head? ≠ some []
  comment : ∀ c ∈ r.comment, 35 ∉ c

/-- Blank lines and comments (white space: HT, LF, FF, CR, space). -/
def Skipped (l : Line) : Prop := ∃ ws, (∀ c ∈ ws, c = 9 ∨ c = 10 ∨ c = 12 ∨ c = 13 ∨ c = 32) ∧ (l = ws ∨ ∃ c, l = ws ++ 35 :: c)

/-- A line of a file. -/
inductive Item where
  | other (l : Line)
  | row (r : Row)
deriving DecidableEq, Repr

def Item.line : Item → Line
  | .other l => l
  | .row r => r.line

def Item.Valid : Item → Prop
  | .other l => Skipped l
  | .row r => r.Valid

/-- The rows of a file. -/
def rowsIn (items : List Item) : List Row := items.filterMap fun i => match i with | .other _ => none | .row r => some r

/-- The first line which is not skipped does not start with a space. -/
def NotIndented (lines : List Line) : Prop :=
  ∀ before l after, lines = before ++ l :: after → (∀ x ∈ before, Skipped x) → ¬ Skipped l → l.head? ≠ some 32

/-- White space at both ends is not part of a field. -/
def SameField (f g : Line) : Prop := trimSpace f = trimSpace g

/-- A token tells what a row says. -/
structure Tells (t : Token) (n : Nat) (r : Row) : Prop where
  line : t.lineNo = n
  error : t.error = none
  range : t.range = r.range
  fields : ∀ i : Nat, ∀ f ∈ r.fields[i]?, ∃ g, t.field (i + 1) = some g ∧ SameField g f
  beyond : t.field (r.fields.length + 1) = some []
  comment : t.comment = trimSpace (r.comment.getD [])

/-- How a line ends: with LF, CR LF, CR, or with the end of the file. -/
inductive Term where
  | lf | crlf | cr | eof
deriving DecidableEq, Repr

def Term.bytes : Term → List Nat
  | .lf => [10]
  | .crlf => [13, 10]
  | .cr => [13]
  | .eof => []

/-- The bytes of a file. -/
def document : List (List Nat × Term) → List Nat
  | [] => []
  | (l, t) :: is => l ++ (t.bytes ++ document is)

/-- Lines contain neither CR nor LF, only the last one may end with the end of the file, and CR LF is one end of a line. -/
def WellEnded : List (List Nat × Term) → Prop
  | [] => True
  | (l, t) :: is => 10 ∉ l ∧ 13 ∉ l ∧ (t = .eof → l ≠ [] ∧ is = []) ∧ (t = .cr → (document is).head? ≠ some 10) ∧ WellEnded is

/-! ### Test files

A line of a test file (UAX#14, UAX#29) is a list of words: code points in hexadecimal, ÷ where a segment ends, × where
it doesn't. -/

/-- The words of a segment: its code points with × between them, and ÷. -/
def segmentWords : List Line → List Line
  | [] => [[0xf7]]
  | [c] => [c, [0xf7]]
  | c :: cs => c :: [0xd7] :: segmentWords cs

/-- A code point in hexadecimal. -/
def CodePoint (w : Line) : Prop :=
  w ≠ [] ∧ (∀ c ∈ w, IsHex c) ∧ (hexValue w < 0xd800 ∨ (0xdfff < hexValue w ∧ hexValue w ≤ 0x10ffff))

/-- A test case: the segments of a text, and the mark at its beginning. -/
structure TestCase where
  start : Nat
  segments : List (List Line)

structure TestCase.Valid (c : TestCase) : Prop where
  start : c.start = 0xf7 ∨ c.start = 0xd7
  segments : ∀ s ∈ c.segments, s ≠ [] ∧ ∀ w ∈ s, CodePoint w

/-- The words of a test case. -/
def TestCase.words (c : TestCase) : List Line := [c.start] :: c.segments.flatMap segmentWords

/-- What a test is about: the text, and its segments. -/
def TestCase.meaning (c : TestCase) : Line × List Line := (c.segments.flatten.map hexValue, c.segments.map (List.map hexValue))

/-- A string consists of these words, separated by white space. -/
inductive Spaced : Line → List Line → Prop where
  | blank (ws : Line) (h : ∀ c ∈ ws, isSpace c = true) : Spaced ws []
  | last (ws w : Line) (h : ∀ c ∈ ws, isSpace c = true) (hw : w ≠ [] ∧ ∀ c ∈ w, isSpace c = false) : Spaced (ws ++ w) [w]
  | word (ws w : Line) (s : Nat) (rest : Line) (l : List Line) (h : ∀ c ∈ ws, isSpace c = true)
      (hw : w ≠ [] ∧ ∀ c ∈ w, isSpace c = false) (hs : isSpace s = true) (hl : Spaced (s :: rest) l) : Spaced (ws ++ (w ++ s :: rest)) (w :: l)

/-- A line of a test file: a comment, or a test case and possibly a comment. -/
inductive TestLine where
  | comment (c : Line)
  | test (c : TestCase) (text : Line) (cm : Option Line)

def TestLine.line : TestLine → Line
  | .comment c => 35 :: c
  | .test _ text cm => text ++ match cm with | some c => 35 :: c | none => []

def TestLine.Valid : TestLine → Prop
  | .comment _ => True
  | .test c text _ => c.Valid ∧ Spaced text c.words

/-- The test cases of a file. -/
def testCases (ls : List TestLine) : List (Line × List Line) :=
  ls.filterMap fun l => match l with | .comment _ => none | .test c _ _ => some c.meaning

end Uax.Ucd
