import Verif.BidiParserProofs
import Verif.BidiReorder

/-
Small tables of character classes for examples and counterexamples. They agree
with Unicode on ASCII and on some letters. Upper case letters are right-to-left
with the option Testing, and `>`, `<` and `=` are LRI, RLI and PDI, as in the unit
tests in /repo/bidi.
-/
namespace Uax.Bidi

/-- Class of a rune, for the examples. -/
def sampleClass (r : Nat) : Class :=
  if 48 ≤ r ∧ r ≤ 57 then cEN
  else if (65 ≤ r ∧ r ≤ 90) ∨ (97 ≤ r ∧ r ≤ 122) then cL
  else if r = 32 then cWS
  else if r = 44 ∨ r = 46 ∨ r = 58 then cCS
  else if r = 43 ∨ r = 45 then cES
  else if r = 35 ∨ r = 36 ∨ r = 37 then cET
  else if 0x300 ≤ r ∧ r ≤ 0x36f then cNSM
  else if 0x5d0 ≤ r ∧ r ≤ 0x5ea then cR
  else if 0x620 ≤ r ∧ r ≤ 0x64a then cAL
  else if 0x661 ≤ r ∧ r ≤ 0x669 then cAN
  else if r = 0x2066 then cLRI
  else if r = 0x2067 then cRLI
  else if r = 0x2068 then cFSI
  else if r = 0x2069 then cPDI
  else if r = 10 then cB
  else cON

/-- The tables of the examples. -/
def sample : Tables where
  cls := sampleClass
  bracket := fun r =>
    if r = 40 ∨ r = 91 then some true else if r = 41 ∨ r = 93 then some false else none
  upper := fun r => 65 ≤ r && r ≤ 90

/-- The bytes of a text in ASCII. -/
def ascii (l : List Char) : List Nat := l.map Char.toNat

/-- The classes and intervals of scraps, without what is nested. -/
def brief (scraps : List Scrap) : List (Class × Nat × Nat) := scraps.map fun s => (s.clz, s.l, s.r)

/-- The directions, lengths and intervals of runs. -/
def briefRuns (runs : List VRun) : List (Dir × Nat × List (Nat × Nat)) :=
  runs.map fun r => (r.dir, r.length, r.scraps.map fun s => (s.l, s.r))

end Uax.Bidi
