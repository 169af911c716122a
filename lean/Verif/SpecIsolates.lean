import Verif.SpecBidiText

/-
Specification: texts with isolates which do not contain isolates themselves, and
what the resolution of such a text looks like. The scraps, which are the result's
data, are those of the model.
-/
namespace Uax.Bidi.Spec

/-- An isolate, with the text between it and the next isolate (or the end). -/
structure Isolate where
  opening : Char
  text : List Char
  closing : Char
  after : List Char

/-- A text with isolates; `lead` is the text before the first one. -/
def withIsolates (lead : List Char) (is : List Isolate) : List Char :=
  lead ++ is.flatMap fun i => i.opening :: i.text ++ i.closing :: i.after

/-- The text outside of the isolates. -/
def outside (lead : List Char) (is : List Isolate) : List Char := lead ++ is.flatMap (·.after)

/-- The isolating run sequence at the paragraph level (BD13): each isolate is in it with its
initiator and its PDI only. -/
def runSequence (lead : List Char) (is : List Isolate) : List Char :=
  lead ++ is.flatMap fun i => i.opening :: i.closing :: i.after

/-- Where the isolates are, in bytes: each from its initiator up to and with its PDI. -/
def isolateSpans : Nat → List Isolate → List (Nat × Nat)
  | _, [] => []
  | pos, i :: is =>
    (pos, pos + (utf8 (i.opening :: i.text ++ [i.closing])).length) ::
      isolateSpans (pos + (utf8 (i.opening :: i.text ++ i.closing :: i.after)).length) is

/-- The isolates are not nested, not empty, have an initiator other than FSI and contain no
brackets; there is text between them. European numbers are in left-to-right context inside
the isolates, and outside there is nothing from right to left before them. -/
structure FlatIsolates (T : Tables) (o : Options) (lead : List Char) (is : List Isolate) : Prop where
  opening : ∀ i ∈ is, charClass T o i.opening = cLRI ∨ charClass T o i.opening = cRLI
  closing : ∀ i ∈ is, charClass T o i.closing = cPDI
  filled : ∀ i ∈ is, i.text ≠ []
  inside : ∀ i ∈ is, NoIsolates (classes T o i.text)
  brackets : ∀ i ∈ is, cBRACKO ∉ classes T o i.text ∧ cBRACKC ∉ classes T o i.text
  outer : NoIsolates (classes T o (outside lead is))
  apart : ∀ i ∈ is.dropLast, i.after ≠ []
  numbersInside : ∀ i ∈ is, NumbersLTR (if charClass T o i.opening = cLRI then cL else cR) (classes T o i.text)
  numbersOutside : ∀ pre post, classes T o (outside lead is) = pre ++ cEN :: post → cR ∉ pre ∧ cAL ∉ pre
  numbers : NoALBeforeEN (classes T o (withIsolates lead is))

/-- The options under which a text is a paragraph of the direction of the isolates that an
initiator of class `c` begins. -/
def ownOptions (o : Options) (c : Class) : Options := { o with outerR2L := decide (c = cRLI) }

/-- Classes and positions of scraps, moved to the right by `d`. -/
def movedBy (d : Nat) (ss : List Scrap) : List (Class × Nat × Nat) := ss.map fun s => (s.clz, s.l + d, s.r + d)

/-- The runs which are nested in scraps, in their order. -/
def nestedRuns (ss : List Scrap) : List (List Scrap) := ss.flatMap (·.children)

/-- Runs which tile these parts of the text, one for each. -/
def RunsTile : List (Nat × Nat) → List (List Scrap) → Prop
  | [], [] => True
  | sp :: sps, run :: runs => Tiles sp.1 sp.2 run ∧ RunsTile sps runs
  | _, _ => False

/-- The runs nested in a scrap lie within it. -/
def Within (s : Scrap) : Prop := ∀ run ∈ s.children, ∃ l r, s.l ≤ l ∧ r ≤ s.r ∧ Tiles l r run

end Uax.Bidi.Spec
