import Verif.SpecIsolates
import Verif.BidiParser

/-
Specification: texts with isolates which may contain isolates, to any depth.
-/
namespace Uax.Bidi.Spec

/-- A scrap of this class and length, without nested runs. -/
def Delimiter (s : Scrap) (c : Class) (n : Nat) : Prop := s.clz = c ∧ s.r = s.l + n ∧ s.children = []

/-- No neighbours are both L or both R. -/
def Maximal (run : List Scrap) : Prop := ∀ pre x y post, run = pre ++ x :: y :: post → ¬ (x.clz = y.clz ∧ (x.clz = cL ∨ x.clz = cR))

/-- Some isolates, one after the other, as they follow some text. The first of them contains the
text `lead` and then the isolates `inner`; after it there is the text `after`, and then the
isolates `rest`. -/
inductive Isolates where
  | none
  | more (opening : Char) (lead : List Char) (inner : Isolates) (closing : Char) (after : List Char) (rest : Isolates)

namespace Isolates

/-- The text. -/
def chars : Isolates → List Char
  | none => []
  | more op lead inner cl after rest => op :: (lead ++ inner.chars) ++ cl :: (after ++ rest.chars)

/-- The text outside of these isolates. -/
def outer : Isolates → List Char
  | none => []
  | more _ _ _ _ after rest => after ++ rest.outer

/-- The initiator of the first isolate. -/
def opening : Isolates → Option Char
  | none => Option.none
  | more op _ _ _ _ _ => some op

/-- The depth of nesting. -/
def depth : Isolates → Nat
  | none => 0
  | more _ _ inner _ _ rest => max (inner.depth + 1) rest.depth

/-- The conditions on the isolates; `nested` says whether they are within others.

Each isolate has an initiator other than FSI and is closed, begins with text, contains no
brackets, and there is text after it, if it is not the last one outside of isolates.
European numbers are in left-to-right context; if there are isolates in an isolate, then
there is nothing from right to left before the numbers in its own text, and its initiator is LRI. -/
def Good (T : Tables) (o : Options) : Isolates → Bool → Prop
  | none, _ => True
  | more op lead inner cl after rest, nested =>
    (charClass T o op = cLRI ∨ charClass T o op = cRLI) ∧ charClass T o cl = cPDI ∧ lead ≠ [] ∧ (after = [] → nested = false ∧ rest = none) ∧
    NoIsolates (classes T o (lead ++ inner.outer)) ∧
    (cBRACKO ∉ classes T o (lead ++ inner.outer) ∧ cBRACKC ∉ classes T o (lead ++ inner.outer)) ∧
    NumbersLTR (if charClass T o op = cLRI then cL else cR) (classes T o (lead ++ inner.outer)) ∧
    (inner ≠ none → ∀ pre post, classes T o (lead ++ inner.outer) = pre ++ cEN :: post → charClass T o op = cLRI ∧ cR ∉ pre ∧ cAL ∉ pre) ∧
    inner.Good T o true ∧ rest.Good T o nested

/-- There is one run for each isolate, from the position `pos` on, in their order. It covers the
isolate from its initiator to its PDI without gaps, the runs nested in it lie within the scraps
they are nested in, and they are runs for the isolates in the isolate, in the same way.
Initiator and PDI are scraps of their own; what is between them has been resolved. -/
def RunsFor (T : Tables) (o : Options) : Isolates → Nat → List (List Scrap) → Prop
  | none, _, runs => runs = []
  | more op lead inner cl after rest, pos, runs => ∃ run runs', runs = run :: runs' ∧
    Tiles pos (pos + (utf8 (op :: (lead ++ inner.chars) ++ [cl])).length) run ∧ (∀ s ∈ run, Within s) ∧
    (∃ first mid last, run = first :: (mid ++ [last]) ∧ Delimiter first (charClass T o op) (utf8 [op]).length ∧
      Delimiter last (charClass T o cl) (utf8 [cl]).length) ∧ Maximal run ∧ (∀ s ∈ run, s.clz ≠ cNI) ∧
    inner.RunsFor T o (pos + (utf8 (op :: lead)).length) (nestedRuns run) ∧
    rest.RunsFor T o (pos + (utf8 (op :: (lead ++ inner.chars) ++ cl :: after)).length) runs'

end Isolates

/-- The characters of a text, each with the position where it begins (in bytes); the text begins at `pos`. -/
def charsAt : Nat → List Char → List (Char × Nat)
  | _, [] => []
  | pos, c :: t => (c, pos) :: charsAt (pos + (utf8 [c]).length) t

/-- What isolates and the text after them contribute to the isolating run sequence of the text they
are in (BD13), with positions: the initiators, the PDIs and the text outside of the isolates. The first
isolate begins at `pos`. -/
def Isolates.sequence : Nat → Isolates → List (Char × Nat)
  | _, none => []
  | pos, more op lead inner cl after rest =>
    (op, pos) :: (cl, pos + (utf8 (op :: (lead ++ inner.chars))).length) ::
      (charsAt (pos + (utf8 (op :: (lead ++ inner.chars) ++ [cl])).length) after ++
        rest.sequence (pos + (utf8 (op :: (lead ++ inner.chars) ++ cl :: after)).length))

/-- The isolating run sequence at the paragraph level, with positions. -/
def outerSequence (lead : List Char) (is : Isolates) : List (Char × Nat) := charsAt 0 lead ++ is.sequence (utf8 lead).length

/-- Wherever an isolate initiator comes directly after a neutral character, the initiator has the
direction of the paragraph. -/
def InitiatorsSettled (e : Class) (cs : List Class) : Prop :=
  ∀ i x y, (w1 e cs)[i]? = some x → (w1 e cs)[i + 1]? = some y → y ∈ [cLRI, cRLI, cFSI] → x ∈ [cS, cWS, cON] → (resolved e cs)[i + 1]? = some e

/-- Letters, European numbers, marks and neutrals. -/
def SimpleClasses (cs : List Class) : Prop := ∀ c ∈ cs, c ∈ [cL, cR, cAL, cEN, cNSM, cS, cWS, cON]

/-- The isolating run sequence of the text directly in an isolate, which begins at `pos` and contains the
text `lead` and then the isolates `inner`, with positions. -/
def ownSequence (pos : Nat) (op : Char) (lead : List Char) (inner : Isolates) : List (Char × Nat) :=
  charsAt (pos + (utf8 [op]).length) lead ++ inner.sequence (pos + (utf8 (op :: lead)).length)

/-- There is one run for each isolate, from the position `pos` on, in their order, and so on for the
isolates in it, as in `RunsFor`. DirectionAt for the levels of this run gives, for every
byte of the text directly in the isolate, the direction of the standard for the isolating run sequence of this text, as
it is the one of a paragraph of the direction of the isolate; the inner initiators and PDIs are a part of the sequence.

This is said of isolates with letters, European numbers, marks and neutrals, which do not begin with
a mark; isolates with isolates in them have to be from left to right, and neutrals stand directly before
the inner ones only where the direction is the one of the isolate. -/
def Isolates.DirectionsFor (T : Tables) (o : Options) (rl : Levels) : Isolates → Nat → List (List Scrap) → Prop
  | none, _, runs => runs = []
  | more op lead inner cl after rest, pos, runs => ∃ run runs', runs = run :: runs' ∧
    (∀ e, e = (if charClass T o op = cLRI then cL else cR) → SimpleClasses (classes T o (lead ++ inner.outer)) → (classes T o lead).head? ≠ some cNSM →
      (inner ≠ none → e = cL) → InitiatorsSettled e (classes T o ((ownSequence pos op lead inner).map (·.1))) →
      ∀ (i : Nat) (c : Char) (q : Nat), (ownSequence pos op lead inner)[i]? = some (c, q) → ∀ k, k < (utf8 [c]).length →
        (directions e (classes T o ((ownSequence pos op lead inner).map (·.1))))[i]? = some (({ rl with scraps := run } : Levels).directionAt (q + k))) ∧
    inner.DirectionsFor T o rl (pos + (utf8 (op :: lead)).length) (nestedRuns run) ∧
    rest.DirectionsFor T o rl (pos + (utf8 (op :: (lead ++ inner.chars) ++ cl :: after)).length) runs'

/-- The conditions on a text with the text `lead` and then these isolates: there are no other
isolates, and outside of the isolates there is nothing from right to left before
European numbers; no Arabic letter is before them anywhere. -/
structure NestedIsolates (T : Tables) (o : Options) (lead : List Char) (is : Isolates) : Prop where
  good : is.Good T o false
  outer : NoIsolates (classes T o (lead ++ is.outer))
  numbersOutside : ∀ pre post, classes T o (lead ++ is.outer) = pre ++ cEN :: post → cR ∉ pre ∧ cAL ∉ pre
  numbers : NoALBeforeEN (classes T o (lead ++ is.chars))

end Uax.Bidi.Spec
