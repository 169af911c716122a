import Verif.SpecNested
import Verif.SpecVisual

/-
Specification: levels of all characters of a text with isolates.
-/
namespace Uax.Bidi.Spec

/-- X5a and X5b: the next higher odd level for RLI, the next higher even one for LRI. -/
def nextLevel (b : Nat) (c : Class) : Nat := if c = cRLI then b + 1 + b % 2 else b + 2 - b % 2

/-- The levels of the characters of an isolating run sequence at level `b`, by the rules W1 to W7, N1, N2, I1 and I2. -/
def sequenceLevels (b : Nat) (cs : List Class) : List Nat :=
  (resolved (if b % 2 = 0 then cL else cR) cs).map fun c => b - b % 2 + level (if b % 2 = 0 then cL else cR) c

/-- The levels of the characters of isolates and the text after them, within text of level `b`. `ls` are the levels of the
sequence they are in (initiators, PDIs and text outside of them), from the first initiator on. -/
def Isolates.levels (T : Tables) (o : Options) : Isolates → Nat → List Nat → List Nat
  | none, _, _ => []
  | more op lead inner _ after rest, b, ls =>
    let b' := nextLevel b (charClass T o op)
    let own := sequenceLevels b' (classes T o ((outerSequence lead inner).map (·.1)))
    ls.take 1 ++ (own.take lead.length ++ inner.levels T o b' (own.drop lead.length)) ++
      ((ls.drop 1).take (1 + after.length) ++ rest.levels T o b (ls.drop (2 + after.length)))

/-- The levels of the characters of a left-to-right text, which consists of `lead` and isolates. -/
def textLevels (T : Tables) (o : Options) (lead : List Char) (is : Isolates) : List Nat :=
  let ls := sequenceLevels 0 (classes T o ((outerSequence lead is).map (·.1)))
  ls.take lead.length ++ is.levels T o 0 (ls.drop lead.length)

/-- At this position there is no initiator or terminator of an isolate (they have no glyphs). -/
def visible (T : Tables) (o : Options) (t : List Char) (p : Nat) : Bool :=
  (charsAt 0 t).all fun x => decide (x.2 = p → charClass T o x.1 ∉ [cLRI, cRLI, cFSI, cPDI])

/-- Isolates contain letters, European numbers, marks and neutrals, and do not begin with a mark. -/
def Isolates.Simple (T : Tables) (o : Options) : Isolates → Prop
  | none => True
  | more _ lead _ _ _ rest => SimpleClasses (classes T o lead) ∧ (classes T o lead).head? ≠ some cNSM ∧ rest.Simple T o

/-- In a sequence, isolates are in text from left to right: initiators, PDIs and the characters next to them are
from left to right. An isolate at the beginning is from right to left. -/
def AmongL (cs : List Class) : Prop :=
  ∀ (i : Nat) (x : Class), cs[i]? = some x → x ∈ [cLRI, cRLI, cFSI] →
    (i = 0 → x = cRLI) ∧ ∀ j, i ≤ j + 1 → j ≤ i + 2 → j < cs.length → (resolved cL cs)[j]? = some cL

end Uax.Bidi.Spec
