import Verif.SpecBrackets

/-
Specification: rule N0 of UAX#9, the directions of bracket pairs, for texts
without isolates.
-/
namespace Uax.Bidi.Spec

/-- The strong type of a class. Arabic letters count as R (rule W3). -/
def strongType (c : Class) : Option Class := if c = cL then some cL else if c = cR ∨ c = cAL then some cR else none

/-- The type of a class in rule N0, after the strong type `w`. Numbers count as R, but European
numbers after L are L already (rule W7; after an Arabic letter they are Arabic numbers, rule W2). -/
def typeN0 (w c : Class) : Option Class :=
  if c = cEN then some (if w = cL then cL else cR) else if c = cAN then some cR else strongType c

/-- The strong types in the sense of rule N0 of a text that begins at a byte position, in their
order. `w` is the strong type of the letter before. `d` are the brackets which have got a
direction already. (Separators and terminators which belong to a number by the rules W4 and W5, and marks
after it, have the type of the number, and are not listed.) -/
def strongTypes (T : Tables) (o : Options) (d : Nat → Option Class) : Class → Nat → List Char → List Class
  | _, _, [] => []
  | w, pos, c :: t => ((typeN0 w (charClass T o c)).or (d pos)).toList ++
      strongTypes T o d ((strongType (charClass T o c)).getD w) (pos + (utf8 [c]).length) t

/-- The strong type of the last letter of a text, or the embedding direction. -/
def lastLetter (T : Tables) (o : Options) (t : List Char) : Class := ((classes T o t).filterMap strongType).getLast?.getD (outer o)

/-- Rule N0 for a pair: with a strong type inside which matches the embedding direction `e`
the brackets get this direction (b). Otherwise, with a strong type inside, they get the
direction of the last strong type before the opening bracket (c), which is the embedding
direction at the beginning of the text. Otherwise they get no direction (d). -/
def n0 (e : Class) (before inside : List Class) : Option Class :=
  if e ∈ inside then some e else if inside = [] then none else some (before.getLast?.getD e)

/-- The directions `d` of the brackets of a text are those of rule N0. The rule is applied to
the pairs in the order of their opening brackets: the brackets before a pair have got their
directions then, the brackets inside have not. -/
def RuleN0 (T : Tables) (o : Options) (t : List Char) (d : Nat → Option Class) : Prop :=
  (∀ x, (∀ p q, (p, q) ∈ bd16 true [] (bracketsOf T o 0 t) → x ≠ p ∧ x ≠ q) → d x = none) ∧
  ∀ before a inside b after, t = before ++ a :: (inside ++ b :: after) →
    ((utf8 before).length, (utf8 (before ++ a :: inside)).length) ∈ bd16 true [] (bracketsOf T o 0 t) →
    d (utf8 before).length = n0 (outer o) (strongTypes T o d (outer o) 0 before) (strongTypes T o (fun _ => none) (lastLetter T o before) 0 inside) ∧
    d (utf8 (before ++ a :: inside)).length = d (utf8 before).length

/-- The last strong type of a text is not that of a bracket: after its last letter there are no
brackets. If there is no letter, there are no brackets either, and the text is empty or the
embedding direction is left to right. -/
def LetterLast (T : Tables) (o : Options) (t : List Char) : Prop :=
  ∃ u w, t = u ++ w ∧ (∀ c ∈ w, charClass T o c ≠ cBRACKO ∧ charClass T o c ≠ cBRACKC) ∧
    ((u = [] ∧ (w = [] ∨ o.outerR2L = false)) ∨ ∃ v c, u = v ++ [c] ∧ strongType (charClass T o c) ≠ none)

/-- What is given to each character of a text that begins at a byte position. -/
def perChar (d : Nat → Option Class) : Nat → List Char → List (Option Class)
  | _, [] => []
  | pos, c :: t => d pos :: perChar d (pos + (utf8 [c]).length) t

/-- The classes of characters after rule N0: brackets have the directions `ks`. Other brackets
are neutral. (Nonspacing marks after brackets are not considered.) -/
def setBrackets : List (Option Class) → List Class → List Class
  | k :: ks, x :: xs => (if x = cBRACKO ∨ x = cBRACKC then k.getD cON else x) :: setBrackets ks xs
  | _, _ => []

/-- The types after W1 to W7, N0, N1 and N2, for brackets with the directions `ks`. -/
def resolvedPairs (e : Class) (ks : List (Option Class)) (cs : List Class) : List Class := n12 e e (setBrackets ks (weak e cs))

/-- The directions of the characters, as `directions`, with rule N0. -/
def directionsPairs (e : Class) (ks : List (Option Class)) (cs : List Class) : List Dir :=
  (resolvedPairs e ks cs).map fun c => if level e c % 2 = 0 then .ltr else .rtl

/-- Letters (no Arabic ones), European numbers with their separators and terminators, marks,
neutrals and brackets: no Arabic numbers, no formatting characters. -/
def PairClasses (cs : List Class) : Prop := ∀ c ∈ cs, c ∈ [cL, cR, cEN, cES, cET, cCS, cNSM, cS, cWS, cON, cBRACKO, cBRACKC]

/-- There are no nonspacing marks directly after brackets. -/
def NoMarksAfter (cs : List Class) : Prop := ∀ pre x post, cs = pre ++ x :: cNSM :: post → x ≠ cBRACKO ∧ x ≠ cBRACKC

/-- Every bracket of a text belongs to a pair with a letter inside. It gets the embedding direction
from inside, or the strong type before the pair is not that of a bracket. -/
def BracketsDecided (T : Tables) (o : Options) (t : List Char) : Prop :=
  ∀ u c w, t = u ++ c :: w → charClass T o c = cBRACKO ∨ charClass T o c = cBRACKC →
    ∃ before a inside b after, t = before ++ a :: (inside ++ b :: after) ∧ (u = before ∨ u = before ++ a :: inside) ∧
      ((utf8 before).length, (utf8 (before ++ a :: inside)).length) ∈ bd16 true [] (bracketsOf T o 0 t) ∧
      (∃ x ∈ inside, charClass T o x = cL ∨ charClass T o x = cR) ∧
      (outer o ∈ strongTypes T o (fun _ => none) (lastLetter T o before) 0 inside ∨ LetterLast T o before)

/-- Where a neutral, separator or terminator comes directly before a bracket, the direction `ds`
is the one of the paragraph. -/
def NeutralsBefore (e : Class) (cs ds : List Class) : Prop :=
  ∀ i x y, cs[i]? = some x → cs[i + 1]? = some y → x ∈ [cS, cWS, cON, cES, cET, cCS] → y = cBRACKO ∨ y = cBRACKC → ds[i]? = some e

/-- The direction of a strong type. -/
def dirOfStrong (c : Class) : Dir := if c = cR then .rtl else .ltr

end Uax.Bidi.Spec
