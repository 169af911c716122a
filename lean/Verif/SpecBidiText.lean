import Verif.BidiScanner
import Verif.SpecBidi
import Verif.SpecGString

/-
Specification: the classes of the characters of a text, and its first paragraph.
The tables of character properties and the options are those of the model; they
are data.
-/
namespace Uax.Bidi.Spec

/-- The tables give one of the classes of UAX#9 for every rune; PDI is the last
one in golang.org/x/text/unicode/bidi. -/
def KnownClasses (T : Tables) : Prop := ∀ r, T.cls r ≤ cPDI

/-- The bidi class of a character. Paired brackets get classes of their own. With
option Testing upper case letters are R and `>`, `<`, `=` are LRI, RLI and PDI.
A paragraph separator inside a paragraph (option IgnoreParagraphSeparators)
counts as white space. -/
def charClass (T : Tables) (o : Options) (c : Char) : Class :=
  if o.testing = true ∧ T.upper c.toNat = true then cR
  else if o.testing = true ∧ c = '>' then cLRI
  else if o.testing = true ∧ c = '<' then cRLI
  else if o.testing = true ∧ c = '=' then cPDI
  else if T.bracket c.toNat = some true then cBRACKO
  else if T.bracket c.toNat = some false then cBRACKC
  else if T.cls c.toNat = cB then cWS
  else T.cls c.toNat

/-- The classes of a text. -/
def classes (T : Tables) (o : Options) (t : List Char) : List Class := t.map (charClass T o)

/-- A text is resolved up to its first paragraph separator. -/
def firstParagraph (T : Tables) (o : Options) (t : List Char) : List Char :=
  t.takeWhile fun c => T.cls c.toNat ≠ cB || o.ignoreParSep

/-- The embedding direction. -/
def outer (o : Options) : Class := if o.outerR2L then cR else cL

/-- The classes of the bytes of a text, given those of its characters. -/
def spread (t : List Char) (cs : List Class) : List Class :=
  (t.zip cs).flatMap fun x => List.replicate (utf8 [x.1]).length x.2

/-- The classes of the bytes which scraps consist of. -/
def byteClasses (ss : List Scrap) : List Class := ss.flatMap fun s => List.replicate (s.r - s.l) s.clz

/-- All neutral classes are taken for one (NI in rules N1 and N2). -/
def oneNeutral (c : Class) : Class := if c = cS ∨ c = cWS ∨ c = cON then cNI else c

/-- No Arabic letter comes before a European number. -/
def NoALBeforeEN (cs : List Class) : Prop := ∀ pre post, cs = pre ++ cEN :: post → cAL ∉ pre

/-- Letters, European numbers with their separators and terminators, marks and
neutrals: no brackets, no Arabic numbers, no formatting characters. -/
def PlainClasses (cs : List Class) : Prop := ∀ c ∈ cs, c ∈ [cL, cR, cAL, cEN, cES, cET, cCS, cNSM, cS, cWS, cON]

/-- No separator or terminator comes directly after a neutral or after another kind of
separator or terminator. -/
def SeparatorsApart (cs : List Class) : Prop :=
  ∀ pre x y post, cs = pre ++ x :: y :: post → y ∈ [cES, cET, cCS] → x = y ∨ x ∉ [cB, cS, cWS, cON, cES, cET, cCS]

/-- Wherever a separator or terminator comes directly after a neutral or after another kind of
separator or terminator, a neutral character comes next after the separators and terminators,
or the direction `ds` there is the one of the paragraph. -/
def SeparatorsSettled (e : Class) (cs ds : List Class) : Prop :=
  ∀ i x y, cs[i]? = some x → cs[i + 1]? = some y → y ∈ [cES, cET, cCS] →
    x = y ∨ x ∉ [cB, cS, cWS, cON, cES, cET, cCS] ∨ ds[i + 1]? = some e ∨
      ∃ z ∈ [cS, cWS, cON], ((cs.drop (i + 2)).dropWhile (· ∈ [cES, cET, cCS])).head? = some z

end Uax.Bidi.Spec
