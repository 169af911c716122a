import Verif.SpecVisual

/-! Specification for property C79: invisible characters. -/

namespace Uax.Bidi.Spec

/-- Rule X9: boundary neutrals, such as the zero width non-joiner, are ignored. This is the text without them. -/
def withoutBN (T : Tables) (o : Options) (t : List Char) : List Char := t.filter fun c => charClass T o c ≠ cBN

/-- The character which begins at a position. -/
def charAt (t : List Char) (p : Nat) : Option Char := (((starts 0 t).zip t).find? fun x => decide (x.1 = p)).map (·.2)

/-- The characters of a text as they are displayed, from left to right. -/
def displayed (t : List Char) (paragraph : Dir) (runs : List VRun) : List Char := (shown (starts 0 t) paragraph runs).filterMap (charAt t)

end Uax.Bidi.Spec
