/-! What texts are in the properties of grapheme strings: lists of Lean's characters, which are the
Unicode scalar values, with the UTF-8 encoding of Lean's library. -/

namespace Uax

/-- The UTF-8 encoding of a text. -/
def utf8 (t : List Char) : List Nat := t.flatMap fun c => (String.utf8EncodeChar c).map UInt8.toNat

/-- The code points of a text. -/
def codes (t : List Char) : List Int := t.map fun c => (c.toNat : Int)

/-- U+FFFD, which Go uses to report errors. -/
def replacement : Char := Char.ofNat 0xFFFD

/-- Bytes that do not begin with a character (other than U+FFFD). -/
def NoLegalStart (b : List Nat) : Prop := ∀ c rest, c ≠ replacement → b ≠ utf8 [c] ++ rest

end Uax
