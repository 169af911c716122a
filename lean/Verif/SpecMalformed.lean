import Verif.SpecBidiText

/-! Specification for property C78: how a sequence of bytes is read which may not be UTF-8. -/

namespace Uax.Bidi.Spec


/-- The bytes are read as this text, with that many malformed bytes: each character which is there in UTF-8 is read as such, and each byte with which no character begins is
read as U+FFFD. -/
inductive ReadsAs : List Nat → List Char → Nat → Prop
  | none : ReadsAs [] [] 0
  | char {b : List Nat} {t : List Char} {k : Nat} (c : Char) : ReadsAs b t k → ReadsAs (utf8 [c] ++ b) (c :: t) k
  | malformed {b : List Nat} {t : List Char} {k : Nat} (x : Nat) :
      (∀ c rest, x :: b ≠ utf8 [c] ++ rest) → ReadsAs b t k → ReadsAs (x :: b) ('�' :: t) (k + 1)

end Uax.Bidi.Spec
