import Verif.BidiReorder

/-
Specification: splitting the levels of a paragraph into lines, as clients do.
-/
namespace Uax.Bidi.Spec

/-- `Split(n, true)` is called with the length of the first line, and again for the right part with the
length of the second line, and so on; what remains is the last line. `none` is a panic. -/
def splitLines (rl : Levels) : List Nat → Option (List Levels)
  | [] => some [rl]
  | n :: ns =>
    match rl.split n true with
    | none => none
    | some (line, rest) => (splitLines rest ns).map (line :: ·)

end Uax.Bidi.Spec
