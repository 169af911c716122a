/-
Specification: reversing blocks of a list.
-/
namespace Uax.Bidi

/-- Every maximal block of elements with a property reversed; `acc` is the
reversed block read last. -/
def flipBlocks {α : Type} (p : α → Bool) : List α → List α → List α
  | acc, [] => acc
  | acc, s :: rest => if p s then flipBlocks p (s :: acc) rest else acc ++ s :: flipBlocks p [] rest

end Uax.Bidi
