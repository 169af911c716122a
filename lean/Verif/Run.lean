/-
Outcomes of calls whose loops need not end. This is the vocabulary of the models and of the
properties; it models no particular part of /repo.
-/

namespace Uax

/-- What becomes of a call: it returns a value, it panics, or it has not finished yet. -/
inductive Run (α : Type) where
  | returns (a : α) | panics | running
deriving DecidableEq, Repr

/-- Go on with the value that is returned. -/
def Run.andThen {α γ : Type} : Run α → (α → Run γ) → Run γ
  | .returns a, f => f a
  | .panics, _ => .panics
  | .running, _ => .running

end Uax
