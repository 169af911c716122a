import Verif.Publisher

/-! Specification of rune publishing: deliver to each subscriber once, add up. -/

namespace Uax

/-- Deliver one event to each subscriber of a list, once, in this order. The result pairs
each subscriber's new state with the penalties it answered. -/
def deliver {γ σ : Type} (S : Sub γ σ) (r cls : Int) : γ → List σ → γ × List (σ × List Int)
  | g, [] => (g, [])
  | g, s :: rest =>
    let (g1, s', pens) := S.event g s r cls
    let (g2, outs) := deliver S r cls g1 rest
    (g2, (s', pens) :: outs)

/-- Sum of everybody's penalty at index `j`; a missing entry counts 0. -/
def penaltyAt (outs : List (List Int)) (j : Nat) : Int := (outs.map fun l => l.getD j 0).sum

/-- Reachable publishers: any history of client operations from a new publisher. -/
inductive Pub.Reachable {γ σ : Type} (S : Sub γ σ) : γ → Pub σ → Prop
  | new (g : γ) : Reachable S g Pub.empty
  | step {g g' : γ} {p p' : Pub σ} (op : PubOp σ) :
      Reachable S g p → p.step S g op = some (g', p') → Reachable S g' p'

end Uax
