import Verif.Deque

/-! Specification of the queue: the same operations on a mathematical list. -/

namespace Uax

/-- An ideal double-ended sequence. `none` = the operation panics. -/
def dqSpec (l : List Atom) : DqOp → Option (List Atom × DqOut)
  | .pushBack a => some (l ++ [a], .unit)
  | .pushFront a => some (a :: l, .unit)
  | .popFront => match l with
    | [] => none
    | a :: l' => some (l', .atom a)
  | .popBack => match l.getLast? with
    | none => none
    | some a => some (l.dropLast, .atom a)
  | .front => l.head?.map fun a => (l, .atom a)
  | .back => l.getLast?.map fun a => (l, .atom a)
  | .at' i => if 0 ≤ i then l[i.toNat]?.map fun a => (l, .atom a) else none
  | .setAt i a => if 0 ≤ i ∧ i.toNat < l.length then some (l.set i.toNat a, .unit) else none
  | .clear => some ([], .unit)
  | .rotate n => some (l.rotateLeft (n % l.length).toNat, .unit)
  | .len => some (l, .nat l.length)

/-- A whole history on the list: outputs of all operations up to the first panic. -/
def dqSpecRun : List Atom → List DqOp → List Atom × List (Option DqOut)
  | l, [] => (l, [])
  | l, op :: ops => match dqSpec l op with
    | none => (l, [none])
    | some (l', o) => let (l'', os) := dqSpecRun l' ops; (l'', some o :: os)

/-- A whole history on the ring buffer: outputs up to the first panic. -/
def Deque.run : Deque → List DqOp → Deque × List (Option DqOut)
  | q, [] => (q, [])
  | q, op :: ops => match q.step op with
    | none => (q, [none])
    | some (q', o) => let (q'', os) := Deque.run q' ops; (q'', some o :: os)

end Uax
