import Verif.Publisher

/-
Model of `Recognizer` and of the recognizer pool, /repo/automata.go:21-179.

A state function (`NfaStateFn`, automata.go:36) is represented by a name of type `α`; what the
named function does is given by an interpretation `run`, which is a parameter. This
is needed because Go's recursive function type has no direct counterpart. `υ` is the type of
`UserData`. The pool (go-commons-pool, not part of the repository) is modelled by its
contract: borrowing yields either an object which has been returned and not been borrowed
since, or a new one from the factory.
-/

namespace Uax

/-- automata.go:54-60, `Recognizer`. `next = none` is a nil function. -/
structure Rec (α υ : Type) where
  expect : Int
  matchLen : Int
  userData : Option υ
  penalties : List Int
  next : Option α
deriving DecidableEq, Repr

namespace Rec

variable {α υ γ : Type}

/-- The zero value `&Recognizer{}`, automata.go:67 and 84-86. -/
def zero : Rec α υ := ⟨0, 0, none, [], none⟩

/-- automata.go:66-71, `NewRecognizer`. -/
def new (cls : Int) (fn : Option α) : Rec α υ := { (zero : Rec α υ) with expect := cls, next := fn }

/-- automata.go:101-104: what `NewPooledRecognizer` does to the borrowed object. -/
def initPooled (o : Rec α υ) (cls : Int) (fn : Option α) : Rec α υ :=
  { o with expect := cls, next := fn }

/-- automata.go:108-114, `releaseIntoPool` (called by `Unsubscribed`, 129-131). -/
def release (r : Rec α υ) : Rec α υ :=
  { r with penalties := [], expect := 0, matchLen := 0, next := none }

/-- automata.go:138-140, `Done`. -/
def done (r : Rec α υ) : Bool := r.next.isNone

/-- automata.go:148-162, `RuneEvent`. `run` interprets the state function: it may change the
recognizer and the context and returns the next state function. -/
def runeEvent (run : α → γ → Rec α υ → Int → Int → γ × Rec α υ × Option α)
    (g : γ) (r : Rec α υ) (c cls : Int) : γ × Rec α υ × List Int :=
  match r.next with
  | none => (g, r, if r.matchLen > 0 then r.penalties else [])
  | some fn =>
    let (g', r', nx) := run fn g r c cls
    let r'' := { r' with next := nx }
    (g', r'', if r''.done && decide (r''.matchLen > 0) then r''.penalties else [])

/-- automata.go:167-170, `DoAbort`: the recognizer and the returned (nil) function. -/
def doAbort (r : Rec α υ) : Rec α υ × Option α := ({ r with matchLen := 0 }, none)

/-- automata.go:174-179, `DoAccept`. -/
def doAccept (r : Rec α υ) (ps : List Int) : Rec α υ × Option α :=
  ({ r with matchLen := r.matchLen + 1, penalties := ps }, none)

/-- A recognizer is a rune subscriber: automata.go:129-162. -/
def sub (run : α → γ → Rec α υ → Int → Int → γ × Rec α υ × Option α) : Sub γ (Rec α υ) where
  event := runeEvent run
  matchLen := (·.matchLen)
  done := done

end Rec

/-- The recognizer pool (automata.go:74-97) and the recognizers currently handed out. -/
structure RecPool (α υ : Type) where
  idle : List (Rec α υ)
  out : List (Rec α υ)
deriving DecidableEq, Repr

/-- What can happen to pooled recognizers, automata.go:99-131. -/
inductive PoolOp (α υ : Type) where
  /-- `NewPooledRecognizer`; the pool hands out idle object number `k`, or a new one if
  there is no such object. -/
  | borrow (k : Nat) (cls : Int) (fn : Option α)
  /-- Recognizer `i` is used in an arbitrary way. -/
  | use (i : Nat) (r : Rec α υ)
  /-- `Unsubscribed` for recognizer `i`. -/
  | release (i : Nat)

/-- automata.go:97-114 with the pool's contract. -/
def RecPool.step {α υ : Type} (p : RecPool α υ) : PoolOp α υ → RecPool α υ
  | .borrow k cls fn =>
    let o := (p.idle[k]?).getD Rec.zero
    ⟨p.idle.eraseIdx k, o.initPooled cls fn :: p.out⟩
  | .use i r => ⟨p.idle, p.out.set i r⟩
  | .release i => match p.out[i]? with
    | none => p
    | some r => ⟨r.release :: p.idle, p.out.eraseIdx i⟩

end Uax
