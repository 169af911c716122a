/-
Model of /repo/prioq.go (the publisher's queue) and of the publishing part of
/repo/automata.go.

Simplifications: every queue slot owns its subscriber (the same object is not
subscribed twice); subscribers may share a context `γ` which their `RuneEvent` may
change (the line and word breakers do this); a rune event is a pair (rune, class);
`panic` is `none`; the penalty buffer is a fresh list for every call (Go reuses the
backing array, automata.go:222-226).
-/

namespace Uax

/-- automata.go:189-194, interface `RuneSubscriber`. -/
structure Sub (γ σ : Type) where
  /-- `RuneEvent`: new context, new state, penalties. -/
  event : γ → σ → Int → Int → γ × σ × List Int
  matchLen : σ → Int
  done : σ → Bool

/-- prioq.go:18-23, `DefaultRunePublisher`. -/
structure Pub (σ : Type) where
  q : List σ
  gap : Nat
  total : List Int
deriving DecidableEq, Repr

namespace Pub

variable {γ σ : Type} (S : Sub γ σ)

/-- automata.go:212-216, `NewRunePublisher` / the zero value. -/
def empty : Pub σ := ⟨[], 0, []⟩

/-- prioq.go:26, `Len`. -/
def len (p : Pub σ) : Nat := p.q.length

/-- prioq.go:36-41, `Top`; `none` is Go's nil. -/
def top (p : Pub σ) : Option σ := p.q[p.q.length - 1]?

/-- Go's `q[i], q[j] = q[j], q[i]`, as in prioq.go:46-126; `none` is index out of range. -/
def swap (q : List σ) (i j : Nat) : Option (List σ) :=
  match q[i]?, q[j]? with
  | some x, some y => some ((q.set i y).set j x)
  | _, _ => none

/-- prioq.go:105-112: the swap at the start of `bubbleUp`. -/
def upSwap (p : Pub σ) (i : Nat) : Option (List σ) :=
  if i + 1 < p.gap then
    if p.gap < p.q.length then swap p.q i (p.gap - 1)
    else if i < p.q.length - 1 then swap p.q i (p.q.length - 1)
    else some p.q
  else some p.q

/-- prioq.go:104-116, `bubbleUp`. -/
def bubbleUp (p : Pub σ) (i : Nat) : Option (Pub σ) :=
  (upSwap p i).bind fun q =>
    if p.gap > 0 then
      q[p.gap - 1]?.bind fun s =>
        if S.done s then some { p with q := q, gap := p.gap - 1 } else some { p with q := q }
    else some { p with q := q }

/-- prioq.go:120-124: the swap at the start of `bubbleDown`. -/
def downSwap (p : Pub σ) (i : Nat) : Option (List σ) :=
  if i ≥ p.gap then (if p.gap < i then swap p.q i p.gap else some p.q) else some p.q

/-- prioq.go:119-128, `bubbleDown`. -/
def bubbleDown (p : Pub σ) (i : Nat) : Option (Pub σ) :=
  (downSwap p i).bind fun q =>
    if p.gap < q.length then
      q[p.gap]?.bind fun s =>
        if S.done s then some { p with q := q } else some { p with q := q, gap := p.gap + 1 }
    else some { p with q := q }

/-- prioq.go:46-62, `Fix`, including the check of lines 54-60. -/
def fix (p : Pub σ) (i : Nat) : Option (Pub σ) :=
  if i < p.q.length then do
    let s ← p.q[i]?
    let p' ← if S.done s then bubbleUp S p i else bubbleDown S p i
    if (p'.q.take p'.gap).any S.done then none else some p'
  else some p

/-- prioq.go:65-72, `Push`; automata.go:345-351, `SubscribeMe`. -/
def push (p : Pub σ) (s : σ) : Option (Pub σ) :=
  let l := p.q.length
  let p := { p with q := p.q ++ [s] }
  match p.top with
  | none => none
  | some t => if S.done t then some p else bubbleDown S p l

/-- prioq.go:75-88, `Pop`; the result `none` is Go's nil. -/
def pop (p : Pub σ) : Pub σ × Option σ :=
  match p.q[p.q.length - 1]? with
  | none => (p, none)
  | some s =>
    let q := p.q.take (p.q.length - 1)
    (⟨q, if p.gap > q.length then p.gap - 1 else p.gap, p.total⟩, some s)

/-- prioq.go:93-101, `PopDone`. -/
def popDone (p : Pub σ) : Pub σ × Option σ :=
  match p.top with
  | none => (p, none)
  | some t => if S.done t then p.pop else (p, none)

/-- automata.go:242-250: add a subscriber's penalties to the running totals. -/
def addPens : List Int → List Int → List Int
  | ts, [] => ts
  | [], ps => ps
  | t :: ts, p :: ps => (t + p) :: addPens ts ps

/-- automata.go:238-258: the delivery loop, counting the index down; the argument `i + 1`
processes index `i`. -/
def publishLoop (r cls : Int) : Nat → γ → Pub σ → Int → Option (γ × Pub σ × Int)
  | 0, g, p, longest => some (g, p, longest)
  | i + 1, g, p, longest => do
    let s ← p.q[i]?
    let (g', s', pens) := S.event g s r cls
    let p := { p with q := p.q.set i s', total := addPens p.total pens }
    let longest := if S.done s' then longest else if S.matchLen s' > longest then S.matchLen s' else longest
    let p ← fix S p i
    publishLoop r cls i g' p longest

/-- automata.go:261-263: unsubscribe all done subscribers. The list is the order in which
`Unsubscribed` is called. Recursion on the queue length (each round pops one). -/
def popAllDone : Nat → Pub σ → Pub σ × List σ
  | 0, p => (p, [])
  | n + 1, p => match popDone S p with
    | (p', none) => (p', [])
    | (p', some s) => let (p'', ss) := popAllDone n p'; (p'', s :: ss)

/-- automata.go:229-265, `PublishRuneEvent`: context, publisher, longest match and
unsubscribed subscribers; the penalties are the field `total`. -/
def publish (g : γ) (p : Pub σ) (r cls : Int) : Option (γ × Pub σ × Int × List σ) := do
  let (g', p, longest) ← publishLoop S r cls p.q.length g { p with total := [] } 0
  let (p, gone) := popAllDone S (p.q.length + 1) p
  some (g', p, longest, gone)

end Pub

/-- What clients can do to a publisher: subscribe, publish, pop, and change one
subscriber from outside and report this with `Fix` (prioq.go:43-46). -/
inductive PubOp (σ : Type) where
  | subscribe (s : σ) | publish (r cls : Int) | popDone | pop | change (i : Nat) (s : σ)

/-- One client operation of automata.go:212-352 and prioq.go:26-100; `none` = panic. -/
def Pub.step {γ σ : Type} (S : Sub γ σ) (g : γ) (p : Pub σ) : PubOp σ → Option (γ × Pub σ)
  | .subscribe s => (p.push S s).map (g, ·)
  | .publish r cls => (p.publish S g r cls).map fun x => (x.1, x.2.1)
  | .popDone => some (g, (p.popDone S).1)
  | .pop => some (g, p.pop.1)
  | .change i s => (({ p with q := p.q.set i s } : Pub σ).fix S i).map (g, ·)

end Uax
