import Verif.Deque

/-
Model of /repo/segment/segment.go.

Simplifications:
* The queue is a list; `Verif/Deque.lean` and theorem `C14_deque_refines_list` justify this.
* `math.MaxInt64` as a bound is `none`; other bounds are `some b` with `b : Int`. Ints are unbounded.
* A reader is a finite list of (rune, size in bytes) followed by its end: `io.EOF` or an
  error. (A reader that never ends cannot be exhausted.) At the end the size is 0.
* Breakers are distinct objects, the first one is the primary one. The five methods of
  `uax.UnicodeBreaker` (automata.go:13-19) are called in a fixed order for each rune
  (segment.go:458-464) and are modelled by one `step` returning the new state,
  `LongestActiveMatch()` and `Penalties()`. Different kinds of breakers can be mixed by
  taking a sum type for the state `β`.
* `panic` is `none`. Tracing is omitted.
-/

namespace Uax

/-- The error values of segment.go:69,102-105, `io.EOF`, and errors of the reader. -/
inductive SegErr where
  | eof | boundReached | tooLong | notInitialized | reader (e : Nat)
deriving DecidableEq, Repr

/-- A `uax.UnicodeBreaker`, automata.go:13-19. -/
structure Breaker (β : Type) where
  step : β → Int → β × Int × List Int

/-- segment.go:97. -/
def startBufSize : Nat := 4096

/-- segment.go:675-681, `runewrite`. `out` is `none` for a nil slice, otherwise content and
capacity. -/
structure RuneWrite where
  maxSegLen : Nat
  isBacked : Bool
  backing : List Int
  start : Nat
  stop : Nat
  out : Option (List Int × Nat)
deriving DecidableEq, Repr

namespace RuneWrite

/-- The zero value of segment.go:675-681. -/
def zero : RuneWrite := ⟨0, false, [], 0, 0, none⟩

/-- Length of the output slice, segment.go:675-681. -/
def outLen (w : RuneWrite) : Nat := match w.out with | none => 0 | some (l, _) => l.length
/-- Capacity of the output slice, segment.go:675-681. -/
def outCap (w : RuneWrite) : Nat := match w.out with | none => 0 | some (_, c) => c
/-- Content of the output slice, segment.go:675-681. -/
def outVal (w : RuneWrite) : List Int := match w.out with | none => [] | some (l, _) => l

/-- segment.go:683-712, `WriteRune`; second component: `true` if written, `false` for
`ErrTooLong`. -/
def writeRune (w : RuneWrite) (r : Int) : RuneWrite × Bool :=
  if w.isBacked then ({ w with stop := w.stop + 1 }, true)
  else
    let c := w.outCap
    if c = w.outLen then
      if c ≥ w.maxSegLen then (w, false)
      else
        let newSize := max (c + startBufSize) (w.outLen + 1)
        let newSize := if newSize > w.maxSegLen then w.maxSegLen else newSize
        ({ w with out := some (w.outVal ++ [r], newSize) }, true)
    else ({ w with out := some (w.outVal ++ [r], c) }, true)

/-- segment.go:714-719, `Runes`. A slice expression out of range is a panic (assuming
that the caller's slice has no spare capacity). -/
def runes (w : RuneWrite) : Option (List Int) :=
  if w.isBacked then
    if w.start ≤ w.stop ∧ w.stop ≤ w.backing.length then
      some ((w.backing.drop w.start).take (w.stop - w.start))
    else none
  else some w.outVal

/-- segment.go:721-728, `SetMark`. -/
def setMark (w : RuneWrite) : RuneWrite :=
  if w.isBacked then { w with start := w.stop }
  else { w with out := w.out.map fun o => ([], o.2) }

/-- segment.go:730-746, `Reset`; the argument `none` is a nil slice. -/
def reset (w : RuneWrite) (b : Option (List Int)) : RuneWrite :=
  let out := w.out.map fun o => if o.2 > 0 then ([], o.2) else o
  match b with
  | none => { w with isBacked := false, backing := [], start := 0, stop := 0,
                     out := some (out.getD ([], startBufSize)) }
  | some b => { w with isBacked := true, backing := b, start := 0, stop := 0, out := out }

end RuneWrite

/-- segment.go:78-92, `Segmenter`. `ready = false` means that `reader` and `deque` are nil. -/
structure Seg (β : Type) where
  ready : Bool
  q : List Atom
  src : List (Int × Nat)
  srcEnd : Option Nat
  brk : List β
  buf : RuneWrite
  lastP : Int × Int
  pos : Int
  zero0 : Bool
  zero1 : Bool
  lam : Int
  bo : Int
  atEOF : Bool
  inUse : Bool
  err : Option SegErr

namespace Seg

variable {β : Type} (B : Breaker β)

/-- segment.go:114-121, `NewSegmenter` (the default breaker is supplied by the caller). -/
def new (brk : List β) : Seg β :=
  ⟨false, [], [], none, brk, RuneWrite.zero, (0, 0), 0, false, false, 0, 0, false, false, none⟩

/-- segment.go:147-160, `init`. On the first call (nil deque) the fields have their zero
values, so that both branches agree. -/
def init (s : Seg β) : Seg β :=
  if s.ready then
    { s with q := [], lam := 0, atEOF := false, inUse := false, lastP := (0, 0), pos := 0, bo := -1 }
  else { s with ready := true, bo := -1 }

/-- segment.go:126-133, `Init`; `fin = none` means the reader ends with `io.EOF`. -/
def initReader (s : Seg β) (src : List (Int × Nat)) (fin : Option Nat) : Seg β :=
  { s with src := src, srcEnd := fin, buf := s.buf.reset none }.init

/-- segment.go:138-145 and 660-672, `InitFromSlice` with `runeread`. -/
def initSlice (s : Seg β) (buf : List Int) : Seg β :=
  { s with src := buf.map fun r => (r, 1), srcEnd := none, buf := s.buf.reset (some buf) }.init

/-- segment.go:190-198, `RuneBuffer`; `cap ≥ len(buf)`. `none` = panic. -/
def runeBuffer (s : Seg β) (buf : List Int) (cap : Nat) (max : Nat) : Option (Seg β) :=
  if s.inUse then none
  else if buf.length > 0 then
    some { s with buf := { s.buf with out := some (buf, cap), maxSegLen := max } }
  else some s

/-- segment.go:202-207, `Err`. -/
def errValue (s : Seg β) : Option SegErr := if s.err = some .eof then none else s.err

/-- segment.go:219-222, `BreakOnZero`. -/
def breakOnZero (s : Seg β) (z0 z1 : Bool) : Seg β := { s with zero0 := z0, zero1 := z1 }

/-- segment.go:225-233, `isPossibleBreak`; doc.go:173 `InfinitePenalty = 10000`. -/
def isPossibleBreak (p : Int) (onZero : Bool) : Bool :=
  if p ≥ 10000 then false else if !onZero && p == 0 then false else true

/-- segment.go:304-308, `setErr`. -/
def setErr (s : Seg β) (e : SegErr) : Seg β :=
  match s.err with
  | none => { s with err := some e }
  | some .eof => { s with err := some e }
  | some _ => s

/-- segment.go:551-565: penalties are added to the atoms from the back of the queue; both
lists are given from the back. -/
def addRev (primary : Bool) : List Atom → List Int → List Atom
  | a :: as, p :: ps =>
    (if primary then { a with p0 := a.p0 + p } else { a with p1 := a.p1 + p }) :: addRev primary as ps
  | as, _ => as

/-- segment.go:543-566, `insertPenalties` (excess penalties are dropped). -/
def insertPenalties (primary : Bool) (q : List Atom) (ps : List Int) : List Atom :=
  (addRev primary q.reverse ps).reverse

/-- segment.go:457-465: one rune through all breakers; `inxForBreaker` (533-538) is the
flag `primary`. -/
def feed (r : Int) : Bool → List β → List Atom → Int → List β × List Atom × Int
  | _, [], q, lam => ([], q, lam)
  | primary, b :: bs, q, lam =>
    let (b', l, ps) := B.step b r
    let lam := if l > lam then l else lam
    let (bs', q', lam') := feed r false bs (insertPenalties primary q ps) lam
    (b' :: bs', q', lam')

/-- Is a break after this atom feasible? segment.go:513; `multi` is `len(s.breakers) > 1`. -/
def feasible (z0 z1 multi : Bool) (a : Atom) : Bool :=
  isPossibleBreak a.p0 z0 || (multi && isPossibleBreak a.p1 z1)

/-- segment.go:503-511: `i ≤ boundDist`, where `none` is `math.MaxInt64`. -/
def within (i : Int) : Option Int → Bool
  | none => true
  | some b => decide (i ≤ b)

/-- segment.go:510-519, the loop of `findBreakOpportunity`: index of the first feasible atom
with `i < to` and `i ≤ boundDist`, and the value of `i` when the loop is left. -/
def findLoop (ok : Atom → Bool) (to : Int) (bd : Option Int) : Int → List Atom → Option Int × Int
  | i, [] => (none, i)
  | i, a :: q =>
    if i < to ∧ within i bd = true then
      if ok a then (some i, i) else findLoop ok to bd (i + 1) q
    else (none, i)

/-- segment.go:503-529, `findBreakOpportunity`. (The queue always has at least `to` atoms, as
`to = qlen - lam` with `lam ≥ 0`, so that `AtomAt` does not panic.) -/
def findBreak (ok : Atom → Bool) (q : List Atom) (to : Int) (bd : Option Int) : Int :=
  if to - 1 < 0 ∨ within 0 bd = false then -1
  else match findLoop ok to bd 0 q with
    | (some i, _) => i
    | (none, i) => if bd = some (i - 1) then i - 1 else -1

/-- `findBreakOpportunity` on the segmenter, as called in segment.go:472-478 and 606-611. -/
def find (s : Seg β) (bound : Option Int) : Int :=
  findBreak (feasible s.zero0 s.zero1 (decide (s.brk.length > 1))) s.q (s.q.length - s.lam)
    (bound.map fun b => b - s.pos + s.q.length)

/-- segment.go:444-478 after a rune (or the end-of-text atom) has been queued. -/
def digest (s : Seg β) (bound : Option Int) (a : Atom) : Seg β :=
  let q := s.q ++ [a]
  let (brk, q, lam) := feed B a.r true s.brk q 0
  let s := { s with brk := brk, q := q, lam := lam }
  { s with bo := s.find bound }

/-- segment.go:428-431. -/
def beyond (s : Seg β) (bound : Option Int) : Bool :=
  match bound with
  | none => false
  | some b => decide (s.pos - s.lam > b)

/-- segment.go:365. -/
def past (s : Seg β) (bound : Option Int) : Bool :=
  match bound with
  | none => false
  | some b => decide (s.pos - s.q.length > b)

/-- segment.go:424-485, `readEnoughInputAndFindBreak`, with `readRune` (392-412) inlined;
recursion over the unread input. (`skipRead`, lines 435-443, is never set because the loop
is only entered with a negative position.) -/
def readEnough (bound : Option Int) : List (Int × Nat) → Seg β → Seg β × Option SegErr
  | src, s =>
    if s.bo ≥ 0 then ({ s with src := src }, none)
    else if s.beyond bound then ({ s with src := src }, some .boundReached)
    else if s.atEOF then ({ s with src := src }, some .eof)
    else match src with
      | (r, sz) :: rest =>
        readEnough bound rest (digest B { s with pos := s.pos + sz } bound ⟨r, 0, 0⟩)
      | [] => match s.srcEnd with
        | some e => ({ s with src := [], atEOF := true }, some (.reader e))
        | none =>
          let s := digest B { s with src := [], atEOF := true } bound eotAtom
          -- one more round of the loop, in which nothing can be read any more
          if s.bo ≥ 0 then (s, none)
          else if s.beyond bound then (s, some .boundReached)
          else (s, some .eof)

/-- segment.go:597-602: pop `n` atoms and write their runes. -/
def popWrite : Nat → Seg β → Option (Seg β)
  | 0, s => some s
  | n + 1, s => match s.q with
    | [] => none
    | a :: q => popWrite n { s with q := q, buf := (s.buf.writeRune a.r).1, lastP := (a.p0, a.p1) }

/-- segment.go:579-614, `getFrontSegment`. -/
def getFront (s : Seg β) (bound : Option Int) : Option (Seg β) :=
  let s := { s with lastP := (0, 0), buf := s.buf.setMark }
  let l : Int := min ((s.q.length : Int) - 1) s.bo
  if l < 0 then none
  else
    let start : Int := s.pos - (s.q.length : Int)
    let l' : Int := match bound with
      | none => l
      | some b => if start + l ≥ b then b - s.pos + (s.q.length : Int) else l
    if l' < 0 then some s
    else match popWrite (l'.toNat + 1) s with
      | none => none
      | some s => some { s with bo := s.find bound }

/-- segment.go:352-380, `next`. `none` = panic. -/
def nextB (s : Seg β) (bound : Option Int) : Option (Seg β × Bool) :=
  if !s.ready then
    -- reader and deque are nil; only the test of line 428 comes before the nil deque is used
    let s := s.setErr .notInitialized
    if s.beyond bound then
      some ({ (s.setErr .boundReached) with inUse := true, buf := s.buf.reset none }, false)
    else none
  else
    let s := { s with inUse := true }
    if s.atEOF then
      if s.bo < 0 then some ({ s with buf := s.buf.reset none }, false)
      else (s.getFront bound).map (·, true)
    else
      match readEnough B bound s.src s with
      | (s, some .boundReached) =>
        some ({ (s.setErr .boundReached) with buf := s.buf.reset none }, false)
      | (s, some (.reader e)) =>
        some ({ (s.setErr (.reader e)) with buf := s.buf.reset none }, false)
      | (s, _) =>
        if s.past bound then
          some (s, false)
        else if s.bo < 0 then some ({ s with buf := s.buf.reset none }, false)
        else (s.getFront bound).map (·, true)

/-- segment.go:279-281, `Next`. -/
def next (s : Seg β) : Option (Seg β × Bool) := nextB B s none

/-- segment.go:299-301, `BoundedNext`. -/
def boundedNext (s : Seg β) (b : Int) : Option (Seg β × Bool) := nextB B s (some (b - 1))

/-- segment.go:252-260, `Runes`/`Text`. -/
def runes (s : Seg β) : Option (List Int) := s.buf.runes

end Seg

/-- The public calls that advance a segmenter, segment.go:281-301, for histories. -/
inductive SegCall where
  | next | bounded (b : Int)
deriving DecidableEq, Repr

/-- One call, segment.go:281-301. -/
def Seg.call {β : Type} (B : Breaker β) (s : Seg β) : SegCall → Option (Seg β × Bool)
  | .next => s.next B
  | .bounded b => s.boundedNext B b

end Uax
