/-
Model of /repo/segment/deque.go: a ring buffer of atoms.

Simplifications: Go `int` is unbounded (`Nat`/`Int`); `panic` (explicit or by an
index out of range) is the outcome `none`.
-/

namespace Uax

/-- segment/deque.go:30-34, `type atom`: a rune and two penalties. -/
structure Atom where
  r  : Int
  p0 : Int
  p1 : Int
deriving DecidableEq, Repr, Inhabited

/-- Go's zero value `atom{}` (deque.go:87). -/
def Atom.zero : Atom := ⟨0, 0, 0⟩

/-- segment/deque.go:37, `eotAtom`; doc.go:173 `InfinitePenalty = 10000`. -/
def eotAtom : Atom := ⟨0, 10000, 10000⟩

/-- segment/deque.go:22-27, `type deque`. -/
structure Deque where
  buf   : List Atom
  head  : Nat
  tail  : Nat
  count : Nat
deriving DecidableEq, Repr

namespace Deque

/-- segment/deque.go:45. -/
def minCapacity : Nat := 64

/-- The zero `deque{}` as created in segment.go:149. -/
def empty : Deque := ⟨[], 0, 0, 0⟩

/-- Go's bitwise modulus `i & (n - 1)` on (two's complement) ints, `n = len(q.buf)`.
For negative `i = ~x` it is `(n-1) - (x & (n-1))`; for `n = 0` the mask is `-1` and
`i & -1 = i`. Used in deque.go:167,181,191,205,232,241,260,267,272. -/
def mask (i : Int) (n : Nat) : Int :=
  if n = 0 then i
  else if 0 ≤ i then ((i.toNat &&& (n - 1) : Nat) : Int)
  else ((n - 1 - ((-i - 1).toNat &&& (n - 1)) : Nat) : Int)

/-- Slice read `q.buf[i]` (deque.go:80-184); `none` is Go's index-out-of-range panic. -/
def rd (buf : List Atom) (i : Int) : Option Atom :=
  if 0 ≤ i then buf[i.toNat]? else none

/-- Slice write `q.buf[i] = a` (deque.go:55-199); `none` is Go's index-out-of-range panic. -/
def wr (buf : List Atom) (i : Int) (a : Atom) : Option (List Atom) :=
  if 0 ≤ i ∧ i.toNat < buf.length then some (buf.set i.toNat a) else none

/-- deque.go:266-268 `prev`. -/
def prev (q : Deque) (i : Nat) : Nat := (mask ((i : Int) - 1) q.buf.length).toNat

/-- deque.go:271-273 `next`. -/
def next (q : Deque) (i : Nat) : Nat := (mask ((i : Int) + 1) q.buf.length).toNat

/-- Go's builtin `copy(dst[off:], src)`, used in deque.go:302-305. -/
def goCopy (dst : List Atom) (off : Nat) (src : List Atom) : List Atom :=
  let src' := src.take (dst.length - off)
  dst.take off ++ src' ++ dst.drop (off + src'.length)

/-- deque.go:299-311 `resize`. -/
def resize (q : Deque) : Deque :=
  let newBuf := List.replicate (q.count <<< 1) Atom.zero
  let newBuf :=
    if q.tail > q.head then
      goCopy newBuf 0 ((q.buf.drop q.head).take (q.tail - q.head))
    else
      let src := q.buf.drop q.head
      let n := min newBuf.length src.length
      goCopy (goCopy newBuf 0 src) n (q.buf.take q.tail)
  { buf := newBuf, head := 0, tail := q.count, count := q.count }

/-- deque.go:276-287 `growIfFull`. -/
def growIfFull (q : Deque) : Deque :=
  if q.count < q.buf.length then q
  else if q.buf.length = 0 then { q with buf := List.replicate minCapacity Atom.zero }
  else if q.count = q.buf.length then q.resize
  else q

/-- deque.go:290-294 `shrinkIfExcess`. -/
def shrinkIfExcess (q : Deque) : Deque :=
  if q.buf.length > minCapacity ∧ q.count <<< 2 = q.buf.length then q.resize else q

/-- deque.go:48-50 `Len`. -/
def len (q : Deque) : Nat := q.count

/-- deque.go:55-63 `PushBack`. -/
def pushBack (q : Deque) (a : Atom) : Option Deque := do
  let q := if q.count ≥ q.buf.length then q.growIfFull else q
  let buf ← wr q.buf q.tail a
  let q := { q with buf := buf }
  some { q with tail := q.next q.tail, count := q.count + 1 }

/-- deque.go:66-75 `PushFront`. -/
def pushFront (q : Deque) (a : Atom) : Option Deque := do
  let q := q.growIfFull
  let q := { q with head := q.prev q.head }
  let buf ← wr q.buf q.head a
  some { q with buf := buf, count := q.count + 1 }

/-- deque.go:80-94 `PopFront`. -/
def popFront (q : Deque) : Option (Deque × Atom) :=
  if q.count = 0 then none
  else do
    let a ← rd q.buf q.head
    let buf ← wr q.buf q.head Atom.zero
    let q := { q with buf := buf }
    let q := { q with head := q.next q.head, count := q.count - 1 }
    some (q.shrinkIfExcess, a)

/-- deque.go:99-116 `PopBack`. -/
def popBack (q : Deque) : Option (Deque × Atom) :=
  if q.count = 0 then none
  else do
    let q := { q with tail := q.prev q.tail }
    let a ← rd q.buf q.tail
    let buf ← wr q.buf q.tail Atom.zero
    let q := { q with buf := buf, count := q.count - 1 }
    some (q.shrinkIfExcess, a)

/-- deque.go:121-129 `Front`. -/
def front (q : Deque) : Option Atom :=
  if q.count = 0 then none else rd q.buf q.head

/-- deque.go:134-142 `Back`. -/
def back (q : Deque) : Option Atom :=
  if q.count = 0 then none else rd q.buf (q.prev q.tail)

/-- deque.go:147-149 `LastRune` (no check for an empty queue). -/
def lastRune (q : Deque) : Option Int := (rd q.buf (q.prev q.tail)).map (·.r)

/-- deque.go:163-172 `At` and 177-183 `AtomAt`. -/
def at' (q : Deque) (i : Int) : Option Atom :=
  if i < 0 ∨ i ≥ q.count then none
  else rd q.buf (mask ((q.head : Int) + i) q.buf.length)

/-- deque.go:187-195 `SetAt`; also a write through the pointer returned by
`AtomAt` (segment.go:553-558). -/
def setAt (q : Deque) (i : Int) (a : Atom) : Option Deque :=
  if i < 0 ∨ i ≥ q.count then none
  else do
    let buf ← wr q.buf (mask ((q.head : Int) + i) q.buf.length) a
    some { q with buf := buf }

/-- The loop of `Clear`, deque.go:205-209, with explicit fuel; `none` means the
fuel did not suffice or an index was out of range. -/
def clearLoop (tail : Nat) : Nat → Nat → List Atom → Option (List Atom)
  | fuel, h, buf =>
    if h = tail then some buf
    else match fuel with
      | 0 => none
      | fuel + 1 => do
        let buf' ← wr buf h Atom.zero
        clearLoop tail fuel (mask ((h : Int) + 1) buf.length).toNat buf'

/-- deque.go:202-213 `Clear`. The fuel (buffer length) is proved to suffice. -/
def clear (q : Deque) : Option Deque := do
  let buf ← clearLoop q.tail q.buf.length q.head q.buf
  some { buf := buf, head := 0, tail := 0, count := 0 }

/-- One iteration of deque.go:239-248 (rotate back to front). -/
def rotateBack1 (q : Deque) : Option Deque := do
  let head := (mask ((q.head : Int) - 1) q.buf.length).toNat
  let tail := (mask ((q.tail : Int) - 1) q.buf.length).toNat
  let a ← rd q.buf tail
  let buf ← wr q.buf head a
  let buf ← wr buf tail Atom.zero
  some { q with buf := buf, head := head, tail := tail }

/-- One iteration of deque.go:253-262 (rotate front to back). -/
def rotateFront1 (q : Deque) : Option Deque := do
  let a ← rd q.buf q.head
  let buf ← wr q.buf q.tail a
  let buf ← wr buf q.head Atom.zero
  some { q with buf := buf, head := (mask ((q.head : Int) + 1) q.buf.length).toNat,
                tail := (mask ((q.tail : Int) + 1) q.buf.length).toNat }

/-- Repeat a panicking step `n` times: the loops of deque.go:235-262. -/
def iter (f : Deque → Option Deque) : Nat → Deque → Option Deque
  | 0, q => some q
  | n + 1, q => (f q).bind (iter f n)

/-- deque.go:218-263 `Rotate`; Go's `%` truncates towards zero. -/
def rotate (q : Deque) (n : Int) : Option Deque :=
  if q.count ≤ 1 then some q
  else
    let n := n.tmod q.count
    if n = 0 then some q
    else if q.head = q.tail then
      some { q with head := (mask ((q.head : Int) + n) q.buf.length).toNat,
                    tail := (mask ((q.tail : Int) + n) q.buf.length).toNat }
    else if n < 0 then iter rotateBack1 n.natAbs q
    else iter rotateFront1 n.natAbs q

end Deque

/-- The operations of the queue, deque.go:48-263, for histories. -/
inductive DqOp where
  | pushBack (a : Atom) | pushFront (a : Atom) | popFront | popBack
  | front | back | at' (i : Int) | setAt (i : Int) (a : Atom)
  | clear | rotate (n : Int) | len
deriving DecidableEq, Repr

/-- What a queue operation of deque.go:48-263 returns to the caller. -/
inductive DqOut where
  | unit | atom (a : Atom) | nat (n : Nat)
deriving DecidableEq, Repr

/-- One queue operation of deque.go:48-263 on the ring buffer; `none` = panic. -/
def Deque.step (q : Deque) : DqOp → Option (Deque × DqOut)
  | .pushBack a => (q.pushBack a).map (·, .unit)
  | .pushFront a => (q.pushFront a).map (·, .unit)
  | .popFront => q.popFront.map fun p => (p.1, .atom p.2)
  | .popBack => q.popBack.map fun p => (p.1, .atom p.2)
  | .front => q.front.map fun a => (q, .atom a)
  | .back => q.back.map fun a => (q, .atom a)
  | .at' i => (q.at' i).map fun a => (q, .atom a)
  | .setAt i a => (q.setAt i a).map (·, .unit)
  | .clear => q.clear.map (·, .unit)
  | .rotate n => (q.rotate n).map (·, .unit)
  | .len => some (q, .nat q.len)

end Uax
