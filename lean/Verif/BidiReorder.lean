import Verif.BidiParser

/-
Model of /repo/bidi/reordering.go: splitting and reordering of resolved levels,
visual runs.

`none` is a panic. Go changes slices in place; here functions return the changed
list. Where one function sees changes made through another slice this is said in
a comment. Tracing and the String methods are left out.
-/
namespace Uax.Bidi

/-! ### Splitting -/

/-- irsContains, reordering.go:113-115; panics for an empty list. -/
def irsContains (scraps : List Scrap) (pos : Nat) : Option Bool :=
  match scraps.head?, scraps.getLast? with
  | some a, some z => some (decide (a.l ≤ pos) && decide (pos < z.r))
  | _, _ => none

/-- The result of `split` from the parts found by its loop, reordering.go:90-108:
scraps before the one that is cut, its two halves and the scraps after it. -/
def splitResult (first : Scrap) (pre : List Scrap) (s rest : Scrap) (post : List Scrap) :
    List Scrap × List Scrap :=
  (pre ++ [s], if isIsolate first then first :: rest :: post else rest :: post)

mutual

/-- The loop of split, reordering.go:70-108: scraps before the one that contains
`at_`, its two halves and the scraps after it; panics when there is none (line 110). -/
def splitLoop (at_ : Nat) : List Scrap → Option (List Scrap × Scrap × Scrap × List Scrap)
  | [] => none
  | ⟨c, l, r, x, ch⟩ :: post =>
    if l ≤ at_ ∧ at_ < r then
      match splitChildren at_ ch with
      | none => none
      | some (left, right) => some ([], ⟨c, l, at_, x, left⟩, ⟨c, at_, r, {}, right⟩, post)
    else
      match splitLoop at_ post with
      | none => none
      | some (pre, s, rest, post) => some (⟨c, l, r, x, ch⟩ :: pre, s, rest, post)

/-- The loop over the children of a scrap, reordering.go:74-89: the children of
the two halves. When no child contains the position, all stay on the left. -/
def splitChildren (at_ : Nat) : List (List Scrap) → Option (List (List Scrap) × List (List Scrap))
  | [] => some ([], [])
  | ch :: more =>
    match irsContains ch at_ with
    | none => none
    | some true =>
      match ch.head?, splitLoop at_ ch with
      | some first, some (pre, s, rest, post) =>
        let (prefix_, suffix) := splitResult first pre s rest post
        some ([prefix_], suffix :: more)
      | _, _ => none
    | some false =>
      match splitChildren at_ more with
      | none => none
      | some (left, right) => some (ch :: left, right)

end

/-- split, reordering.go:62-111 -/
def split (scraps : List Scrap) (at_ : Nat) : Option (List Scrap × List Scrap) :=
  match irsContains scraps at_, scraps.head? with
  | some true, some first =>
    (splitLoop at_ scraps).map fun (pre, s, rest, post) => splitResult first pre s rest post
  | some false, _ => some (scraps, [])
  | _, _ => none

/-- The scraps of the receiver after `split`, whose cut scrap is overwritten with
its left half (line 99, 103). -/
def afterSplit (scraps : List Scrap) (at_ : Nat) : List Scrap :=
  match irsContains scraps at_, splitLoop at_ scraps with
  | some true, some (pre, s, _, post) => pre ++ s :: post
  | _, _ => scraps

/-- validcharpos, reordering.go:548-553 -/
def validCharpos (p diff : Nat) : Nat := if p > diff then p - diff else 0

/-- shiftzero, reordering.go:117-126 -/
def shiftZero (scraps : List Scrap) (offset : Nat) : List Scrap :=
  scraps.map fun s => { s with l := validCharpos s.l offset, r := validCharpos s.r offset }

/-- ResolvedLevels.Split, reordering.go:52-60. The embedding of the results is
the zero value of Direction. -/
def Levels.split (rl : Levels) (at_ : Nat) (shift0 : Bool) : Option (Levels × Levels) :=
  (Bidi.split rl.scraps at_).map fun (p, s) =>
    (⟨.ltr, p⟩, ⟨.ltr, if shift0 then shiftZero s at_ else s⟩)

/-! ### Reordering -/

/-- reordering.go:272 and 502-510: exchange two elements; the indices are in range. -/
def exchange (scraps : List Scrap) (i j : Nat) : List Scrap :=
  match scraps[i]?, scraps[j]? with
  | some a, some b => (scraps.set i b).set j a
  | _, _ => scraps

/-- The loop of reverse, reordering.go:271-273 -/
def reverseLoop (scraps : List Scrap) (i j : Nat) : List Scrap :=
  if i < j then reverseLoop (exchange scraps i j) (i + 1) (j - 1) else scraps
termination_by j - i

/-- reverse, reordering.go:266-275. (For `j = 0` the Go loop starts with j = -1
and does nothing, like the loop here with j = 0.) -/
def reverse (scraps : List Scrap) (i j : Nat) : List Scrap :=
  let (i, j) := if i > j then (j, i) else (i, j)
  reverseLoop scraps i (min (j - 1) (scraps.length - 1))

/-- reverseWithoutIsolates, reordering.go:277-293, for i = 0, j = len(scraps) as
it is called. -/
def reverseWithoutIsolates (scraps : List Scrap) : List Scrap :=
  match scraps.head?, scraps.getLast? with
  | some a, some z =>
    reverse scraps (if isIsolate a then 1 else 0) (if isIsolate z then scraps.length - 1 else scraps.length)
  | _, _ => scraps

/-- findEmbeddingDir, reordering.go:295-312 -/
def findEmbeddingDir (scraps : List Scrap) (inherited : Dir) : Option Dir :=
  match scraps with
  | [] => some inherited
  | s :: _ =>
    if s.clz = cLRI then some .ltr
    else if s.clz = cRLI then some .rtl
    else if s.clz = cPDI then none
    else if s.clz = cFSI then none
    else some inherited

/-- level, reordering.go:255-263 -/
def level (s : Scrap) (embedded : Dir) : Nat :=
  if s.clz = cEN ∨ s.clz = cAN then 2
  else if (s.clz = cL ∧ embedded = .rtl) ∨ (s.clz = cR ∧ embedded = .ltr) then 1
  else 0

/-- The loop of reorder, reordering.go:211-251, without the recursion into the
children: `n` is the number of scraps not yet seen, `collecting` is state 1. -/
def reorderLoop (embedded : Dir) : Nat → Nat → Nat → Bool → List Scrap → List Scrap
  | 0, _, _, _, scraps => scraps
  | n + 1, pos, startRunR, collecting, scraps =>
    match scraps[pos]? with
    | none => scraps
    | some s =>
      let (collecting, startRunR, scraps) :=
        if collecting = false then
          if level s embedded > 0 then (true, pos, scraps) else (false, startRunR, scraps)
        else if level s embedded = 0 then (false, 0, reverse scraps startRunR pos)
        else if n = 0 then (true, startRunR, reverse scraps startRunR (pos + 1))
        else (true, startRunR, scraps)
      if n = 0 ∨ s.clz = cNULL then scraps
      else reorderLoop embedded n (pos + 1) startRunR collecting scraps

/-- reordering.go:211-252: reorder on the scraps of one run, after their children have been reordered. -/
def reorderFlat (embedded : Dir) (scraps : List Scrap) : List Scrap :=
  reorderLoop embedded scraps.length 0 0 false scraps

mutual

/-- The recursion of reorder into the children of each scrap, reordering.go:216-229.
The Go loop does this for a scrap when it gets there; it has not moved by then. -/
def reorderKids (embedded : Dir) : List Scrap → Option (List Scrap)
  | [] => some []
  | ⟨c, l, r, x, ch⟩ :: rest =>
    match reorderChildren embedded ch with
    | none => none
    | some ch =>
      if c = cNULL then some (⟨c, l, r, x, ch⟩ :: rest)
      else match reorderKids embedded rest with
        | none => none
        | some rest => some (⟨c, l, r, x, ch⟩ :: rest)

/-- The loop over the children of a scrap, reordering.go:216-229 -/
def reorderChildren (embedded : Dir) : List (List Scrap) → Option (List (List Scrap))
  | [] => some []
  | ch :: rest =>
    match findEmbeddingDir ch embedded with
    | none => none
    | some dir =>
      match reorderKids dir ch with
      | none => none
      | some ch =>
        let ch := reorderFlat dir ch
        let ch := if dir ≠ embedded then reverseWithoutIsolates ch else ch
        match reorderChildren embedded rest with
        | none => none
        | some rest => some (ch :: rest)

end

/-- reorder, reordering.go:204-253, for i = 0, j = len(scraps) as it is called. -/
def reorder (embedded : Dir) (scraps : List Scrap) : Option (List Scrap) :=
  (reorderKids embedded scraps).map (reorderFlat embedded)

/-! ### Visual runs -/

/-- Run, reordering.go:157-162 -/
structure VRun where
  dir : Dir := .ltr
  length : Nat := 0
  scraps : List Scrap := []
deriving Inhabited, Repr

/-- run, reordering.go:164-170 -/
def vrun (s : Scrap) (embedding : Dir) : VRun := ⟨directionOf s embedding, s.len, [s]⟩

/-- Scraps of two runs joined as in concat, reordering.go:189-197; panics when
one of the runs has none. -/
def joinScraps : List Scrap → List Scrap → Option (List Scrap)
  | [], _ => none
  | _, [] => none
  | [a], b :: more => some (if a.r = b.l then { a with r := b.r } :: more else a :: b :: more)
  | a :: a' :: rest, bs => (joinScraps (a' :: rest) bs).map (a :: ·)

/-- Run.concat, reordering.go:181-198 -/
def VRun.concat (r other : VRun) : Option VRun :=
  if other.length = 0 then some r
  else if other.dir ≠ r.dir then none
  else (joinScraps r.scraps other.scraps).map fun scraps => { r with length := r.length + other.length, scraps := scraps }

/-- reordering.go:315-347: the last run, or the zero value: the variable `last` of flatten, which is
always a copy of the last element of `runs`. -/
def lastRun (runs : List VRun) : VRun := (runs.getLast?).getD {}

/-- extendRuns, reordering.go:350-380 (with runappend) -/
def extendRuns (s : Scrap) (runs : List VRun) (embedding : Dir) : Option (List VRun) :=
  let last := lastRun runs
  if s.len = 0 then some runs
  else if last.length = 0 then some (runs ++ [vrun s embedding])
  else if last.dir = directionOf s embedding then
    (last.concat (vrun s embedding)).map fun last => runs.dropLast ++ [last]
  else some (runs ++ [vrun s embedding])

/-- cutScrapAt, reordering.go:382-397 -/
def cutScrapAt (s : Scrap) (ch : List Scrap) : Option (Scrap × Scrap) :=
  match ch.head?, ch.getLast? with
  | some a, some z => some ({ l := s.l, r := a.l, clz := s.clz }, { l := z.r, r := s.r, clz := s.clz })
  | _, _ => none

/-- What the assignment in line 193 of concat does to the scraps of the last
element of `runs`, which share their array with those of `last`. -/
def extendShared (as bs : List Scrap) : List Scrap :=
  match as.getLast?, bs.head? with
  | some a, some b => if a.r = b.l then as.dropLast ++ [{ a with r := b.r }] else as
  | _, _ => as

/-- appendRuns, reordering.go:399-412. The result of `last.concat` is lost: `last`
is overwritten in line 410, and `runs` keeps the run as it was but for the scrap
changed in place. -/
def appendRuns (childRuns runs : List VRun) : Option (List VRun) :=
  match childRuns with
  | [] => some runs
  | c :: more =>
    let last := lastRun runs
    if c.dir = last.dir then
      match last.concat c with
      | none => none
      | some _ =>
        if runs = [] ∧ more = [] then none
        else if c.length = 0 then some (runs ++ more)
        else some (runs.dropLast ++ [{ last with scraps := extendShared last.scraps c.scraps }] ++ more)
    else some (runs ++ childRuns)

mutual

/-- The loop of flatten, reordering.go:321-346 -/
def flattenLoop (embedding : Dir) : List Scrap → List VRun → Option (List VRun)
  | [], runs => some runs
  | ⟨c, l, r, x, ch⟩ :: rest, runs =>
    if ch = [] then
      match extendRuns ⟨c, l, r, x, []⟩ runs embedding with
      | none => none
      | some runs => flattenLoop embedding rest runs
    else
      match flattenChildren embedding ⟨c, l, r, x, []⟩ ch runs with
      | none => none
      | some (s, runs) =>
        match extendRuns s runs embedding with
        | none => none
        | some runs => flattenLoop embedding rest runs

/-- The loop over the children of a scrap, reordering.go:329-342: the rest of the
scrap and the runs. -/
def flattenChildren (embedding : Dir) (s : Scrap) : List (List Scrap) → List VRun → Option (Scrap × List VRun)
  | [], runs => some (s, runs)
  | ch :: more, runs =>
    match ch, cutScrapAt s ch with
    | [], _ => flattenChildren embedding s more runs
    | _ :: _, none => none
    | first :: others, some (cut, s) =>
      match extendRuns cut runs embedding with
      | none => none
      | some runs =>
        let dir := (lastRun runs).dir
        -- flatten(ch, last.Dir), line 337; lines 318-320 for the child
        let emb := if isIsolate first then directionOf first dir else dir
        match flattenLoop emb (first :: others) [] with
        | none => none
        | some chruns =>
          match appendRuns chruns runs with
          | none => none
          | some runs => flattenChildren embedding s more runs

end

/-- flatten, reordering.go:314-348 -/
def flatten (scraps : List Scrap) (embedding : Dir) : Option (List VRun) :=
  let emb := match scraps with
    | first :: _ => if isIsolate first then directionOf first embedding else embedding
    | [] => embedding
  flattenLoop emb scraps []

/-- ResolvedLevels.Reorder, reordering.go:442-450: the runs of the ordering. -/
def Levels.reorder (rl : Levels) : Option (List VRun) :=
  match rl.scraps with
  | [] => some []
  | _ => (Bidi.reorder rl.embedding rl.scraps).bind fun scraps => flatten scraps rl.embedding

/-! ### Segments of runs -/

/-- SegmentIterator, reordering.go:467-474 -/
structure SegIter where
  dir : Dir
  scraps : List Scrap
  interval : Nat := 0
  eof : Bool := false

/-- Run.SegmentIterator, reordering.go:497-512: the iterator, and the run, whose
scraps are exchanged in place when `rev` is set. -/
def VRun.segmentIterator (r : VRun) (rev : Bool) : SegIter × VRun :=
  let scraps := if rev then
      (List.range (r.scraps.length / 2)).foldl (fun s i => exchange s i (s.length - i - 1)) r.scraps
    else r.scraps
  ({ dir := r.dir, scraps := scraps }, { r with scraps := scraps })

/-- Run.IsOpposite, reordering.go:516-518 -/
def VRun.isOpposite (r : VRun) (dir : Dir) : Bool := dir != r.dir

/-- SegmentIterator.Next, reordering.go:521-530 -/
def SegIter.next (it : SegIter) : Bool × SegIter :=
  if it.interval ≥ it.scraps.length then (false, it)
  else (true, { it with interval := it.interval + 1, eof := it.eof || it.interval + 1 == it.scraps.length })

/-- SegmentIterator.EOF, reordering.go:533-535 -/
def SegIter.atEof (it : SegIter) : Bool := it.eof

/-- SegmentIterator.Segment, reordering.go:538-544 -/
def SegIter.segment (it : SegIter) : Option (Dir × Nat × Nat) :=
  if it.interval = 0 then some (it.dir, 0, 0)
  else (it.scraps[it.interval - 1]?).map fun s => (it.dir, s.l, s.r)

end Uax.Bidi
