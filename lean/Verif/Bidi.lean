import Verif.BidiTrie

/-
Model of /repo/bidi/scrap.go: scraps (intervals of text with a bidi class) and
directional contexts.

Simplifications: positions (`charpos`, uint32) are natural numbers, that is,
paragraphs are shorter than 4 GiB. Slices of scraps are lists; sharing of the
arrays behind the slices is not modelled. String methods and tracing are left out.
-/
namespace Uax.Bidi

/-- dirContext, scrap.go:167-172. The zero value has class 0, which is L, in
both class fields. -/
structure DirContext where
  embeddingDir : Class := 0
  strong : Class := 0
  odist : Nat := 0
  matchPos : Nat := 0
deriving DecidableEq, Repr, Inhabited

/-- scrap, scrap.go:33-38 -/
structure Scrap where
  clz : Class := 0
  l : Nat := 0
  r : Nat := 0
  ctx : DirContext := {}
  children : List (List Scrap) := []
deriving Repr, Inhabited

/-- scrap.len, scrap.go:81-86; the difference of unsigned numbers is never
taken for `r < l` in the model's range. -/
def Scrap.len (s : Scrap) : Nat := if s.clz = cNULL then 0 else s.r - s.l

/-- scrap.contains, scrap.go:88-90 -/
def Scrap.contains (s : Scrap) (pos : Nat) : Bool := s.l ≤ pos && pos < s.r

/-- collapse (with appendAllChildrenOf), scrap.go:71-78, 94-101 -/
def collapse (dest src : Scrap) (c : Class) : Scrap :=
  { dest with children := dest.children ++ src.children, r := src.r, clz := c }

/-- opposite, scrap.go:113-121 -/
def opposite (dir : Class) : Class :=
  if dir = cL then cR else if dir = cR ∨ dir = cAL then cL else cNI

/-- dirContext.Context, scrap.go:179-187 -/
def DirContext.context (dc : DirContext) : Class :=
  if dc.strong = cNI then dc.embeddingDir else if dc.strong = cAL then cR else dc.strong

/-- dirContext.StrongContext, scrap.go:190-195 -/
def DirContext.strongContext (dc : DirContext) : Class :=
  if dc.strong = cAL then cR else dc.strong

/-- dirContext.SetStrongType, scrap.go:204-221 -/
def DirContext.setStrongType (dc : DirContext) (c : Class) (at_ : Nat) : DirContext :=
  if c ≠ cL ∧ c ≠ cR ∧ c ≠ cAL ∧ c ≠ cNI then dc
  else if c = dc.embeddingDir ∧ at_ > dc.matchPos then { dc with strong := c, matchPos := at_ }
  else if c = opposite dc.embeddingDir ∧ at_ > dc.matchPos then
    { dc with strong := c, odist := min (at_ - dc.matchPos) 65535 }
  else { dc with strong := c }

/-- dirContext.IsAL, scrap.go:224-226 -/
def DirContext.isAL (dc : DirContext) : Bool := dc.strong == cAL

/-- scrap.e, scrap.go:104-106 -/
def Scrap.e (s : Scrap) : Class := s.ctx.embeddingDir

/-- scrap.o, scrap.go:109-111 -/
def Scrap.o (s : Scrap) : Class := opposite s.ctx.embeddingDir

/-- HasEmbeddingMatchAfter, scrap.go:138-140 -/
def Scrap.hasEmbeddingMatchAfter (s other : Scrap) : Bool := s.ctx.matchPos ≥ other.l

/-- HasOppositeAfter, scrap.go:142-145 -/
def Scrap.hasOppositeAfter (s other : Scrap) : Bool := s.ctx.matchPos + s.ctx.odist ≥ other.l

/-- isbracket, brackets.go:11-14 -/
def isBracket (s : Scrap) : Bool := s.clz == cBRACKO || s.clz == cBRACKC

/-- isisolate, scanner.go:319-325 -/
def isIsolate (s : Scrap) : Bool :=
  s.clz == cLRI || s.clz == cRLI || s.clz == cFSI || s.clz == cPDI

/-- Direction, doc.go:79-90 -/
inductive Dir | ltr | rtl
deriving DecidableEq, Repr, Inhabited

end Uax.Bidi
