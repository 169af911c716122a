import Verif.Segmenter

/-! Model of /repo/segment/simplewordbreak.go. -/

namespace Uax

/-- simplewordbreak.go:7-12. The array `matchLen` is given by its three elements; the classes of
lines 33-37 are numbers 0 (space), 1 (word), 2 (eof). -/
structure SWB where
  penalties : List Int
  len0 : Int
  len1 : Int
  len2 : Int
  matchType : Nat
deriving DecidableEq, Repr

namespace SWB

/-- simplewordbreak.go:28-31, `NewSimpleWordBreaker`. -/
def new : SWB := ⟨[], 0, 0, 0, 0⟩

/-- simplewordbreak.go:10, `matchLen[i]`. -/
def len (b : SWB) (i : Nat) : Int := if i = 0 then b.len0 else if i = 1 then b.len1 else b.len2

/-- simplewordbreak.go:9, `matchLen[i] = v`. -/
def setLen (b : SWB) (i : Nat) (v : Int) : SWB :=
  if i = 0 then { b with len0 := v } else if i = 1 then { b with len1 := v } else { b with len2 := v }

/-- simplewordbreak.go:42-50, `CodePointClassFor`; `unicode.IsSpace` is a parameter. -/
def classFor (isSpace : Int → Bool) (r : Int) : Nat := if isSpace r then 0 else if r = 0 then 2 else 1

/-- simplewordbreak.go:66-80: close a match. -/
def close (b : SWB) (cls : Nat) : SWB :=
  if cls ≠ b.matchType ∧ b.len b.matchType > 0 then
    if b.matchType = 0 then { b with penalties := [0, -100] } else { b with penalties := [0, 100] }
  else b

/-- simplewordbreak.go:60-88, `ProceedWithRune`. -/
def proceed (b : SWB) (r : Int) (cls : Nat) : SWB :=
  if r ≠ 0 ∧ cls = b.matchType then
    { b with penalties := [] }.setLen b.matchType (b.len b.matchType + 1)
  else
    let b := b.close cls
    if r ≠ 0 ∧ cls ≠ b.matchType then
      let b := b.setLen b.matchType 0
      let b := { b with matchType := cls }
      b.setLen b.matchType 1
    else if r = 0 then { b with matchType := 2 }
    else b

/-- The breaker; `StartRulesFor` (simplewordbreak.go:53-57) only allocates; 91-99 `LongestActiveMatch`, `Penalties`. -/
def breaker (isSpace : Int → Bool) : Breaker SWB where
  step b r :=
    let b' := b.proceed r (classFor isSpace r)
    (b', b'.len b'.matchType, b'.penalties)

end SWB
end Uax
