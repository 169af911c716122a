import Verif.RangeTable

/-
Model of /repo/internal/ucdparse/gentables.go, the collector of ranges with which
/repo/internal/tablegen/main.go makes the tables of package `shaping`.

Simplifications: the collector's Go source output is the table which this source denotes (the text of
the literal is not modelled; `Output` with R16 and R32 exchanged would not be well-formed Go).
-/

namespace Uax.TableGen

/-- gentables.go:22-28, `RangeTableCollector`. -/
structure Collector where
  cnt : Nat
  latinOffset : Nat
  switch32 : Nat
  ranges : List (Nat × Nat)
  lo : Nat
  hi : Nat
deriving DecidableEq, Repr

/-- main.go:108, a new collector. -/
def Collector.new : Collector := ⟨0, 0, 0, [], 0, 0⟩

/-- gentables.go:33-51, `Append`. -/
def Collector.append (c : Collector) (row : Nat × Nat) : Collector :=
  if row.1 = c.hi + 1 then { c with hi := row.2 }
  else
    { cnt := c.cnt + 1
      latinOffset := if c.latinOffset = 0 ∧ c.hi > 0xff then c.cnt else c.latinOffset
      switch32 := if c.switch32 = 0 ∧ (c.lo > 0x10000 ∨ c.hi > 0x10000) then c.cnt else c.switch32
      ranges := c.ranges ++ [(c.lo, c.hi)]
      lo := row.1
      hi := row.2 }

/-- gentables.go:54-77, `Output`: the ranges from number `switch32` on are in `R32`. -/
def Collector.output (c : Collector) : RangeTable :=
  if c.switch32 > 0 then ⟨c.ranges.take c.switch32, c.ranges.drop c.switch32, c.latinOffset⟩
  else ⟨c.ranges, [], c.latinOffset⟩

/-- main.go:70-78, the table of a category with the given rows (first and last code point of
each data line with this category, in the order of the file). -/
def table (rows : List (Nat × Nat)) : RangeTable := (rows.foldl Collector.append Collector.new).output

end Uax.TableGen
