import Verif.Segmenter

/-! Specification of segmentation, independent of queues and of the order of events:
what the breakers say about every position, and the pieces obtained by cutting the text. -/

namespace Uax

/-- What the breakers say when they have read a rune: the longest active match, the
penalties of the primary breaker and those of the secondary breakers. Index 0 of a list of
penalties is the position after the rune just read, index 1 the position one rune earlier
and so on. -/
structure Verdict where
  lam : Int
  prim : List Int
  sec : List (List Int)
deriving DecidableEq, Repr

/-- The maximum of 0 and the numbers in the list. -/
def maxLam : List Int → Int
  | [] => 0
  | l :: ls => max l (maxLam ls)

/-- The verdicts on a sequence of runes: every breaker reads every rune. -/
def verdicts {β : Type} (B : Breaker β) : List β → List Int → List Verdict
  | _, [] => []
  | bs, r :: rs =>
    let out := bs.map fun b => B.step b r
    ⟨maxLam (out.map fun o => o.2.1), (out.head?.map fun o => o.2.2).getD [], out.tail.map fun o => o.2.2⟩ ::
      verdicts B (out.map (·.1)) rs

/-- Everything the primary breaker says about position `i` (after rune `i`), summed up. -/
def total0 (vs : List Verdict) (i : Nat) : Int :=
  ((vs.drop i).mapIdx fun j v => v.prim.getD j 0).sum

/-- Everything the secondary breakers say about position `i`, summed up. -/
def total1 (vs : List Verdict) (i : Nat) : Int :=
  ((vs.drop i).mapIdx fun j v => (v.sec.map fun p => p.getD j 0).sum).sum

/-- Position `i` has left all active matches: at some time, `j` runes after rune `i`, the
longest active match had at most `j` runes. -/
def settled (vs : List Verdict) (i : Nat) : Bool :=
  ((vs.drop i).mapIdx fun j v => decide (v.lam ≤ (j : Int))).any id

/-- Breakers do not change their mind: nothing but 0 is added to a position after it has
left all active matches. -/
def Honest (vs : List Verdict) : Prop :=
  ∀ (i j : Nat) (v : Verdict) (j' : Nat) (v' : Verdict), (vs.drop i)[j]? = some v → v.lam ≤ j → j < j' → (vs.drop i)[j']? = some v' →
    v'.prim.getD j' 0 = 0 ∧ ∀ p ∈ v'.sec, p.getD j' 0 = 0

/-- A penalty allows a break if it is less than 10000, and not 0 unless asked for. -/
def Feasible (p : Int) (onZero : Bool) : Prop := p < 10000 ∧ (p = 0 → onZero = true)

instance (p : Int) (z : Bool) : Decidable (Feasible p z) := by unfold Feasible; infer_instance

/-- A rune with the penalties of the position after it, and whether to cut there. -/
structure Place where
  r : Int
  p0 : Int
  p1 : Int
  cut : Bool
deriving DecidableEq, Repr

/-- Cut a list after every marked element; an unmarked rest is dropped. -/
def pieces {α : Type} (mark : α → Bool) (acc : List α) : List α → List (List α)
  | [] => []
  | a :: as => if mark a then (acc ++ [a]) :: pieces mark [] as else pieces mark (acc ++ [a]) as

/-- The places of a text, which ends with an end-of-text mark 0. The mark has an infinite
penalty to begin with. Cut where the sum of all primary penalties or, with several
breakers, the sum of all secondary ones is feasible. -/
def places {β : Type} (B : Breaker β) (bs : List β) (z0 z1 : Bool) (text : List Int) : List Place :=
  let vs := verdicts B bs (text ++ [0])
  (text ++ [0]).mapIdx fun i r =>
    let base : Int := if i = text.length then 10000 else 0
    let p0 := base + total0 vs i
    let p1 := base + total1 vs i
    ⟨r, p0, p1, decide (settled vs i = true ∧ (Feasible p0 z0 ∨ (1 < bs.length ∧ Feasible p1 z1)))⟩

/-- A segment with its two penalties. -/
structure Segment where
  runes : List Int
  pens : Int × Int
deriving DecidableEq, Repr

/-- The segments according to a list of places. -/
def segmentsOf (pl : List Place) : List Segment :=
  (pieces Place.cut [] pl).map fun seg =>
    ⟨seg.map (·.r), ((seg.getLast?.map fun p => (p.p0, p.p1)).getD (0, 0))⟩

/-- Call `Next()` until it returns false, at most `n` times, and collect `Runes()` and
`Penalties()`. `none`: panic. The flag tells whether `Next()` returned false. -/
def Seg.collect {β : Type} (B : Breaker β) : Nat → Seg β → Option (List Segment × Bool)
  | 0, _ => some ([], false)
  | n + 1, s => (s.next B).bind fun (s', ok) =>
    if ok then
      s'.runes.bind fun rs => (collect B n s').map fun res => (⟨rs, s'.lastP⟩ :: res.1, res.2)
    else some ([], true)

/-- The segments handed out by a history of calls. `none`: panic. -/
def Seg.history {β : Type} (B : Breaker β) : Seg β → List SegCall → Option (List (List Int))
  | _, [] => some []
  | s, c :: cs => (s.call B c).bind fun (s', ok) =>
    if ok then s'.runes.bind fun rs => (history B s' cs).map (rs :: ·) else history B s' cs

/-- The state after a history of calls. `none`: panic. -/
def Seg.after {β : Type} (B : Breaker β) : Seg β → List SegCall → Option (Seg β)
  | s, [] => some s
  | s, c :: cs => (s.call B c).bind fun (s', _) => after B s' cs

end Uax

namespace Uax

/-- The longest segment that fits into the output buffer of a segmenter with reader input:
"the larger of max and cap(buf)" for a buffer set with `RuneBuffer`, 4096 otherwise. -/
def Seg.room {β : Type} (s : Seg β) : Nat :=
  match s.buf.out with
  | none => max 4096 s.buf.maxSegLen
  | some (_, c) => max c s.buf.maxSegLen

/-- What a user sees of a history of calls: the result, `Runes()` and `Penalties()` after each
call. `none`: panic. -/
def Seg.trace {β : Type} (B : Breaker β) : Seg β → List SegCall → Option (List (Bool × List Int × (Int × Int)))
  | _, [] => some []
  | s, c :: cs => (s.call B c).bind fun (s', ok) =>
    s'.runes.bind fun rs => (trace B s' cs).map ((ok, rs, s'.lastP) :: ·)

/-- Segmenters that can be obtained with the public functions. -/
inductive Seg.Reachable {β : Type} (B : Breaker β) : Seg β → Prop
  | new (bs : List β) : Reachable B (Seg.new bs)
  | onZero {s : Seg β} (z0 z1 : Bool) : Reachable B s → Reachable B (s.breakOnZero z0 z1)
  | reader {s : Seg β} (src : List (Int × Nat)) (fin : Option Nat) : Reachable B s → Reachable B (s.initReader src fin)
  | slice {s : Seg β} (buf : List Int) : Reachable B s → Reachable B (s.initSlice buf)
  | buffer {s s' : Seg β} (buf : List Int) (cap max : Nat) : Reachable B s → buf.length ≤ cap →
      s.runeBuffer buf cap max = some s' → Reachable B s'
  | call {s s' : Seg β} (c : SegCall) (ok : Bool) : Reachable B s → s.call B c = some (s', ok) → Reachable B s'

/-- State of a breaker after reading some runes. -/
def Breaker.run {β : Type} (B : Breaker β) (b : β) (rs : List Int) : β := rs.foldl (fun b r => (B.step b r).1) b

/-- Breakers that, after reading the text, do not grant merits to a break after the end-of-text
mark itself. -/
def Polite {β : Type} (B : Breaker β) (bs : List β) (text : List Int) : Prop :=
  ∀ b ∈ bs, 0 ≤ (B.step (B.run b text) 0).2.2.getD 0 0

end Uax

namespace Uax

/-! Segmentation for breakers that go on talking about a position after it has left all active
matches. The segmenter decides as early as it can. -/

/-- What the primary breaker has said about position `i` when `n` more runes have been read. -/
def soFar0 (vs : List Verdict) (i n : Nat) : Int :=
  (((vs.drop i).take (n + 1)).mapIdx fun j v => v.prim.getD j 0).sum

/-- What the secondary breakers have said about position `i` when `n` more runes have been read. -/
def soFar1 (vs : List Verdict) (i n : Nat) : Int :=
  (((vs.drop i).take (n + 1)).mapIdx fun j v => (v.sec.map fun p => p.getD j 0).sum).sum

/-- `n` runes after rune `i`, position `i` is outside of all active matches. -/
def ripe (vs : List Verdict) (i n : Nat) : Bool :=
  (vs[i + n]?.map fun v => decide (v.lam ≤ (n : Int))).getD false

/-- How a segmenter tests a position: settings `z0`, `z1`, and whether there are several breakers. -/
structure Tester where
  z0 : Bool
  z1 : Bool
  many : Bool

/-- Penalties of a position at some time allow a break. -/
def Tester.ok (T : Tester) (p0 p1 : Int) : Bool :=
  decide (Feasible p0 T.z0 ∨ (T.many = true ∧ Feasible p1 T.z1))

/-- The end-of-text mark (at position `e`) has an infinite penalty to begin with. -/
def base (e i : Nat) : Int := if i = e then 10000 else 0

/-- Position `i` may be cut when `n` more runes have been read. -/
def okAt (T : Tester) (vs : List Verdict) (e i n : Nat) : Bool :=
  T.ok (base e i + soFar0 vs i n) (base e i + soFar1 vs i n)

/-- Breakers do not change a "no" into a "yes": a position that has left all active matches and may
not be cut, may not be cut later either. (A change is allowed as long as the position is at the
end of the runes read.) -/
def Steady (T : Tester) (vs : List Verdict) (e : Nat) : Prop :=
  ∀ i n m, 0 < n → ripe vs i n = true → okAt T vs e i n = false → n ≤ m → i + m < vs.length → okAt T vs e i m = false

/-- The first time at which position `i` may be cut, if any. -/
def cutTime (T : Tester) (vs : List Verdict) (e i : Nat) : Option Nat :=
  (List.range (vs.length - i)).find? fun n => ripe vs i n && okAt T vs e i n

/-- The places of a text, decided as early as possible: the penalties are those at the time of the
decision. -/
def placesEarly {β : Type} (B : Breaker β) (bs : List β) (z0 z1 : Bool) (text : List Int) : List Place :=
  let vs := verdicts B bs (text ++ [0])
  let T : Tester := ⟨z0, z1, decide (1 < bs.length)⟩
  (text ++ [0]).mapIdx fun i r =>
    match cutTime T vs text.length i with
    | some n => ⟨r, base text.length i + soFar0 vs i n, base text.length i + soFar1 vs i n, true⟩
    | none => ⟨r, 0, 0, false⟩

end Uax
