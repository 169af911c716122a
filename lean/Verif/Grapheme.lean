import Verif.Recognizer
import Verif.Segmenter

/-
Model of /repo/grapheme/grapheme.go, the grapheme breaker.

Simplifications: the Unicode tables are parameters; the map `blocked` (lines 78, 120) is reduced to
the entry of Regional_Indicator, the only class which is ever blocked (lines 339, 347); recognizers
come from the pool in the state of a new one (theorem `C20_pooled_like_new`), and their `UserData`,
which is always the breaker itself (line 151), is the publisher's context. `weight` is not
used by the Go code. Tracing is omitted.
-/

namespace Uax

/-- grapheme classes, /repo/grapheme/graphemeclasses.go:22-40 with `emojiPictographic` from
grapheme.go:125. `sot` is never used. -/
inductive GClass where
  | CR | LF | Prepend | Control | Extend | RI | SpacingMark | L | V | T | LV | LVT | ZWJ | Pict | Any | eot
deriving DecidableEq, Repr

/-- The numbers of the classes, graphemeclasses.go:22-36 and grapheme.go:125. -/
def GClass.num : GClass → Int
  | .CR => 0 | .LF => 1 | .Prepend => 2 | .Control => 3 | .Extend => 4 | .RI => 5 | .SpacingMark => 6
  | .L => 7 | .V => 8 | .T => 9 | .LV => 10 | .LVT => 11 | .ZWJ => 12 | .Pict => 13 | .Any => 999 | .eot => 1001

/-- The tables: `rangeFromGraphemeClass[c]` (grapheme.go:52) and `emoji.Extended_Pictographic` (grapheme.go:132). -/
structure GTables where
  is : GClass → Int → Bool
  pict : Int → Bool

namespace Graph

/-- The classes 0 … ZWJClass, grapheme.go:49. -/
def tabled : List GClass := [.CR, .LF, .Prepend, .Control, .Extend, .RI, .SpacingMark, .L, .V, .T, .LV, .LVT, .ZWJ]

/-- grapheme.go:45-56, `ClassForRune`. -/
def classForRune (T : GTables) (r : Int) : GClass :=
  if r = 0 then .eot else (tabled.find? fun c => T.is c r).getD .Any

/-- grapheme.go:129-137, `CodePointClassFor`. -/
def classOf (T : GTables) (r : Int) : GClass :=
  if classForRune T r = .Any then (if T.pict r then .Pict else .Any) else classForRune T r

/-- The names of the state functions, grapheme.go:231-358. -/
inductive Rule where
  | NewLine | CRLF | Control | GB6 | GB6b | GB7 | GB7b | GB8 | GB8b | GB9 | GB9a | GB9b
  | GB11 | GB11Cont | GB11Finish | GB12 | GB12Cont
deriving DecidableEq, Repr

/-- A recognizer of the grapheme breaker, automata.go:51-58. -/
abbrev GRec := Rec Rule Unit

/-- grapheme.go:212-217. -/
def JOIN : Int := 10000
/-- grapheme.go:215. -/
def BANG : Int := -20000
/-- grapheme.go:216. -/
def penalty999 : Int := -10

/-- Accept (automata.go:174-179), with the context unchanged. -/
def acc (g : Bool) (r : GRec) (ps : List Int) : Bool × GRec × Option Rule :=
  (g, (r.doAccept ps).1, (r.doAccept ps).2)

/-- Abort (automata.go:167-170), with the context unchanged. -/
def abort (g : Bool) (r : GRec) : Bool × GRec × Option Rule := (g, r.doAbort.1, r.doAbort.2)

/-- `MatchLen++` and go on with the next state function, as in grapheme.go:259-260. -/
def more (g : Bool) (r : GRec) (next : Rule) : Bool × GRec × Option Rule :=
  (g, { r with matchLen := r.matchLen + 1 }, some next)

/-- The state functions, grapheme.go:231-358. The context is `blocked[Regional_Indicator]`. -/
def run (fn : Rule) (g : Bool) (rec : GRec) (_r : Int) (c : Int) : Bool × GRec × Option Rule :=
  match fn with
  -- 231-241
  | .NewLine => if c = GClass.LF.num then acc g rec [BANG, BANG]
      else if c = GClass.CR.num then more g rec .CRLF else abort g rec
  -- 243-250
  | .CRLF => if c = GClass.LF.num then acc g rec [BANG, 3 * JOIN] else acc g rec [0, BANG, BANG]
  -- 252-256
  | .Control => acc g rec [BANG, BANG]
  -- 258-270
  | .GB6 => more g rec .GB6b
  | .GB6b => if c = GClass.L.num ∨ c = GClass.V.num ∨ c = GClass.LV.num ∨ c = GClass.LVT.num then acc g rec [0, JOIN]
      else abort g rec
  -- 272-284
  | .GB7 => more g rec .GB7b
  | .GB7b => if c = GClass.V.num ∨ c = GClass.T.num then acc g rec [0, JOIN] else abort g rec
  -- 286-300
  | .GB8 => more g rec .GB8b
  | .GB8b => if c = GClass.T.num then acc g rec [0, JOIN] else abort g rec
  -- 302-318
  | .GB9 => acc g rec [0, JOIN]
  | .GB9a => acc g rec [0, JOIN]
  | .GB9b => acc g rec [JOIN]
  -- 320-341
  | .GB11 => (g, rec, some .GB11Cont)
  | .GB11Cont => if c = GClass.ZWJ.num then more g rec .GB11Finish
      else if c = GClass.Extend.num then more g rec .GB11Cont else abort g rec
  | .GB11Finish => if c = GClass.Pict.num then acc g rec [0, JOIN] else abort g rec
  -- 343-358
  | .GB12 => (true, rec, some .GB12Cont)
  | .GB12Cont => if c = GClass.RI.num then acc false rec [0, JOIN] else abort false rec

/-- grapheme.go:102-119: the rules that start with a class. -/
def rulesFor : GClass → List Rule
  | .CR => [.NewLine] | .LF => [.NewLine] | .Control => [.Control] | .L => [.GB6] | .V => [.GB7] | .LV => [.GB7]
  | .LVT => [.GB8] | .T => [.GB8] | .Extend => [.GB9] | .ZWJ => [.GB9] | .SpacingMark => [.GB9a] | .Prepend => [.GB9b]
  | .Pict => [.GB11] | .RI => [.GB12] | .Any => [] | .eot => []

/-- Recognizers as subscribers, automata.go:129-162. -/
def subs : Sub Bool GRec := Rec.sub run

/-- grapheme.go:71-79, `Breaker`. -/
structure GBrk where
  pub : Pub GRec
  blocked : Bool
  longest : Int
  penalties : List Int
deriving DecidableEq, Repr

/-- grapheme.go:97-122, `NewBreaker`. -/
def new : GBrk := ⟨Pub.empty, false, 0, []⟩

/-- grapheme.go:149-153: subscribe a recognizer for each rule. -/
def subscribeAll (c : GClass) : List Rule → Pub GRec → Option (Pub GRec)
  | [], p => some p
  | rule :: rules, p => (p.push subs (Rec.new c.num (some rule))).bind fun p => subscribeAll c rules p

/-- grapheme.go:144-156, `StartRulesFor`. -/
def startRules (b : GBrk) (c : GClass) : Option GBrk :=
  if b.blocked && c == .RI then some b
  else (subscribeAll c (rulesFor c) b.pub).map fun p => { b with pub := p }

/-- grapheme.go:372-381, `setPenalty1`. -/
def setPenalty1 (ps : List Int) (p : Int) : List Int :=
  match ps with
  | [] => [0, p]
  | [x] => [x, p]
  | x :: y :: rest => if y = 0 then x :: p :: rest else x :: y :: rest

/-- grapheme.go:172-189, `ProceedWithRune`. -/
def proceed (b : GBrk) (r : Int) (c : GClass) : Option GBrk :=
  (b.pub.publish subs b.blocked r c.num).map fun x =>
    { pub := x.2.1, blocked := x.1, longest := x.2.2.1, penalties := setPenalty1 x.2.1.total penalty999 }

/-- One rune, as in segment.go:458-460: `CodePointClassFor`, `StartRulesFor`, `ProceedWithRune`. `none`: panic. -/
def stepO (T : GTables) (b : GBrk) (r : Int) : Option GBrk :=
  (startRules b (classOf T r)).bind fun b => proceed b r (classOf T r)

/-- The breaker, with `LongestActiveMatch` (grapheme.go:195-199) and `Penalties` (205-207). After a
panic, which does not happen (`C22_never_panics`), it stays where it is. -/
def breaker (T : GTables) : Breaker GBrk where
  step b r :=
    match stepO T b r with
    | some b' => (b', max 1 b'.longest, b'.penalties)
    | none => (b, 0, [])

end Graph
end Uax
