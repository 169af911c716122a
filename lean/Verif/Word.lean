import Verif.Recognizer
import Verif.Segmenter

/-
Model of /repo/uax29/uax29.go, the word breaker.

Simplifications: the Unicode tables are parameters; the map of rules (120-143) is a function;
recognizers come from the pool in the state of a new one (theorem `C20_pooled_like_new`), and
their `UserData`, which is always the breaker itself (line 174), is the publisher's context.
`weight` is not used by the Go code. Tracing is omitted.
-/

namespace Uax

/-- Word break classes, /repo/uax29/uax29classes.go:22-44 with `emojiPictographic` from uax29.go:147.
`sot` is never used. -/
inductive WClass where
  | ALetter | CR | DoubleQuote | Extend | ExtendNumLet | Format | HebrewLetter | Katakana | LF | MidLetter
  | MidNum | MidNumLet | Newline | Numeric | RI | SingleQuote | WSegSpace | ZWJ | Pict | Other | eot
deriving DecidableEq, Repr

/-- The numbers of the classes, uax29classes.go:22-42 and uax29.go:147. -/
def WClass.num : WClass → Int
  | .ALetter => 0 | .CR => 1 | .DoubleQuote => 2 | .Extend => 3 | .ExtendNumLet => 4 | .Format => 5
  | .HebrewLetter => 6 | .Katakana => 7 | .LF => 8 | .MidLetter => 9 | .MidNum => 10 | .MidNumLet => 11
  | .Newline => 12 | .Numeric => 13 | .RI => 14 | .SingleQuote => 15 | .WSegSpace => 16 | .ZWJ => 17
  | .Pict => 18 | .Other => 999 | .eot => 1001

/-- The tables: `rangeFromUAX29Class[c]` (uax29.go:72) and `emoji.Extended_Pictographic` (uax29.go:154). -/
structure WTables where
  is : WClass → Int → Bool
  pict : Int → Bool

namespace Word

/-- The classes 0 … ZWJClass, uax29.go:70. -/
def tabled : List WClass := [.ALetter, .CR, .DoubleQuote, .Extend, .ExtendNumLet, .Format, .HebrewLetter, .Katakana,
  .LF, .MidLetter, .MidNum, .MidNumLet, .Newline, .Numeric, .RI, .SingleQuote, .WSegSpace, .ZWJ]

/-- uax29.go:66-78, `ClassForRune`. -/
def classForRune (T : WTables) (r : Int) : WClass :=
  if r = 0 then .eot else (tabled.find? fun c => T.is c r).getD .Other

/-- uax29.go:151-159, `CodePointClassFor`. -/
def classOf (T : WTables) (r : Int) : WClass :=
  if classForRune T r = .Other then (if T.pict r then .Pict else .Other) else classForRune T r

/-- The names of the state functions, uax29.go:235-576. -/
inductive Rule where
  | NewLine | CRLF | WB3c | Pictography | WB3d | fWB3d | WB4 | WB5 | fWB5_10 | WB6_7 | cWB6_7 | fWB6_7 | WB7a | fWB7a
  | WB7bc | cWB7bc | fWB7bc | WB8 | WB9 | fWB8_9 | WB10 | WB11 | cWB11 | fWB11 | WB13 | fWB13 | WB13a | fWB13a
  | WB13b | fWB13b | WB15 | fWB15
deriving DecidableEq, Repr

/-- A recognizer of the word breaker, automata.go:51-58. -/
abbrev WRec := Rec Rule Unit

/-- uax29.go:226-231. -/
def Suppress : Int := 10000
/-- uax29.go:229. -/
def MustBreak : Int := -10000
/-- uax29.go:230. -/
def penalty999 : Int := 10

/-- What the state functions see of the breaker: `blockedRI` and `previousClass` (uax29.go:98-106).
`panic` records a runtime panic in a state function. -/
structure Ctx where
  blocked : Bool
  prev : Int
  panic : Bool
deriving DecidableEq, Repr

/-- Accept (automata.go:174-179), with the context unchanged. -/
def acc (g : Ctx) (r : WRec) (ps : List Int) : Ctx × WRec × Option Rule :=
  (g, (r.doAccept ps).1, (r.doAccept ps).2)

/-- Abort (automata.go:167-170), with the context unchanged. -/
def abort (g : Ctx) (r : WRec) : Ctx × WRec × Option Rule := (g, r.doAbort.1, r.doAbort.2)

/-- `MatchLen++` and go on with the next state function, as in uax29.go:259-260. -/
def more (g : Ctx) (r : WRec) (next : Rule) : Ctx × WRec × Option Rule :=
  (g, { r with matchLen := r.matchLen + 1 }, some next)

/-- uax29.go:288-294, `checkIgnoredCharacters`: the test. -/
def ignored (c : Int) : Bool := c == WClass.Extend.num || c == WClass.Format.num || c == WClass.ZWJ.num

/-- `c == ALetterClass || c == Hebrew_LetterClass`, as in uax29.go:309. -/
def ahLetter (c : Int) : Bool := c == WClass.ALetter.num || c == WClass.HebrewLetter.num

/-- uax29.go:346-348 and 469-471: `make([]int, n)`, set the last element and element 1. -/
def lateJoin (n : Nat) : List Int := ((List.replicate n 0).set (n - 1) Suppress).set 1 Suppress

/-- uax29.go:346-349 and 469-472: accept with penalties for the current position and the one before
the middle character. The slice has `MatchLen - Expect + 3` elements; if these are fewer than 2,
`make` or the assignment to `p[1]` panics. -/
def accLate (g : Ctx) (r : WRec) : Ctx × WRec × Option Rule :=
  if r.matchLen - r.expect + 3 < 2 then ({ g with panic := true }, r.doAbort.1, r.doAbort.2)
  else acc g r (lateJoin (r.matchLen - r.expect + 3).toNat)

/-- The state functions, uax29.go:235-576. -/
def run (fn : Rule) (g : Ctx) (rec : WRec) (_r : Int) (c : Int) : Ctx × WRec × Option Rule :=
  match fn with
  -- 235-246
  | .NewLine => if c = WClass.LF.num ∨ c = WClass.Newline.num then acc g rec [MustBreak, MustBreak]
      else if c = WClass.CR.num then more g rec .CRLF else abort g rec
  -- 248-256
  | .CRLF => if c = WClass.LF.num then acc g rec [MustBreak, 3 * Suppress] else acc g rec [0, MustBreak, MustBreak]
  -- 258-270
  | .WB3c => more g rec .Pictography
  | .Pictography => if c = WClass.Pict.num then acc g rec [0, Suppress] else abort g rec
  -- 272-286
  | .WB3d => more g rec .fWB3d
  | .fWB3d => if c = WClass.WSegSpace.num then acc g rec [0, Suppress] else abort g rec
  -- 297-314
  | .WB5 => more g rec .fWB5_10
  | .fWB5_10 => if ignored c then more g rec .fWB5_10
      else if ahLetter c then acc g rec [0, Suppress] else abort g rec
  -- 317-352
  | .WB6_7 => more g rec .cWB6_7
  | .cWB6_7 => if ignored c then more g rec .cWB6_7
      else if c = WClass.MidLetter.num ∨ c = WClass.MidNumLet.num ∨ c = WClass.SingleQuote.num then
        (g, { rec with matchLen := rec.matchLen + 1, expect := rec.matchLen + 1 }, some .fWB6_7)
      else abort g rec
  | .fWB6_7 => if ignored c then more g rec .fWB6_7 else if ahLetter c then accLate g rec else abort g rec
  -- 355-372
  | .WB7a => more g rec .fWB7a
  | .fWB7a => if ignored c then more g rec .fWB7a
      else if c = WClass.SingleQuote.num then acc g rec [0, Suppress] else abort g rec
  -- 375-403
  | .WB7bc => more g rec .cWB7bc
  | .cWB7bc => if ignored c then more g rec .cWB7bc
      else if c = WClass.DoubleQuote.num then more g rec .fWB7bc else abort g rec
  | .fWB7bc => if ignored c then more g rec .fWB7bc
      else if c = WClass.HebrewLetter.num then acc g rec [0, Suppress, Suppress] else abort g rec
  -- 406-430
  | .WB8 => more g rec .fWB8_9
  | .WB9 => more g rec .fWB8_9
  | .fWB8_9 => if ignored c then more g rec .fWB8_9
      else if c = WClass.Numeric.num then acc g rec [0, Suppress] else abort g rec
  -- 433-437
  | .WB10 => more g rec .fWB5_10
  -- 440-476
  | .WB11 => more g rec .cWB11
  | .cWB11 => if ignored c then more g rec .cWB11
      else if c = WClass.MidNum.num ∨ c = WClass.MidNumLet.num ∨ c = WClass.SingleQuote.num then
        (g, { rec with matchLen := rec.matchLen + 1, expect := rec.matchLen + 1 }, some .fWB11)
      else abort g rec
  | .fWB11 => if ignored c then more g rec .fWB11 else if c = WClass.Numeric.num then accLate g rec else abort g rec
  -- 479-496
  | .WB13 => more g rec .fWB13
  | .fWB13 => if ignored c then more g rec .fWB13
      else if c = WClass.Katakana.num then acc g rec [0, Suppress] else abort g rec
  -- 499-516
  | .WB13a => more g rec .fWB13a
  | .fWB13a => if ignored c then more g rec .fWB13a
      else if c = WClass.ExtendNumLet.num then acc g rec [0, Suppress] else abort g rec
  -- 519-536
  | .WB13b => more g rec .fWB13b
  | .fWB13b => if ignored c then more g rec .fWB13b
      else if ahLetter c = true ∨ c = WClass.Numeric.num ∨ c = WClass.Katakana.num then acc g rec [0, Suppress] else abort g rec
  -- 539-560
  | .WB15 => more { g with blocked := true } rec .fWB15
  | .fWB15 => if ignored c then more g rec .fWB15
      else if c = WClass.RI.num then acc { g with blocked := false } rec [0, Suppress] else abort { g with blocked := false } rec
  -- 564-576
  | .WB4 => if ignored c = true ∧ g.prev ≠ WClass.LF.num ∧ g.prev ≠ WClass.Newline.num ∧ g.prev ≠ WClass.CR.num then
      acc g rec [0, Suppress] else abort g rec

/-- uax29.go:120-137: the rules that start with a class. -/
def rulesFor : WClass → List Rule
  | .CR => [.NewLine] | .LF => [.NewLine] | .Newline => [.NewLine] | .ZWJ => [.WB3c, .WB4] | .WSegSpace => [.WB3d]
  | .Extend => [.WB4] | .Format => [.WB4] | .ALetter => [.WB5, .WB6_7, .WB9, .WB13a]
  | .HebrewLetter => [.WB5, .WB6_7, .WB7a, .WB7bc, .WB9, .WB13a] | .Numeric => [.WB8, .WB10, .WB11, .WB13a]
  | .ExtendNumLet => [.WB13a, .WB13b] | .Katakana => [.WB13, .WB13a] | .RI => [.WB15] | _ => []

/-- Recognizers as subscribers, automata.go:129-162. -/
def subs : Sub Ctx WRec := Rec.sub run

/-- uax29.go:98-106, `WordBreaker`. -/
structure WBrk where
  pub : Pub WRec
  longest : Int
  penalties : List Int
  previous : Int
  blocked : Bool
deriving DecidableEq, Repr

/-- uax29.go:118-143, `NewWordBreaker`. -/
def new : WBrk := ⟨Pub.empty, 0, [], 0, false⟩

/-- uax29.go:172-177: subscribe a recognizer for each rule; `Expect` is set to the longest match. -/
def subscribeAll (c : WClass) (longest : Int) : List Rule → Pub WRec → Option (Pub WRec)
  | [], p => some p
  | rule :: rules, p => (p.push subs { (Rec.new c.num (some rule) : WRec) with expect := longest }).bind fun p =>
      subscribeAll c longest rules p

/-- uax29.go:164-179, `StartRulesFor`. -/
def startRules (b : WBrk) (c : WClass) : Option WBrk :=
  if c == .RI && b.blocked then some b
  else (subscribeAll c b.longest (rulesFor c) b.pub).map fun p => { b with pub := p }

/-- uax29.go:583-592, `setPenalty1`. -/
def setPenalty1 (ps : List Int) (p : Int) : List Int :=
  match ps with
  | [] => [0, p]
  | [x] => [x, p]
  | x :: y :: rest => if y = 0 then x :: p :: rest else x :: y :: rest

/-- uax29.go:199-207, `ProceedWithRune`. `none`: panic. -/
def proceed (b : WBrk) (r : Int) (c : WClass) : Option WBrk :=
  (b.pub.publish subs ⟨b.blocked, b.previous, false⟩ r c.num).bind fun x =>
    if x.1.panic then none
    else some { pub := x.2.1, longest := x.2.2.1, penalties := setPenalty1 x.2.1.total penalty999, previous := c.num, blocked := x.1.blocked }

/-- One rune, as in segment.go:458-460: `CodePointClassFor`, `StartRulesFor`, `ProceedWithRune`. `none`: panic. -/
def stepO (T : WTables) (b : WBrk) (r : Int) : Option WBrk :=
  (startRules b (classOf T r)).bind fun b => proceed b r (classOf T r)

/-- The breaker, with `LongestActiveMatch` (uax29.go:213-215) and `Penalties` (221-223). After a
panic, which does not happen (`C26_never_panics`), it stays where it is. -/
def breaker (T : WTables) : Breaker WBrk where
  step b r :=
    match stepO T b r with
    | some b' => (b', b'.longest, b'.penalties)
    | none => (b, 0, [])

end Word
end Uax
