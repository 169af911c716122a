import Verif.Recognizer
import Verif.Segmenter

/-
Model of /repo/uax14/uax14.go and /repo/uax14/rules.go, the line breaker.

Simplifications: the Unicode tables are parameters; the map of rules (128-171) is a function;
recognizers come from the pool in the state of a new one (theorem `C20_pooled_like_new`), and
their `UserData`, which is always the breaker itself (203), is the publisher's context.
The field `substituted` is written by `CodePointClassFor` for every rune before it is read, so it
is passed from there to the other two calls instead of being stored; `shadow` is never read.
`rule_LB2`, `finish_LB25` are not used by the Go code. Tracing is omitted.
-/

namespace Uax

/-- Line break classes. The file with the constants is generated from the list in
/repo/uax14/internal/generator/generator.go:53-56; `sot` and `eot` are in uax14.go:69-70. -/
inductive LClass where
  | AI | AL | B2 | BA | BB | BK | CB | CJ | CL | CM | CP | CR | EB | EM | EX | GL | H2 | H3 | HL | HY
  | ID | IN | IS | JL | JT | JV | LF | NL | NS | NU | OP | PO | PR | QU | RI | SA | SG | SP | SY | WJ | XX | ZW | ZWJ
  | sot | eot
deriving DecidableEq, Repr

/-- The numbers of the classes, generator.go:53-56 and 139-143; uax14.go:69-70. -/
def LClass.num : LClass → Int
  | .AI => 0 | .AL => 1 | .B2 => 2 | .BA => 3 | .BB => 4 | .BK => 5 | .CB => 6 | .CJ => 7 | .CL => 8 | .CM => 9
  | .CP => 10 | .CR => 11 | .EB => 12 | .EM => 13 | .EX => 14 | .GL => 15 | .H2 => 16 | .H3 => 17 | .HL => 18 | .HY => 19
  | .ID => 20 | .IN => 21 | .IS => 22 | .JL => 23 | .JT => 24 | .JV => 25 | .LF => 26 | .NL => 27 | .NS => 28 | .NU => 29
  | .OP => 30 | .PO => 31 | .PR => 32 | .QU => 33 | .RI => 34 | .SA => 35 | .SG => 36 | .SP => 37 | .SY => 38 | .WJ => 39
  | .XX => 40 | .ZW => 41 | .ZWJ => 42 | .sot => 1000 | .eot => 1001

/-- The tables: `rangeFromUAX14Class[c]` (uax14.go:85), and whether a rune is in category Mn or Mc (uax14.go:241). -/
structure LTables where
  is : LClass → Int → Bool
  mark : Int → Bool

namespace Line

/-- The classes 0 … ZWJClass, uax14.go:84. -/
def tabled : List LClass := [.AI, .AL, .B2, .BA, .BB, .BK, .CB, .CJ, .CL, .CM, .CP, .CR, .EB, .EM, .EX, .GL, .H2, .H3, .HL, .HY,
  .ID, .IN, .IS, .JL, .JT, .JV, .LF, .NL, .NS, .NU, .OP, .PO, .PR, .QU, .RI, .SA, .SG, .SP, .SY, .WJ, .XX, .ZW, .ZWJ]

/-- uax14.go:80-93, `ClassForRune`. -/
def classForRune (T : LTables) (r : Int) : LClass :=
  if r = 0 then .eot else (tabled.find? fun c => T.is c r).getD .XX

/-- uax14.go:237-249, `resolveSomeClasses`. -/
def resolve (T : LTables) (r : Int) (c : LClass) : LClass :=
  if c = .AI ∨ c = .SG ∨ c = .XX then .AL
  else if c = .SA then (if T.mark r then .CM else .AL)
  else if c = .CJ then .NS
  else c

/-- uax14.go:260-276, `substitueSomeClasses` (the first result). -/
def substitute (c last : LClass) : LClass :=
  if last ∈ [LClass.sot, .BK, .CR, .LF, .NL, .SP, .ZW] then (if c = .CM ∨ c = .ZWJ then .AL else c)
  else (if c = .CM ∨ c = .ZWJ then last else c)

/-- The names of the state functions, rules.go:126-754. -/
inductive Rule where
  | LB3 | NewLine | CRLF | HardBreak | LB7 | LB8 | fLB8 | LB8a | LB11 | LB12 | LB13 | LB14 | fLB14 | LB15 | fLB15
  | LB16 | fLB16 | LB17 | fLB17 | LB18 | LB19 | LB20 | LB21 | LB21x | LB21a | fLB21a | LB21b | fLB21b | LB22 | fLB22
  | LB23_1 | LB23_2 | fLB23_1 | fLB23_2 | LB23a_1 | LB23a_2 | fLB23a_1 | fLB23a_2 | LB24_1 | LB24_2 | fLB24a_1 | fLB24a_2
  | LB25 | step2 | step3 | step4 | step5 | LB26_1 | LB26_2 | LB26_3 | fLB26_1 | fLB26_2 | fLB26_3
  | LB27 | LB27_2 | fLB27_1 | fLB27_2 | LB28 | fLB28 | LB29 | fLB29 | LB30_1 | LB30_2 | fLB30_1 | fLB30_2
  | LB30a | fLB30a | LB30b | fLB30b
deriving DecidableEq, Repr

/-- A recognizer of the line breaker, automata.go:51-58. -/
abbrev LRec := Rec Rule Unit

/-- uax14.go:369-371. -/
def Suppress : Int := 10000
/-- uax14.go:370. -/
def MustBreak : Int := -19000
/-- uax14.go:371. -/
def DefaultPenalty : Int := 1

/-- uax14.go:278-281, `noBreak`. -/
def noBreak : Int := 10000

/-- uax14.go:379-387, `p`: `int(math.Pow(1.3, 31 - w))`, at least 2. The power is exact here; the
floating point result differs from it by far less than the distance to the next integer. -/
def p (w : Nat) : Int :=
  if (13 : Int) ^ (31 - w) / 10 ^ (31 - w) = DefaultPenalty then DefaultPenalty + 1 else 13 ^ (31 - w) / 10 ^ (31 - w)

/-- uax14.go:391-399, `ps`, for `l` at least 1. -/
def ps (w : Nat) (first : Int) (l : Nat) : List Int := 0 :: first :: List.replicate (l - 1) (p w)

/-- What the state functions see of the breaker: `blockedRI`, `lastClass` and `substituted`
(uax14.go:108-117). `panic` records a runtime panic in a state function. -/
structure Ctx where
  blocked : Bool
  last : LClass
  subst : Bool
  panic : Bool
deriving DecidableEq, Repr

/-- Accept (automata.go:174-179), with the context unchanged. -/
def acc (g : Ctx) (r : LRec) (ps : List Int) : Ctx × LRec × Option Rule :=
  (g, (r.doAccept ps).1, (r.doAccept ps).2)

/-- Abort (automata.go:167-170), with the context unchanged. -/
def abort (g : Ctx) (r : LRec) : Ctx × LRec × Option Rule := (g, r.doAbort.1, r.doAbort.2)

/-- `MatchLen++` and go on with the next state function, as in rules.go:170-171. -/
def more (g : Ctx) (r : LRec) (next : Rule) : Ctx × LRec × Option Rule :=
  (g, { r with matchLen := r.matchLen + 1 }, some next)

/-- Go on with the next state function, as in rules.go:176-177. -/
def stay (g : Ctx) (r : LRec) (next : Rule) : Ctx × LRec × Option Rule := (g, r, some next)

/-- `c == X || c == Y || …`, as in rules.go:131-133. -/
def isIn (c : Int) (cs : List LClass) : Bool := cs.any fun x => c == x.num

/-- `if c == X || … { return DoAccept(rec, 0, p) }; return DoAbort(rec)`, as in rules.go:353-359. -/
def accIf (g : Ctx) (r : LRec) (c : Int) (cs : List LClass) (ps : List Int) : Ctx × LRec × Option Rule :=
  if isIn c cs then acc g r ps else abort g r

/-- rules.go:540, 542, 548, 550: accept with `ps(25, first, rec.MatchLen)`. For a match length below 1
`make` or the assignment to `pp[1]` panics. -/
def accNum (g : Ctx) (r : LRec) (first : Int) : Ctx × LRec × Option Rule :=
  if r.matchLen < 1 then ({ g with panic := true }, r.doAbort.1, r.doAbort.2) else acc g r (ps 25 first r.matchLen.toNat)

/-- The state functions, rules.go:126-754. -/
def run (fn : Rule) (g : Ctx) (rec : LRec) (_r : Int) (c : Int) : Ctx × LRec × Option Rule :=
  match fn with
  -- 126-128
  | .LB3 => acc g rec [0, MustBreak]
  -- 130-140
  | .NewLine => if isIn c [.BK, .NL, .LF] then acc g { rec with matchLen := rec.matchLen + 1 } [MustBreak]
      else if isIn c [.CR] then more g rec .CRLF else abort g rec
  -- 142-148
  | .CRLF => if isIn c [.LF] then acc g rec [MustBreak, Suppress, Suppress] else acc g rec [0, MustBreak, Suppress]
  -- 150-157
  | .HardBreak => accIf g rec c [.BK, .NL, .LF, .CR] [0, Suppress]
  -- 160-162
  | .LB7 => acc g rec [0, Suppress]
  -- 168-180
  | .LB8 => more g rec .fLB8
  | .fLB8 => if isIn c [.SP] then stay g rec .fLB8 else acc g rec [0, -p 8]
  -- 185-187
  | .LB8a => acc g rec [p 8]
  -- 192-194
  | .LB11 => acc g rec [p 11, p 11]
  -- 211-219
  | .LB12 => if g.last = .SP ∨ g.last = .BA ∨ g.last = .HY then acc g rec [p 12] else acc g rec [p 12, p 12]
  -- 224-226
  | .LB13 => acc g rec [0, p 13]
  -- 231-243
  | .LB14 => more g rec .fLB14
  | .fLB14 => if isIn c [.SP] then stay g rec .fLB14 else acc g rec [0, p 14]
  -- 248-263
  | .LB15 => more g rec .fLB15
  | .fLB15 => if isIn c [.SP] then stay g rec .fLB15 else accIf g rec c [.OP] [0, p 15]
  -- 269-284
  | .LB16 => more g rec .fLB16
  | .fLB16 => if isIn c [.SP] then stay g rec .fLB16 else accIf g rec c [.NS] [0, p 16]
  -- 289-304
  | .LB17 => more g rec .fLB17
  | .fLB17 => if isIn c [.SP] then stay g rec .fLB17 else accIf g rec c [.B2] [0, p 17]
  -- 309-311
  | .LB18 => acc g rec [-p 18]
  -- 316-318
  | .LB19 => acc g rec [p 19, p 19]
  -- 323-329
  | .LB20 => if g.last = .CB ∧ g.subst = true then acc g rec [-p 20, p 20] else acc g rec [-p 20, -p 20]
  -- 335-342
  | .LB21 => acc g rec [0, p 21]
  | .LB21x => acc g rec [p 21]
  -- 347-359
  | .LB21a => more g rec .fLB21a
  | .fLB21a => accIf g rec c [.HY, .BA] [p 21]
  -- 364-376
  | .LB21b => more g rec .fLB21b
  | .fLB21b => accIf g rec c [.HL] [0, p 21]
  -- 386-398
  | .LB22 => more g rec .fLB22
  | .fLB22 => accIf g rec c [.IN] [0, p 22]
  -- 403-430
  | .LB23_1 => more g rec .fLB23_1
  | .LB23_2 => more g rec .fLB23_2
  | .fLB23_1 => accIf g rec c [.NU] [0, p 23]
  | .fLB23_2 => accIf g rec c [.AL, .HL] [0, p 23]
  -- 436-463
  | .LB23a_1 => more g rec .fLB23a_1
  | .LB23a_2 => more g rec .fLB23a_2
  | .fLB23a_1 => accIf g rec c [.ID, .EB, .EM] [0, p 23]
  | .fLB23a_2 => accIf g rec c [.PO] [0, p 23]
  -- 469-496
  | .LB24_1 => more g rec .fLB24a_1
  | .LB24_2 => more g rec .fLB24a_2
  | .fLB24a_1 => accIf g rec c [.AL, .HL] [0, p 23]
  | .fLB24a_2 => accIf g rec c [.PR, .PO] [0, p 23]
  -- 505-551
  | .LB25 => more g rec .step2
  | .step2 => if isIn c [.OP, .HY] then more g rec .step3 else if isIn c [.NU] then more g rec .step4 else abort g rec
  | .step3 => if isIn c [.NU] then more g rec .step4 else abort g rec
  | .step4 => if isIn c [.NU, .SY, .IS] then more g rec .step4 else if isIn c [.CL, .CP] then more g rec .step5
      else if isIn c [.PR, .PO] then accNum g rec (p 25) else accNum g rec 0
  | .step5 => if isIn c [.PR, .PO] then accNum g rec (p 25) else accNum g rec 0
  -- 560-602
  | .LB26_1 => more g rec .fLB26_1
  | .LB26_2 => more g rec .fLB26_2
  | .LB26_3 => more g rec .fLB26_3
  | .fLB26_1 => accIf g rec c [.JL, .JV, .H2, .H3] [0, p 26]
  | .fLB26_2 => accIf g rec c [.JV, .JT] [0, p 26]
  | .fLB26_3 => accIf g rec c [.JT] [0, p 26]
  -- 612-639
  | .LB27 => more g rec .fLB27_1
  | .LB27_2 => more g rec .fLB27_2
  | .fLB27_1 => accIf g rec c [.IN, .PO] [0, p 27]
  | .fLB27_2 => accIf g rec c [.JL, .JV, .JT, .H2, .H3] [0, p 27]
  -- 644-656
  | .LB28 => more g rec .fLB28
  | .fLB28 => accIf g rec c [.AL, .HL] [0, p 28]
  -- 661-673
  | .LB29 => more g rec .fLB29
  | .fLB29 => accIf g rec c [.AL, .HL] [0, p 29]
  -- 682-709
  | .LB30_1 => more g rec .fLB30_1
  | .LB30_2 => more g rec .fLB30_2
  | .fLB30_1 => accIf g rec c [.OP] [0, p 30]
  | .fLB30_2 => accIf g rec c [.AL, .HL, .NU] [0, p 30]
  -- 715-737
  | .LB30a => more { g with blocked := true } rec .fLB30a
  | .fLB30a => if isIn c [.RI] then (if g.subst then stay g rec .fLB30a else acc { g with blocked := false } rec [0, p 30])
      else abort { g with blocked := false } rec
  -- 742-754
  | .LB30b => more g rec .fLB30b
  | .fLB30b => accIf g rec c [.EM] [0, p 30]

/-- uax14.go:131-171: the rules that start with a class. -/
def rulesFor : LClass → List Rule
  | .eot => [.LB3] | .NL => [.NewLine, .HardBreak] | .LF => [.NewLine, .HardBreak] | .BK => [.NewLine, .HardBreak]
  | .CR => [.NewLine, .HardBreak] | .SP => [.LB7, .LB18] | .ZW => [.LB7, .LB8] | .WJ => [.LB11] | .GL => [.LB12]
  | .CL => [.LB13, .LB16] | .CP => [.LB13, .LB16, .LB30_2] | .EX => [.LB13, .LB22] | .IS => [.LB13, .LB29]
  | .SY => [.LB13, .LB21b] | .OP => [.LB14, .step2] | .QU => [.LB15, .LB19] | .B2 => [.LB17] | .BA => [.LB21]
  | .CB => [.LB20] | .HY => [.LB21, .step2] | .NS => [.LB21] | .BB => [.LB21x]
  | .AL => [.LB22, .LB23_1, .LB24_2, .LB28, .LB30_1] | .HL => [.LB21a, .LB22, .LB23_1, .LB24_2, .LB28, .LB30_1]
  | .ID => [.LB22, .LB23a_2] | .EB => [.LB22, .LB23a_2, .LB30b] | .EM => [.LB22, .LB23a_2] | .IN => [.LB22]
  | .NU => [.LB22, .LB23_2, .step3, .LB30_1] | .RI => [.LB30a] | .PR => [.LB23a_1, .LB24_1, .LB25, .LB27_2]
  | .PO => [.LB24_1, .LB25] | .JL => [.LB26_1, .LB27] | .JV => [.LB26_2, .LB27] | .H2 => [.LB26_2, .LB27]
  | .JT => [.LB26_3, .LB27] | .H3 => [.LB26_3, .LB27] | .ZWJ => [.LB8a] | _ => []

/-- Recognizers as subscribers, automata.go:129-162. -/
def subs : Sub Ctx LRec := Rec.sub run

/-- uax14.go:108-117, `LineWrap`. -/
structure LBrk where
  pub : Pub LRec
  longest : Int
  penalties : List Int
  last : LClass
  blocked : Bool
deriving DecidableEq, Repr

/-- uax14.go:128-178, `NewLineWrap`. -/
def new : LBrk := ⟨Pub.empty, 0, [], .sot, false⟩

/-- uax14.go:183-190, `CodePointClassFor`: the class and the new value of `substituted`. -/
def classFor (T : LTables) (b : LBrk) (r : Int) : LClass × Bool :=
  let c := resolve T r (classForRune T r)
  let cnew := substitute c b.last
  (cnew, decide (c ≠ cnew))

/-- uax14.go:201-205: subscribe a recognizer for each rule. -/
def subscribeAll (c : LClass) : List Rule → Pub LRec → Option (Pub LRec)
  | [], p => some p
  | rule :: rules, p => (p.push subs (Rec.new c.num (some rule) : LRec)).bind fun p => subscribeAll c rules p

/-- uax14.go:196-222, `StartRulesFor`. -/
def startRules (b : LBrk) (c : LClass) : Option LBrk :=
  if c == .RI && b.blocked then some b
  else (subscribeAll c (rulesFor c) b.pub).map fun p => { b with pub := p }

/-- uax14.go:408-418, `setPenalty1`; with `noBreak` it is also uax14.go:317-324. -/
def setPenalty1 (ps : List Int) (p : Int) : List Int :=
  match ps with
  | [] => [0, p]
  | [x] => [x, p]
  | x :: y :: rest => if y = 0 then x :: p :: rest else x :: y :: rest

/-- uax14.go:328-333: penalties above the default are lifted. -/
def lift (x : Int) : Int := if x > DefaultPenalty then x + noBreak else x

/-- uax14.go:311-340, `ProceedWithRune`. `none`: panic. -/
def proceed (b : LBrk) (r : Int) (c : LClass) (substituted : Bool) : Option LBrk :=
  (b.pub.publish subs ⟨b.blocked, b.last, substituted, false⟩ r c.num).bind fun x =>
    if x.1.panic then none
    else
      let t := if substituted = true ∧ b.last = c then setPenalty1 x.2.1.total noBreak else setPenalty1 x.2.1.total DefaultPenalty
      some { pub := x.2.1, longest := x.2.2.1, penalties := t.map lift, last := if c = .eot then .sot else c, blocked := x.1.blocked }

/-- One rune, as in segment.go:458-460: `CodePointClassFor`, `StartRulesFor`, `ProceedWithRune`. `none`: panic. -/
def stepO (T : LTables) (b : LBrk) (r : Int) : Option LBrk :=
  let cs := classFor T b r
  (startRules b cs.1).bind fun b => proceed b r cs.1 cs.2

/-- The breaker, with `LongestActiveMatch` (uax14.go:343-346) and `Penalties` (352-354). After a
panic, which does not happen (`C29_never_panics`), it stays where it is. -/
def breaker (T : LTables) : Breaker LBrk where
  step b r :=
    match stepO T b r with
    | some b' => (b', max 1 b'.longest, b'.penalties)
    | none => (b, 0, [])

end Line
end Uax
