import Verif.BidiBrackets
import Verif.Utf8

/-
Model of /repo/bidi/scanner.go: the scanner, which runs as a goroutine of its
own and sends scraps to the parser through an unbuffered channel.

The scanner is a machine whose steps are the stretches of `Scan` between the
places where another goroutine can look at its state: `Pc.run` is the top of the
loop, `Pc.send` waits until the parser receives, `Pc.resume` is the part of the
loop body after a scrap has been sent.

Left out: tracing, option RecognizeLegacy (it has no effect), classString.
-/
namespace Uax.Bidi

/-- Parameters of the scanner which are not part of /repo: the properties of
runes in golang.org/x/text/unicode/bidi (class; `some true` for an opening,
`some false` for a closing bracket), and unicode.IsUpper. They are used in scanner.go:79-121 and 374-393. -/
structure Tables where
  cls : Nat → Class
  bracket : Nat → Option Bool
  upper : Nat → Bool

/-- Options, scanner.go:446-514, and the markup function (nil is `none`), whose
values which are not positive are all 0 here. -/
structure Options where
  markup : Option (Nat → Nat) := none
  outerR2L : Bool := false
  testing : Bool := false
  ignoreParSep : Bool := false

/-- What bufio.ScanRunes and utf8.DecodeRune (scanner.go:97-101) make of the
bytes of the reader: runes and lengths of the tokens. A byte that is not UTF-8
is replaced by the three bytes of U+FFFD. The number of bytes is the bound of
the recursion. -/
def scanRunes : Nat → List Nat → List (Nat × Nat)
  | 0, _ => []
  | _ + 1, [] => []
  | n + 1, b =>
    let d := Utf8.decode b
    if d.1 = Utf8.runeError ∧ d.2 = 1 then (Utf8.runeError, 3) :: scanRunes n (b.drop 1)
    else d :: scanRunes n (b.drop d.2)

/-- scanner.go:45-60: the tokens of a reader with `bufio.ScanRunes`. -/
def runesOf (b : List Nat) : List (Nat × Nat) := scanRunes b.length b

/-- MarkupLRI, MarkupRLI, MarkupPDI, scanner.go:396-402 -/
def markupLRI : Nat := cLRI * 256
/-- scanner.go:64-76, the markup of a right-to-left isolate. -/
def markupRLI : Nat := cRLI * 256
/-- scanner.go:64-76, the markup of the end of an isolate. -/
def markupPDI : Nat := cPDI

/-- markupToBidi, scanner.go:64-74. `MarkupPDILRI` is 24 | 21·256, the sum. -/
def markupToBidi (m : Nat) : Class :=
  if m = markupLRI ∨ m = markupPDI + markupLRI then cLRI
  else if m = markupRLI ∨ m = markupPDI + markupRLI then cRLI
  else if m = markupPDI then cPDI
  else 0

/-- Where the scanner is; see above. In `resume` rune, lookahead and `isAL` of
lines 151-172 are kept. -/
inductive Pc
  | run
  | send (s : Scrap) (r : Nat) (lookahead : Scrap) (isAL : Bool)
  | resume (r : Nat) (lookahead : Scrap) (isAL : Bool)
  | sendLast (s : Scrap)
  | sendStop
  | closed
deriving Repr, Inhabited

/-- bidiScanner, scanner.go:27-37, with the local variables `current` and
`lastAL` (-1 is `none`) of Scan. `irs` is the map IRS, newest entry first, and
`bd16` an index into the list of all handlers. -/
structure Scanner where
  input : List (Nat × Nat)
  lastMarkup : Nat := 0
  lastMarkupPos : Nat := 0
  handlers : List Handler := [{}]
  irs : List (Nat × Nat) := [(0, 0)]
  irsStack : List Nat := [0]
  bd16 : Nat := 0
  ctxstack : List DirContext := []
  current : Scrap
  lastAL : Option Nat := none
  pc : Pc := .run
deriving Repr, Inhabited

/-- initialOuterScrap, scanner.go:215-232 -/
def initialOuterScrap (o : Options) (setIRS : Bool) : Scrap :=
  let dir := if o.outerR2L then cR else cL
  { clz := if setIRS then (if o.outerR2L then cRLI else cLRI) else cNULL
    ctx := { embeddingDir := dir } }

/-- newScanner, scanner.go:45-62, and the start of Scan, lines 147-149.
(`lastMarkup` is -1 there; only its being positive is tested.) -/
def newScanner (o : Options) (b : List Nat) : Scanner :=
  { input := runesOf b, current := initialOuterScrap o false }

/-- scanner.go:79: what nextRune returns besides the new state: rune, length, class; `none` for
the end of the input. -/
abbrev NextRune := Option (Nat × Nat × Class)

/-- nextRune, scanner.go:97-121, after the markup -/
def readRune (T : Tables) (o : Options) (sc : Scanner) : NextRune × Scanner :=
  match sc.input with
  | [] => (none, sc)
  | (r, n) :: rest =>
    let sc := { sc with input := rest }
    if T.cls r = cB ∧ o.ignoreParSep = false then (none, sc)
    else
      let c := if T.cls r = cB then cWS else T.cls r
      let c := match T.bracket r with
        | none => c
        | some true => cBRACKO
        | some false => cBRACKC
      (some (r, n, c), sc)

/-- nextRune, scanner.go:79-122 -/
def nextRune (T : Tables) (o : Options) (sc : Scanner) (pos : Nat) : NextRune × Scanner :=
  match o.markup with
  | none => readRune T o sc
  | some m =>
    if sc.lastMarkup > 0 then
      (some (0, 0, markupToBidi sc.lastMarkup), { sc with lastMarkupPos := pos, lastMarkup := 0 })
    else if sc.lastMarkupPos < pos then
      let d := m pos
      if d > 0 then
        if (d &&& markupPDI) > 0 then
          -- `d - MarkupPDI` may be negative, which is not positive
          (some (0, 0, cPDI), { sc with lastMarkupPos := pos, lastMarkup := d - markupPDI })
        else (some (0, 0, markupToBidi d), { sc with lastMarkupPos := pos, lastMarkup := 0 })
      else readRune T o sc
    else readRune T o sc

/-- setTestingIRSDelimiter, scanner.go:374-384 -/
def testingDelimiter (r : Nat) (c : Class) : Class :=
  if r = '>'.toNat then cLRI else if r = '<'.toNat then cRLI else if r = '='.toNat then cPDI else c

/-- scanner.go:162-168 -/
def testingClass (T : Tables) (o : Options) (r : Nat) (c : Class) : Class :=
  if o.testing then (if T.upper r then cR else testingDelimiter r c) else c

/-- applyRulesW1to3, scanner.go:237-264 -/
def rulesW1to3 (c : Class) (current : Scrap) : Class :=
  if c = cNSM then
    if current.clz = cLRI then cL
    else if current.clz = cRLI then cR
    else if current.clz = cPDI then cNI
    else current.clz
  else if c = cEN then (if current.ctx.isAL then cAN else c)
  else if c = cAL then cR
  else if c = cS ∨ c = cWS ∨ c = cON then cNI
  else c

/-- inheritStrongTypes, scanner.go:289-315 -/
def inheritStrongTypes (dest src : Scrap) (lastAL : Option Nat) : Scrap :=
  let ctx := src.ctx
  if dest.clz = cLRI then { dest with ctx := { ctx with embeddingDir := cL } }
  else if dest.clz = cRLI then { dest with ctx := { ctx with embeddingDir := cR } }
  else
    let ctx := match lastAL with
      | some p => ctx.setStrongType cAL p
      | none => ctx
    let ctx :=
      if src.clz = cL ∨ src.clz = cLRI then ctx.setStrongType cL src.l
      else if src.clz = cR ∨ src.clz = cRLI then ctx.setStrongType cR src.l
      else if src.clz = cAL then ctx.setStrongType cAL src.l
      else ctx
    { dest with ctx := ctx }

/-- Change the handler with an index; handlers are pointers in brackets.go:91-133 and 194-219. -/
def setHandler (hs : List Handler) (i : Nat) (f : Handler → Handler) : List Handler :=
  hs.modify i f

/-- prepareRuleBD16, scanner.go:266-285 -/
def prepareRuleBD16 (sc : Scanner) (r : Nat) (s : Scrap) : Scanner :=
  if isBracket s = false then sc
  else if s.clz = cBRACKO then
    { sc with handlers := setHandler sc.handlers sc.bd16 (·.pushOpening r s) }
  else { sc with handlers := setHandler sc.handlers sc.bd16 (·.findPair r s) }

/-- scanner.go:266-285, 327-351: lookup in the map IRS; the map has an entry for every position asked for. -/
def Scanner.irsAt (sc : Scanner) (pos : Nat) : Nat := ((sc.irs.find? (·.1 == pos)).map (·.2)).getD 0

/-- The last handler in the chain from a handler, scanner.go:345-348; `next`
pointers lead to newer handlers, so their number bounds the recursion. -/
def lastOf (hs : List Handler) : Nat → Nat → Nat
  | 0, i => i
  | n + 1, i => match (hs[i]?).bind (·.next) with
    | some j => lastOf hs n j
    | none => i

/-- handleIsolatingRunSwitch, scanner.go:327-353; `irsStack` has its top first. -/
def isolatingRunSwitch (sc : Scanner) (s : Scrap) : Scanner :=
  if s.clz = cPDI then
    match sc.irsStack with
    | [] => sc
    | _ :: rest =>
      let hs := setHandler sc.handlers sc.bd16 fun h => { h with lastpos := s.l }
      match rest with
      | [] => { sc with handlers := hs, irsStack := rest }
      | tos :: _ => { sc with handlers := hs, irsStack := rest, bd16 := sc.irsAt tos }
  else
    let last := lastOf sc.handlers sc.handlers.length (sc.irsAt 0)
    let new := sc.handlers.length
    { sc with
      handlers := setHandler sc.handlers last (fun h => { h with next := some new })
        ++ [{ firstpos := s.l }]
      irs := (s.l, new) :: sc.irs
      irsStack := s.l :: sc.irsStack
      bd16 := new }

/-- The part of the loop body after a scrap has been sent, scanner.go:183-194 -/
def proceed (sc : Scanner) (r : Nat) (lookahead : Scrap) (isAL : Bool) : Scanner :=
  let current := sc.current
  let (current, ctxstack) :=
    if isIsolate lookahead ∧ lookahead.clz ≠ cPDI then (current, current.ctx :: sc.ctxstack)
    else if current.clz = cPDI then
      match sc.ctxstack with
      | c :: rest => ({ current with ctx := c }, rest)
      | [] => (current, sc.ctxstack)
    else (current, sc.ctxstack)
  let lookahead := inheritStrongTypes lookahead current sc.lastAL
  let sc := prepareRuleBD16 { sc with ctxstack := ctxstack } r lookahead
  { sc with current := lookahead, lastAL := if isAL then some lookahead.l else sc.lastAL, pc := .run }

/-- One iteration of the loop of Scan up to the sending of a scrap,
scanner.go:150-199 -/
def scanLoop (T : Tables) (o : Options) (sc : Scanner) : Scanner :=
  match nextRune T o sc sc.current.r with
  | (none, sc) =>
    let sc := if isIsolate sc.current then isolatingRunSwitch sc sc.current else sc
    { sc with pc := .sendLast sc.current }
  | (some (r, n, c), sc) =>
    let current := sc.current
    let c := testingClass T o r c
    let isAL := c == cAL
    let c := rulesW1to3 c current
    let lookahead : Scrap := { clz := c, l := current.r, r := current.r + n }
    if current.clz = cNULL ∨ current.clz ≠ lookahead.clz ∨ isBracket current ∨ isIsolate current then
      if current.clz ≠ cNULL then
        let sc := if isIsolate current then isolatingRunSwitch sc current else sc
        { sc with pc := .send current r lookahead isAL }
      else proceed sc r lookahead isAL
    else { sc with current := collapse current lookahead current.clz }

/-- A step of the goroutine of scanner.go:146-199: to the next scrap it sends; `none` when it waits for the
parser or has ended. -/
def Scanner.step (T : Tables) (o : Options) (sc : Scanner) : Option Scanner :=
  match sc.pc with
  | .run => some (scanLoop T o sc)
  | .resume r la isAL => some (proceed sc r la isAL)
  | _ => none

/-- Receiving from the channel, when the scanner is ready to send: scrap and
state of the scanner after that, scanner.go:203-213. A closed channel gives the
zero value. -/
def Scanner.receive (sc : Scanner) : Option (Scrap × Scanner) :=
  match sc.pc with
  | .send s r la isAL => some (s, { sc with pc := .resume r la isAL })
  | .sendLast s => some (s, { sc with pc := .sendStop })
  | .sendStop => some ({ clz := cNULL }, { sc with pc := .closed })
  | .closed => some ({}, sc)
  | _ => none

/-- Up to `n` steps of the goroutine of scanner.go:146-199. -/
def Scanner.steps (T : Tables) (o : Options) : Nat → Scanner → Scanner
  | 0, sc => sc
  | n + 1, sc => match sc.step T o with
    | some sc => Scanner.steps T o n sc
    | none => sc

/-- findBD16ForPos, scanner.go:355-370: the index of a handler. The loop ends
before the last handler of the chain is looked at. -/
def bd16Loop (hs : List Handler) (pos : Nat) : Nat → Nat → Nat → Nat
  | 0, _, bd16 => bd16
  | n + 1, i, bd16 =>
    match hs[i]? with
    | none => bd16
    | some h => match h.next with
      | none => bd16
      | some j => bd16Loop hs pos n j
          (if h.firstpos ≤ pos ∧ (h.lastpos = 0 ∨ h.lastpos ≥ pos) then i else bd16)

/-- scanner.go:355-370, `findBD16ForPos`: the index of the handler. -/
def Scanner.bd16For (sc : Scanner) (pos : Nat) : Nat :=
  bd16Loop sc.handlers pos sc.handlers.length (sc.irsAt 0) (sc.irsAt 0)

end Uax.Bidi
