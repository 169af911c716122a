import Verif.Utf8
import Verif.TableGen

/-
Model of the parser for files of the Unicode Character Database: /repo/internal/ucdparse (linebuf.go, scan.go, ucdparse.go,
testfiles.go), and of its callers /repo/internal/tablegen/main.go and /repo/bidi/internal/gen/brackgen.go.

`bufio.Scanner`, `strings`, `strconv` and `unicode` are not part of /repo; they are modelled after their documentation. Simplifications:
output for debugging is left out; the scanner's limit of 64 KB for a line is one of the errors a reader may
have (`failing`); lines are lists of runes, which have the lengths of their UTF-8 encodings (so invalid UTF-8 is
not covered).
-/

namespace Uax.Ucd

/-! ### Lines -/

/-- bufio.ScanLines, as called in linebuf.go:37: advance and token. -/
def scanLinesFn (data : List Nat) (atEOF : Bool) : Nat × Option (List Nat) :=
  let dropCR (l : List Nat) : List Nat := if l.getLast? = some 13 then l.dropLast else l
  if atEOF && data.isEmpty then (0, none)
  else match data.findIdx? (· == 10) with
    | some i => (i + 1, some (dropCR (data.take i)))
    | none => if atEOF then (data.length, some (dropCR data)) else (0, none)

/-- linebuf.go:40-50, the loop over `data` for a CR without LF inside of the token. -/
def loneCR (data : List Nat) (tokenLen : Nat) : Option Nat :=
  (List.range data.length).find? fun i =>
    data[i]? == some 13 && decide (i < data.length - 1) && decide (i < tokenLen) && data[i + 1]? != some 10

/-- linebuf.go:37-52, the split function. -/
def splitFn (data : List Nat) (atEOF : Bool) : Nat × Option (List Nat) :=
  let (advance, token) := scanLinesFn data atEOF
  match loneCR data (token.getD []).length with
  | some i => (i + 1, some (data.take i))
  | none => (advance, token)

/-- `bufio.Scanner.Scan` (linebuf.go:52, 118) until it returns false: the input comes in chunks, the buffer holds what has been read and
not handed out. `n` is fuel. -/
def scanLines : Nat → List Nat → List (List Nat) → List (List Nat)
  | 0, _, _ => []
  | n + 1, buffer, [] =>
    match splitFn buffer true with
    | (advance, some token) => token :: scanLines n (buffer.drop advance) []
    | (_, none) => []
  | n + 1, buffer, chunk :: chunks =>
    match (if buffer.isEmpty then (0, none) else splitFn buffer false) with
    | (advance, some token) => token :: scanLines n (buffer.drop advance) (chunk :: chunks)
    | (_, none) => scanLines n (buffer ++ chunk) chunks

/-- All lines of an input, as AdvanceLine (linebuf.go:104-140) gets them. -/
def linesOf (chunks : List (List Nat)) : List (List Nat) := scanLines (2 * chunks.flatten.length + chunks.length + 2) [] chunks

/-! ### Line buffer -/

/-- A line (linebuf.go:19-20): its runes. -/
abbrev Line := List Nat

/-- The size of a rune, linebuf.go:84-91. -/
def width (r : Nat) : Nat := (Utf8.encodeNat r).length

/-- The bytes of a line, linebuf.go:19-20. -/
def bytes (l : Line) : List Nat := l.flatMap Utf8.encodeNat

/-- `strings.Reader.Size`, as in linebuf.go:72. -/
def size (l : Line) : Nat := (bytes l).length

/-- The string from a byte position on, linebuf.go:157-172 (always the beginning of a rune). -/
def fromByte : Line → Nat → Line
  | l, 0 => l
  | [], _ + 1 => []
  | r :: l, n + 1 => fromByte l (n + 1 - width r)

/-- The errors, linebuf.go:68-140. -/
inductive Err where
  | eof | io
deriving DecidableEq, Repr

/-- linebuf.go:14-24, `lineBuffer`. `input` are the lines that `Input` has not handed out, after which its reader fails or not;
`line` is nil at first; `unread` is what the reader `Line` has not handed out. -/
structure Buf where
  lookahead : Nat
  cursor : Nat
  byteCursor : Nat
  currentLine : Nat
  input : List Line
  failing : Bool
  text : Line
  line : Option Line
  unread : Line
  isEof : Nat
  lastError : Option Err
deriving DecidableEq, Repr

/-- linebuf.go:26. -/
def eolMarker : Nat := 10

/-- linebuf.go:60-62, `IsEof`; `none` is the panic for a nil reader. -/
def Buf.atEof (b : Buf) : Option Bool :=
  if 2 ≤ b.isEof then some true else b.line.map fun l => size l == 0

/-- linebuf.go:67-81 and 83-91, `AdvanceCursor`, `readRune`. -/
def Buf.advanceCursor (b : Buf) : Buf × Option Err :=
  if b.isEof > 2 then (b, some .eof)
  else if b.byteCursor ≥ size (b.line.getD []) then ({ b with lookahead := eolMarker }, none)
  else match b.unread with
    | [] => (b, some .io)
    | r :: unread => ({ b with lookahead := r, byteCursor := b.byteCursor + width r, cursor := b.cursor + 1, unread := unread }, none)

/-- White space of Go's regular expressions, `\s`, as in linebuf.go:146-147. -/
def isBlank (r : Nat) : Bool := r == 9 || r == 10 || r == 12 || r == 13 || r == 32

/-- linebuf.go:145-155, `IsIgnoredLine`: blank lines and comments. -/
def ignored (l : Line) : Bool :=
  match l.dropWhile isBlank with
  | [] => true
  | r :: _ => r == 35

/-- linebuf.go:112-133, the loop of `AdvanceLine` over the lines of the input. -/
def readLines : List Line → Buf → Buf × Option Err
  | [], b =>
    if b.failing then ({ b with currentLine := b.currentLine + 1, input := [] }, some .io)
    else ({ b with currentLine := b.currentLine + 1, input := [], isEof := 1, line := some [], unread := [] }, some .eof)
  | l :: ls, b =>
    let b := { b with currentLine := b.currentLine + 1, input := ls, text := l }
    if ignored l then readLines ls b else { b with line := some l, unread := l }.advanceCursor

/-- linebuf.go:103-137, `AdvanceLine`. -/
def Buf.advanceLine (b : Buf) : Buf × Option Err :=
  let b := { b with cursor := 0, byteCursor := 0 }
  if b.isEof = 1 then ({ b with isEof := 2 }, some .eof)
  else if b.isEof = 0 then readLines b.input b
  else { b with line := some b.text, unread := b.text }.advanceCursor

/-- linebuf.go:30-58, `newLineBuffer`. -/
def newBuf (lines : List Line) (failing : Bool) : Buf :=
  let (b, err) := Buf.advanceLine ⟨0, 0, 0, 0, lines, failing, [], none, [], 0, none⟩
  { b with lastError := if err = some .eof then none else err }

/-- linebuf.go:200-219, `match` with the lookahead as the rune to match (this is how scan.go calls it). -/
def Buf.matchRune (b : Buf) : Buf :=
  if b.atEof = some true ∨ b.lastError ≠ none then b
  else
    let (b', err) := if b.lookahead = eolMarker then b.advanceLine else b.advanceCursor
    if err ≠ none ∧ err ≠ some .eof then { b' with lastError := err } else b'

/-- linebuf.go:159-172, `ReadLineRemainder`. -/
def Buf.readLineRemainder (b : Buf) : Line × Buf :=
  let n := size (b.line.getD [])
  let s := if b.atEof = some true then []
    else if b.byteCursor = n then [b.lookahead]
    else if b.byteCursor > n then []
    else b.lookahead :: fromByte b.text b.byteCursor
  let (b', err) := b.advanceLine
  (s, { b' with lastError := err })

/-! ### Scanner -/

/-- ucdparse.go:25-34. -/
inductive TokenType where
  | undefined | eof | emptyDocument | docRoot | singleDataItem | rangeDataItem
deriving DecidableEq, Repr

/-- ucdparse.go:14-22: the errors in a token, scan.go:123-180. -/
inductive TokenErr where
  | indented | hex
deriving DecidableEq, Repr

/-- ucdparse.go:14-22, `Token`. -/
structure Token where
  lineNo : Nat
  colNo : Nat
  type : TokenType
  runeFrom : Nat
  runeTo : Nat
  fields : List Line
  comment : Line
  error : Option TokenErr
deriving DecidableEq, Repr

/-- ucdparse.go:38-44, `newScannerToken`. -/
def newToken (line col : Nat) : Token := ⟨line, col, .undefined, 0, 0, [], [], none⟩

/-- ucdparse.go:52-57, `Field`; `none` is a panic. -/
def Token.field (t : Token) (i : Int) : Option Line :=
  if t.fields.length > 0 ∧ i ≤ t.fields.length then (if i < 1 then none else t.fields[(i - 1).toNat]?) else some []

/-- ucdparse.go:60-62, `Range`. -/
def Token.range (t : Token) : Nat × Nat := (t.runeFrom, t.runeTo)

/-- scan.go:182-184, `isHexDigit`; `nd` says which runes above Latin-1 are digits. -/
def isHexDigit (nd : Nat → Bool) (r : Nat) : Bool :=
  (if r ≤ 0xff then decide (48 ≤ r) && decide (r ≤ 57) else nd r) ||
    (decide (97 ≤ r) && decide (r ≤ 102)) || (decide (65 ≤ r) && decide (r ≤ 70))

/-- The value of a digit, for scan.go:137 and 168. -/
def digitValue (c : Nat) : Option Nat :=
  if 48 ≤ c ∧ c ≤ 57 then some (c - 48) else if 97 ≤ c ∧ c ≤ 102 then some (c - 87) else if 65 ≤ c ∧ c ≤ 70 then some (c - 55) else none

/-- `strconv.ParseInt(hex, 16, 32)` (scan.go:137 and 168) for a string without sign; `none` is an error. -/
def parseHex (s : List Nat) : Option Nat :=
  if s = [] then none
  else (s.foldlM (fun (n : Nat) c => (digitValue c).map fun d => 16 * n + d) 0).bind fun n => if n < 0x80000000 then some n else none

/-- scan.go:128-131, 151-154 and 162-165, the loops which skip runes. Their number of rounds is at most the number of unread runes
plus 2, or they never end (`none`): `match` leaves the lookahead as it is. -/
def skip (p : Nat → Bool) : Nat → Buf → Option Buf
  | 0, _ => none
  | n + 1, b => if p b.lookahead then skip p n b.matchRune else some b

/-- A slice of the current line, scan.go:123-180. -/
def slice (b : Buf) (lo hi : Nat) : List Nat := ((bytes b.text).take hi).drop lo

/-- The result of a step (scan.go:31): the loops of scan.go:123-180 may never end. -/
inductive Step where
  | endless
  | next (t : Token) (b : Buf)
deriving DecidableEq, Repr

/-- scan.go:132-146 and 166-178, the number between `marker` and the lookahead: `none` is an error, `some none` no number. -/
def hexWord (marker : Nat) (b : Buf) : Option (Option Nat) :=
  let pos := b.byteCursor - 1
  if pos > marker then (parseHex (slice b marker pos)).map some else some none

/-- scan.go:121-180, `ScanRuneRange`. -/
def scanRuneRange (nd : Nat → Bool) (t : Token) (b : Buf) : Step :=
  match skip (isHexDigit nd) (b.unread.length + 2) b with
  | none => .endless
  | some b1 =>
    match hexWord (b.byteCursor - 1) b1 with
    | none => .next { t with error := some .hex } b1
    | some w =>
      let t1 := match w with | some n => { t with runeFrom := n, runeTo := n } | none => t
      match skip (· == 46) (b1.unread.length + 2) b1 with
      | none => .endless
      | some b2 =>
        if b1.lookahead ≠ 46 then .next { t1 with type := .singleDataItem } b2
        else
          match skip (isHexDigit nd) (b2.unread.length + 2) b2 with
          | none => .endless
          | some b3 =>
            match hexWord (b2.byteCursor - 1) b3 with
            | none => .next { t1 with error := some .hex } b3
            | some w =>
              let t2 := match w with | some n => { t1 with runeTo := n } | none => t1
              .next { t2 with type := .rangeDataItem } b3

/-- `strings.Split` at one rune, as in scan.go:189 and 196. -/
def split (sep : Nat) : Line → List Line
  | [] => [[]]
  | r :: l => if r = sep then [] :: split sep l else match split sep l with
    | [] => [[r]]
    | f :: fs => (r :: f) :: fs

/-- `unicode.IsSpace`, for scan.go:191-194. -/
def isSpace (r : Nat) : Bool :=
  (decide (9 ≤ r) && decide (r ≤ 13)) || r == 32 || r == 0x85 || r == 0xa0 || r == 0x1680 || (decide (0x2000 ≤ r) && decide (r ≤ 0x200a)) ||
    r == 0x2028 || r == 0x2029 || r == 0x202f || r == 0x205f || r == 0x3000

/-- `strings.TrimSpace`, as in scan.go:191-194. -/
def trimSpace (l : Line) : Line := ((l.dropWhile isSpace).reverse.dropWhile isSpace).reverse

/-- scan.go:186-198, `ScanItemBody`. -/
def scanItemBody (t : Token) (b : Buf) : Token × Buf :=
  let (rest, b') := b.readLineRemainder
  let a := split 35 rest
  let t := match a with | _ :: c :: _ => { t with comment := trimSpace c } | _ => t
  ({ t with fields := split 59 ((trimSpace (a.headD [])).dropWhile (· == 59)) }, b')

/-- scan.go:20-25, `scanner`: `fresh` if `Step` is `ScanFileStart`, else `Step` is nil. -/
structure Scanner where
  buf : Buf
  fresh : Bool
  lastError : Option TokenErr
deriving DecidableEq, Repr

/-- scan.go:34-42, `New`. -/
def newScanner (lines : List Line) (failing : Bool) : Scanner := ⟨newBuf lines failing, true, none⟩

/-- The outcomes of `Next`, scan.go:65-97. -/
inductive Out where
  | stop (sc : Scanner)
  | token (t : Token) (sc : Scanner)
  | panic
  | endless
deriving DecidableEq, Repr

/-- scan.go:65-91 and 100-114, `Next`, with `ScanFileStart`, `ScanItem`. The line is not empty when a step is called, so that
the test for an empty line ends no chain of steps early. -/
def Scanner.next (nd : Nat → Bool) (sc : Scanner) : Out :=
  let t := newToken sc.buf.currentLine sc.buf.cursor
  match sc.buf.atEof with
  | none => .panic
  | some true => .stop sc
  | some false =>
    if sc.fresh then
      if sc.buf.lookahead = 32 then
        .token { t with type := .docRoot, error := some .indented } ⟨sc.buf.advanceLine.1, false, some .indented⟩
      else .token { t with type := .docRoot } { sc with fresh := false }
    else match scanRuneRange nd t sc.buf with
      | .endless => .endless
      | .next t b =>
        if t.error ≠ none then .token t ⟨b.advanceLine.1, false, t.error⟩
        else
          let (t, b) := scanItemBody t b
          .token t { sc with buf := b }

/-- How `Parse` (scan.go:45-61) ends: with its result, by a panic, or not after the given number of calls. -/
inductive Ending where
  | returned (err : Option TokenErr)
  | panicked
  | endless
  | unfinished
deriving DecidableEq, Repr

/-- scan.go:45-54, the loop of `Parse`: the tokens given to the callback in at most `n` calls of `Next`. -/
def tokens (nd : Nat → Bool) : Nat → Scanner → List Token × Ending
  | 0, _ => ([], .unfinished)
  | n + 1, sc => match sc.next nd with
    | .stop sc => ([], .returned sc.lastError)
    | .panic => ([], .panicked)
    | .endless => ([], .endless)
    | .token t sc => let (ts, e) := tokens nd n sc; (t :: ts, e)

/-- scan.go:45-61, `Parse`, with at most `n` calls of `Next`. -/
def parse (nd : Nat → Bool) (n : Nat) (lines : List Line) (failing : Bool) : List Token × Ending := tokens nd n (newScanner lines failing)

/-! ### Callers -/

/-- tablegen/main.go:87-95, the callback: the category and the range of a token, if there is one; `none` is a panic. -/
def category (catfield : Int) (t : Token) : Option (Option (Line × (Nat × Nat))) :=
  (t.field (catfield - 1)).map fun f => if trimSpace f = [] then none else some (trimSpace f, t.range)

/-- tablegen/main.go:87-95 and 114-127: the rows which the collector of category `cat` gets. -/
def rowsOf (catfield : Int) (cat : Line) (ts : List Token) : Option (List (Nat × Nat)) :=
  (ts.mapM (category catfield)).map fun l => l.filterMap fun o => o.bind fun p => if p.1 = cat then some p.2 else none

/-- brackgen.go:79-83, `readHexRune`: `strconv.ParseUint(…, 16, 64)`, whose value is 0 for a syntax error (too large numbers are not
covered). -/
def readHexRune (l : Line) : Nat :=
  match trimSpace l with
  | [] => 0
  | s => (s.foldlM (fun (n : Nat) c => (digitValue c).map fun d => 16 * n + d) 0).getD 0

/-- brackgen.go:61-70, the callback: pairs of brackets. -/
def bracketPairs (ts : List Token) : List (Nat × Nat) :=
  ts.filterMap fun t => if (t.field 2).map trimSpace = some [111] then some (t.runeFrom, readHexRune ((t.field 1).getD [])) else none

/-- The class generators (grapheme/internal/generator/generator.go:84-96, and the same loop in those of emoji, uax14, uax29): the runes which
are listed for a key of the map; the key is field 1 as it is. -/
def classRunes (ts : List Token) (key : Line) : List Nat :=
  ts.flatMap fun t => if t.field 1 = some key then List.range' t.runeFrom (t.runeTo + 1 - t.runeFrom) else []

/-! ### Test files -/

/-- testfiles.go:19-23 and 37-59: what the test file reader holds. -/
structure TestFile where
  input : List Line
  text : Line
  comment : Line
deriving DecidableEq, Repr

/-- testfiles.go:37-59, `Scan`. -/
def TestFile.scan (tf : TestFile) : TestFile × Bool := go tf.input tf
where
  go : List Line → TestFile → TestFile × Bool
    | [], tf => ({ tf with input := [] }, false)
    | l :: ls, tf =>
      let tf := { tf with input := ls }
      if l = [] then (tf, true)
      else if l.head? = some 35 then go ls tf
      else match split 35 (trimSpace l) with
        | a :: c :: _ => ({ tf with text := a, comment := c }, true)
        | [a] => ({ tf with text := a }, true)
        | [] => (tf, true)

/-- `bufio.ScanWords`, as in testfiles.go:80: the words of a string. -/
def words : Line → List Line
  | [] => []
  | r :: l =>
    if isSpace r then words l
    else match l with
      | [] => [[r]]
      | s :: _ => if isSpace s then [r] :: words l else match words l with
        | [] => [[r]]
        | w :: ws => (r :: w) :: ws

/-- testfiles.go:94-96: `strconv.ParseUint(…, 16, 64)`, 0 for a syntax error, the largest number if it is too large; and its conversion to a rune, as written by
`WriteRune`: numbers which are no runes are written as U+FFFD (numbers of more than 31 bits are not covered). -/
def testRune (w : Line) : Nat :=
  let n := (w.foldlM (fun (n : Nat) c => (digitValue c).map fun d => 16 * n + d) 0).getD 0
  if (0xd800 ≤ n ∧ n ≤ 0xdfff) ∨ 0x10ffff < n then 0xfffd else n

/-- testfiles.go:77-102, `BreakTestInput`, the loop: text so far, segments so far, current segment. Strings are lists of
runes. -/
def breakLoop : List Line → Line → List Line → Line → Line × List Line
  | [], inp, out, _ => (inp, out)
  | w :: ws, inp, out, run =>
    if w = [0xf7] then (if run = [] then breakLoop ws inp out run else breakLoop ws inp (out ++ [run]) [])
    else if w = [0xd7] then breakLoop ws inp out run
    else breakLoop ws (inp ++ [testRune w]) out (run ++ [testRune w])

/-- testfiles.go:77-102, `BreakTestInput`. -/
def breakTestInput (ti : Line) : Line × List Line := breakLoop (words ti) [] [] []

/-- The loop which the tests use (uax29/uax29_test.go:73-90, uax14/uax14_test.go:39-60): while `Scan` returns true, break up `Text`. At most `n` rounds. -/
def runTests : Nat → TestFile → List (Line × List Line)
  | 0, _ => []
  | n + 1, tf => match tf.scan with
    | (_, false) => []
    | (tf, true) => breakTestInput tf.text :: runTests n tf

/-- testfiles.go:19-35, `OpenTestFile` for a file with the given lines. -/
def openTestFile (lines : List Line) : TestFile := ⟨lines, [], []⟩

end Uax.Ucd
