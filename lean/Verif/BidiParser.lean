import Verif.BidiScanner
import Verif.Run

/-
Model of /repo/bidi/resolver.go and actions.go: the parser, which rewrites a
stack of scraps with the rules of UAX#9.

The parser is given its surroundings (`Env`): the channel from the scanner and
the bracket pairs the scanner has found. `scannerEnv` below is the scanner of
/repo, running concurrently: a schedule says how many steps the scanner makes
before each of the parser's looks at the bracket pairs.

Loops and the recursion of parseIRS are given a number of rounds. An index out
of range is a panic. Tracing is left out. The slices which actions and parseIRS
return are parts of the stack; they are copied here, which is the same as they
are written back at once by `reduce`.
-/
namespace Uax.Bidi

/-- rule.pass, actions.go: 1 for the names with W (makeSquashRule, lines
294-298, and W7), 2 for the others. -/
def Rule.pass : Rule → Nat
  | .W4_1 | .W4_2 | .W4_3 | .W5_1 | .W5_2 | .W6_1 | .W6_2 | .W6_3 | .W6x | .W7 => 1
  | _ => 2

/-- actions.go:29, the field `lhsLen`: the length of the left hand side. -/
def Rule.lhsLen (r : Rule) : Nat := r.lhs.length

/-- squash, actions.go:302-316: right-hand side, jump, flag of a new L. -/
def squash (c : Class) (n : Nat) (jmp : Int) (m : List Scrap) : Option (List Scrap × Int × Bool) :=
  match m[n - 1]?, m with
  | some last, first :: rest =>
    some ([{ first with
      r := last.r, clz := c, children := first.children ++ ((rest.take (n - 1)).flatMap (·.children)) }], jmp, false)
  | _, _ => none

/-- makeMidSwapRule, actions.go:318-328: the whole match is returned. -/
def midSwap (c : Class) (jmp : Int) : List Scrap → Option (List Scrap × Int × Bool)
  | a :: b :: rest => some (a :: { b with clz := c } :: rest, jmp, false)
  | _ => none

/-- The actions of ruleN1_3 and ruleN1_4, actions.go:189-194, 204-209. The
result of `collapse` is not used there. -/
def absorb (c : Class) : List Scrap → Option (List Scrap × Int × Bool)
  | a :: b :: d :: _ => some ([a, { b with clz := c, children := b.children ++ d.children }], 1, false)
  | _ => none

/-- The actions of ruleN1_5 and ruleN1_8, actions.go:219-222, 242-245 -/
def dropThird : List Scrap → Option (List Scrap × Int × Bool)
  | a :: b :: _ :: _ => some ([a, b], 1, false)
  | _ => none

/-- The actions of the rules, actions.go:70-284. The match is the stack from the
parser's position to its top. -/
def Rule.action : Rule → List Scrap → Option (List Scrap × Int × Bool)
  | .W4_1 => squash cEN 3 (-2)
  | .W4_2 => squash cEN 3 (-2)
  | .W4_3 => squash cAN 3 (-2)
  | .W5_1 => squash cEN 2 (-2)
  | .W5_2 => squash cEN 2 (-2)
  | .W6_1 => squash cNI 1 0
  | .W6_2 => squash cNI 1 0
  | .W6_3 => squash cNI 1 0
  | .W6x => squash cNI 2 (-1)
  | .W7 => fun m => match m with
    | s :: _ => if s.ctx.context = cL then some ([{ s with clz := cL }], 0, true) else some (m, 1, true)
    | [] => none
  | .N1_1 => squash cL 3 0
  | .N1_2 => squash cR 3 0
  | .N1_3 => absorb cAN
  | .N1_4 => absorb cEN
  | .N1_5 => dropThird
  | .N1_6 => midSwap cR 2
  | .N1_7 => midSwap cR 2
  | .N1_8 => dropThird
  | .N1_9 => midSwap cR 2
  | .N1_10 => midSwap cR 2
  | .N2 => fun m => match m with
    | s :: _ => some ([{ s with clz := s.e }], -1, false)
    | [] => none
  | .LL => squash cL 2 0
  | .RR => squash cR 2 0

/-- The lookup in the dictionary which prepareRulesTrie makes once for all
parsers, resolver.go:495-563, 367-399 -/
@[irreducible] def lookupRules (cs : List Class) (minlen : Nat) : Option (Option Rule × Option Rule) :=
  match prepareRules with
  | some (t, rs) => matchRules t rs cs minlen
  | none => none

/-- The surroundings of the parser, with their state. `recv` is the receive from
the channel (nextInputScrap, resolver.go:119-127), `none` when it blocks for
ever. `pairing` is findBD16ForPos and FindBracketPairing, `change` is
findBD16ForPos and changeOpeningBracketClass (resolver.go:470-485). -/
structure Env (σ : Type) where
  recv : σ → Option (Scrap × σ)
  pairing : σ → Scrap → Option Pairing × σ
  change : σ → Scrap → σ

/-- parser, resolver.go:69-77. Of spIRS only the length is used; it is `depth`. -/
structure Parser (σ : Type) where
  stack : List Scrap
  sp : Nat
  eof : Bool
  depth : Nat
  env : σ

/-- Runs of the methods of the parser (resolver.go:71-78): a result and the new state, see `Run`. -/
abbrev PRun (σ α : Type) := Run (α × Parser σ)

/-- The loop of read, resolver.go:137-145: number of scraps read. -/
def readLoop {σ : Type} (E : Env σ) : Nat → Nat → Parser σ → PRun σ Nat
  | 0, k, p => .returns (k, p)
  | n + 1, k, p =>
    match E.recv p.env with
    | none => .running
    | some (s, env) =>
      if s.clz = cNULL then .returns (k, { p with eof := true, env := env })
      else readLoop E n (k + 1) { p with stack := p.stack ++ [s], env := env }

/-- read, resolver.go:132-149; the number to read may be negative. -/
def Parser.read {σ : Type} (E : Env σ) (p : Parser σ) (n : Int) : PRun σ (Nat × Bool) :=
  if n ≤ 0 ∨ p.eof = true then .returns ((0, false), p)
  else (readLoop E n.toNat 0 p).andThen fun (k, p) => .returns ((k, true), p)

/-- reduce, resolver.go:154-163 -/
def Parser.reduce {σ : Type} (p : Parser σ) (n : Nat) (rhs : List Scrap) (startIRS : Nat) : Run (Parser σ) :=
  if p.sp + rhs.length > p.stack.length then .panics
  else
    let stack := p.stack.take p.sp ++ rhs ++ p.stack.drop (p.sp + rhs.length)
    let pos := max startIRS (p.sp + rhs.length)
    let from_ : Int := pos - (rhs.length - n : Int)
    if pos > stack.length ∨ from_ < 0 ∨ from_ > stack.length then .panics
    else .returns { p with stack := stack.take pos ++ stack.drop from_.toNat }

/-- resolver.go:224, 271, 285: `max(a, p.sp+jmp)`. -/
def jump (a sp : Nat) (jmp : Int) : Nat := max a ((sp : Int) + jmp).toNat

/-- findCorrespondingBracket, resolver.go:470-480 -/
def Parser.corresponding {σ : Type} (E : Env σ) (p : Parser σ) (s : Scrap) : Option Scrap × Parser σ :=
  match E.pairing p.env s with
  | (some pr, env) => (some (if s.clz = cBRACKO then pr.closing else pr.opening), { p with env := env })
  | (none, env) => (none, { p with env := env })

/-- The new class of an opening bracket and the jump, resolver.go:424-452 -/
def openingClass (openBr closeBr : Scrap) : Class × Int :=
  if closeBr.hasEmbeddingMatchAfter openBr then (openBr.ctx.embeddingDir, -2)
  else if closeBr.hasOppositeAfter openBr then
    if openBr.ctx.strongContext = openBr.o then (opposite openBr.ctx.embeddingDir, -2)
    else (openBr.ctx.embeddingDir, -2)
  else (cNI, -1)

/-- performRuleN0, resolver.go:407-468, for the scrap `s` at the parser's
position: the jump. -/
def Parser.ruleN0 {σ : Type} (E : Env σ) (p : Parser σ) (s : Scrap) : Int × Parser σ :=
  if s.clz = cBRACKO then
    match p.corresponding E s with
    | (none, p) => (1, p)
    | (some closeBr, p) =>
      let (c, jmp) := openingClass s closeBr
      let openBr := { s with clz := c }
      (jmp, { p with env := E.change p.env openBr, stack := p.stack.set p.sp openBr })
  else
    match p.corresponding E s with
    | (none, p) => (1, { p with stack := p.stack.set p.sp { s with clz := cNI } })
    | (some openBr, p) =>
      (if openBr.clz ≠ cNI then -2 else 1, { p with stack := p.stack.set p.sp { s with clz := openBr.clz } })

/-- passed, resolver.go:289-291 -/
def Parser.passed {σ : Type} (p : Parser σ) (c : Class) : Bool :=
  if p.sp > 0 then (match p.stack[p.sp - 1]? with | some s => s.clz == c | none => false) else false

/-- pass2, resolver.go:263-287 -/
def pass2Loop {σ : Type} (E : Env σ) (startIRS : Nat) : Nat → Parser σ → Run (Parser σ)
  | 0, _ => .running
  | n + 1, p =>
    if p.passed cPDI then .returns p
    else match p.stack[p.sp]? with
      | none => .returns p
      | some s =>
        if isBracket s then
          let (jmp, p) := p.ruleN0 E s
          pass2Loop E startIRS n { p with sp := jump startIRS p.sp jmp }
        else
          let m := p.stack.drop p.sp
          match lookupRules (m.map (·.clz)) 2 with
          | none => .panics
          | some (long, short) =>
            match (long.filter (·.pass ≥ 2)).or (short.filter (·.pass ≥ 2)) with
            | none => pass2Loop E startIRS n { p with sp := p.sp + 1 }
            | some rule =>
              match rule.action m with
              | none => .panics
              | some (rhs, jmp, _) =>
                (p.reduce rule.lhsLen rhs startIRS).andThen fun p =>
                  pass2Loop E startIRS n { p with sp := jump 0 p.sp jmp }

/-- resolver.go:304: what parseIRS returns: the scraps, the length of the run and whether it was
closed by a PDI (startIRS, the second result, is its argument). -/
abbrev IRSResult := List Scrap × Nat × Bool

mutual

/-- The loop of pass1, resolver.go:181-227, with the variables `walk` and
`shortrule`. It returns whether a PDI has been found. -/
def pass1Loop {σ : Type} (E : Env σ) (startIRS : Nat) : Nat → Parser σ → Bool → Option Rule → PRun σ Bool
  | 0, _, _, _ => .running
  | n + 1, p, walk, shortrule =>
    (p.read E (3 - ((p.stack.length : Int) - p.sp))).andThen fun (_, p) =>
    match p.stack.drop p.sp with
    | [] => if p.eof then .returns (false, p) else .panics
    | s :: rest =>
      let apply (rule : Rule) : PRun σ Bool :=
        match rule.action (s :: rest) with
        | none => .panics
        | some (rhs, jmp, _) =>
          (p.reduce rule.lhsLen rhs startIRS).andThen fun p =>
            pass1Loop E startIRS n { p with sp := jump startIRS p.sp jmp } false shortrule
      if walk then
        match shortrule.filter (·.pass ≤ 1) with
        | some rule => apply rule
        | none =>
          if s.clz = cPDI then .returns (true, { p with sp := p.sp + 1 })
          else if isIsolate s then
            (subIRS E startIRS n p).andThen fun (sp, p) =>
              pass1Loop E startIRS n { p with sp := sp } false shortrule
          else pass1Loop E startIRS n { p with sp := p.sp + 1 } false shortrule
      else
        match lookupRules ((s :: rest).map (·.clz)) 0 with
        | none => .panics
        | some (long, short) =>
          match long.filter (·.pass ≤ 1) with
          | none => pass1Loop E startIRS n p true short
          | some rule =>
            match rule.action (s :: rest) with
            | none => .panics
            | some (rhs, jmp, _) =>
              (p.reduce rule.lhsLen rhs startIRS).andThen fun p =>
                pass1Loop E startIRS n { p with sp := jump startIRS p.sp jmp } false short

/-- parseIRS, resolver.go:304-341, with the beginning of pass1, lines 173-177 -/
def parseIRS {σ : Type} (E : Env σ) (startIRS : Nat) : Nat → Parser σ → PRun σ IRSResult
  | 0, _ => .running
  | n + 1, p =>
    let p := { p with depth := p.depth + 1, sp := startIRS + 1 }
    (p.read E 3).andThen fun ((_, ok), p) =>
    (if ok then pass1Loop E (startIRS + 1) n p false none else .returns (false, p)).andThen fun (ok, p) =>
    (if ok = true ∨ p.depth = 1 then pass2Loop E startIRS n { p with sp := startIRS } else .returns p).andThen fun p =>
    let runlen := p.sp - startIRS
    let done := { p with depth := p.depth - 1 }
    if ok = true ∧ p.depth > 1 then
      match p.stack[startIRS]?, p.stack[startIRS + runlen - 1]? with
      | some first, some last =>
        .returns (([{ clz := cNI, l := first.l, r := last.r,
                      children := [(p.stack.drop startIRS).take runlen] }], runlen, ok), done)
      | _, _ => .panics
    else .returns ((p.stack.drop startIRS, runlen, ok), done)

/-- applySubIRS, resolver.go:230-250: the new position. -/
def subIRS {σ : Type} (E : Env σ) (startIRS : Nat) : Nat → Parser σ → PRun σ Nat
  | 0, _ => .running
  | n + 1, p =>
    let start := p.sp
    (parseIRS E start n p).andThen fun ((rhs, runlen, ok), p) =>
    if ok then
      (Parser.reduce { p with sp := start } runlen rhs startIRS).andThen fun p => .returns (p.sp, p)
    else if runlen = 0 then .panics
    else
      match rhs with
      | [] => .panics
      | s :: rest =>
        -- `rhs[0].bidiclz = cNI` changes the stack, too, which `reduce` does anyway
        (Parser.reduce { p with sp := start } runlen ({ s with clz := cNI } :: rest) startIRS).andThen fun p =>
          .returns (max startIRS (p.sp - 2), p)

end

/-- ResolvedLevels, reordering.go:28-31 -/
structure Levels where
  embedding : Dir
  scraps : List Scrap
deriving Inhabited

/-- directionFromBidiClass, reordering.go:421-433 -/
def directionOf (s : Scrap) (embedding : Dir) : Dir :=
  if s.clz = cL ∨ s.clz = cLRI then .ltr
  else if s.clz = cR ∨ s.clz = cRLI then .rtl
  else if s.clz = cEN ∨ s.clz = cAN then .ltr
  else embedding

/-- ResolveLevels, resolver.go:98-115, in given surroundings. -/
def resolveIn {σ : Type} (E : Env σ) (o : Options) (env : σ) (n : Nat) : PRun σ Levels :=
  let initial := initialOuterScrap o true
  (parseIRS E 0 n { stack := [initial], sp := 0, eof := false, depth := 0, env := env }).andThen
    fun ((runs, _, _), p) =>
    match runs.getLast? with
    | none => .panics
    | some last =>
      .returns ({ scraps := runs ++ [{ l := last.r, r := last.r, clz := cPDI }],
                  embedding := directionOf initial .ltr }, p)

/-- The scanner as surroundings of the parser (resolver.go:470-487 looks at its bracket pairs): before the
i-th look at the bracket pairs it makes up to `sched i` steps. The state is the scanner and the number of looks. -/
def scannerEnv (T : Tables) (o : Options) (sched : Nat → Nat) : Env (Scanner × Nat) where
  recv := fun (sc, i) =>
    -- enough steps to get to the next send: every rune and two markups at each position
    ((sc.steps T o (3 * sc.input.length + 4)).receive).map fun (s, sc) => (s, (sc, i))
  pairing := fun (sc, i) s =>
    let sc := sc.steps T o (sched i)
    (((sc.handlers[sc.bd16For s.l]?).bind (·.find s)), (sc, i + 1))
  change := fun (sc, i) s =>
    let sc := sc.steps T o (sched i)
    ({ sc with handlers := setHandler sc.handlers (sc.bd16For s.l) (·.changeOpening s) }, i + 1)

/-- ResolveParagraph, resolver.go:58-65, for a schedule; `n` rounds. The state of
the scanner afterwards is part of the result. -/
def resolveParagraph (T : Tables) (o : Options) (sched : Nat → Nat) (b : List Nat) (n : Nat) :
    PRun (Scanner × Nat) Levels :=
  resolveIn (scannerEnv T o sched) o (newScanner o b, 0) n

/-- DirectionAt, reordering.go:453-460 -/
def Levels.directionAt (rl : Levels) (pos : Nat) : Dir :=
  match rl.scraps.find? (fun s => s.l ≤ pos && pos < s.r) with
  | some s => directionOf s .ltr
  | none => .ltr

end Uax.Bidi
