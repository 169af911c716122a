import Verif.BidiParserProofs

/-
What the scanner sends: the stream of scraps for a text without markup, as a
function of the text. It does not depend on the schedule.
-/
namespace Uax.Bidi

/-- The surroundings deliver these scraps, one after the other, then the end. -/
inductive Feeds {σ : Type} (E : Env σ) : σ → List Scrap → σ → Prop
  | stop {s s' : σ} {z : Scrap} (h : E.recv s = some (z, s')) (hz : z.clz = cNULL) : Feeds E s [] s'
  | more {s s1 s' : σ} {x : Scrap} {xs : List Scrap} (h : E.recv s = some (x, s1)) (hx : x.clz ≠ cNULL)
      (hs : Feeds E s1 xs s') : Feeds E s (x :: xs) s'

/-- The class of a rune before rules W1 to W3: brackets and the letters and
delimiters for tests have classes of their own. -/
def runeClass (T : Tables) (o : Options) (r : Nat) : Class :=
  testingClass T o r (match T.bracket r with
    | none => if T.cls r = cB then cWS else T.cls r
    | some true => cBRACKO
    | some false => cBRACKC)

/-- A paragraph separator, where the scanner stops. -/
def isSeparator (T : Tables) (o : Options) (r : Nat) : Bool := decide (T.cls r = cB) && !o.ignoreParSep

/-- The paragraph: everything before the first separator. -/
def paragraph (T : Tables) (o : Options) (input : List (Nat × Nat)) : List (Nat × Nat) :=
  input.takeWhile fun x => !isSeparator T o x.1

/-- The contexts when a new scrap begins, scanner.go:183-189. -/
def switchContext (current : Scrap) (stack : List DirContext) (lookahead : Scrap) : Scrap × List DirContext :=
  if isIsolate lookahead ∧ lookahead.clz ≠ cPDI then (current, current.ctx :: stack)
  else if current.clz = cPDI then
    match stack with
    | c :: rest => ({ current with ctx := c }, rest)
    | [] => (current, stack)
  else (current, stack)

/-- The scrap for one character after the current scrap. -/
def nextScrap (current : Scrap) (c : Class) (n : Nat) : Scrap :=
  { clz := rulesW1to3 c current, l := current.r, r := current.r + n }

/-- The next character does not belong to the current scrap. -/
def breaks (current : Scrap) (c : Class) : Bool :=
  decide (current.clz = cNULL) || decide (current.clz ≠ rulesW1to3 c current) || isBracket current || isIsolate current

/-- The scraps for the rest of a paragraph. -/
def emit (T : Tables) (o : Options) : List (Nat × Nat) → Scrap → Option Nat → List DirContext → List Scrap
  | [], current, _, _ => if current.clz = cNULL then [] else [current]
  | (r, n) :: rest, current, lastAL, stack =>
    let c := runeClass T o r
    let la := nextScrap current c n
    if breaks current c then
      let sw := switchContext current stack la
      let tail := emit T o rest (inheritStrongTypes la sw.1 lastAL) (if c = cAL then some la.l else lastAL) sw.2
      if current.clz = cNULL then tail else current :: tail
    else emit T o rest (collapse current la current.clz) lastAL stack

/-- The scraps of a text. -/
def scrapsOf (T : Tables) (o : Options) (b : List Nat) : List Scrap :=
  emit T o (paragraph T o (runesOf b)) (initialOuterScrap o false) none []

/-! ### Steps -/

theorem steps_stuck {T : Tables} {o : Options} {sc : Scanner} (h : sc.step T o = none) (n : Nat) :
    sc.steps T o n = sc := by
  cases n with
  | zero => rfl
  | succ n => simp only [Scanner.steps, h]

theorem steps_succ {T : Tables} {o : Options} {sc sc' : Scanner} (h : sc.step T o = some sc') (n : Nat) :
    sc.steps T o (n + 1) = sc'.steps T o n := by
  simp only [Scanner.steps, h]

/-- The scanner stops within this number of steps, at a place where it waits. -/
theorem settles {T : Tables} {o : Options} : ∀ (k : Nat) (sc sc' : Scanner), sc.steps T o k = sc' → sc'.step T o = none →
    ∀ n, k ≤ n → sc.steps T o n = sc' := by
  intro k
  induction k with
  | zero => intro sc sc' h hs n _; simp only [Scanner.steps] at h; subst h; exact steps_stuck hs n
  | succ k ih =>
    intro sc sc' h hs n hn
    cases hst : sc.step T o with
    | none => rw [steps_stuck hst] at h ⊢; exact h
    | some s1 =>
      obtain ⟨m, rfl⟩ : ∃ m, n = m + 1 := ⟨n - 1, by omega⟩
      rw [steps_succ hst] at h ⊢
      exact ih s1 sc' h hs m (by omega)

theorem nextRune_plain {T : Tables} {o : Options} (ho : o.markup = none) (sc : Scanner) (pos : Nat) :
    nextRune T o sc pos = readRune T o sc := by simp only [nextRune, ho]

theorem scanLoop_end {T : Tables} {o : Options} (ho : o.markup = none) {sc : Scanner}
    (h : paragraph T o sc.input = []) :
    ∃ sc', scanLoop T o sc = sc' ∧ sc'.pc = .sendLast sc.current ∧ sc'.step T o = none ∧
      (isIsolate sc.current = false → sc'.handlers = sc.handlers) := by
  refine ⟨_, rfl, ?_⟩
  have hn : ∃ inp, nextRune T o sc sc.current.r = (none, { sc with input := inp }) := by
    rw [nextRune_plain ho, readRune]
    cases hi : sc.input with
    | nil => exact ⟨[], by simp only [← hi]⟩
    | cons x rest =>
      obtain ⟨r, n⟩ := x
      rw [hi, paragraph, List.takeWhile_cons] at h
      split at h
      · cases h
      · rename_i hs
        simp only [isSeparator, Bool.not_and, Bool.not_not, Bool.or_eq_true, Bool.not_eq_true',
          decide_eq_false_iff_not, not_or, Decidable.not_not] at hs
        simp only [hs.1, Bool.not_eq_true] at hs ⊢
        exact ⟨rest, by simp [hs]⟩
  obtain ⟨inp, hn⟩ := hn
  rw [scanLoop, hn]
  dsimp only
  have hc : ∀ s x, (isolatingRunSwitch s x).current = s.current := by
    intro s x
    unfold isolatingRunSwitch
    split
    · split
      · rfl
      · dsimp only; split <;> rfl
    · rfl
  refine ⟨?_, ?_, ?_⟩
  · split
    · simp only [hc]
    · rfl
  · rfl
  · intro hi
    rw [if_neg (by simp [hi])]

theorem scanLoop_next {T : Tables} {o : Options} (ho : o.markup = none) {sc : Scanner} {r n : Nat} {rest : List (Nat × Nat)}
    (hi : sc.input = (r, n) :: rest) (hs : isSeparator T o r = false) :
    scanLoop T o sc =
      (if breaks sc.current (runeClass T o r) then
        (if sc.current.clz ≠ cNULL then
          { (if isIsolate sc.current then isolatingRunSwitch { sc with input := rest } sc.current else { sc with input := rest }) with
            pc := .send sc.current r (nextScrap sc.current (runeClass T o r) n) (runeClass T o r == cAL) }
        else proceed { sc with input := rest } r (nextScrap sc.current (runeClass T o r) n) (runeClass T o r == cAL))
      else { sc with input := rest, current := collapse sc.current (nextScrap sc.current (runeClass T o r) n) sc.current.clz }) := by
  have hn : nextRune T o sc sc.current.r = (some (r, n, match T.bracket r with
      | none => if T.cls r = cB then cWS else T.cls r
      | some true => cBRACKO
      | some false => cBRACKC), { sc with input := rest }) := by
    rw [nextRune_plain ho, readRune, hi]
    dsimp only
    rw [if_neg (by
      simp only [isSeparator, Bool.and_eq_false_iff, decide_eq_false_iff_not, Bool.not_eq_false'] at hs
      rintro ⟨h1, h2⟩
      rcases hs with h | h
      · exact h h1
      · rw [h] at h2; cases h2)]
    rfl
  rw [scanLoop, hn]
  dsimp only
  show (if sc.current.clz = cNULL ∨ sc.current.clz ≠ rulesW1to3 (runeClass T o r) sc.current ∨ isBracket sc.current = true
      ∨ isIsolate sc.current = true then _ else _) = _
  by_cases hb : breaks sc.current (runeClass T o r) = true
  · rw [if_pos hb, if_pos (by simpa only [breaks, Bool.or_eq_true, decide_eq_true_eq, or_assoc] using hb)]
    rfl
  · rw [if_neg hb, if_neg (by simpa only [breaks, Bool.or_eq_true, decide_eq_true_eq, or_assoc] using hb)]
    rfl

theorem switch_current (s : Scanner) (x : Scrap) : (isolatingRunSwitch s x).current = s.current ∧
    (isolatingRunSwitch s x).input = s.input ∧ (isolatingRunSwitch s x).lastAL = s.lastAL ∧
    (isolatingRunSwitch s x).ctxstack = s.ctxstack := by
  unfold isolatingRunSwitch
  split
  · split
    · exact ⟨rfl, rfl, rfl, rfl⟩
    · dsimp only; split <;> exact ⟨rfl, rfl, rfl, rfl⟩
  · exact ⟨rfl, rfl, rfl, rfl⟩

theorem proceed_eq (sc : Scanner) (r : Nat) (la : Scrap) (isAL : Bool) :
    (proceed sc r la isAL).input = sc.input ∧ (proceed sc r la isAL).pc = .run ∧
    (proceed sc r la isAL).current = inheritStrongTypes la (switchContext sc.current sc.ctxstack la).1 sc.lastAL ∧
    (proceed sc r la isAL).lastAL = (if isAL then some la.l else sc.lastAL) ∧
    (proceed sc r la isAL).ctxstack = (switchContext sc.current sc.ctxstack la).2 := by
  have hp : ∀ (s : Scanner) (x : Scrap), (prepareRuleBD16 s r x).input = s.input ∧ (prepareRuleBD16 s r x).lastAL = s.lastAL ∧
      (prepareRuleBD16 s r x).ctxstack = s.ctxstack := by
    intro s x
    unfold prepareRuleBD16
    split
    · exact ⟨rfl, rfl, rfl⟩
    · split <;> exact ⟨rfl, rfl, rfl⟩
  have hl : ∀ (d s : Scrap) (a : Option Nat), (inheritStrongTypes d s a).l = d.l := by
    intro d s a
    unfold inheritStrongTypes
    split
    · rfl
    · split <;> rfl
  unfold proceed
  dsimp only
  refine ⟨by rw [(hp _ _).1], rfl, ?_, ?_, ?_⟩
  · rfl
  · rw [(hp _ _).2.1, hl]
  · rw [(hp _ _).2.2]; rfl

/-- What becomes of the only handler when there are no isolates: it is told about
every bracket. -/
def pairUp (T : Tables) (o : Options) : List (Nat × Nat) → Scrap → Option Nat → List DirContext → Handler → Handler
  | [], _, _, _, h => h
  | (r, n) :: rest, current, lastAL, stack, h =>
    let c := runeClass T o r
    let la := nextScrap current c n
    if breaks current c then
      let sw := switchContext current stack la
      let new := inheritStrongTypes la sw.1 lastAL
      let h := if isBracket new = false then h
        else if new.clz = cBRACKO then h.pushOpening r new else h.findPair r new
      pairUp T o rest new (if c = cAL then some la.l else lastAL) sw.2 h
    else pairUp T o rest (collapse current la current.clz) lastAL stack h

/-- No scrap of the stream is an isolate initiator or PDI. -/
def NoIsolates (ss : List Scrap) : Prop := ∀ s ∈ ss, isIsolate s = false

theorem proceed_handlers (sc : Scanner) (r : Nat) (la : Scrap) (isAL : Bool) (h : Handler) (hh : sc.handlers = [h]) (hb : sc.bd16 = 0) :
    (proceed sc r la isAL).bd16 = 0 ∧ (proceed sc r la isAL).handlers =
      [let new := inheritStrongTypes la (switchContext sc.current sc.ctxstack la).1 sc.lastAL
       if isBracket new = false then h else if new.clz = cBRACKO then h.pushOpening r new else h.findPair r new] := by
  unfold proceed
  dsimp only
  show (prepareRuleBD16 _ _ (inheritStrongTypes la (switchContext sc.current sc.ctxstack la).1 sc.lastAL)).bd16 = 0 ∧
    (prepareRuleBD16 _ _ (inheritStrongTypes la (switchContext sc.current sc.ctxstack la).1 sc.lastAL)).handlers = _
  unfold prepareRuleBD16
  split
  · exact ⟨hb, hh⟩
  · split
    · refine ⟨hb, ?_⟩
      dsimp only
      rw [setHandler, hh, hb]
      rfl
    · refine ⟨hb, ?_⟩
      dsimp only
      rw [setHandler, hh, hb]
      rfl

theorem paragraph_cons {T : Tables} {o : Options} {r n : Nat} {rest : List (Nat × Nat)} (h : isSeparator T o r = false) :
    paragraph T o ((r, n) :: rest) = (r, n) :: paragraph T o rest := by
  simp [paragraph, h]

theorem emit_cons_mem {T : Tables} {o : Options} : ∀ (inp : List (Nat × Nat)) (cur : Scrap) (a : Option Nat) (st : List DirContext),
    cur.clz ≠ cNULL → ∃ s, s ∈ emit T o inp cur a st := by
  intro inp
  induction inp with
  | nil => intro cur a st h; exact ⟨cur, by simp [emit, h]⟩
  | cons x rest ih =>
    obtain ⟨r, n⟩ := x
    intro cur a st h
    rw [emit]
    dsimp only
    split
    · exact ⟨cur, by simp [h]⟩
    · exact ih (collapse cur (nextScrap cur (runeClass T o r) n) cur.clz) a st h

/-- The state the scanner ends in, when all has been received. -/
def Ended (sc : Scanner) (ss : List Scrap) : Prop := sc.pc = if ss = [] then .sendStop else .closed

theorem runeClass_ne {T : Tables} (o : Options) (hT : ∀ r, T.cls r ≠ cNULL) (r : Nat) : runeClass T o r ≠ cNULL := by
  have h : ∀ c : Class, c ≠ cNULL → testingClass T o r c ≠ cNULL := by
    intro c hc
    unfold testingClass
    split
    · split
      · decide
      · unfold testingDelimiter
        split
        · decide
        · split
          · decide
          · split
            · decide
            · exact hc
    · exact hc
  unfold runeClass
  apply h
  split
  · split
    · decide
    · exact hT r
  · decide
  · decide

theorem rules_ne {c : Class} {cur : Scrap} (hc : c ≠ cNULL) (h : cur.clz ≠ cNULL) : rulesW1to3 c cur ≠ cNULL := by
  unfold rulesW1to3
  split
  · split
    · decide
    · split
      · decide
      · split
        · decide
        · exact h
  · split
    · split
      · decide
      · exact hc
    · split
      · decide
      · split
        · decide
        · exact hc

theorem inherit_clz (d s : Scrap) (a : Option Nat) : (inheritStrongTypes d s a).clz = d.clz := by
  unfold inheritStrongTypes
  split
  · rfl
  · split <;> rfl

theorem feeds_run {T : Tables} {o : Options} (ho : o.markup = none) (hT : ∀ r, T.cls r ≠ cNULL) (sched : Nat → Nat) (i : Nat) :
    ∀ (inp : List (Nat × Nat)) (sc : Scanner), sc.pc = .run → sc.input = inp →
    ∃ fin, Feeds (scannerEnv T o sched) (sc, i) (emit T o (paragraph T o inp) sc.current sc.lastAL sc.ctxstack) (fin, i) ∧
      Ended fin (emit T o (paragraph T o inp) sc.current sc.lastAL sc.ctxstack) ∧
      (∀ h, sc.handlers = [h] → sc.bd16 = 0 → NoIsolates (emit T o (paragraph T o inp) sc.current sc.lastAL sc.ctxstack) →
        fin.handlers = [pairUp T o (paragraph T o inp) sc.current sc.lastAL sc.ctxstack h]) := by
  -- where receiving leads, for a scanner that waits after `k` steps
  have hrecv : ∀ (k : Nat) (sc s1 s2 : Scanner) (x : Scrap), sc.steps T o k = s1 → s1.step T o = none → s1.receive = some (x, s2) →
      k ≤ 3 * sc.input.length + 4 → (scannerEnv T o sched).recv (sc, i) = some (x, (s2, i)) := by
    intro k sc s1 s2 x h1 h2 h3 h4
    show ((sc.steps T o (3 * sc.input.length + 4)).receive).map _ = _
    rw [settles k sc s1 h1 h2 _ h4, h3]
    rfl
  -- the end of the paragraph
  have hend : ∀ (sc : Scanner), sc.pc = .run → paragraph T o sc.input = [] →
      ∃ s1, sc.steps T o 1 = s1 ∧ s1.step T o = none ∧ s1.pc = .sendLast sc.current ∧
        (isIsolate sc.current = false → s1.handlers = sc.handlers) := by
    intro sc hpc hp
    obtain ⟨s1, e, h1, h2, h3⟩ := scanLoop_end ho hp
    refine ⟨s1, ?_, h2, h1, h3⟩
    rw [← e]
    rw [steps_succ (show sc.step T o = some (scanLoop T o sc) by simp only [Scanner.step, hpc])]
    rfl
  -- one step earlier
  have hback : ∀ (sc s1 : Scanner) (xs : List Scrap) (f : Scanner × Nat), sc.step T o = some s1 → s1.input.length ≤ sc.input.length →
      (∃ k, k ≤ s1.input.length + 1 ∧ (s1.steps T o k).step T o = none) →
      Feeds (scannerEnv T o sched) (s1, i) xs f → Feeds (scannerEnv T o sched) (sc, i) xs f := by
    intro sc s1 xs f hst hl hk hf
    have he : (scannerEnv T o sched).recv (sc, i) = (scannerEnv T o sched).recv (s1, i) := by
      obtain ⟨k, hk1, hk2⟩ := hk
      show ((sc.steps T o (3 * sc.input.length + 4)).receive).map _ = ((s1.steps T o (3 * s1.input.length + 4)).receive).map _
      rw [settles (k + 1) sc (s1.steps T o k) (steps_succ hst k) hk2 _ (by omega), settles k s1 (s1.steps T o k) rfl hk2 (3 * s1.input.length + 4) (by omega)]
    cases hf with
    | stop h hz => exact .stop (he.trans h) hz
    | more h hx hs => exact .more (he.trans h) hx hs
  -- it waits soon
  have hwait : ∀ (inp : List (Nat × Nat)) (sc : Scanner), sc.pc = .run → sc.input = inp →
      ∃ k, k ≤ inp.length + 1 ∧ (sc.steps T o k).step T o = none := by
    intro inp
    induction inp with
    | nil =>
      intro sc hpc hin
      obtain ⟨s1, h1, h2, -⟩ := hend sc hpc (by rw [hin]; rfl)
      exact ⟨1, by simp, by rw [h1]; exact h2⟩
    | cons x rest ih =>
      obtain ⟨r, n⟩ := x
      intro sc hpc hin
      by_cases hsep : isSeparator T o r = true
      · obtain ⟨s1, h1, h2, -⟩ := hend sc hpc (by rw [hin]; simp [paragraph, hsep])
        exact ⟨1, by simp, by rw [h1]; exact h2⟩
      · have hst : sc.step T o = some (scanLoop T o sc) := by simp only [Scanner.step, hpc]
        have hl := scanLoop_next ho hin (by simpa using hsep)
        by_cases hb : breaks sc.current (runeClass T o r) = true
        · by_cases hz : sc.current.clz = cNULL
          · rw [if_pos hb, if_neg (by simpa using hz)] at hl
            have hp := proceed_eq { sc with input := rest } r (nextScrap sc.current (runeClass T o r) n) (runeClass T o r == cAL)
            rw [← hl] at hp
            obtain ⟨k, hk, hs⟩ := ih _ hp.2.1 hp.1
            exact ⟨k + 1, by simp only [List.length_cons]; omega, by rw [steps_succ hst]; exact hs⟩
          · rw [if_pos hb, if_pos hz] at hl
            refine ⟨1, by simp, ?_⟩
            rw [steps_succ hst]
            show (scanLoop T o sc).step T o = none
            rw [hl]
            rfl
        · rw [if_neg hb] at hl
          obtain ⟨k, hk, hs⟩ := ih (scanLoop T o sc) (by rw [hl]; exact hpc) (by rw [hl])
          exact ⟨k + 1, by simp only [List.length_cons]; omega, by rw [steps_succ hst]; exact hs⟩
  have hlast : ∀ (sc : Scanner), sc.pc = .run → paragraph T o sc.input = [] →
      ∃ fin, Feeds (scannerEnv T o sched) (sc, i) (emit T o [] sc.current sc.lastAL sc.ctxstack) (fin, i) ∧
      Ended fin (emit T o [] sc.current sc.lastAL sc.ctxstack) ∧
      (∀ h, sc.handlers = [h] → sc.bd16 = 0 → NoIsolates (emit T o [] sc.current sc.lastAL sc.ctxstack) → fin.handlers = [h]) := by
    intro sc hpc hp
    obtain ⟨s1, h1, h2, h3, h4⟩ := hend sc hpc hp
    have hr : (scannerEnv T o sched).recv (sc, i) = some (sc.current, ({ s1 with pc := .sendStop }, i)) :=
      hrecv 1 sc s1 _ _ h1 h2 (by simp only [Scanner.receive, h3]) (by omega)
    rw [emit]
    by_cases hz : sc.current.clz = cNULL
    · rw [if_pos hz]
      refine ⟨_, .stop hr hz, by simp [Ended], ?_⟩
      intro h hh _ _
      show s1.handlers = _
      rw [h4 (by unfold isIsolate; simp [hz, cNULL, cLRI, cRLI, cFSI, cPDI]), hh]
    · rw [if_neg hz]
      have hr2 : (scannerEnv T o sched).recv ({ s1 with pc := .sendStop }, i) =
          some ({ clz := cNULL }, ({ s1 with pc := .closed }, i)) :=
        hrecv 0 _ _ _ _ rfl rfl rfl (by omega)
      refine ⟨_, .more hr hz (.stop hr2 rfl), by simp [Ended], ?_⟩
      intro h hh _ hni
      show s1.handlers = _
      rw [h4 (hni _ (by simp)), hh]
  intro inp
  induction inp with
  | nil =>
    intro sc hpc hin
    exact hlast sc hpc (by rw [hin]; rfl)
  | cons x rest ih =>
    obtain ⟨r, n⟩ := x
    intro sc hpc hin
    by_cases hsep : isSeparator T o r = true
    · have hp : paragraph T o ((r, n) :: rest) = [] := by simp [paragraph, hsep]
      rw [hp]
      exact hlast sc hpc (by rw [hin, hp])
    · have hsep : isSeparator T o r = false := by simpa using hsep
      rw [paragraph_cons hsep]
      have hst : sc.step T o = some (scanLoop T o sc) := by simp only [Scanner.step, hpc]
      have hl := scanLoop_next ho hin hsep
      by_cases hb : breaks sc.current (runeClass T o r) = true
      · by_cases hz : sc.current.clz = cNULL
        · rw [if_pos hb, if_neg (by simpa using hz)] at hl
          have hp := proceed_eq { sc with input := rest } r (nextScrap sc.current (runeClass T o r) n) (runeClass T o r == cAL)
          have hh := proceed_handlers { sc with input := rest } r (nextScrap sc.current (runeClass T o r) n) (runeClass T o r == cAL)
          rw [← hl] at hp hh
          obtain ⟨fin, h1, h2, h3⟩ := ih _ hp.2.1 hp.1
          simp only [hp.2.2.1, hp.2.2.2.1, hp.2.2.2.2, beq_iff_eq] at h1 h2 h3
          simp only [emit, pairUp, if_pos hb, if_pos hz]
          refine ⟨fin, hback sc _ _ _ hst (by rw [hp.1, hin]; simp) ?_ h1, h2, ?_⟩
          · rw [hp.1]; exact hwait rest _ hp.2.1 hp.1
          · intro h hh1 hh2 hni
            obtain ⟨g1, g2⟩ := hh h hh1 hh2
            exact h3 _ g2 g1 hni
        · rw [if_pos hb, if_pos hz] at hl
          -- the scanner waits with the current scrap
          have hr : (scannerEnv T o sched).recv (sc, i) = some (sc.current,
              ({ scanLoop T o sc with pc := .resume r (nextScrap sc.current (runeClass T o r) n) (runeClass T o r == cAL) }, i)) := by
            refine hrecv 1 sc _ _ _ (steps_succ hst 0) ?_ ?_ (by omega)
            · rw [hl]; rfl
            · rw [hl]; rfl
          generalize hS : ({ scanLoop T o sc with pc := .resume r (nextScrap sc.current (runeClass T o r) n) (runeClass T o r == cAL) } : Scanner) = S at hr
          have hSp : S.step T o = some (proceed S r (nextScrap sc.current (runeClass T o r) n) (runeClass T o r == cAL)) := by
            rw [← hS]; rfl
          have hSc : S.current = sc.current ∧ S.input = rest ∧ S.lastAL = sc.lastAL ∧ S.ctxstack = sc.ctxstack := by
            rw [← hS, hl]
            dsimp only
            split
            · have := switch_current { sc with input := rest } sc.current; exact this
            · exact ⟨rfl, rfl, rfl, rfl⟩
          obtain ⟨e1, e2, e3, e4⟩ := hSc
          have hp := proceed_eq S r (nextScrap sc.current (runeClass T o r) n) (runeClass T o r == cAL)
          have hh := proceed_handlers S r (nextScrap sc.current (runeClass T o r) n) (runeClass T o r == cAL)
          rw [e1, e2, e3, e4] at hp
          rw [e1, e3, e4] at hh
          obtain ⟨fin, h1, h2, h3⟩ := ih _ hp.2.1 hp.1
          simp only [hp.2.2.1, hp.2.2.2.1, hp.2.2.2.2, beq_iff_eq] at h1 h2 h3
          simp only [emit, pairUp, if_pos hb, if_neg hz]
          refine ⟨fin, .more hr hz (hback S _ _ _ hSp (by rw [hp.1, e2]; exact Nat.le_refl _) ?_ h1), ?_, ?_⟩
          · rw [hp.1]; exact hwait rest _ hp.2.1 hp.1
          · unfold Ended at h2 ⊢
            rw [if_neg (by simp)]
            rw [if_neg] at h2
            · exact h2
            · intro h0
              obtain ⟨s, hs⟩ := emit_cons_mem (T := T) (o := o) (paragraph T o rest) (inheritStrongTypes (nextScrap sc.current (runeClass T o r) n)
                (switchContext sc.current sc.ctxstack (nextScrap sc.current (runeClass T o r) n)).1 sc.lastAL)
                (if runeClass T o r = cAL then some (nextScrap sc.current (runeClass T o r) n).l else sc.lastAL)
                (switchContext sc.current sc.ctxstack (nextScrap sc.current (runeClass T o r) n)).2
                (by rw [inherit_clz]; exact rules_ne (runeClass_ne o hT r) hz)
              rw [h0] at hs
              cases hs
          · intro h hh1 hh2 hni
            have hi : isIsolate sc.current = false := hni _ (List.mem_cons_self ..)
            rw [hi] at hl
            obtain ⟨g1, g2⟩ := hh h (by rw [← hS, hl]; exact hh1) (by rw [← hS, hl]; exact hh2)
            exact h3 _ g2 g1 (fun s hs => hni s (List.mem_cons_of_mem _ hs))
      · rw [if_neg hb] at hl
        obtain ⟨fin, h1, h2, h3⟩ := ih (scanLoop T o sc) (by rw [hl]; exact hpc) (by rw [hl])
        rw [hl] at h1 h2 h3
        simp only [emit, pairUp, if_neg hb]
        refine ⟨fin, hback sc _ _ _ hst (by rw [hl, hin]; simp) ?_ (by rw [hl]; exact h1), h2, h3⟩
        rw [hl]
        exact hwait rest _ hpc rfl

/-- The scanner delivers the scraps of the text, whatever the schedule is, and has
ended then; the exception is a text without a scrap, where it waits for ever. -/
theorem scanner_feeds {T : Tables} {o : Options} (ho : o.markup = none) (hT : ∀ r, T.cls r ≠ cNULL) (sched : Nat → Nat) (b : List Nat) :
    ∃ fin, Feeds (scannerEnv T o sched) (newScanner o b, 0) (scrapsOf T o b) (fin, 0) ∧ Ended fin (scrapsOf T o b) ∧
      (NoIsolates (scrapsOf T o b) →
        fin.handlers = [pairUp T o (paragraph T o (runesOf b)) (initialOuterScrap o false) none [] {}]) := by
  obtain ⟨fin, h1, h2, h3⟩ := feeds_run ho hT sched 0 (runesOf b) (newScanner o b) rfl rfl
  exact ⟨fin, h1, h2, fun hn => h3 {} rfl rfl hn⟩

end Uax.Bidi
