import Verif.Word
import Verif.Bank

/-! The active recognizers of the word breaker, as a function of the classes read so far. -/

namespace Uax
namespace Word

open Bank

/-- Extend, Format or ZWJ. -/
def _root_.Uax.WClass.ign (c : WClass) : Bool := c == .Extend || c == .Format || c == .ZWJ

/-- ALetter or Hebrew_Letter. -/
def _root_.Uax.WClass.ah (c : WClass) : Bool := c == .ALetter || c == .HebrewLetter

/-- LF, CR or Newline. -/
def _root_.Uax.WClass.nl (c : WClass) : Bool := c == .LF || c == .Newline || c == .CR

theorem num_inj (a b : WClass) : a.num = b.num ↔ a = b := by
  constructor
  · intro h
    have key : ∀ a : WClass, (if a.num = 0 then WClass.ALetter else if a.num = 1 then .CR else if a.num = 2 then .DoubleQuote
      else if a.num = 3 then .Extend else if a.num = 4 then .ExtendNumLet else if a.num = 5 then .Format else if a.num = 6 then .HebrewLetter
      else if a.num = 7 then .Katakana else if a.num = 8 then .LF else if a.num = 9 then .MidLetter else if a.num = 10 then .MidNum
      else if a.num = 11 then .MidNumLet else if a.num = 12 then .Newline else if a.num = 13 then .Numeric else if a.num = 14 then .RI
      else if a.num = 15 then .SingleQuote else if a.num = 16 then .WSegSpace else if a.num = 17 then .ZWJ else if a.num = 18 then .Pict
      else if a.num = 999 then .Other else .eot) = a := by intro a; cases a <;> rfl
    rw [← key a, ← key b, h]
  · intro h; rw [h]

theorem ignored_num (c : WClass) : ignored c.num = c.ign := by cases c <;> rfl
theorem ahLetter_num (c : WClass) : ahLetter c.num = c.ah := by cases c <;> rfl

/-- What is essential of a recognizer: state function, match length, and `Expect` where it is used. -/
structure WK where
  fn : Rule
  ml : Int
  ex : Int
deriving DecidableEq, Repr

/-- State functions that use `Expect`. -/
def usesEx (fn : Rule) : Bool := fn == .fWB6_7 || fn == .fWB11

def mk (fn : Rule) (ml ex : Int) : WK := ⟨fn, ml, if usesEx fn then ex else 0⟩

def absOf (s : WRec) : WK := mk (s.next.getD .NewLine) s.matchLen s.expect

/-- The recognizer with an abstract state. -/
def recOf (k : WK) : WRec := ⟨k.ex, k.ml, none, [], some k.fn⟩

def evOf (g : Ctx) (k : WK) (c : Int) : Option WK × List Int :=
  let out := subs.event g (recOf k) 0 c
  (if subs.done out.2.1 then none else some (absOf out.2.1), out.2.2)

def ctxOf (g : Ctx) (k : WK) (c : Int) : Ctx := (subs.event g (recOf k) 0 c).1

theorem run_same (fn : Rule) (g : Ctx) (s : WRec) (r c : Int) (hs : s.next = some fn) :
    (subs.event g s r c).1 = ctxOf g (absOf s) c ∧ (subs.event g s r c).2.2 = (evOf g (absOf s) c).2 ∧
    (evOf g (absOf s) c).1 = if subs.done (subs.event g s r c).2.1 then none else some (absOf (subs.event g s r c).2.1) := by
  obtain ⟨e, m, u, p, n⟩ := s
  simp only at hs
  subst hs
  cases fn <;>
    (simp only [ctxOf, evOf, absOf, recOf, mk, usesEx, subs, Rec.sub, Rec.runeEvent, run, acc, more, abort, accLate, Rec.doAccept, Rec.doAbort, Rec.done, Option.getD_some, reduceCtorEq, Option.isNone_none, Option.isNone_some, beq_self_eq_true, Bool.or_true, Bool.true_or, Bool.false_or, if_true, if_false, Bool.or_false, Bool.false_eq_true, beq_iff_eq]) <;>
    (repeat' split) <;> simp_all [Option.isNone]

theorem calm_fn (g : Ctx) (k k' : WK) (c c' : Int) : evOf (ctxOf g k c) k' c' = evOf g k' c' := by
  have h1 : (ctxOf g k c).prev = g.prev := by
    obtain ⟨fn, ml, ex⟩ := k
    cases fn <;>
      (simp only [ctxOf, recOf, subs, Rec.sub, Rec.runeEvent, run, acc, more, abort, accLate]) <;> (repeat' split) <;> rfl
  generalize ctxOf g k c = g' at h1
  obtain ⟨fn, ml, ex⟩ := k'
  cases fn <;>
    (simp only [evOf, recOf, subs, Rec.sub, Rec.runeEvent, run, acc, more, abort, accLate, h1, Rec.doAccept, Rec.doAbort]) <;> (repeat' split) <;> simp_all [Rec.done]

theorem next_of (s : WRec) (h : subs.done s = false) : ∃ fn, s.next = some fn := by
  cases hn : s.next with
  | none => rw [show subs.done s = s.next.isNone from rfl, hn] at h; cases h
  | some fn => exact ⟨fn, rfl⟩

/-- The word breaker's recognizers do not interfere. -/
def V : View subs WK where
  abs := absOf
  ev := evOf
  ml := WK.ml
  ctx := ctxOf
  event_ctx g s r c h := by obtain ⟨fn, hn⟩ := next_of s h; exact (run_same fn g s r c hn).1
  event_pens g s r c h := by obtain ⟨fn, hn⟩ := next_of s h; exact (run_same fn g s r c hn).2.1
  event_abs g s r c h := by obtain ⟨fn, hn⟩ := next_of s h; exact (run_same fn g s r c hn).2.2
  len _ _ := rfl
  calm := calm_fn

/-! ### Active recognizers -/

def skip (h : List WClass) : List WClass := h.dropWhile WClass.ign
def ni (h : List WClass) : Nat := (h.takeWhile WClass.ign).length

/-- The nearest class satisfies `P`. -/
def hd (P : WClass → Bool) : List WClass → Bool
  | [] => false
  | c :: _ => P c

/-- An odd number of flags, not counting ignorables. -/
def odd : List WClass → Bool
  | [] => false
  | c :: h => if c.ign then odd h else if c = .RI then !odd h else false

/-- Classes left and right of pair rules, and the state function that waits for the second one. -/
def lft : Rule → WClass → Bool
  | .WB5, c => c.ah | .WB9, c => c.ah | .WB8, c => c == .Numeric | .WB10, c => c == .Numeric
  | .WB7a, c => c == .HebrewLetter | .WB13, c => c == .Katakana
  | .WB13a, c => c.ah || c == .Numeric || c == .Katakana || c == .ExtendNumLet
  | .WB13b, c => c == .ExtendNumLet
  | .WB6_7, c => c.ah | .WB7bc, c => c == .HebrewLetter | .WB11, c => c == .Numeric
  | _, _ => false

def rgt : Rule → WClass → Bool
  | .WB5, c => c.ah | .WB10, c => c.ah | .WB8, c => c == .Numeric | .WB9, c => c == .Numeric
  | .WB7a, c => c == .SingleQuote | .WB13, c => c == .Katakana | .WB13a, c => c == .ExtendNumLet
  | .WB13b, c => c.ah || c == .Numeric || c == .Katakana
  | .WB6_7, c => c.ah | .WB7bc, c => c == .HebrewLetter | .WB11, c => c == .Numeric
  | _, _ => false

/-- Middle characters. -/
def mid : Rule → WClass → Bool
  | .WB6_7, c => c == .MidLetter || c == .MidNumLet || c == .SingleQuote
  | .WB11, c => c == .MidNum || c == .MidNumLet || c == .SingleQuote
  | .WB7bc, c => c == .DoubleQuote
  | _, _ => false

def waits : Rule → Rule
  | .WB5 => .fWB5_10 | .WB10 => .fWB5_10 | .WB8 => .fWB8_9 | .WB9 => .fWB8_9 | .WB7a => .fWB7a | .WB13 => .fWB13
  | .WB13a => .fWB13a | .WB13b => .fWB13b | .WB6_7 => .cWB6_7 | .WB7bc => .cWB7bc | .WB11 => .cWB11 | r => r

def ends : Rule → Rule
  | .WB6_7 => .fWB6_7 | .WB7bc => .fWB7bc | .WB11 => .fWB11 | r => r

/-- Left and middle character have been read. -/
def midRead (R : Rule) (h : List WClass) : Bool := hd (mid R) (skip h) && hd (lft R) (skip (skip h).tail)

/-- The recognizer of a rule that is active after reading `h` (nearest class first). -/
def st (R : Rule) (h : List WClass) : Option WK :=
  match R with
  | .NewLine => if hd (· == .CR) h then some (mk .CRLF 1 0) else none
  | .WB3c => if hd (· == .ZWJ) h then some (mk .Pictography 1 0) else none
  | .WB3d => if hd (· == .WSegSpace) h then some (mk .fWB3d 1 0) else none
  | .WB4 => none
  | .WB15 => if odd h then some (mk .fWB15 (ni h + 1) 0) else none
  | R => if hd (lft R) (skip h) then some (mk (waits R) (ni h + 1) 0)
    else if midRead R h then some (mk (ends R) (ni h + ni (skip h).tail + 2) (ni (skip h).tail + 2))
    else none

def allRules : List Rule := [.NewLine, .WB3c, .WB3d, .WB4, .WB5, .WB6_7, .WB7a, .WB7bc, .WB8, .WB9, .WB10, .WB11, .WB13, .WB13a, .WB13b, .WB15]

theorem rulesFor_all (c : WClass) : rulesFor c = allRules.filter fun R => decide (R ∈ rulesFor c) := by cases c <;> decide

/-- A new recognizer. -/
def start (R : Rule) (h : List WClass) (c : WClass) : Option WK :=
  if R ∈ rulesFor c ∧ ¬ (R = .WB15 ∧ odd h = true) then some (mk R 0 0) else none

/-- Everything that listens to the next class. -/
def listen (h : List WClass) (c : WClass) : List WK := allRules.flatMap fun R => (st R h).toList ++ (start R h c).toList

/-- Everything that is active. -/
def acts (h : List WClass) : List WK := allRules.flatMap fun R => (st R h).toList

theorem skip_ign {c : WClass} (hc : c.ign = true) (h : List WClass) : skip (c :: h) = skip h := by simp [skip, hc]
theorem skip_not {c : WClass} (hc : c.ign = false) (h : List WClass) : skip (c :: h) = c :: h := by simp [skip, hc]
theorem ni_ign {c : WClass} (hc : c.ign = true) (h : List WClass) : ni (c :: h) = ni h + 1 := by simp [ni, hc]
theorem ni_not {c : WClass} (hc : c.ign = false) (h : List WClass) : ni (c :: h) = 0 := by simp [ni, hc]

/-- Everything about one recognizer. -/
theorem ev_eq (g : Ctx) (fn : Rule) (ml ex : Int) (c : Int) :
    evOf g ⟨fn, ml, ex⟩ c =
      (if (run fn g ⟨ex, ml, none, [], some fn⟩ 0 c).2.2.isNone then none
        else some (absOf { (run fn g ⟨ex, ml, none, [], some fn⟩ 0 c).2.1 with next := (run fn g ⟨ex, ml, none, [], some fn⟩ 0 c).2.2 }),
       if (run fn g ⟨ex, ml, none, [], some fn⟩ 0 c).2.2.isNone && decide ((run fn g ⟨ex, ml, none, [], some fn⟩ 0 c).2.1.matchLen > 0)
        then (run fn g ⟨ex, ml, none, [], some fn⟩ 0 c).2.1.penalties else []) := rfl

def isPair (R : Rule) : Bool := R ∈ [.WB5, .WB7a, .WB8, .WB9, .WB10, .WB13, .WB13a, .WB13b]
def isTriple (R : Rule) : Bool := R ∈ [.WB6_7, .WB7bc, .WB11]

theorem pair_cases {R : Rule} (h : isPair R = true) : R = .WB5 ∨ R = .WB7a ∨ R = .WB8 ∨ R = .WB9 ∨ R = .WB10 ∨ R = .WB13 ∨ R = .WB13a ∨ R = .WB13b := by
  simpa [isPair] using h

theorem triple_cases {R : Rule} (h : isTriple R = true) : R = .WB6_7 ∨ R = .WB7bc ∨ R = .WB11 := by
  simpa [isTriple] using h

theorem ev_start (g : Ctx) (R : Rule) (h : (isPair R || isTriple R) = true) (c : Int) : evOf g (mk R 0 0) c = (some (mk (waits R) 1 0), []) := by
  rcases Bool.or_eq_true _ _ |>.mp h with h | h
  · rcases pair_cases h with rfl | rfl | rfl | rfl | rfl | rfl | rfl | rfl <;> rfl
  · rcases triple_cases h with rfl | rfl | rfl <;> rfl

theorem ev_ign (g : Ctx) (R : Rule) (h : (isPair R || isTriple R) = true) (ml : Int) (c : WClass) (hc : c.ign = true) :
    evOf g (mk (waits R) ml 0) c.num = (some (mk (waits R) (ml + 1) 0), []) := by
  rcases Bool.or_eq_true _ _ |>.mp h with h | h
  · rcases pair_cases h with rfl | rfl | rfl | rfl | rfl | rfl | rfl | rfl <;>
      simp only [waits, mk, ev_eq, run, ignored_num, hc, if_true, more] <;> rfl
  · rcases triple_cases h with rfl | rfl | rfl <;>
      simp only [waits, mk, ev_eq, run, ignored_num, hc, if_true, more] <;> rfl

theorem ev_pair (g : Ctx) (R : Rule) (h : isPair R = true) (ml : Nat) (c : WClass) (hc : c.ign = false) :
    evOf g (mk (waits R) (ml + 1) 0) c.num = (none, if rgt R c then [0, Suppress] else []) := by
  have h1 : ((ml : Int) + 1 + 1 > 0) := by omega
  rcases pair_cases h with rfl | rfl | rfl | rfl | rfl | rfl | rfl | rfl <;>
    simp only [waits, mk, ev_eq, run, ignored_num, ahLetter_num, num_inj, hc, rgt, Bool.false_eq_true, if_false, Bool.or_eq_true, beq_iff_eq, or_assoc] <;>
    (split <;> simp_all [acc, abort, Rec.doAccept, Rec.doAbort])

theorem ev_mid (g : Ctx) (R : Rule) (h : isTriple R = true) (ml : Nat) (c : WClass) (hc : c.ign = false) :
    evOf g (mk (waits R) (ml + 1) 0) c.num = (if mid R c then some (mk (ends R) (ml + 2) (ml + 2)) else none, []) := by
  rcases triple_cases h with rfl | rfl | rfl <;>
    simp only [waits, mk, ev_eq, run, ignored_num, ahLetter_num, num_inj, hc, mid, ends, Bool.false_eq_true, if_false, Bool.or_eq_true, beq_iff_eq, or_assoc] <;>
    (split <;> simp [acc, abort, more, Rec.doAccept, Rec.doAbort, absOf, mk, usesEx]; try omega)

theorem ev_end_ign (g : Ctx) (R : Rule) (h : isTriple R = true) (ml ex : Int) (c : WClass) (hc : c.ign = true) :
    evOf g (mk (ends R) ml ex) c.num = (some (mk (ends R) (ml + 1) ex), []) := by
  rcases triple_cases h with rfl | rfl | rfl <;>
    simp only [ends, mk, ev_eq, run, ignored_num, hc, if_true, more] <;> rfl

/-- What a triple rule says when it accepts: the middle character has `n` ignorables behind it. -/
def triplePens (R : Rule) (n : Nat) : List Int := if R = .WB7bc then [0, Suppress, Suppress] else lateJoin (n + 3)

theorem ev_end (g : Ctx) (R : Rule) (h : isTriple R = true) (n m : Nat) (c : WClass) (hc : c.ign = false) :
    evOf g (mk (ends R) (n + m + 2) (m + 2)) c.num = (none, if rgt R c then triplePens R n else []) := by
  have h1 : ((n : Int) + m + 2 + 1 > 0) := by omega
  have h2 : ¬ ((n : Int) + m + 2 - (m + 2) + 3 < 2) := by omega
  have h3 : ((n : Int) + m + 2 - (m + 2) + 3).toNat = n + 3 := by omega
  rcases triple_cases h with rfl | rfl | rfl <;>
    simp only [ends, mk, ev_eq, run, ignored_num, ahLetter_num, num_inj, hc, rgt, Bool.false_eq_true, if_false, accLate, usesEx, beq_self_eq_true, Bool.or_true, Bool.true_or, if_true, h2, h3, beq_iff_eq, reduceCtorEq, Bool.or_self] <;>
    (split <;> simp_all [acc, abort, Rec.doAccept, Rec.doAbort, triplePens])

theorem pair_no_mid {R : Rule} (h : isPair R = true) (l : List WClass) : midRead R l = false := by
  rcases pair_cases h with rfl | rfl | rfl | rfl | rfl | rfl | rfl | rfl <;> (unfold midRead; cases skip l <;> rfl)

theorem st_eq {R : Rule} (h : (isPair R || isTriple R) = true) (l : List WClass) :
    st R l = if hd (lft R) (skip l) then some (mk (waits R) (ni l + 1) 0)
    else if midRead R l then some (mk (ends R) (ni l + ni (skip l).tail + 2) (ni (skip l).tail + 2))
    else none := by
  rcases Bool.or_eq_true _ _ |>.mp h with h | h
  · rcases pair_cases h with rfl | rfl | rfl | rfl | rfl | rfl | rfl | rfl <;> rfl
  · rcases triple_cases h with rfl | rfl | rfl <;> rfl

theorem lft_starts {R : Rule} (h : (isPair R || isTriple R) = true) (l : List WClass) (c : WClass) :
    start R l c = if lft R c then some (mk R 0 0) else none := by
  rcases Bool.or_eq_true _ _ |>.mp h with h | h
  · rcases pair_cases h with rfl | rfl | rfl | rfl | rfl | rfl | rfl | rfl <;> cases c <;> rfl
  · rcases triple_cases h with rfl | rfl | rfl <;> cases c <;> rfl

theorem lft_ign {R : Rule} {c : WClass} (hc : c.ign = true) : lft R c = false := by
  cases c <;> first | (cases hc; done) | (cases R <;> rfl)

theorem lft_mid {R : Rule} {c : WClass} (hc : lft R c = true) : mid R c = false := by
  cases R <;> first | rfl | (cases hc; done) | (cases c <;> first | rfl | (cases hc; done))

theorem hd_cons (P : WClass → Bool) (c : WClass) (h : List WClass) : hd P (c :: h) = P c := rfl

theorem one_step_regular (g : Ctx) {R : Rule} (hR : (isPair R || isTriple R) = true) (h : List WClass) (c : WClass) :
    ((st R h).toList ++ (start R h c).toList).filterMap (fun k => (evOf g k c.num).1) = (st R (c :: h)).toList := by
  have hT : midRead R h = true → isTriple R = true := by
    intro hm
    cases hp : isPair R with
    | true => rw [pair_no_mid hp h] at hm; cases hm
    | false => rw [hp] at hR; exact hR
  rw [List.filterMap_append, lft_starts hR, st_eq hR, st_eq hR]
  cases hc : c.ign with
  | true =>
    rw [lft_ign hc]
    have e : midRead R (c :: h) = midRead R h := by unfold midRead; rw [skip_ign hc]
    rw [e, skip_ign hc, ni_ign hc]
    by_cases h1 : hd (lft R) (skip h) = true
    · have := ev_ign g R hR (ni h + 1) c hc
      rw [if_pos h1, if_pos h1]
      simp [this]
    · rw [if_neg h1, if_neg h1]
      by_cases h2 : midRead R h = true
      · have := ev_end_ign g R (hT h2) (ni h + ni (skip h).tail + 2) (ni (skip h).tail + 2) c hc
        rw [if_pos h2, if_pos h2]
        simp [this]
        congr 1
        omega
      · rw [if_neg h2, if_neg h2]; rfl
  | false =>
    have e1 : ((if lft R c then some (mk R 0 0) else none : Option WK).toList.filterMap fun k => (evOf g k c.num).1) =
        if lft R c then [mk (waits R) 1 0] else [] := by
      split
      · simp [ev_start g R hR]
      · rfl
    have e2 : midRead R (c :: h) = (mid R c && hd (lft R) (skip h)) := by
      unfold midRead; rw [skip_not hc]; rfl
    rw [e1, e2, skip_not hc, ni_not hc, hd_cons, List.tail_cons]
    have e3 : ((if hd (lft R) (skip h) then some (mk (waits R) (ni h + 1) 0)
        else if midRead R h then some (mk (ends R) (ni h + ni (skip h).tail + 2) (ni (skip h).tail + 2))
        else none : Option WK).toList.filterMap fun k => (evOf g k c.num).1) =
        if (mid R c && hd (lft R) (skip h)) = true then [mk (ends R) (ni h + 2) (ni h + 2)] else [] := by
      by_cases h1 : hd (lft R) (skip h) = true
      · rw [if_pos h1, h1]
        rcases Bool.or_eq_true _ _ |>.mp hR with hR | hR
        · have h2 : mid R c = false := by
            rcases pair_cases hR with rfl | rfl | rfl | rfl | rfl | rfl | rfl | rfl <;> rfl
          simp [ev_pair g R hR (ni h) c hc, h2]
        · simp only [Option.toList_some, List.filterMap_cons, ev_mid g R hR (ni h) c hc, List.filterMap_nil, Bool.and_true]
          by_cases hm : mid R c = true
          · rw [if_pos hm, if_pos hm]
          · rw [if_neg hm, if_neg hm]
      · rw [if_neg h1]
        simp only [Bool.not_eq_true] at h1
        rw [h1, Bool.and_false]
        by_cases h2 : midRead R h = true
        · rw [if_pos h2]
          simp [ev_end g R (hT h2) (ni h) (ni (skip h).tail) c hc]
        · rw [if_neg h2]; simp
    rw [e3]
    by_cases hl : lft R c = true
    · have := lft_mid hl
      simp [hl, this]
    · simp only [hl, Bool.false_eq_true, if_false, List.append_nil]
      by_cases hm : (mid R c && hd (lft R) (skip h)) = true
      · rw [if_pos hm, if_pos hm]; simp
      · rw [if_neg hm, if_neg hm]; rfl

theorem irregular {R : Rule} (hR : R ∈ allRules) (hreg : ¬ (isPair R || isTriple R) = true) :
    R = .NewLine ∨ R = .WB3c ∨ R = .WB3d ∨ R = .WB4 ∨ R = .WB15 := by
  simp only [allRules, List.mem_cons, List.not_mem_nil, or_false] at hR
  rcases hR with rfl | rfl | rfl | rfl | rfl | rfl | rfl | rfl | rfl | rfl | rfl | rfl | rfl | rfl | rfl | rfl <;> first | exact absurd rfl hreg | simp

theorem one_step (g : Ctx) (R : Rule) (hR : R ∈ allRules) (h : List WClass) (c : WClass) :
    ((st R h).toList ++ (start R h c).toList).filterMap (fun k => (evOf g k c.num).1) = (st R (c :: h)).toList := by
  by_cases hreg : (isPair R || isTriple R) = true
  · exact one_step_regular g hreg h c
  · rcases irregular hR hreg with rfl | rfl | rfl | rfl | rfl
    · rw [List.filterMap_append]
      simp only [st]
      have e1 : ((if hd (· == .CR) h then some (mk .CRLF 1 0) else none : Option WK).toList.filterMap fun k => (evOf g k c.num).1) = [] := by
        split
        · cases c <;> rfl
        · rfl
      rw [e1]
      cases c <;> rfl
    · rw [List.filterMap_append]
      simp only [st]
      have e1 : ((if hd (· == .ZWJ) h then some (mk .Pictography 1 0) else none : Option WK).toList.filterMap fun k => (evOf g k c.num).1) = [] := by
        split
        · cases c <;> rfl
        · rfl
      rw [e1]
      cases c <;> rfl
    · rw [List.filterMap_append]
      simp only [st]
      have e1 : ((if hd (· == .WSegSpace) h then some (mk .fWB3d 1 0) else none : Option WK).toList.filterMap fun k => (evOf g k c.num).1) = [] := by
        split
        · cases c <;> rfl
        · rfl
      rw [e1]
      cases c <;> rfl
    · rw [List.filterMap_append]
      simp only [st, start]
      by_cases hc : c.ign = true
      · have : Rule.WB4 ∈ rulesFor c := by cases c <;> first | (cases hc; done) | decide
        simp only [this, true_and, reduceCtorEq, false_and, not_false_iff, if_true, Option.toList_none, List.filterMap_nil, List.nil_append, Option.toList_some, List.filterMap_cons]
        have : (evOf g (mk .WB4 0 0) c.num).1 = none := by simp only [mk, ev_eq, run]; split <;> rfl
        rw [this]
      · have : ¬ Rule.WB4 ∈ rulesFor c := by cases c <;> first | (exact absurd rfl hc) | decide
        simp [this]
    · rw [List.filterMap_append]
      simp only [st, start, odd]
      by_cases hc : c.ign = true
      · have h1 : ¬ Rule.WB15 ∈ rulesFor c := by cases c <;> first | (cases hc; done) | decide
        simp only [h1, false_and, if_false, hc, if_true, ni_ign hc]
        cases odd h with
        | false => rfl
        | true =>
          simp only [mk, ev_eq, run, ignored_num, hc, if_true, more, Option.toList_some, List.filterMap_cons, List.filterMap_nil, Option.toList_none, List.append_nil]
          rfl
      · simp only [Bool.not_eq_true] at hc
        simp only [hc, Bool.false_eq_true, if_false, ni_not hc, true_and]
        by_cases hri : c = .RI
        · subst hri
          cases odd h with
          | true => rfl
          | false => rfl
        · have h1 : ¬ Rule.WB15 ∈ rulesFor c := by cases c <;> first | (exact absurd rfl hri) | decide
          simp only [h1, false_and, if_false, hri]
          cases odd h with
          | false => rfl
          | true =>
            simp only [mk, ev_eq, run, ignored_num, hc, num_inj, hri, if_false, Bool.false_eq_true, abort, Option.toList_some, if_true, List.filterMap_cons]
            rfl

theorem filterMap_flatMap' {α β γ : Type} (l : List α) (f : α → List β) (g : β → Option γ) :
    (l.flatMap f).filterMap g = l.flatMap fun a => (f a).filterMap g := by
  induction l with
  | nil => rfl
  | cons a l ih => simp only [List.flatMap_cons, List.filterMap_append, ih]

theorem flatMap_congr' {α β : Type} (l : List α) (f g : α → List β) (h : ∀ a ∈ l, f a = g a) : l.flatMap f = l.flatMap g := by
  induction l with
  | nil => rfl
  | cons a l ih => rw [List.flatMap_cons, List.flatMap_cons, h a List.mem_cons_self, ih fun a ha => h a (List.mem_cons_of_mem _ ha)]

theorem flatMap_append_perm' {α β : Type} (l : List α) (f g : α → List β) :
    (l.flatMap f ++ l.flatMap g).Perm (l.flatMap fun a => f a ++ g a) := by
  induction l with
  | nil => exact List.Perm.refl _
  | cons a l ih =>
    simp only [List.flatMap_cons]
    refine List.Perm.trans ?_ (List.Perm.append_left _ ih)
    rw [List.append_assoc, List.append_assoc]
    apply List.Perm.append_left
    rw [← List.append_assoc, ← List.append_assoc]
    apply List.Perm.append_right
    exact List.perm_append_comm

theorem acts_step (g : Ctx) (h : List WClass) (c : WClass) :
    (listen h c).filterMap (fun k => (evOf g k c.num).1) = acts (c :: h) := by
  unfold listen acts
  rw [filterMap_flatMap']
  exact flatMap_congr' _ _ _ fun R hR => one_step g R hR h c

/-! ### The breaker -/

/-- A state of the breaker after reading `h`. -/
structure Rep (h : List WClass) (b : WBrk) : Prop where
  holds : Holds V b.pub (acts h)
  blocked : b.blocked = odd h
  prev : (b.previous = WClass.LF.num ∨ b.previous = WClass.Newline.num ∨ b.previous = WClass.CR.num) ↔ hd WClass.nl h = true

theorem subscribe_holds (c : WClass) (lm : Int) : ∀ (rules : List Rule) (p : Pub WRec) (L : List WK), (∀ R ∈ rules, usesEx R = false) → Holds V p L →
    ∃ p', subscribeAll c lm rules p = some p' ∧ Holds V p' (L ++ rules.map fun R => mk R 0 0) := by
  intro rules
  induction rules with
  | nil => intro p L _ h; exact ⟨p, rfl, by simpa using h⟩
  | cons R rules ih =>
    intro p L hu h
    obtain ⟨p1, h1, h2⟩ := push_holds V h { (Rec.new c.num (some R) : WRec) with expect := lm } rfl
    obtain ⟨p2, h3, h4⟩ := ih p1 _ (fun R hR => hu R (List.mem_cons_of_mem _ hR)) h2
    refine ⟨p2, ?_, ?_⟩
    · simp only [subscribeAll, h1, Option.bind_some, h3]
    · have : V.abs { (Rec.new c.num (some R) : WRec) with expect := lm } = mk R 0 0 := by
        simp only [V, absOf, Rec.new, Option.getD_some, mk, hu R List.mem_cons_self]
        rfl
      rw [this] at h4
      simpa using h4

theorem rules_noEx (c : WClass) : ∀ R ∈ rulesFor c, usesEx R = false := by cases c <;> decide

theorem filter_flatMap (c : WClass) (h : List WClass) (hb : ¬ (c = .RI ∧ odd h = true)) :
    (rulesFor c).map (fun R => mk R 0 0) = allRules.flatMap fun R => (start R h c).toList := by
  have : ∀ R, (start R h c).toList = if R ∈ rulesFor c then [mk R 0 0] else [] := by
    intro R
    unfold start
    by_cases h1 : R ∈ rulesFor c
    · have h2 : ¬ (R = .WB15 ∧ odd h = true) := by
        rintro ⟨rfl, h2⟩
        apply hb
        refine ⟨?_, h2⟩
        cases c <;> first | rfl | (exact absurd h1 (by decide))
      rw [if_pos ⟨h1, h2⟩, if_pos h1]; rfl
    · rw [if_neg (fun h => h1 h.1), if_neg h1]; rfl
  simp only [this]
  cases c <;> rfl

theorem start_rep {h : List WClass} {b : WBrk} (hR : Rep h b) (c : WClass) :
    ∃ b', startRules b c = some b' ∧ Holds V b'.pub (listen h c) ∧ b'.blocked = b.blocked ∧ b'.previous = b.previous := by
  unfold startRules
  by_cases hb : c = .RI ∧ odd h = true
  · obtain ⟨rfl, ho⟩ := hb
    refine ⟨b, by rw [hR.blocked, ho]; rfl, ?_, rfl, rfl⟩
    refine hR.holds.perm_of V ?_
    refine List.Perm.of_eq ?_
    unfold acts listen
    apply flatMap_congr'
    intro R _
    have : start R h .RI = none := by
      unfold start
      rw [if_neg]
      rintro ⟨h1, h2⟩
      simp only [rulesFor, List.mem_cons, List.not_mem_nil, or_false] at h1
      exact h2 ⟨h1, ho⟩
    rw [this]; simp
  · have : (c == .RI && b.blocked) = false := by
      rw [hR.blocked]
      cases hc : odd h with
      | false => simp
      | true => rw [hc] at hb; simpa using hb
    rw [this]
    obtain ⟨p', h1, h2⟩ := subscribe_holds c b.longest (rulesFor c) b.pub _ (rules_noEx c) hR.holds
    refine ⟨{ b with pub := p' }, by simp [h1], ?_, rfl, rfl⟩
    refine h2.perm_of V ?_
    rw [filter_flatMap c h hb]
    exact flatMap_append_perm' _ _ _

/-- Does this recognizer touch the breaker? -/
def touches (k : WK) : Bool := k.fn == .WB15 || k.fn == .fWB15

/-- Recognizers for which `make` gets a proper length. -/
def fine (k : WK) : Bool := !usesEx k.fn || decide (k.ex ≤ k.ml)

theorem ctx_still (g : Ctx) (k : WK) (c : Int) (h1 : touches k = false) (h2 : fine k = true) : ctxOf g k c = g := by
  obtain ⟨fn, ml, ex⟩ := k
  have h3 : fn = .fWB6_7 ∨ fn = .fWB11 → ¬ (ml - ex + 3 < 2) := by
    intro h
    have : ex ≤ ml := by
      rcases h with rfl | rfl <;> simpa [fine, usesEx] using h2
    omega
  cases fn <;>
    first
      | (cases h1; done)
      | (simp only [ctxOf, recOf, subs, Rec.sub, Rec.runeEvent, run, acc, more, abort, accLate]; done)
      | (simp only [ctxOf, recOf, subs, Rec.sub, Rec.runeEvent, run, acc, more, abort, accLate]; (repeat' split) <;> first | rfl | (exfalso; apply h3 <;> simp_all; done))

theorem st_fine {R : Rule} (hR : R ∈ allRules) (h : List WClass) (k : WK) (hk : k ∈ (st R h).toList) : fine k = true := by
  by_cases hreg : (isPair R || isTriple R) = true
  · rw [st_eq hreg] at hk
    split at hk
    · simp only [Option.toList_some, List.mem_cons, List.not_mem_nil, or_false] at hk
      subst hk
      rcases Bool.or_eq_true _ _ |>.mp hreg with h | h
      · rcases pair_cases h with rfl | rfl | rfl | rfl | rfl | rfl | rfl | rfl <;> rfl
      · rcases triple_cases h with rfl | rfl | rfl <;> rfl
    · split at hk
      · simp only [Option.toList_some, List.mem_cons, List.not_mem_nil, or_false] at hk
        subst hk
        unfold fine
        rw [Bool.or_eq_true, decide_eq_true_eq, Bool.not_eq_true']
        simp only [mk]
        by_cases hu : usesEx (ends R) = true
        · right; rw [if_pos hu]; omega
        · left; simpa using hu
      · simp at hk
  · rcases irregular hR hreg with rfl | rfl | rfl | rfl | rfl <;>
      simp only [st] at hk <;> (try split at hk) <;>
      simp only [Option.toList_some, Option.toList_none, List.mem_cons, List.not_mem_nil, or_false] at hk <;> subst hk <;> rfl

theorem listen_fine (h : List WClass) (c : WClass) (k : WK) (hk : k ∈ listen h c) : fine k = true := by
  unfold listen at hk
  obtain ⟨R, hR, hk⟩ := List.mem_flatMap.mp hk
  rcases List.mem_append.mp hk with hk | hk
  · exact st_fine hR h k hk
  · unfold start at hk
    split at hk
    · rename_i h1
      simp only [Option.toList_some, List.mem_cons, List.not_mem_nil, or_false] at hk
      subst hk
      simp only [fine, mk, rules_noEx c R h1.1]; rfl
    · simp at hk

theorem st_touch {R : Rule} (hR : R ∈ allRules) (h15 : R ≠ .WB15) (h : List WClass) (c : WClass) :
    ((st R h).toList ++ (start R h c).toList).filter touches = [] := by
  rw [List.filter_eq_nil_iff]
  intro k hk
  rcases List.mem_append.mp hk with hk | hk
  · by_cases hreg : (isPair R || isTriple R) = true
    · rw [st_eq hreg] at hk
      have h1 : ∀ fn ml ex, touches (mk fn ml ex) = (fn == .WB15 || fn == .fWB15) := fun _ _ _ => rfl
      have h2 : (waits R == .WB15 || waits R == .fWB15) = false ∧ (ends R == .WB15 || ends R == .fWB15) = false := by
        rcases Bool.or_eq_true _ _ |>.mp hreg with h | h
        · rcases pair_cases h with rfl | rfl | rfl | rfl | rfl | rfl | rfl | rfl <;> exact ⟨rfl, rfl⟩
        · rcases triple_cases h with rfl | rfl | rfl <;> exact ⟨rfl, rfl⟩
      split at hk
      · simp only [Option.toList_some, List.mem_cons, List.not_mem_nil, or_false] at hk
        subst hk; rw [h1, h2.1]; simp
      · split at hk
        · simp only [Option.toList_some, List.mem_cons, List.not_mem_nil, or_false] at hk
          subst hk; rw [h1, h2.2]; simp
        · simp at hk
    · rcases irregular hR hreg with rfl | rfl | rfl | rfl | rfl <;>
        simp only [st] at hk <;> (try split at hk) <;>
        simp only [Option.toList_some, Option.toList_none, List.mem_cons, List.not_mem_nil, or_false] at hk <;> subst hk <;>
        first | (exact Bool.false_ne_true) | (exact absurd rfl h15)
  · unfold start at hk
    split at hk
    · simp only [Option.toList_some, List.mem_cons, List.not_mem_nil, or_false] at hk
      subst hk
      have : touches (mk R 0 0) = (R == .WB15 || R == .fWB15) := rfl
      rw [this]
      have h2 : R ≠ .fWB15 := by rintro rfl; exact absurd hR (by decide)
      simp [h15, h2]
    · simp at hk

theorem listen_touch (h : List WClass) (c : WClass) :
    (listen h c).filter touches = (st .WB15 h).toList ++ (start .WB15 h c).toList := by
  unfold listen
  have : ∀ (l : List Rule) (f : Rule → List WK), (l.flatMap f).filter touches = l.flatMap fun R => (f R).filter touches := by
    intro l f
    induction l with
    | nil => rfl
    | cons a l ih => simp only [List.flatMap_cons, List.filter_append, ih]
  rw [this]
  rw [flatMap_congr' allRules _ (fun R => if R = .WB15 then (st .WB15 h).toList ++ (start .WB15 h c).toList else [])]
  · simp [allRules]
  · intro R hR
    by_cases h15 : R = .WB15
    · subst h15
      rw [if_pos rfl, List.filter_eq_self]
      intro k hk
      rcases List.mem_append.mp hk with hk | hk
      · simp only [st] at hk
        split at hk
        · simp only [Option.toList_some, List.mem_cons, List.not_mem_nil, or_false] at hk
          subst hk; rfl
        · simp at hk
      · unfold start at hk
        split at hk
        · simp only [Option.toList_some, List.mem_cons, List.not_mem_nil, or_false] at hk
          subst hk; rfl
        · simp at hk
    · rw [if_neg h15]
      exact st_touch hR h15 h c

/-- Context after reading a class. -/
theorem ctx_after (h : List WClass) (c : WClass) (g : Ctx) (hg : g.blocked = odd h) {L : List WK} (hp : L.Perm (listen h c)) :
    L.foldl (fun g k => V.ctx g k c.num) g = { g with blocked := odd (c :: h) } := by
  have hone : ((listen h c).filter touches).length ≤ 1 := by
    rw [listen_touch]
    simp only [st, start]
    by_cases ho : odd h = true
    · simp [ho]
    · rw [if_neg ho]
      split <;> simp
  rw [fold_single V hp touches c.num (fun k hk ht g => ctx_still g k c.num ht (listen_fine h c k hk)) hone g, listen_touch]
  obtain ⟨b, pv, pn⟩ := g
  simp only at hg
  subst hg
  simp only [st, start, odd]
  by_cases hc : c.ign = true
  · have h1 : ¬ Rule.WB15 ∈ rulesFor c := by cases c <;> first | (cases hc; done) | decide
    simp only [h1, false_and, if_false, hc, if_true]
    by_cases ho : odd h = true
    · simp only [ho, if_true, Option.toList_some, Option.toList_none, List.append_nil, List.foldl_cons, List.foldl_nil]
      simp only [V, ctxOf, recOf, mk, subs, Rec.sub, Rec.runeEvent, run, ignored_num, hc, if_true, more]
    · simp only [Bool.not_eq_true] at ho
      simp [ho]
  · simp only [Bool.not_eq_true] at hc
    simp only [hc, Bool.false_eq_true, if_false, true_and]
    by_cases ho : odd h = true
    · simp only [ho, if_true, not_true, and_false, if_false, Option.toList_some, Option.toList_none, List.append_nil, List.foldl_cons, List.foldl_nil]
      simp only [V, ctxOf, recOf, mk, subs, Rec.sub, Rec.runeEvent, run, ignored_num, hc, num_inj, Bool.false_eq_true, if_false, acc, abort]
      split <;> rfl
    · simp only [Bool.not_eq_true] at ho
      simp only [ho]
      by_cases hri : c = .RI
      · subst hri; rfl
      · have h1 : ¬ Rule.WB15 ∈ rulesFor c := by cases c <;> first | (exact absurd rfl hri) | decide
        simp [h1, hri]

/-- Position `j` of the penalties after `setPenalty1`. -/
def fixed (t : Nat → Int) (j : Nat) : Int := if j = 1 ∧ t 1 = 0 then penalty999 else t j

theorem setPenalty1_getD (ps : List Int) (j : Nat) : (setPenalty1 ps penalty999).getD j 0 = fixed (fun j => ps.getD j 0) j := by
  unfold fixed setPenalty1
  match ps, j with
  | [], 0 => rfl
  | [], 1 => rfl
  | [], j + 2 => simp
  | [x], 0 => rfl
  | [x], 1 => rfl
  | [x], j + 2 => simp
  | x :: y :: rest, 0 => simp only; split <;> simp
  | x :: y :: rest, 1 => simp only; split <;> simp_all
  | x :: y :: rest, j + 2 => simp only; split <;> simp

theorem setPenalty1_length (ps : List Int) : (setPenalty1 ps penalty999).length = max 2 ps.length := by
  unfold setPenalty1
  match ps with
  | [] => rfl
  | [x] => rfl
  | x :: y :: rest => simp only; split <;> simp <;> omega

/-- The context in which a class is read after `h`. -/
def gOf (h : List WClass) : Ctx := ⟨false, if hd WClass.nl h then WClass.LF.num else 0, false⟩

theorem ev_gOf {h : List WClass} {b : WBrk} (hR : Rep h b) (k : WK) (c : Int) :
    evOf ⟨b.blocked, b.previous, false⟩ k c = evOf (gOf h) k c := by
  obtain ⟨fn, ml, ex⟩ := k
  have hp := hR.prev
  have : (b.previous ≠ WClass.LF.num ∧ b.previous ≠ WClass.Newline.num ∧ b.previous ≠ WClass.CR.num) ↔
      ((gOf h).prev ≠ WClass.LF.num ∧ (gOf h).prev ≠ WClass.Newline.num ∧ (gOf h).prev ≠ WClass.CR.num) := by
    unfold gOf
    cases hh : hd WClass.nl h with
    | true =>
      rw [hh] at hp
      simp only [iff_true] at hp
      constructor
      · intro h; exfalso; rcases hp with h' | h' | h' <;> simp_all
      · intro h; exact absurd rfl h.1
    | false =>
      rw [hh] at hp
      simp only [Bool.false_eq_true, iff_false, not_or] at hp
      constructor
      · intro _; decide
      · intro _; exact hp
  cases fn <;>
    (simp only [evOf, recOf, subs, Rec.sub, Rec.runeEvent, run, acc, more, abort, accLate, this, Rec.doAccept, Rec.doAbort]) <;> (repeat' split) <;> simp_all [Rec.done]

/-- Sum of what is said at index `j` when `c` is read after `h`. -/
def tot (h : List WClass) (c : WClass) (j : Nat) : Int := ((listen h c).map fun k => (evOf (gOf h) k c.num).2.getD j 0).sum

/-- Length of the list of penalties. -/
def plen (h : List WClass) (c : WClass) : Nat := max 2 (((listen h c).map fun k => (evOf (gOf h) k c.num).2.length).foldl max 0)

theorem step_rep {h : List WClass} {b : WBrk} (hR : Rep h b) (r : Int) (c : WClass) :
    ∃ b', ((startRules b c).bind fun b => proceed b r c) = some b' ∧ Rep (c :: h) b' ∧
      Longest V b'.longest (acts (c :: h)) ∧ (∀ j, b'.penalties.getD j 0 = fixed (tot h c) j) ∧ b'.penalties.length = plen h c := by
  obtain ⟨b1, h1, h2, h3, h4⟩ := start_rep hR c
  have hev : ∀ k, evOf ⟨b1.blocked, b1.previous, false⟩ k c.num = evOf (gOf h) k c.num := by
    intro k; rw [h3, h4]; exact ev_gOf hR k c.num
  obtain ⟨g', p', lam, gone, e1, e2, e3, e4, e5, L, e6, e7⟩ := publish_holds V h2 ⟨b1.blocked, b1.previous, false⟩ r c.num
  have hVe : ∀ k, V.ev ⟨b1.blocked, b1.previous, false⟩ k c.num = evOf (gOf h) k c.num := hev
  simp only [hVe] at e2 e3 e4 e5
  rw [acts_step] at e2 e5
  rw [ctx_after h c _ (by simp only [h3, hR.blocked]) e6] at e7
  refine ⟨{ pub := p', longest := lam, penalties := setPenalty1 p'.total penalty999, previous := c.num, blocked := odd (c :: h) }, ?_, ?_, ?_, ?_, ?_⟩
  · rw [h1, Option.bind_some]
    unfold proceed
    rw [e1, Option.bind_some, e7]
    rfl
  · refine ⟨e2, rfl, ?_⟩
    simp only [num_inj, hd_cons, WClass.nl, Bool.or_eq_true, beq_iff_eq, or_assoc]
  · exact e5
  · intro j
    simp only [setPenalty1_getD]
    unfold fixed tot
    simp only [e3]
  · simp only [setPenalty1_length, e4]; rfl

end Word
end Uax
