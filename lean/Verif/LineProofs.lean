import Verif.Line
import Verif.Bank

/-! The active recognizers of the line breaker, as a function of the classes read so far. -/

namespace Uax
namespace Line

open Bank

/-- All classes. -/
def classes : List LClass := tabled ++ [.sot, .eot]

theorem mem_classes (c : LClass) : c ∈ classes := by cases c <;> decide

theorem num_inj (a b : LClass) : a.num = b.num ↔ a = b := by
  constructor
  · intro h
    have key : ∀ a : LClass, classes.find? (fun x => x.num == a.num) = some a := by intro a; cases a <;> rfl
    have h1 := key a
    rw [h, key b] at h1
    exact (Option.some.inj h1).symm
  · intro h; rw [h]

theorem isIn_num (c : LClass) (cs : List LClass) : isIn c.num cs = decide (c ∈ cs) := by
  unfold isIn
  induction cs with
  | nil => rfl
  | cons x cs ih =>
    rw [List.any_cons, ih]
    by_cases h : c = x
    · subst h; simp
    · have : ¬ c.num = x.num := fun h' => h ((num_inj c x).mp h')
      simp [h, this]

/-- What is essential of a recognizer: state function and match length. -/
structure LK where
  fn : Rule
  ml : Int
deriving DecidableEq, Repr

def absOf (s : LRec) : LK := ⟨s.next.getD .LB3, s.matchLen⟩

/-- The recognizer with an abstract state. -/
def recOf (k : LK) : LRec := ⟨0, k.ml, none, [], some k.fn⟩

def evOf (g : Ctx) (k : LK) (c : Int) : Option LK × List Int :=
  let out := subs.event g (recOf k) 0 c
  (if subs.done out.2.1 then none else some (absOf out.2.1), out.2.2)

def ctxOf (g : Ctx) (k : LK) (c : Int) : Ctx := (subs.event g (recOf k) 0 c).1

theorem run_same (fn : Rule) (g : Ctx) (s : LRec) (r c : Int) (hs : s.next = some fn) :
    (subs.event g s r c).1 = ctxOf g (absOf s) c ∧ (subs.event g s r c).2.2 = (evOf g (absOf s) c).2 ∧
    (evOf g (absOf s) c).1 = if subs.done (subs.event g s r c).2.1 then none else some (absOf (subs.event g s r c).2.1) := by
  obtain ⟨e, m, u, q, n⟩ := s
  simp only at hs
  subst hs
  cases fn <;>
    (simp only [ctxOf, evOf, absOf, recOf, subs, Rec.sub, Rec.runeEvent, run, acc, more, abort, stay, accIf, accNum, Rec.doAccept, Rec.doAbort, Rec.done, Option.getD_some]) <;>
    (repeat' split) <;> simp_all [Option.isNone]

theorem ctx_last (g : Ctx) (k : LK) (c : Int) : (ctxOf g k c).last = g.last ∧ (ctxOf g k c).subst = g.subst := by
  obtain ⟨fn, ml⟩ := k
  cases fn <;>
    (simp only [ctxOf, recOf, subs, Rec.sub, Rec.runeEvent, run, acc, more, abort, stay, accIf, accNum]) <;> (repeat' split) <;> simp

/-- The context matters only through the last class and the substitution. -/
theorem ev_ctx (g g' : Ctx) (h1 : g'.last = g.last) (h2 : g'.subst = g.subst) (k : LK) (c : Int) : evOf g' k c = evOf g k c := by
  obtain ⟨fn, ml⟩ := k
  cases fn <;>
    (simp only [evOf, recOf, subs, Rec.sub, Rec.runeEvent, run, acc, more, abort, stay, accIf, accNum, h1, h2, Rec.doAccept, Rec.doAbort]) <;> (repeat' split) <;> simp_all [Rec.done]

theorem calm_fn (g : Ctx) (k k' : LK) (c c' : Int) : evOf (ctxOf g k c) k' c' = evOf g k' c' :=
  ev_ctx g _ (ctx_last g k c).1 (ctx_last g k c).2 k' c'

theorem next_of (s : LRec) (h : subs.done s = false) : ∃ fn, s.next = some fn := by
  cases hn : s.next with
  | none => rw [show subs.done s = s.next.isNone from rfl, hn] at h; cases h
  | some fn => exact ⟨fn, rfl⟩

/-- The line breaker's recognizers do not interfere. -/
def V : View subs LK where
  abs := absOf
  ev := evOf
  ml := LK.ml
  ctx := ctxOf
  event_ctx g s r c h := by obtain ⟨fn, hn⟩ := next_of s h; exact (run_same fn g s r c hn).1
  event_pens g s r c h := by obtain ⟨fn, hn⟩ := next_of s h; exact (run_same fn g s r c hn).2.1
  event_abs g s r c h := by obtain ⟨fn, hn⟩ := next_of s h; exact (run_same fn g s r c hn).2.2
  len _ _ := rfl
  calm := calm_fn

/-! ### Active recognizers -/

/-- A class as the rules see it, and whether it has been substituted. -/
abbrev LC := LClass × Bool

/-- The last class; `lastClass` of the breaker. -/
def last : List LC → LClass
  | [] => .sot
  | c :: _ => if c.1 = .eot then .sot else c.1

/-- Without the spaces at the end. -/
def skip (h : List LC) : List LC := h.dropWhile fun c => c.1 == .SP

/-- Has the last flag no partner yet? A mark after a flag always leaves it without partner. -/
def odd : List LC → Bool
  | [] => false
  | c :: h => c.1 == .RI && (c.2 || !odd h)

/-- The state functions that wait for exactly one more class. -/
def waitPair : LClass → Rule → Option Rule
  | .CR, .NewLine => some .CRLF
  | _, .LB21a => some .fLB21a | _, .LB21b => some .fLB21b | _, .LB22 => some .fLB22 | _, .LB23_1 => some .fLB23_1
  | _, .LB23_2 => some .fLB23_2 | _, .LB23a_1 => some .fLB23a_1 | _, .LB23a_2 => some .fLB23a_2
  | _, .LB24_1 => some .fLB24a_1 | _, .LB24_2 => some .fLB24a_2 | _, .LB26_1 => some .fLB26_1
  | _, .LB26_2 => some .fLB26_2 | _, .LB26_3 => some .fLB26_3 | _, .LB27 => some .fLB27_1 | _, .LB27_2 => some .fLB27_2
  | _, .LB28 => some .fLB28 | _, .LB29 => some .fLB29 | _, .LB30_1 => some .fLB30_1 | _, .LB30_2 => some .fLB30_2
  | _, .LB30b => some .fLB30b
  | _, _ => none

/-- The state functions that skip spaces. -/
def waitSp : Rule → Option Rule
  | .LB8 => some .fLB8 | .LB14 => some .fLB14 | .LB15 => some .fLB15 | .LB16 => some .fLB16 | .LB17 => some .fLB17
  | _ => none

/-- The rules for numbers. -/
def isNum (R : Rule) : Bool := R == .LB25 || R == .step2 || R == .step3

def pairs (a : LClass) : List LK := ((rulesFor a).filterMap (waitPair a)).map fun R => ⟨R, 1⟩
def spaced (b : LClass) : List LK := ((rulesFor b).filterMap waitSp).map fun R => ⟨R, 1⟩
def flag (o : Bool) : List LK := if o then [⟨.fLB30a, 1⟩] else []

/-- New recognizers. -/
def starts (c : LClass) : List LK := ((rulesFor c).filter fun R => !isNum R && R != .LB30a).map fun R => ⟨R, 0⟩
def startsNum (c : LClass) : List LK := ((rulesFor c).filter isNum).map fun R => ⟨R, 0⟩
def startsFlag (c : LClass) (o : Bool) : List LK := if c = .RI ∧ o = false then [⟨.LB30a, 0⟩] else []

/-- The context in which `c` is read after `h`. -/
def gOf (h : List LC) (c : LC) : Ctx := ⟨false, last h, c.2, false⟩

/-- The active recognizers of the rules for numbers. -/
def nums : List LC → List LK
  | [] => []
  | c :: h => (nums h ++ startsNum c.1).filterMap fun k => (evOf (gOf h c) k c.1.num).1

/-- Everything that is active after reading `h` (nearest class first). -/
def acts (h : List LC) : List LK := pairs (last h) ++ spaced (last (skip h)) ++ flag (odd h) ++ nums h

/-- Everything that listens to the next class. -/
def listen (h : List LC) (c : LClass) : List LK := acts h ++ (starts c ++ startsFlag c (odd h) ++ startsNum c)

theorem rules_split (c : LClass) (o : Bool) (h : ¬ (c = .RI ∧ o = true)) :
    ((rulesFor c).map fun R => (⟨R, 0⟩ : LK)).Perm (starts c ++ startsFlag c o ++ startsNum c) := by
  by_cases hc : c = .RI
  · subst hc
    have ho : o = false := by cases o <;> simp_all
    subst ho
    decide
  · have : startsFlag c o = [] := by unfold startsFlag; rw [if_neg (fun h => hc h.1)]
    rw [this, List.append_nil]
    clear h this
    revert hc
    cases c <;> intro hc <;> first | (exact absurd rfl hc) | decide

/-- Everything about one recognizer. -/
theorem ev_eq (g : Ctx) (fn : Rule) (ml : Int) (c : Int) :
    evOf g ⟨fn, ml⟩ c =
      (if (run fn g ⟨0, ml, none, [], some fn⟩ 0 c).2.2.isNone then none
        else some (absOf { (run fn g ⟨0, ml, none, [], some fn⟩ 0 c).2.1 with next := (run fn g ⟨0, ml, none, [], some fn⟩ 0 c).2.2 }),
       if (run fn g ⟨0, ml, none, [], some fn⟩ 0 c).2.2.isNone && decide ((run fn g ⟨0, ml, none, [], some fn⟩ 0 c).2.1.matchLen > 0)
        then (run fn g ⟨0, ml, none, [], some fn⟩ 0 c).2.1.penalties else []) := rfl

/-- State functions that wait for one class. -/
def isPair (R : Rule) : Bool := R ∈ [.CRLF, .fLB21a, .fLB21b, .fLB22, .fLB23_1, .fLB23_2, .fLB23a_1, .fLB23a_2, .fLB24a_1, .fLB24a_2,
  .fLB26_1, .fLB26_2, .fLB26_3, .fLB27_1, .fLB27_2, .fLB28, .fLB29, .fLB30_1, .fLB30_2, .fLB30b]

/-- State functions that skip spaces. -/
def isSp (R : Rule) : Bool := R ∈ [.fLB8, .fLB14, .fLB15, .fLB16, .fLB17]

theorem pairs_are (a : LClass) : ∀ k ∈ pairs a, isPair k.fn = true ∧ k.ml = 1 := by cases a <;> decide

theorem spaced_are (b : LClass) : ∀ k ∈ spaced b, isSp k.fn = true ∧ k.ml = 1 := by cases b <;> decide

theorem ev_pair (g : Ctx) (k : LK) (h : isPair k.fn = true) (c : Int) : (evOf g k c).1 = none := by
  obtain ⟨fn, ml⟩ := k
  revert h
  cases fn <;> intro h <;> first
    | (cases h; done)
    | (simp only [ev_eq, run, accIf, acc, abort, Rec.doAccept, Rec.doAbort]; split <;> rfl)

theorem ev_sp (g : Ctx) (k : LK) (h : isSp k.fn = true) (c : LClass) : (evOf g k c.num).1 = if c = .SP then some k else none := by
  obtain ⟨fn, ml⟩ := k
  revert h
  by_cases hc : c = .SP
  · rw [if_pos hc]
    subst hc
    cases fn <;> intro h <;> first | (cases h; done) | rfl
  · rw [if_neg hc]
    have : isIn c.num [LClass.SP] = false := by rw [isIn_num]; simpa using hc
    cases fn <;> intro h <;> first
      | (cases h; done)
      | (simp only [ev_eq, run, this, accIf, acc, abort, Rec.doAccept, Rec.doAbort, Bool.false_eq_true, if_false]; first | rfl | (split <;> rfl))

/-- How a new recognizer goes on does not depend on the context. -/
theorem ev_start (g g' : Ctx) (R : Rule) (hR : R ≠ .fLB30a) (ml : Int) (c : Int) : (evOf g ⟨R, ml⟩ c).1 = (evOf g' ⟨R, ml⟩ c).1 := by
  cases R <;> first
    | (exact absurd rfl hR)
    | rfl
    | (simp only [ev_eq, run, accIf, accNum, acc, abort, more, stay, Rec.doAccept, Rec.doAbort]; (repeat' split) <;> first | rfl | simp_all)

/-- A context to compute with. -/
def g0 : Ctx := ⟨false, .sot, false, false⟩

theorem filterMap_congr' {α β : Type} {l : List α} {f g : α → Option β} (h : ∀ a ∈ l, f a = g a) : l.filterMap f = l.filterMap g := by
  induction l with
  | nil => rfl
  | cons a l ih => rw [List.filterMap_cons, List.filterMap_cons, h a List.mem_cons_self, ih fun a ha => h a (List.mem_cons_of_mem _ ha)]

theorem starts_next (g : Ctx) (c : LClass) :
    ((starts c).filterMap fun k => (evOf g k c.num).1).Perm (pairs c ++ spaced c) := by
  have h1 : ((starts c).filterMap fun k => (evOf g k c.num).1) = (starts c).filterMap fun k => (evOf g0 k c.num).1 := by
    apply filterMap_congr'
    intro k hk
    have h2 : k.fn ≠ .fLB30a := by
      have : ∀ k ∈ starts c, k.fn ≠ .fLB30a := by cases c <;> decide
      exact this k hk
    exact ev_start g g0 k.fn h2 k.ml c.num
  rw [h1]
  cases c <;> decide

theorem last_cons (c : LC) (h : List LC) : last (c :: h) = if c.1 = .eot then .sot else c.1 := rfl

theorem pairs_last (c : LC) (h : List LC) : pairs (last (c :: h)) = pairs c.1 := by
  rw [last_cons]
  by_cases hc : c.1 = .eot
  · rw [if_pos hc, hc]; rfl
  · rw [if_neg hc]

theorem spaced_last (c : LC) (h : List LC) : spaced (last (c :: h)) = spaced c.1 := by
  rw [last_cons]
  by_cases hc : c.1 = .eot
  · rw [if_pos hc, hc]; rfl
  · rw [if_neg hc]

theorem skip_sp {c : LC} (hc : c.1 = .SP) (h : List LC) : skip (c :: h) = skip h := by simp [skip, hc]
theorem skip_not {c : LC} (hc : c.1 ≠ .SP) (h : List LC) : skip (c :: h) = c :: h := by simp [skip, hc]

theorem acts_step (h : List LC) (c : LC) :
    ((listen h c.1).filterMap fun k => (evOf (gOf h c) k c.1.num).1).Perm (acts (c :: h)) := by
  have e1 : ((pairs (last h)).filterMap fun k => (evOf (gOf h c) k c.1.num).1) = [] := by
    rw [List.filterMap_eq_nil_iff]
    exact fun k hk => ev_pair _ k (pairs_are _ k hk).1 _
  have e2 : ((spaced (last (skip h))).filterMap fun k => (evOf (gOf h c) k c.1.num).1) = if c.1 = .SP then spaced (last (skip h)) else [] := by
    by_cases hc : c.1 = .SP
    · rw [if_pos hc]
      have : ∀ l : List LK, (∀ k ∈ l, isSp k.fn = true) → (l.filterMap fun k => (evOf (gOf h c) k c.1.num).1) = l := by
        intro l
        induction l with
        | nil => intro _; rfl
        | cons k l ih =>
          intro hl
          rw [List.filterMap_cons, ev_sp _ k (hl k List.mem_cons_self), if_pos hc]
          simp only
          rw [ih fun k hk => hl k (List.mem_cons_of_mem _ hk)]
      exact this _ fun k hk => (spaced_are _ k hk).1
    · rw [if_neg hc, List.filterMap_eq_nil_iff]
      intro k hk
      rw [ev_sp _ k (spaced_are _ k hk).1, if_neg hc]
  have e3 : ((flag (odd h) ++ startsFlag c.1 (odd h)).filterMap fun k => (evOf (gOf h c) k c.1.num).1) = flag (odd (c :: h)) := by
    have ho : odd (c :: h) = (c.1 == .RI && (c.2 || !odd h)) := rfl
    rw [ho]
    unfold gOf
    generalize odd h = o
    generalize last h = a
    obtain ⟨d, t⟩ := c
    simp only
    by_cases hc : d = .RI
    · subst hc
      cases o <;> cases t <;> rfl
    · have h1 : isIn d.num [LClass.RI] = false := by rw [isIn_num]; simpa using hc
      cases o <;> simp [flag, startsFlag, hc, ev_eq, run, h1, abort, Rec.doAbort]
  have e4 := starts_next (gOf h c) c.1
  unfold listen acts
  rw [pairs_last]
  have hsp : (if c.1 = .SP then spaced (last (skip h)) else []) ++ spaced c.1 = spaced (last (skip (c :: h))) := by
    by_cases hc : c.1 = .SP
    · rw [if_pos hc, skip_sp hc, hc]
      exact List.append_nil _
    · rw [if_neg hc, skip_not hc, spaced_last]; rfl
  have hp : (pairs (last h) ++ spaced (last (skip h)) ++ flag (odd h) ++ nums h ++ (starts c.1 ++ startsFlag c.1 (odd h) ++ startsNum c.1)).Perm
      (pairs (last h) ++ spaced (last (skip h)) ++ starts c.1 ++ (flag (odd h) ++ startsFlag c.1 (odd h)) ++ (nums h ++ startsNum c.1)) := by
    rw [List.perm_iff_count]
    intro k
    simp only [List.count_append]
    omega
  refine (hp.filterMap _).trans ?_
  simp only [List.filterMap_append]
  rw [e1, e2, List.nil_append]
  have e3' := e3
  rw [List.filterMap_append] at e3'
  have e5 : ((nums h).filterMap fun k => (evOf (gOf h c) k c.1.num).1) ++ ((startsNum c.1).filterMap fun k => (evOf (gOf h c) k c.1.num).1) = nums (c :: h) := by
    simp only [nums, List.filterMap_append]
  rw [e3', e5, ← hsp]
  refine List.Perm.append_right _ (List.Perm.append_right _ ?_)
  refine (List.Perm.append_left _ e4).trans ?_
  rw [List.perm_iff_count]
  intro k
  simp only [List.count_append]
  omega

/-! ### The breaker -/

/-- A state of the breaker after reading `h`. -/
structure Rep (h : List LC) (b : LBrk) : Prop where
  holds : Holds V b.pub (acts h)
  blocked : b.blocked = odd h
  last : b.last = last h

theorem subscribe_holds (c : LClass) : ∀ (rules : List Rule) (q : Pub LRec) (L : List LK), Holds V q L →
    ∃ q', subscribeAll c rules q = some q' ∧ Holds V q' (L ++ rules.map fun R => ⟨R, 0⟩) := by
  intro rules
  induction rules with
  | nil => intro q L h; exact ⟨q, rfl, by simpa using h⟩
  | cons R rules ih =>
    intro q L h
    obtain ⟨p1, h1, h2⟩ := push_holds V h (Rec.new c.num (some R) : LRec) rfl
    obtain ⟨p2, h3, h4⟩ := ih p1 _ h2
    refine ⟨p2, ?_, ?_⟩
    · simp only [subscribeAll, h1, Option.bind_some, h3]
    · have : V.abs (Rec.new c.num (some R) : LRec) = ⟨R, 0⟩ := rfl
      rw [this] at h4
      simpa using h4

theorem start_rep {h : List LC} {b : LBrk} (hR : Rep h b) (c : LClass) :
    ∃ b', startRules b c = some b' ∧ Holds V b'.pub (listen h c) ∧ b'.blocked = b.blocked ∧ b'.last = b.last := by
  unfold startRules
  by_cases hb : c = .RI ∧ odd h = true
  · obtain ⟨rfl, ho⟩ := hb
    refine ⟨b, by rw [hR.blocked, ho]; rfl, ?_, rfl, rfl⟩
    have : listen h .RI = acts h := by
      unfold listen
      rw [ho]
      exact List.append_nil _
    rw [this]
    exact hR.holds
  · have : (c == .RI && b.blocked) = false := by
      rw [hR.blocked]
      cases hc : odd h with
      | false => simp
      | true => rw [hc] at hb; simpa using hb
    rw [this]
    obtain ⟨q, h1, h2⟩ := subscribe_holds c (rulesFor c) b.pub _ hR.holds
    refine ⟨{ b with pub := q }, by simp [h1], ?_, rfl, rfl⟩
    exact h2.perm_of V (List.Perm.append_left _ (rules_split c (odd h) hb))

/-- Does this recognizer touch the breaker? -/
def touches (k : LK) : Bool := k.fn == .LB30a || k.fn == .fLB30a

/-- Recognizers for which `make` gets a proper length. -/
def fine (k : LK) : Prop := (k.fn = .step4 ∨ k.fn = .step5) → 1 ≤ k.ml

theorem ctx_still (g : Ctx) (k : LK) (c : Int) (h1 : touches k = false) (h2 : fine k) : ctxOf g k c = g := by
  obtain ⟨fn, ml⟩ := k
  have h3 : fn = .step4 ∨ fn = .step5 → ¬ (ml < 1) := by
    intro h
    have := h2 h
    simp only at this
    omega
  clear h2
  cases fn <;>
    first
      | (cases h1; done)
      | (simp only [ctxOf, recOf, subs, Rec.sub, Rec.runeEvent, run, acc, more, stay, abort, accIf, accNum]; done)
      | (simp only [ctxOf, recOf, subs, Rec.sub, Rec.runeEvent, run, acc, more, stay, abort, accIf, accNum]; (repeat' split) <;> first | rfl | (exfalso; apply h3 <;> simp_all; done))

/-- The state functions of the rules for numbers. -/
def numFn (R : Rule) : Bool := R ∈ [.LB25, .step2, .step3, .step4, .step5]

theorem ev_num (g : Ctx) (k k' : LK) (hk : numFn k.fn = true) (hm : 0 ≤ k.ml) (c : Int) (h : (evOf g k c).1 = some k') :
    k'.ml = k.ml + 1 ∧ k'.fn ∈ [Rule.step2, .step3, .step4, .step5] := by
  obtain ⟨fn, ml⟩ := k
  revert h hk
  cases fn <;> intro hk <;> first
    | (cases hk; done)
    | (simp only [ev_eq, run, more, abort, accNum, acc]; (repeat' split) <;> intro h <;> simp_all [absOf, Rec.doAbort, Rec.doAccept] <;> (subst h; simp))

theorem startsNum_are (c : LClass) : ∀ k ∈ startsNum c, numFn k.fn = true ∧ k.ml = 0 := by cases c <;> decide

theorem nums_are : ∀ (h : List LC), ∀ k ∈ nums h, 1 ≤ k.ml ∧ k.fn ∈ [Rule.step2, .step3, .step4, .step5] := by
  intro h
  induction h with
  | nil => intro k hk; cases hk
  | cons c h ih =>
    intro k hk
    simp only [nums, List.mem_filterMap, List.mem_append] at hk
    obtain ⟨k0, hk0, he⟩ := hk
    rcases hk0 with hk0 | hk0
    · obtain ⟨i1, i2⟩ := ih k0 hk0
      have : numFn k0.fn = true := by
        simp only [List.mem_cons, List.not_mem_nil, or_false] at i2
        rcases i2 with h | h | h | h <;> rw [h] <;> rfl
      obtain ⟨j1, j2⟩ := ev_num _ k0 k this (by omega) _ he
      exact ⟨by omega, j2⟩
    · obtain ⟨i1, i2⟩ := startsNum_are _ k0 hk0
      obtain ⟨j1, j2⟩ := ev_num _ k0 k i1 (by omega) _ he
      exact ⟨by omega, j2⟩

theorem listen_fine (h : List LC) (c : LClass) (k : LK) (hk : k ∈ listen h c) : fine k := by
  unfold listen acts at hk
  simp only [List.mem_append] at hk
  intro hf
  rcases hk with (((hk | hk) | hk) | hk) | (hk | hk) | hk
  · have := (pairs_are _ k hk).1
    rcases hf with hf | hf <;> (rw [hf] at this; cases this)
  · have := (spaced_are _ k hk).1
    rcases hf with hf | hf <;> (rw [hf] at this; cases this)
  · unfold flag at hk
    split at hk
    · simp only [List.mem_cons, List.not_mem_nil, or_false] at hk
      subst hk
      rcases hf with hf | hf <;> cases hf
    · cases hk
  · exact (nums_are h k hk).1
  · have : ∀ k ∈ starts c, k.fn ≠ .step4 ∧ k.fn ≠ .step5 := by cases c <;> decide
    rcases hf with hf | hf
    · exact absurd hf (this k hk).1
    · exact absurd hf (this k hk).2
  · unfold startsFlag at hk
    split at hk
    · simp only [List.mem_cons, List.not_mem_nil, or_false] at hk
      subst hk
      rcases hf with hf | hf <;> cases hf
    · cases hk
  · have : ∀ k ∈ startsNum c, k.fn ≠ .step4 ∧ k.fn ≠ .step5 := by cases c <;> decide
    rcases hf with hf | hf
    · exact absurd hf (this k hk).1
    · exact absurd hf (this k hk).2

theorem listen_touch (h : List LC) (c : LClass) : (listen h c).filter touches = flag (odd h) ++ startsFlag c (odd h) := by
  have e1 : ∀ a, (pairs a).filter touches = [] := by intro a; cases a <;> decide
  have e2 : ∀ a, (spaced a).filter touches = [] := by intro a; cases a <;> decide
  have e3 : ∀ a, (starts a).filter touches = [] := by intro a; cases a <;> decide
  have e4 : ∀ a, (startsNum a).filter touches = [] := by intro a; cases a <;> decide
  have e5 : (nums h).filter touches = [] := by
    rw [List.filter_eq_nil_iff]
    intro k hk
    have := (nums_are h k hk).2
    simp only [List.mem_cons, List.not_mem_nil, or_false] at this
    unfold touches
    rcases this with h | h | h | h <;> rw [h] <;> decide
  have e6 : (flag (odd h)).filter touches = flag (odd h) := by cases odd h <;> rfl
  have e7 : (startsFlag c (odd h)).filter touches = startsFlag c (odd h) := by
    unfold startsFlag; split <;> rfl
  unfold listen acts
  simp only [List.filter_append, e1, e2, e3, e4, e5, e6, e7, List.nil_append, List.append_nil]

/-- Context after reading a class. -/
theorem ctx_after (h : List LC) (c : LC) (g : Ctx) (hg : g.blocked = odd h) (hs : g.subst = c.2) {L : List LK} (hp : L.Perm (listen h c.1)) :
    L.foldl (fun g k => V.ctx g k c.1.num) g = { g with blocked := odd (c :: h) } := by
  have hone : ((listen h c.1).filter touches).length ≤ 1 := by
    rw [listen_touch]
    unfold flag startsFlag
    cases odd h
    · simp only [Bool.false_eq_true, if_false, List.nil_append]
      split <;> simp
    · simp
  rw [fold_single V hp touches c.1.num (fun k hk ht g => ctx_still g k c.1.num ht (listen_fine h c.1 k hk)) hone g, listen_touch]
  obtain ⟨b, pv, sb, pn⟩ := g
  simp only at hg hs
  subst hg hs
  have ho : odd (c :: h) = (c.1 == .RI && (c.2 || !odd h)) := rfl
  rw [ho]
  generalize odd h = o
  obtain ⟨d, t⟩ := c
  simp only
  by_cases hc : d = .RI
  · subst hc
    cases o <;> cases t <;> rfl
  · have h1 : isIn d.num [LClass.RI] = false := by rw [isIn_num]; simpa using hc
    cases o <;> simp [flag, startsFlag, hc, V, ctxOf, recOf, subs, Rec.sub, Rec.runeEvent, run, h1, abort]

/-- Position `j` of the penalties after the default values have been set. -/
def fixed (df : Int) (t : Nat → Int) (j : Nat) : Int := if j = 1 ∧ t 1 = 0 then df else t j

theorem setPenalty1_getD (ps : List Int) (df : Int) (j : Nat) : (setPenalty1 ps df).getD j 0 = fixed df (fun j => ps.getD j 0) j := by
  unfold fixed setPenalty1
  match ps, j with
  | [], 0 => rfl
  | [], 1 => rfl
  | [], j + 2 => simp
  | [x], 0 => rfl
  | [x], 1 => rfl
  | [x], j + 2 => simp
  | x :: y :: rest, 0 => simp only; split <;> simp
  | x :: y :: rest, 1 => simp only; split <;> simp_all
  | x :: y :: rest, j + 2 => simp only; split <;> simp

theorem map_lift_getD (l : List Int) (j : Nat) : (l.map lift).getD j 0 = lift (l.getD j 0) := by
  rw [List.getD_eq_getElem?_getD, List.getD_eq_getElem?_getD, List.getElem?_map]
  cases l[j]? <;> rfl

/-- The default for a position about which no rule says anything. -/
def dflt (h : List LC) (c : LC) : Int := if c.2 = true ∧ last h = c.1 then noBreak else DefaultPenalty

/-- Sum of what is said at index `j` when `c` is read after `h`. -/
def tot (h : List LC) (c : LC) (j : Nat) : Int := ((listen h c.1).map fun k => (evOf (gOf h c) k c.1.num).2.getD j 0).sum

theorem setPenalty1_length (ps : List Int) (df : Int) : (setPenalty1 ps df).length = max 2 ps.length := by
  unfold setPenalty1
  match ps with
  | [] => rfl
  | [x] => rfl
  | x :: y :: rest => simp only; split <;> simp <;> omega

/-- Length of the list of penalties. -/
def plen (h : List LC) (c : LC) : Nat := max 2 (((listen h c.1).map fun k => (evOf (gOf h c) k c.1.num).2.length).foldl max 0)

theorem longest_perm {lam : Int} {L L' : List LK} (h : Longest V lam L) (hp : L.Perm L') : Longest V lam L' := by
  refine ⟨h.nonneg, fun k hk => h.ge k (hp.mem_iff.mpr hk), ?_⟩
  rcases h.eq with h | ⟨k, hk, h⟩
  · exact Or.inl h
  · exact Or.inr ⟨k, hp.mem_iff.mp hk, h⟩

theorem step_rep {h : List LC} {b : LBrk} (hR : Rep h b) (r : Int) (c : LC) :
    ∃ b', ((startRules b c.1).bind fun b => proceed b r c.1 c.2) = some b' ∧ Rep (c :: h) b' ∧
      Longest V b'.longest (acts (c :: h)) ∧ (∀ j, b'.penalties.getD j 0 = lift (fixed (dflt h c) (tot h c) j)) ∧
      b'.penalties.length = plen h c := by
  obtain ⟨b1, h1, h2, h3, h4⟩ := start_rep hR c.1
  have hVe : ∀ k, V.ev ⟨b1.blocked, b1.last, c.2, false⟩ k c.1.num = evOf (gOf h c) k c.1.num := by
    intro k
    exact ev_ctx (gOf h c) ⟨b1.blocked, b1.last, c.2, false⟩ (by simp only [h4, hR.last, gOf]) rfl k _
  obtain ⟨g', q, lam, gone, e1, e2, e3, e4, e5, L, e6, e7⟩ := publish_holds V h2 ⟨b1.blocked, b1.last, c.2, false⟩ r c.1.num
  simp only [hVe] at e2 e3 e4 e5
  rw [ctx_after h c _ (by simp only [h3, hR.blocked]) rfl e6] at e7
  refine ⟨_, by rw [h1, Option.bind_some]; unfold proceed; rw [e1, Option.bind_some, e7]; rfl, ?_, ?_, ?_, ?_⟩
  · exact ⟨e2.perm_of V (acts_step h c), rfl, rfl⟩
  · exact longest_perm e5 (acts_step h c)
  · intro j
    simp only [h4, hR.last]
    rw [map_lift_getD]
    congr 1
    by_cases hd : c.2 = true ∧ last h = c.1
    · rw [if_pos hd, setPenalty1_getD]
      unfold dflt
      rw [if_pos hd]
      unfold fixed tot
      simp only [e3]
    · rw [if_neg hd, setPenalty1_getD]
      unfold dflt
      rw [if_neg hd]
      unfold fixed tot
      simp only [e3]
  · simp only [List.length_map]
    split <;> rw [setPenalty1_length, e4] <;> rfl

end Line
end Uax
