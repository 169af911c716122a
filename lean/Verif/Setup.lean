/-
Set-up of the class tables, by several goroutines: emoji/emoji.go:35-52, grapheme/grapheme.go:47-69 and 128-137,
grapheme/string.go:40-42, uax29/uax29.go:67-91, 137-143 and 151-159, uax14/uax14.go:80-102 and 172-176, together with
`setupEmojisClasses`, `setupGraphemeClasses`, `setupUAX29Classes` (the order of their assignments is that of the files).

A goroutine moves from one access of shared memory to the next; moves of different goroutines are interleaved in any
way. `sync.Once` is modelled as its documentation says: the first caller of `Do` runs the function, others wait until it
has returned. Simplifications: the variable of a class (`emoji.Extended_Pictographic`) and its slot in the slice are assigned in
one move; a panic ends the goroutine and not the program. The tables, and for uax14, whose file of classes is not in /repo, also
the number of the classes and their order are parameters.
-/

namespace Uax.Setup

/-- The packages with class tables: emoji.go:45-52, grapheme.go:60-69, uax29.go:80-91, uax14.go:95-102. -/
inductive Pkg where
  | emoji | grapheme | word | line
deriving DecidableEq, Repr

/-- What set-up makes: `is p c` is the table of class `c` (emoji.go:51, grapheme.go:67, uax29.go:89, uax14.go:101). -/
structure Source where
  is : Pkg → Nat → Int → Bool
  lineSize : Nat
  lineOrder : List Nat

/-- The number of classes, which is the length of the slice (as in graphemeclasses.go:68). -/
def size (S : Source) : Pkg → Nat
  | .emoji => 6
  | .grapheme => 13
  | .word => 18
  | .line => S.lineSize

/-- The order in which the slots are assigned (as in graphemeclasses.go:72-2593). -/
def order (S : Source) : Pkg → List Nat
  | .emoji => [0, 1, 2, 3, 4, 5]
  | .grapheme => [0, 1, 4, 5, 7, 9, 3, 6, 10, 12, 2, 8, 11]
  | .word => [1, 4, 8, 14, 6, 13, 17, 10, 3, 2, 0, 16, 15, 12, 7, 9, 5, 11]
  | .line => S.lineOrder

/-- `sync.Once`, as in emoji.go:45. -/
inductive Once where
  | idle | running | done
deriving DecidableEq, Repr

/-- The variables of a package (as graphemeclasses.go:19 and grapheme.go:60): the `Once`, the slice of tables (nil at first) with its
slots (nil at first). `made` counts how often the function of the `Once` was entered. -/
structure Vars where
  once : Once
  slots : Option (List (Option (Int → Bool)))
  made : Nat

/-- Calls of the API (the lines are given above). `classFor` is `ClassForRune`, or `EmojisClassForRune`; `graphemeClass` and
`wordClass` are the breakers' `CodePointClassFor` (grapheme.go:128-137, uax29.go:151-159). -/
inductive Call where
  | setupEmojisClasses | setupGraphemeClasses | setupUAX29Classes | setupClasses
  | newBreaker | newWordBreaker | newLineWrap | stringFromString
  | classFor (p : Pkg) (r : Int) | graphemeClass (r : Int) | wordClass (r : Int)
deriving DecidableEq, Repr

/-- Results of emoji.go:35-43, grapheme.go:47-58, uax29.go:67-78, uax14.go:80-93: the number of a class, the class of other characters, the
pictographs' or the end of text's. -/
inductive Res where
  | returned | cls (c : Nat) | other | pict | eot | panicked
deriving DecidableEq, Repr

/-- What a goroutine is going to do: its place in the functions given above (as grapheme.go:47-69). -/
inductive Pc where
  | idle
  | doing (c : Call) (todo : List Pkg)                     -- calls of `Once.Do` that are left
  | body (c : Call) (p : Pkg) (k : Nat) (todo : List Pkg)  -- inside of the function of a `Once`
  | scanning (c : Call) (p : Pkg) (r : Int) (k : Nat)      -- in the loop over the classes
  | askPict (c : Call) (r : Int)                           -- `unicode.Is(emoji.Extended_Pictographic, r)`
  | ret (c : Call) (res : Res)
  | dead
deriving DecidableEq, Repr

/-- All variables, what each goroutine is going to do (as in grapheme.go:47-69), and its calls with their results, the last one first. -/
structure State where
  vars : Pkg → Vars
  pc : Nat → Pc
  log : Nat → List (Call × Res)

/-- When the program starts: nothing is set up (as in grapheme.go:60, graphemeclasses.go:19). -/
def init : State := ⟨fun _ => ⟨.idle, none, 0⟩, fun _ => .idle, fun _ => []⟩

/-- Assignment to a variable or slot, as in graphemeclasses.go:72. -/
def upd {α β : Type} [DecidableEq α] (f : α → β) (a : α) (b : β) : α → β := fun x => if x = a then b else f x

/-- The first move of a call: emoji.go:36, grapheme.go:48, uax29.go:68, uax14.go:81 and the set-up functions. -/
def begin : Call → Pc
  | .setupEmojisClasses => .doing .setupEmojisClasses [.emoji]
  | .setupGraphemeClasses => .doing .setupGraphemeClasses [.grapheme, .emoji]
  | .setupUAX29Classes => .doing .setupUAX29Classes [.word, .emoji]
  | .setupClasses => .doing .setupClasses [.line]
  | .newBreaker => .doing .newBreaker []
  | .newWordBreaker => .doing .newWordBreaker [.word, .emoji]
  | .newLineWrap => .doing .newLineWrap [.line]
  | .stringFromString => .doing .stringFromString [.grapheme, .emoji]
  | .classFor p r => if p ≠ .emoji ∧ r = 0 then .ret (.classFor p r) .eot else .scanning (.classFor p r) p r 0
  | .graphemeClass r => if r = 0 then .ret (.graphemeClass r) .eot else .scanning (.graphemeClass r) .grapheme r 0
  | .wordClass r => if r = 0 then .ret (.wordClass r) .eot else .scanning (.wordClass r) .word r 0

/-- After the loop over the classes: emoji.go:42, grapheme.go:57 and 131-136, uax29.go:77 and 153-158, uax14.go:92. -/
def afterLoop : Call → Int → Pc
  | .graphemeClass r', r => .askPict (.graphemeClass r') r
  | .wordClass r', r => .askPict (.wordClass r') r
  | c, _ => .ret c .other

/-- One move of goroutine `i` (emoji.go:35-52, grapheme.go:47-69 and 128-137, uax29.go:67-91 and 151-159, uax14.go:80-102); `none` if it
waits or has nothing to do. -/
def advance (S : Source) (i : Nat) (s : State) : Option State :=
  match s.pc i with
  | .idle => none
  | .dead => none
  | .ret c res => some { s with pc := upd s.pc i (if res = .panicked then .dead else .idle), log := upd s.log i ((c, res) :: s.log i) }
  | .doing c [] => some { s with pc := upd s.pc i (.ret c .returned) }
  | .doing c (p :: todo) =>
    match (s.vars p).once with
    | .done => some { s with pc := upd s.pc i (.doing c todo) }
    | .idle => some { s with vars := upd s.vars p { s.vars p with once := .running }, pc := upd s.pc i (.body c p 0 todo) }
    | .running => none
  | .body c p k todo =>
    match k with
    | 0 => some { s with vars := upd s.vars p { s.vars p with slots := some (List.replicate (size S p) none), made := (s.vars p).made + 1 },
                         pc := upd s.pc i (.body c p 1 todo) }
    | k + 1 =>
      match (order S p)[k]? with
      | some j => some { s with vars := upd s.vars p { s.vars p with slots := (s.vars p).slots.map fun l => l.set j (some (S.is p j)) },
                                pc := upd s.pc i (.body c p (k + 2) todo) }
      | none => some { s with vars := upd s.vars p { s.vars p with once := .done }, pc := upd s.pc i (.doing c todo) }
  | .scanning c p r k =>
    if k = size S p then some { s with pc := upd s.pc i (afterLoop c r) }
    else match (s.vars p).slots.bind fun l => l[k]? with
      | none => some { s with pc := upd s.pc i (.ret c .panicked) }
      | some none => some { s with pc := upd s.pc i (.scanning c p r (k + 1)) }
      | some (some f) => some { s with pc := upd s.pc i (if f r then .ret c (.cls k) else .scanning c p r (k + 1)) }
  | .askPict c r =>
    match (s.vars .emoji).slots.bind fun l => l[5]? with
    | some (some f) => some { s with pc := upd s.pc i (.ret c (if f r then .pict else .other)) }
    | _ => some { s with pc := upd s.pc i (.ret c .panicked) }

/-- A move: a goroutine which is not in a call makes one (as grapheme.go:47), or one goes on. -/
inductive Move where
  | call (i : Nat) (c : Call)
  | go (i : Nat)
deriving DecidableEq, Repr

/-- The effect of a move, as in grapheme.go:47-69. -/
def move (S : Source) (s : State) : Move → Option State
  | .call i c => if s.pc i = .idle then some { s with pc := upd s.pc i (begin c) } else none
  | .go i => advance S i s

/-- States that some schedule of calls (as grapheme.go:47-69) leads to. -/
def Reached (S : Source) (s : State) : Prop := ∃ ms : List Move, ms.foldlM (move S) init = some s

end Uax.Setup
