import Verif.Grapheme

/-! The grapheme breaker is a small automaton. -/

namespace Uax
namespace Graph

/-- States of the automaton: which recognizer is active. -/
inductive GA where
  | idle | cr | l | v | t | pict (n : Nat) | zwj (n : Nat) | ri
deriving DecidableEq, Repr

/-- The active recognizer: its state function and match length. -/
def GA.act : GA → Option (Rule × Int)
  | .idle => none
  | .cr => some (.CRLF, 1)
  | .l => some (.GB6b, 1)
  | .v => some (.GB7b, 1)
  | .t => some (.GB8b, 1)
  | .pict n => some (.GB11Cont, n)
  | .zwj n => some (.GB11Finish, n + 1)
  | .ri => some (.GB12Cont, 0)

/-- Next state. -/
def GA.next (a : GA) : GClass → GA
  | .CR => .cr
  | .L => .l
  | .V => .v
  | .LV => .v
  | .T => .t
  | .LVT => .t
  | .Pict => .pict 0
  | .Extend => match a with | .pict n => .pict (n + 1) | _ => .idle
  | .ZWJ => match a with | .pict n => .zwj n | _ => .idle
  | .RI => match a with | .ri => .idle | _ => .ri
  | _ => .idle

/-- What the active recognizer says. -/
def GA.old (a : GA) (c : GClass) : List Int :=
  match a, c with
  | .cr, .LF => [BANG, 3 * JOIN]
  | .cr, _ => [0, BANG, BANG]
  | .l, .L => [0, JOIN]
  | .l, .V => [0, JOIN]
  | .l, .LV => [0, JOIN]
  | .l, .LVT => [0, JOIN]
  | .v, .V => [0, JOIN]
  | .v, .T => [0, JOIN]
  | .t, .T => [0, JOIN]
  | .zwj _, .Pict => [0, JOIN]
  | .ri, .RI => [0, JOIN]
  | _, _ => []

/-- What a new recognizer says. -/
def fresh : GClass → List Int
  | .LF => [BANG, BANG]
  | .Control => [BANG, BANG]
  | .Extend => [0, JOIN]
  | .ZWJ => [0, JOIN]
  | .SpacingMark => [0, JOIN]
  | .Prepend => [JOIN]
  | _ => []

/-- The penalties. -/
def GA.pens (a : GA) (c : GClass) : List Int := setPenalty1 (Pub.addPens (fresh c) (a.old c)) penalty999

/-- The longest match of a state. -/
def GA.len (a : GA) : Int := (a.act.map (·.2)).getD 0

/-- A breaker in a given state. -/
def Rep (a : GA) (b : GBrk) : Prop :=
  b.blocked = decide (a = .ri) ∧ b.pub.gap = b.pub.q.length ∧
  match a.act with
  | none => b.pub.q = []
  | some (fn, m) => ∃ e u ps, b.pub.q = [⟨e, m, u, ps, some fn⟩]

set_option maxHeartbeats 2000000 in
theorem step_rep {a : GA} {b : GBrk} (h : Rep a b) (r : Int) (c : GClass) :
    ∃ b', (startRules b c).bind (fun b => proceed b r c) = some b' ∧ Rep (a.next c) b' ∧
      b'.longest = (a.next c).len ∧ b'.penalties = a.pens c := by
  obtain ⟨⟨q, gap, total⟩, bl, lo, pe⟩ := b
  obtain ⟨h1, h2, h3⟩ := h
  simp only at h1 h2 h3
  subst h1 h2
  cases a <;> simp only [GA.act] at h3
  case idle =>
    subst h3
    cases c <;> (refine ⟨_, rfl, ?_, rfl, rfl⟩; first | exact ⟨rfl, rfl, rfl⟩ | exact ⟨rfl, rfl, _, _, _, rfl⟩)
  case pict n =>
    obtain ⟨e, u, ps, rfl⟩ := h3
    have hm : ((n : Int) + 1 > 0) = True := by simp
    cases c
    case Extend =>
      refine ⟨⟨⟨[⟨e, n + 1, u, ps, some .GB11Cont⟩], 1, [0, JOIN]⟩, false, n + 1, [0, JOIN]⟩, ?_, ⟨rfl, rfl, e, u, ps, rfl⟩, rfl, rfl⟩
      simp [startRules, rulesFor, subscribeAll, Pub.push, Pub.top, Pub.bubbleDown, Pub.downSwap, proceed, Pub.publish,
        Pub.publishLoop, subs, Rec.sub, Rec.runeEvent, run, acc, more, abort, Rec.doAccept, Rec.doAbort, Rec.done, Rec.new, Rec.zero,
        Pub.fix, Pub.bubbleUp, Pub.upSwap, Pub.popAllDone, Pub.popDone, Pub.pop, Pub.addPens, GClass.num, setPenalty1, hm, Pub.swap]
      intro h; cases h
    case ZWJ =>
      refine ⟨⟨⟨[⟨e, n + 1, u, ps, some .GB11Finish⟩], 1, [0, JOIN]⟩, false, n + 1, [0, JOIN]⟩, ?_, ⟨rfl, rfl, e, u, ps, rfl⟩, rfl, rfl⟩
      simp [startRules, rulesFor, subscribeAll, Pub.push, Pub.top, Pub.bubbleDown, Pub.downSwap, proceed, Pub.publish,
        Pub.publishLoop, subs, Rec.sub, Rec.runeEvent, run, acc, more, abort, Rec.doAccept, Rec.doAbort, Rec.done, Rec.new, Rec.zero,
        Pub.fix, Pub.bubbleUp, Pub.upSwap, Pub.popAllDone, Pub.popDone, Pub.pop, Pub.addPens, GClass.num, setPenalty1, hm, Pub.swap]
      intro h; cases h
    all_goals (refine ⟨_, rfl, ?_, rfl, rfl⟩; first | exact ⟨rfl, rfl, rfl⟩ | exact ⟨rfl, rfl, _, _, _, rfl⟩)
  case zwj n =>
    obtain ⟨e, u, ps, rfl⟩ := h3
    have hm : ((n : Int) + 1 + 1 > 0) = True := by simp; omega
    cases c
    case Pict =>
      refine ⟨⟨⟨[⟨13, 0, none, [], some .GB11Cont⟩], 1, [0, JOIN]⟩, false, 0, [0, JOIN]⟩, ?_, ⟨rfl, rfl, 13, none, [], rfl⟩, rfl, rfl⟩
      simp [startRules, rulesFor, subscribeAll, Pub.push, Pub.top, Pub.bubbleDown, Pub.downSwap, proceed, Pub.publish,
        Pub.publishLoop, subs, Rec.sub, Rec.runeEvent, run, acc, more, abort, Rec.doAccept, Rec.doAbort, Rec.done, Rec.new, Rec.zero,
        Pub.fix, Pub.bubbleUp, Pub.upSwap, Pub.popAllDone, Pub.popDone, Pub.pop, Pub.addPens, GClass.num, setPenalty1, hm, Pub.swap]
      intro h; cases h
    all_goals (refine ⟨_, rfl, ?_, rfl, rfl⟩; first | exact ⟨rfl, rfl, rfl⟩ | exact ⟨rfl, rfl, _, _, _, rfl⟩)
  all_goals
    obtain ⟨e, u, ps, rfl⟩ := h3
    cases c <;> (refine ⟨_, rfl, ?_, rfl, rfl⟩; first | exact ⟨rfl, rfl, rfl⟩ | exact ⟨rfl, rfl, _, _, _, rfl⟩)

end Graph
end Uax
