import Verif.DequeCap

/-! Properties C14 and C15: the rune queue. -/

namespace Uax

/-- C14. Every history of queue operations started on a fresh queue returns, operation by
operation and including panics, what an ideal list returns. -/
theorem C14_deque_refines_list (ops : List DqOp) :
    (Deque.empty.run ops).2 = (dqSpecRun [] ops).2 := by
  have := (Deque.run_match ops Deque.empty Deque.inv_empty).1
  rwa [Deque.abs_empty] at this

/-- C14, `LastRune` (deque.go:147): after every history it is the rune of the last
element of the ideal list, and on a non-empty queue it does not panic. -/
theorem C14_lastRune (ops : List DqOp) (h : (dqSpecRun [] ops).1 ≠ []) :
    (Deque.empty.run ops).1.lastRune = ((dqSpecRun [] ops).1.getLast h).r := by
  obtain ⟨_, ha, hi⟩ := Deque.run_match ops Deque.empty Deque.inv_empty
  rw [Deque.abs_empty] at ha
  generalize (dqSpecRun [] ops).1 = l at *
  generalize (Deque.empty.run ops).1 = q at *
  subst ha
  have hc : q.count ≠ 0 := by
    intro e; exact h (List.eq_nil_of_length_eq_zero (by rw [Deque.length_abs, e]))
  have hb := Deque.back_get (Deque.good_of_count hi hc) hc
  have hl := Deque.length_abs q
  have hlast : q.abs[q.count - 1]? = some (q.abs.getLast h) := by
    rw [← hl, ← List.getLast?_eq_getElem?, List.getLast?_eq_some_getLast h]
  unfold Deque.lastRune
  rw [Deque.rd_nat, ← hb, hlast]; rfl

/-- C14: a panic happens exactly for the four access operations on an empty queue and for
indices out of range. -/
theorem C14_panics_only_when_empty_or_out_of_range (ops : List DqOp) (op : DqOp)
    (hl : none ∉ (dqSpecRun [] ops).2) :
    (Deque.empty.run (ops ++ [op])).2.getLast? = some none ↔
      (((dqSpecRun [] ops).1 = [] ∧ op ∈ [.popFront, .popBack, .front, .back]) ∨
       (∃ i, (op = .at' i ∨ ∃ a, op = .setAt i a) ∧
          (i < 0 ∨ ((dqSpecRun [] ops).1.length : Int) ≤ i))) := by
  rw [C14_deque_refines_list]
  have key : ∀ (ops : List DqOp) (l : List Atom), none ∉ (dqSpecRun l ops).2 →
      ((dqSpecRun l (ops ++ [op])).2.getLast? = some none ↔
        dqSpec (dqSpecRun l ops).1 op = none) := by
    intro ops
    induction ops with
    | nil =>
      intro l _
      simp only [List.nil_append, dqSpecRun]
      cases dqSpec l op <;> simp
    | cons o ops ih =>
      intro l hn
      simp only [List.cons_append, dqSpecRun] at hn ⊢
      cases e : dqSpec l o with
      | none => simp [e] at hn
      | some p =>
        simp only [e, List.mem_cons, not_or] at hn
        have hne : (dqSpecRun p.1 (ops ++ [op])).2 ≠ [] := by
          cases ops with
          | nil => simp only [List.nil_append, dqSpecRun]; split <;> simp
          | cons a t => simp only [List.cons_append, dqSpecRun]; split <;> simp
        have := ih p.1 hn.2
        simp only
        rw [← this, List.getLast?_cons, List.getLast?_eq_some_getLast hne]
        simp
  rw [key ops [] hl]
  generalize (dqSpecRun [] ops).1 = l
  cases op with
  | popFront => cases l <;> simp [dqSpec]
  | popBack =>
    simp only [dqSpec]
    cases h : l.getLast? with
    | none => simp at h; simp [h]
    | some a => have : l ≠ [] := by rintro rfl; simp at h
                simp [this]
  | front => cases l <;> simp [dqSpec]
  | back => cases l <;> simp [dqSpec]
  | at' i =>
    simp only [dqSpec]
    split
    · simp; omega
    · simp; omega
  | setAt i a => simp [dqSpec]; omega
  | _ => simp [dqSpec]

/-- C15, first half. At the end of every history (and hence at every moment of it, since
every prefix is a history) the capacity is 0 or a power of two of at least 64, and the
elements fit. -/
theorem C15_capacity_power_of_two (ops : List DqOp) :
    ((Deque.empty.run ops).1.buf.length = 0 ∨
      (64 ≤ (Deque.empty.run ops).1.buf.length ∧ ∃ k, (Deque.empty.run ops).1.buf.length = 2 ^ k)) ∧
    (Deque.empty.run ops).1.len ≤ (Deque.empty.run ops).1.buf.length := by
  obtain ⟨_, _, hi⟩ := Deque.run_match ops Deque.empty Deque.inv_empty
  generalize (Deque.empty.run ops).1 = q at *
  rcases hi with rfl | g
  · simp [Deque.empty, Deque.len]
  · exact ⟨Or.inr ⟨g.cap, g.pow⟩, g.cnt⟩

/-- C15, second half. As long as `Clear` has not been called, a buffer above the
minimum size is always more than a quarter full. -/
theorem C15_capacity_at_most_four_times (ops : List DqOp) (hc : DqOp.clear ∉ ops) :
    (Deque.empty.run ops).1.buf.length ≤ 64 ∨
      (Deque.empty.run ops).1.buf.length < 4 * (Deque.empty.run ops).1.len :=
  Deque.run_tight ops Deque.empty Deque.inv_empty (Or.inl (by decide)) hc

/-- C15: `Clear` keeps the buffer, which is why the second half excludes it. -/
theorem C15_clear_keeps_buffer (ops : List DqOp) :
    ∃ q', (Deque.empty.run ops).1.step .clear = some (q', .unit) ∧
      q'.buf.length = (Deque.empty.run ops).1.buf.length ∧ q'.len = 0 := by
  obtain ⟨_, _, hi⟩ := Deque.run_match ops Deque.empty Deque.inv_empty
  obtain ⟨q', e, _, ha, hl⟩ := Deque.clear_spec hi
  refine ⟨q', by simp [Deque.step, e], hl, ?_⟩
  have := Deque.length_abs q'
  rw [ha] at this; exact this.symm

section Examples

private def a1 : Atom := ⟨104, 1, 2⟩
private def a2 : Atom := ⟨105, 0, 0⟩
private def a3 : Atom := ⟨106, 5, -7⟩

/-- A history with wrap-around (`pushFront` on a fresh buffer wraps to index 63). -/
example : (Deque.empty.run [.pushBack a1, .pushFront a2, .pushBack a3, .rotate (-1), .popFront,
    .len, .at' 5]).2 = [some .unit, some .unit, some .unit, some .unit, some (.atom a3),
      some (.nat 2), none] := by decide +kernel

example : (dqSpecRun [] [.pushBack a1, .pushFront a2]).1 ≠ [] := by decide
example : none ∉ (dqSpecRun [] [.pushBack a1, .pushFront a2]).2 := by decide
example : DqOp.clear ∉ [DqOp.pushBack a1, .popFront] := by decide
/-- A history that grows the buffer past the minimum, so that the strict branch applies. -/
example : (Deque.empty.run (List.replicate 65 (.pushBack a1))).1.buf.length = 128 := by decide +kernel

end Examples

end Uax
