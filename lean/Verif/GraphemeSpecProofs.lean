import Verif.GraphemeVerdict

/-! The automaton decides as the rules of UAX#29 without GB9b do. -/

namespace Uax
open Seg

namespace Graph

/-- State after a text, nearest class first. -/
def st (l : List GClass) : GA := l.foldr (fun c a => a.next c) .idle

theorem st_run (cs : List GClass) : GA.run .idle cs = st cs.reverse := by
  unfold GA.run st; rw [List.foldr_reverse]

theorem st_ri : ∀ (l : List GClass), st l = .ri ↔ (l.takeWhile (· == .RI)).length % 2 = 1 := by
  intro l
  induction l with
  | nil => simp [st]
  | cons c l ih =>
    by_cases hc : c = .RI
    · subst hc
      rw [List.takeWhile_cons_of_pos (by rfl), List.length_cons]
      show (st l).next .RI = .ri ↔ _
      by_cases h : st l = .ri
      · have := ih.mp h
        rw [h]; simp [GA.next]; omega
      · have : ¬ (l.takeWhile (· == .RI)).length % 2 = 1 := fun h' => h (ih.mpr h')
        have e : (st l).next .RI = .ri := by cases hs : st l <;> simp [GA.next]; exact absurd hs h
        rw [e]; simp; omega
    · rw [List.takeWhile_cons_of_neg (by simpa using hc)]
      show (st l).next c = .ri ↔ _
      have : (st l).next c ≠ .ri := by cases c <;> simp [GA.next] at hc ⊢ <;> cases st l <;> simp
      simp [this]

theorem st_pict : ∀ (l : List GClass), (∃ n, st l = .pict n) ↔ (l.dropWhile (· == .Extend)).head? = some .Pict := by
  intro l
  induction l with
  | nil => simp [st]
  | cons c l ih =>
    by_cases hc : c = .Extend
    · subst hc
      rw [List.dropWhile_cons_of_pos (by rfl), ← ih]
      show (∃ n, (st l).next .Extend = .pict n) ↔ _
      cases st l <;> simp [GA.next]
    · rw [List.dropWhile_cons_of_neg (by simpa using hc)]
      show (∃ n, (st l).next c = .pict n) ↔ _
      cases c <;> simp [GA.next] at hc ⊢
      · cases st l <;> simp
      · cases st l <;> simp

theorem p0_def (a : GA) (c : GClass) (h1 : c ≠ .LF) (h2 : c ≠ .Control) : p0 a c = if c = .Prepend then 10000 else 0 := by
  unfold p0; rw [if_neg h1, if_neg h2]; rfl

theorem p1_pict (n : Nat) (d : GClass) : p1 (.pict n) d = p1 .idle d := by cases d <;> rfl

theorem p1_zwj (n : Nat) (d : GClass) : p1 (.zwj n) d = if d = .Pict then 10000 else p1 .idle d := by cases d <;> rfl

theorem p1_ri (d : GClass) : p1 .ri d = if d = .RI then 10000 else p1 .idle d := by cases d <;> rfl

theorem p1_idle (d : GClass) : p1 .idle d =
    if d = .LF ∨ d = .Control then -20000 else if d = .Extend ∨ d = .ZWJ ∨ d = .SpacingMark then 10000 else -10 := by
  cases d <;> rfl

/-- At the end of the text there is always a cut. -/
theorem X_end (a : GA) (c : GClass) : X a c .eot < 10000 := by
  have := p0_vals a c
  have h2 : p1 (a.next c) .eot ≤ -10 := by cases a.next c <;> exact of_decide_eq_true rfl
  unfold X; omega

/-- Inside of the text. -/
theorem X_boundary (bef aft : List GClass) (c d : GClass) (hc : c ≠ .eot) (hd : d ≠ .eot) :
    decide (X (st bef) c d < 10000) = gBoundary false (c :: bef) (d :: aft) := by
  have hri : (((GClass.RI :: bef).takeWhile (· == .RI)).length % 2 = 1) ↔ st (GClass.RI :: bef) = .ri := (st_ri _).symm
  have hpi := st_pict bef
  cases c
  case ZWJ =>
    simp only [gBoundary, GClass.isCtl]
    unfold X
    rw [p0_def _ _ (by simp) (by simp)]
    cases hs : st bef <;> simp only [GA.next, p1_zwj, p1_idle] <;> cases d <;> simp at hd ⊢ <;> (rw [← hpi, hs]; simp)
  case RI =>
    simp only [gBoundary, GClass.isCtl, hri]
    unfold X
    rw [p0_def _ _ (by simp) (by simp)]
    have : st (GClass.RI :: bef) = (st bef).next .RI := rfl
    rw [this]
    cases hs : st bef <;> simp only [GA.next, p1_ri, p1_idle] <;> cases d <;> simp at hd ⊢
  case Extend =>
    simp only [gBoundary, GClass.isCtl]
    unfold X
    rw [p0_def _ _ (by simp) (by simp)]
    cases hs : st bef <;> simp only [GA.next, p1_pict, p1_idle] <;> cases d <;> simp at hd ⊢
  case LF =>
    simp only [gBoundary, GClass.isCtl]
    unfold X p0
    cases d <;> simp [GA.next, p1_idle, BANG] at hd ⊢ <;> split <;> omega
  case eot => simp at hc
  case CR => cases d <;> simp [gBoundary, GClass.isCtl, X, p0, GA.next, BANG, JOIN] at hd ⊢ <;> exact of_decide_eq_true rfl
  case L => cases d <;> simp [gBoundary, GClass.isCtl, X, p0, GA.next, BANG, JOIN] at hd ⊢ <;> exact of_decide_eq_true rfl
  case V => cases d <;> simp [gBoundary, GClass.isCtl, X, p0, GA.next, BANG, JOIN] at hd ⊢ <;> exact of_decide_eq_true rfl
  case T => cases d <;> simp [gBoundary, GClass.isCtl, X, p0, GA.next, BANG, JOIN] at hd ⊢ <;> exact of_decide_eq_true rfl
  case LV => cases d <;> simp [gBoundary, GClass.isCtl, X, p0, GA.next, BANG, JOIN] at hd ⊢ <;> exact of_decide_eq_true rfl
  case LVT => cases d <;> simp [gBoundary, GClass.isCtl, X, p0, GA.next, BANG, JOIN] at hd ⊢ <;> exact of_decide_eq_true rfl
  case Pict => cases d <;> simp [gBoundary, GClass.isCtl, X, p0, GA.next, BANG, JOIN, p1_pict, p1_idle] at hd ⊢
  case Prepend => cases d <;> simp [gBoundary, GClass.isCtl, X, p0, GA.next, BANG, JOIN, p1_idle] at hd ⊢
  case Control => cases d <;> simp [gBoundary, GClass.isCtl, X, p0, GA.next, BANG, JOIN, p1_idle] at hd ⊢
  case SpacingMark => cases d <;> simp [gBoundary, GClass.isCtl, X, p0, GA.next, BANG, JOIN, p1_idle] at hd ⊢
  case Any => cases d <;> simp [gBoundary, GClass.isCtl, X, p0, GA.next, BANG, JOIN, p1_idle] at hd ⊢

end Graph
end Uax
