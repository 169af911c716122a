import Verif.Props.SegmentRest
import Verif.Props.Inside

/-! Properties C13 and C46: `Next()` after `BoundedNext`. -/

namespace Uax
open Seg

variable {β : Type} (B : Breaker β)

/-- Nothing can be returned any more. -/
def Over (s : Seg β) : Prop := s.atEOF = true ∧ s.bo < 0

theorem over_next {s : Seg β} (hw : WF s) (h : Over s) : ∃ s', s.next B = some (s', false) ∧ Over s' := by
  refine ⟨{ s with inUse := true, buf := s.buf.reset none }, ?_, h⟩
  simp [next, nextB, hw.ready, h.1, h.2]

/-- `Next()` brings the break opportunity up to date. -/
theorem next_current {s : Seg β} (hw : WF s) (he : s.srcEnd = none) : ∃ s' ok, s.next B = some (s', ok) ∧ WF s' ∧ (Fresh s' ∨ Over s') := by
  by_cases hE : s.atEOF = true
  · by_cases hb : s.bo < 0
    · obtain ⟨s', h1, h2⟩ := over_next B hw ⟨hE, hb⟩
      obtain ⟨s'', ok, h3, h4, _⟩ := nextB_spec B hw none
      have h1' : nextB B s none = some (s', false) := h1
      rw [h1'] at h3
      cases h3
      exact ⟨s', _, h1, h4, .inr h2⟩
    · have hb : 0 ≤ s.bo := by omega
      rw [next_front B hw hb]
      obtain ⟨u, e, hw', _, _, _, _, _, _, _, _, _, _, _, _, _, _, _, hf⟩ :=
        getFront_spec (s := { s with inUse := true }) ⟨hw.ready, hw.lo, hw.hi, hw.lam⟩ hb none
      rw [e]
      refine ⟨u, true, rfl, hw', .inl (hf ?_)⟩
      simp only [cutLen]
      omega
  · obtain ⟨s', ok, h1, h2, h3⟩ := next_refresh B hw (.inl (by simpa using hE)) he
    exact ⟨s', ok, h1, h2, .inl h3⟩

theorem over_after : ∀ (n : Nat) {s : Seg β}, WF s → Over s → ∀ {s1 : Seg β}, s.after B (List.replicate n .next) = some s1 → WF s1 ∧ Over s1
  | 0, s, hw, h, s1, e => by cases e; exact ⟨hw, h⟩
  | n + 1, s, hw, h, s1, e => by
    obtain ⟨s', h1, h2⟩ := over_next B hw h
    obtain ⟨s'', ok, h3, h4, _⟩ := nextB_spec B hw none
    have h1' : nextB B s none = some (s', false) := h1
    rw [h1'] at h3
    cases h3
    rw [List.replicate_succ] at e
    simp only [after, call, h1, Option.bind_some] at e
    exact over_after n h4 h2 e

/-- After any calls of `Next()` and `BoundedNext`, the penalties of each segment that is returned by `Next()` are feasible according to `BreakOnZero`, if the
call before was a call of `Next()`, too. Missing: the first `Next()` after a `BoundedNext` (`C13_after_bounded_violated`), and readers that fail. -/
theorem C13_after_bounded_partial {s : Seg β} (hr : Reachable B s) (src : List (Int × Nat)) (cs : List SegCall) (n : Nat)
    {s1 s2 : Seg β} (h1 : (s.initReader src none).after B (cs ++ .next :: List.replicate n .next) = some s1) (h2 : s1.next B = some (s2, true)) :
    Feasible s2.lastP.1 s.zero0 ∨ (1 < s.brk.length ∧ Feasible s2.lastP.2 s.zero1) := by
  have hi := reachable_inv B hr
  obtain ⟨w, -, -, -, -, -, -, he, -⟩ := initReader_facts B hi src none
  obtain ⟨u, es⟩ := initReader_form hi src none
  have keep : ∀ (cs : List SegCall) (x y : Seg β), WF x → x.after B cs = some y → WF y ∧ y.srcEnd = x.srcEnd ∧
      y.zero0 = x.zero0 ∧ y.zero1 = x.zero1 ∧ y.brk.length = x.brk.length := by
    intro cs
    induction cs with
    | nil => intro x y hw h; cases h; exact ⟨hw, rfl, rfl, rfl, rfl⟩
    | cons c cs ih =>
      intro x y hx h
      have hcall : ∃ bound, x.call B c = x.nextB B bound := by cases c <;> exact ⟨_, rfl⟩
      obtain ⟨bd, hcall⟩ := hcall
      obtain ⟨x', ok, e, hx', z1, z2, z3, z4, _⟩ := nextB_spec B hx bd
      simp only [after, hcall, e, Option.bind_some] at h
      obtain ⟨k0, k1, k2, k3, k4⟩ := ih x' y hx' h
      exact ⟨k0, k1.trans z1, k2.trans z3, k3.trans z4, k4.trans z2⟩
  have split : ∀ (l1 l2 : List SegCall) (x y : Seg β), x.after B (l1 ++ l2) = some y → ∃ z, x.after B l1 = some z ∧ z.after B l2 = some y := by
    intro l1
    induction l1 with
    | nil => intro l2 x y h; exact ⟨x, rfl, h⟩
    | cons c l1 ih =>
      intro l2 x y h
      simp only [after, List.cons_append] at h ⊢
      cases hc : x.call B c with
      | none => rw [hc] at h; cases h
      | some p => rw [hc] at h; simp only [Option.bind_some] at h ⊢; exact ih _ _ _ h
  obtain ⟨z, e1, e2⟩ := split _ _ _ _ h1
  obtain ⟨wz, k1, k2, k3, k4⟩ := keep _ _ _ w e1
  rw [he] at k1
  obtain ⟨t, ok, e3, wt, hft⟩ := next_current B wz k1
  obtain ⟨t', ok', e3', _, y1, y2, y3, y4, _⟩ := nextB_spec B wz none
  have e3n : nextB B z none = some (t, ok) := e3
  rw [e3n] at e3'
  cases e3'
  simp only [after, call, e3, Option.bind_some] at e2
  rcases hft with hf | ho
  · obtain ⟨t1, a1, a2, a3, a4, a5, a6, a7⟩ := nexts B n t wt hf
    rw [e2] at a1
    cases a1
    obtain ⟨b1, b2⟩ := next_big B _ s1 (Nat.le_refl _) a2 a3
    cases ht : s1.todo B with
    | nil =>
      obtain ⟨x, hx, _⟩ := b2 ht
      rw [h2] at hx; simp at hx
    | cons seg rest =>
      obtain ⟨x, hx, _, _, _, _, _, _, ⟨a, _, hlp, hta⟩, _⟩ := b1 seg rest ht
      rw [h2] at hx
      simp only [Option.some.injEq, Prod.mk.injEq, and_true] at hx
      subst hx
      rw [hlp]
      have := (test_iff s1 a).mp hta
      rw [a5, a6, a7, y2, y3, y4, k2, k3, k4, es] at this
      exact this
  · obtain ⟨w1, o1⟩ := over_after B n wt ho e2
    obtain ⟨x, hx, _⟩ := over_next B w1 o1
    rw [h2] at hx
    simp at hx

/-- The first `Next()` after a `BoundedNext` may break where it is forbidden: the words of "1.", a combining acute and "x" are "1", "." with the acute, and "x". After
`BoundedNext(2)` has returned "1", `Next()` returns "." without its acute, with a penalty of 10000. -/
theorem C13_after_bounded_violated :
    ((Seg.new [Word.new]).initSlice [0x31, 0x2e, 0x301, 0x78]).history (Word.breaker realW) [.next, .next, .next, .next] = some [[0x31], [0x2e, 0x301], [0x78]] ∧
    ((Seg.new [Word.new]).initSlice [0x31, 0x2e, 0x301, 0x78]).history (Word.breaker realW) [.bounded 2, .next, .next, .next] = some [[0x31], [0x2e], [0x301], [0x78]] ∧
    (((Seg.new [Word.new]).initSlice [0x31, 0x2e, 0x301, 0x78]).after (Word.breaker realW) [.bounded 2, .next]).map (·.lastP.1) = some 10000 := by
  refine ⟨?_, ?_, ?_⟩ <;> decide +kernel

/-- The other case of C46: if the end of the text has been read and `Next()` returns false at once, then no call will ever return anything, whatever is left.
Together with `C46_rest_partial` this says what happens after any history of calls. -/
theorem C46_nothing {s : Seg β} (hr : Reachable B s) (src : List (Int × Nat)) (cs : List SegCall) {s1 s2 : Seg β}
    (h1 : (s.initReader src none).after B cs = some s1) (hE : s1.atEOF = true) (h2 : s1.next B = some (s2, false)) (cs' : List SegCall) :
    s1.history B cs' = some [] := by
  obtain ⟨w, -⟩ := initReader_facts B (reachable_inv B hr) src none
  have keep : ∀ (cs : List SegCall) (x y : Seg β), WF x → x.after B cs = some y → WF y := by
    intro cs
    induction cs with
    | nil => intro x y hw h; cases h; exact hw
    | cons c cs ih =>
      intro x y hx h
      have hcall : ∃ bound, x.call B c = x.nextB B bound := by cases c <;> exact ⟨_, rfl⟩
      obtain ⟨bd, hcall⟩ := hcall
      obtain ⟨x', ok, e, hx', _⟩ := nextB_spec B hx bd
      simp only [after, hcall, e, Option.bind_some] at h
      exact ih x' y hx' h
  have w1 := keep _ _ _ w h1
  refine (final B cs' s1 w1.ready hE ?_).1
  refine Classical.byContradiction fun hb => ?_
  rw [next_front B w1 (by omega)] at h2
  cases hg : ({ s1 with inUse := true } : Seg β).getFront none with
  | none => rw [hg] at h2; cases h2
  | some u => rw [hg] at h2; simp at h2

/-- Both cases with the end of the text read: after `BoundedNext(3)`, "Hello" is lost from its last letter on; after `BoundedNext(1)` on "a." with
the breaker for words there is a segment left, and `Next()` returns it (`C46_rest_partial`). -/
example :
    let s0 := (Seg.new [SWB.new]).initReader ([72, 101, 108, 108, 111].map fun r => (r, 1)) none
    ((s0.after spaceB [.bounded 3]).bind fun s1 => (s1.next spaceB).map fun x => (s1.atEOF, x.2)) = some (true, false) := by decide +kernel

example :
    let s0 := (Seg.new [Word.new]).initReader ([0x61, 0x2e].map fun r => (r, 1)) none
    ((s0.after (Word.breaker realW) [.bounded 1]).bind fun s1 => (s1.next (Word.breaker realW)).map fun x => (s1.atEOF, x.2, x.1.runes)) = some (true, true, some [0x2e]) := by decide +kernel

/-- The hypotheses of the theorem: a bounded call, then calls of `Next()`, the third of which returns "Wo". -/
example :
    let s0 := (Seg.new [SWB.new]).initReader ([72, 101, 108, 108, 111, 32, 87, 111].map fun r => (r, 1)) none
    ((s0.after spaceB ([.bounded 3] ++ .next :: List.replicate 1 .next)).bind fun s1 => (s1.next spaceB).map fun x => (x.2, x.1.runes, x.1.lastP)) =
      some (true, some [87, 111], (100, 0)) := by decide +kernel

end Uax
