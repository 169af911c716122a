import Verif.Props.SimpleWord

/-! Concrete cases that meet the hypotheses of the segmenter theorems of `Segment.lean` and
`SegmentCalls.lean`: the text "ab c" with the breaker at white space, and a segmenter that has
been used before. -/

namespace Uax
open Seg

/-- The text "ab c". -/
def abc : List (Int × Nat) := [(97, 1), (98, 1), (32, 1), (99, 1)]

/-- A segmenter that has already segmented half of another text. -/
def used : Seg SWB :=
  ((((Seg.new [SWB.new]).initReader [(120, 1), (32, 1), (121, 2), (122, 1)] none).after spaceB [.next, .bounded 2, .next]).getD
    (Seg.new [SWB.new]))

theorem used_eq : ((Seg.new [SWB.new]).initReader [(120, 1), (32, 1), (121, 2), (122, 1)] none).after spaceB [.next, .bounded 2, .next] =
    some used := by
  have h : (((Seg.new [SWB.new]).initReader [(120, 1), (32, 1), (121, 2), (122, 1)] none).after spaceB [.next, .bounded 2, .next]).isSome = true := by
    decide +kernel
  unfold used
  cases hx : ((Seg.new [SWB.new]).initReader [(120, 1), (32, 1), (121, 2), (122, 1)] none).after spaceB [.next, .bounded 2, .next] with
  | none => rw [hx] at h; cases h
  | some x => rfl

theorem used_reachable : Reachable spaceB used :=
  after_reachable spaceB _ (Reachable.reader _ _ (Reachable.new _)) used_eq

/-- C02, C03: `Honest`, for a new breaker and for one that has been used. -/
example : Honest (verdicts spaceB [SWB.new] (abc.map (·.1) ++ [0])) :=
  SWB.honest _ rfl SWB.new_idle _ (by decide)
example : Honest (verdicts spaceB [spaceB.run SWB.new [120, 32, 121, 122, 0]] (abc.map (·.1) ++ [0])) :=
  SWB.honest (fun r => r == 32) rfl (SWB.run_idle (fun r => r == 32) rfl SWB.new_idle [120, 32, 121, 122] (by decide)) _ (by decide)
/-- C02 and C03: the specification's segments, all other hypotheses. -/
example : segmentsOf (places spaceB used.brk used.zero0 used.zero1 (abc.map (·.1))) =
    [⟨[97, 98], (100, 0)⟩, ⟨[32], (-100, 0)⟩, ⟨[99], (100, 0)⟩] := by decide +kernel
example : abc.length < used.room ∧
    ((places spaceB used.brk used.zero0 used.zero1 (abc.map (·.1))).map (·.cut)) = [false, true, true, true, false] := by decide +kernel
/-- A breaker that is not honest: it changes its mind after telling that no match is active. -/
example : ¬ Honest (verdicts (sayB 0 [0, 5]) [()] [97, 98]) := fun h => by
  have := (h 0 0 ⟨0, [0, 5], []⟩ 1 ⟨0, [0, 5], []⟩ rfl (by decide) (by decide) rfl).1
  exact absurd this (by decide)

/-- C01, C11, C04: a history with bounded calls; the segments and the rest. -/
example : ((Seg.new [SWB.new]).initReader abc none).history spaceB [.next, .bounded 1, .next] =
    some [[97, 98], [32]] := by decide +kernel
example : ((used.initReader abc none).after spaceB [.next]).map (fun s => (s.q.map (·.r), s.src.map (·.1), s.atEOF)) =
    some ([32], [99], false) := by decide +kernel
/-- C01 and C06: politeness holds. -/
example : Polite spaceB used.brk (abc.map (·.1)) := by unfold Polite; decide +kernel
/-- C05, C08: a reader that fails. -/
example : (used.initReader abc (some 7)).collect spaceB 6 = some ([⟨[97, 98], (100, 0)⟩, ⟨[32], (-100, 0)⟩], true) := by decide +kernel
example : (Seg.new [SWB.new]).errValue = none := by decide +kernel
/-- C07: a used segmenter and a new one with the same breakers. -/
example : Reachable spaceB (Seg.new used.brk) ∧ used.room = (Seg.new used.brk).room ∧ used.zero0 = false :=
  ⟨Reachable.new _, by decide +kernel, by decide +kernel⟩
/-- C10: a bounded call that succeeds before the end of the text has been read. -/
example : ((((Seg.new [SWB.new]).initReader abc none).boundedNext spaceB 1).bind fun x => x.1.runes.map fun r => (r, x.2, x.1.atEOF)) =
    some ([97], true, false) := by decide +kernel
/-- C13, C45: two breakers, cuts because of the second one. -/
example : ((Seg.new [(), ()]).initReader abc none).collect (sayB 0 [7]) 9 =
    some ([⟨[97], (7, 7)⟩, ⟨[98], (7, 7)⟩, ⟨[32], (7, 7)⟩, ⟨[99], (7, 7)⟩], true) := by decide +kernel

/-- A breaker that likes to break after a certain rune. -/
def likes : Breaker Int := ⟨fun c r => (c, 0, [if r = c then -5 else 0])⟩

/-- C45: the first breaker wants to break after rune 97, the second and third ones after 98 and 32. -/
example : ((Seg.new [97, 98, 32]).initReader abc none).collect likes 9 =
    some ([⟨[97], (-5, 0)⟩, ⟨[98], (0, -5)⟩, ⟨[32], (0, -5)⟩], true) := by decide +kernel

theorem honest_short (vs : List Verdict) (h : (vs.all fun v => decide (v.prim.length ≤ 1) && v.sec.all fun p => decide (p.length ≤ 1)) = true) : Honest vs := by
  intro i j v j' v' _ _ hj hv'
  rw [List.all_eq_true] at h
  rw [List.getElem?_drop] at hv'
  have := h v' (List.mem_of_getElem? hv')
  rw [Bool.and_eq_true, decide_eq_true_eq, List.all_eq_true] at this
  have key : ∀ l : List Int, l.length ≤ 1 → l.getD j' 0 = 0 := by
    intro l hl
    rw [List.getD_eq_getElem?_getD, List.getElem?_eq_none (by omega)]; rfl
  exact ⟨key _ this.1, fun p hp => key _ (of_decide_eq_true (this.2 p hp))⟩

example : Honest (verdicts likes [97, 98, 32] (abc.map (·.1) ++ [0])) := by
  apply honest_short
  decide +kernel

end Uax
