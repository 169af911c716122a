import Verif.BidiVisual
import Verif.Props.BidiDirections

/-! Property C63: resolving and reordering a text give the visual order of UAX#9.

`visualOrder` (SpecVisual.lean) is rule L2; `levels` are the levels which the rules W1 to W7, N1,
N2, I1 and I2 give; `shown` tells what a client displays for a list of runs. Rule L1 is left to the client
(reordering.go, line 14). -/

namespace Uax
open Bidi Spec

/-- The levels of the characters of a paragraph. -/
def levels (T : Tables) (o : Options) (t : List Char) : List Nat := (resolved (outer o) (classes T o t)).map (Spec.level (outer o))

/-- For the texts of C52_directions_partial: resolution and reordering return whatever the schedule is, and
displaying the runs shows all characters of the first paragraph in the order of rule L2.
Missing: other texts, see `C63_violated`. -/
theorem C63_visual_partial (T : Tables) (o : Options) (sched : Nat → Nat) (t : List Char) (hT : KnownClasses T) (ho : o.markup = none)
    (h1 : PlainClasses (classes T o (firstParagraph T o t))) (h2 : (classes T o (firstParagraph T o t)).head? ≠ some cNSM)
    (h3 : NumbersLTR (outer o) (classes T o (firstParagraph T o t)))
    (h4 : SeparatorsSettled (outer o) (w5 cON (w4 cON (w3 (w2 (outer o) (w1 (outer o) (classes T o (firstParagraph T o t)))))))
      (resolved (outer o) (classes T o (firstParagraph T o t)))) :
    ∃ rl runs, Resolves T o sched (utf8 t) rl ∧ rl.reorder = some runs ∧
      shown (starts 0 (firstParagraph T o t)) (outerDir o) runs =
        visualOrder ((starts 0 (firstParagraph T o t)).zip (levels T o (firstParagraph T o t))) := by
  obtain ⟨N, p, ys, e1, e2, e3, e4, e5, e6⟩ := resolve_bytes hT ho sched t h1 h2 h3 h4 (known_notNull hT)
  have he : outer o = cL ∨ outer o = cR := by unfold outer; split <;> simp
  have hlen := resolved_length (T := T) (t := firstParagraph T o t) he h1 h3
  refine ⟨_, ys.map fun y => vrun y (outerDir o), resolves_of e1, ?_, shown_scraps hlen e3 e4 e5 e6⟩
  rw [e2]
  exact reorder_apart o ys e4 e5

/-- Runs of levels whose scraps have alternating directions. -/
theorem runs_facts (o : Options) {len : Nat} (stack ys : List Scrap) (e2 : stack = initialOuterScrap o true :: ys) (e3 : Tiles 0 len ys)
    (e4 : ∀ s ∈ ys, (s.clz = cL ∨ s.clz = cR) ∧ s.l < s.r ∧ s.children = []) (e5 : Linked (fun a b : Scrap => a.clz ≠ b.clz) ys) :
    ∃ runs, (levelsOf o stack).reorder = some runs ∧ Linked (fun a b : VRun => a.dir ≠ b.dir) runs ∧ Tiles 0 len (runs.flatMap (·.scraps)) ∧
      ∀ r ∈ runs, ∃ s, r.scraps = [s] ∧ r.length = s.r - s.l ∧ 0 < r.length ∧ ∀ pos, s.l ≤ pos → pos < s.r → (levelsOf o stack).directionAt pos = r.dir := by
  have hdir : ∀ s ∈ ys, ∀ d, directionOf s d = if s.clz = cL then .ltr else .rtl := by
    intro s hs d
    unfold directionOf
    rcases (e4 s hs).1 with h | h <;> rw [h] <;> rfl
  refine ⟨ys.map fun y => vrun y (outerDir o), ?_, ?_, ?_, ?_⟩
  · rw [e2]
    exact reorder_apart o ys e4 e5
  · have : ∀ zs : List Scrap, (∀ z ∈ zs, z ∈ ys) → Linked (fun a b : Scrap => a.clz ≠ b.clz) zs →
        Linked (fun a b : VRun => a.dir ≠ b.dir) (zs.map fun y => vrun y (outerDir o)) := by
      intro zs
      induction zs with
      | nil => intros; trivial
      | cons a zs ih =>
        intro hz hl
        cases zs with
        | nil => trivial
        | cons b zs =>
          refine ⟨?_, ih (fun z h => hz z (List.mem_cons_of_mem _ h)) hl.2⟩
          have hne : a.clz ≠ b.clz := hl.1
          show directionOf a _ ≠ directionOf b _
          rw [hdir a (hz a (by simp)), hdir b (hz b (by simp))]
          rcases (e4 a (hz a (by simp))).1 with h | h <;> rcases (e4 b (hz b (by simp))).1 with k | k <;> rw [h, k] at hne ⊢
          · exact absurd rfl hne
          · simp [cL, cR]
          · simp [cL, cR]
          · exact absurd rfl hne
    exact this ys (fun _ h => h) e5
  · rw [List.flatMap_map]
    have : ys.flatMap (fun a => (vrun a (outerDir o)).scraps) = ys := by
      show ys.flatMap (fun a => [a]) = ys
      simp
    rw [this]
    exact e3
  · intro r hr
    rw [List.mem_map] at hr
    obtain ⟨y, hy, rfl⟩ := hr
    have hlt := (e4 y hy).2.1
    have hln : (vrun y (outerDir o)).length = y.r - y.l := by
      show y.len = _
      unfold Scrap.len
      rw [if_neg (by rcases (e4 y hy).1 with h | h <;> rw [h] <;> decide)]
    refine ⟨y, rfl, hln, by rw [hln]; omega, ?_⟩
    intro pos k1 k2
    obtain ⟨b1, b2, b3⟩ := bytes_at ys 0 _ pos y e3 (fun s hs => (e4 s hs).2.1) hy k1 k2
    obtain ⟨s, s1, s2⟩ := find_bytes ys 0 _ pos e3 (fun s hs => (e4 s hs).2.1) (Nat.zero_le _) (by omega)
    have hd : (levelsOf o stack).directionAt pos = directionOf s .ltr := by
      unfold Levels.directionAt levelsOf
      dsimp only
      rw [e2, List.cons_append, List.find?_cons_of_neg, List.find?_append, s1]
      · rfl
      · have : (initialOuterScrap o true).r = 0 := rfl
        rw [this]
        simp
    rw [b3, Option.some.injEq] at s2
    show _ = directionOf y _
    rw [hd, hdir s (List.mem_of_find?_eq_some s1), hdir y hy, s2]

/-- The runs are maximal: neighbours have different directions. Each consists of one segment, in
the direction which DirectionAt gives for every byte of it, and the segments cover the first paragraph in
logical order, without gaps. -/
theorem C63_runs_partial (T : Tables) (o : Options) (sched : Nat → Nat) (t : List Char) (hT : KnownClasses T) (ho : o.markup = none)
    (h1 : PlainClasses (classes T o (firstParagraph T o t))) (h2 : (classes T o (firstParagraph T o t)).head? ≠ some cNSM)
    (h3 : NumbersLTR (outer o) (classes T o (firstParagraph T o t)))
    (h4 : SeparatorsSettled (outer o) (w5 cON (w4 cON (w3 (w2 (outer o) (w1 (outer o) (classes T o (firstParagraph T o t)))))))
      (resolved (outer o) (classes T o (firstParagraph T o t)))) :
    ∃ rl runs, Resolves T o sched (utf8 t) rl ∧ rl.reorder = some runs ∧ Linked (fun a b : VRun => a.dir ≠ b.dir) runs ∧
      Tiles 0 (utf8 (firstParagraph T o t)).length (runs.flatMap (·.scraps)) ∧
      ∀ r ∈ runs, ∃ s, r.scraps = [s] ∧ r.length = s.r - s.l ∧ 0 < r.length ∧ ∀ pos, s.l ≤ pos → pos < s.r → rl.directionAt pos = r.dir := by
  obtain ⟨N, p, ys, e1, e2, e3, e4, e5, e6⟩ := resolve_bytes hT ho sched t h1 h2 h3 h4 (known_notNull hT)
  obtain ⟨runs, r1, r2⟩ := runs_facts o p.stack ys e2 e3 e4 e5
  exact ⟨_, runs, resolves_of e1, r1, r2⟩

/-- What is displayed for the sample text, as offsets of characters: the right-to-left part is reversed. -/
example : visualOrder ((starts 0 mixed).zip (levels sample {} mixed)) =
    [0, 1, 2, 3, 4, 5, 6, 7, 8, 9, 10, 11, 18, 17, 16, 14, 12, 20, 21, 22, 23, 24, 25, 27, 28] := by decide +kernel

/-- The property does not hold: the neutrals between right-to-left letters in "A +B" are not taken
together, so that the letters are displayed in the wrong order. (Upper case letters are R.) -/
theorem C63_violated : ∃ (T : Tables) (o : Options) (t : List Char) (sched : Nat → Nat) (rl : Levels) (runs : List VRun), KnownClasses T ∧ o.markup = none ∧
    PlainClasses (classes T o (firstParagraph T o t)) ∧ Resolves T o sched (utf8 t) rl ∧ firstParagraph T o t = t ∧ rl.reorder = some runs ∧
    visualOrder ((starts 0 t).zip (levels T o t)) = [3, 2, 1, 0] ∧ shown (starts 0 t) (outerDir o) runs = [0, 1, 2, 3] := by
  obtain ⟨rl, a1, a2⟩ := resolvedWith_iff (T := sample) (o := { testing := true }) (sched := fun _ => 0) (b := utf8 "A +B".toList) (n := 99)
    (f := fun rl => decide (rl.reorder.map (shown (starts 0 "A +B".toList) .ltr) = some [0, 1, 2, 3])) (by decide +kernel)
  have a2 : rl.reorder.map (shown (starts 0 "A +B".toList) .ltr) = some [0, 1, 2, 3] := by simpa using a2
  rw [Option.map_eq_some_iff] at a2
  obtain ⟨runs, r1, r2⟩ := a2
  exact ⟨sample, { testing := true }, "A +B".toList, _, rl, runs, sample_known, rfl, by show ∀ c ∈ _, _; decide +kernel, a1,
    by decide +kernel, r1, by decide +kernel, r2⟩

end Uax
