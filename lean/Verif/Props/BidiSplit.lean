import Verif.BidiSplitLines
import Verif.Props.BidiVisual

/-! Property C72: the levels of a paragraph may be split into lines.

`splitLines` (SpecSplit.lean) calls Split for one line after the other. -/

namespace Uax
open Bidi Spec

theorem tiles_last : ∀ (ys : List Scrap) (x : Scrap) (l r : Nat), Tiles l r (x :: ys) → ((x :: ys).getLast?.getD {}).r = r := by
  intro ys
  induction ys with
  | nil => intro x l r h; exact h.2
  | cons y ys ih => intro x l r h; rw [List.getLast?_cons_cons]; exact ih y _ r h.2

/-- Splitting levels whose scraps have alternating directions. -/
theorem lines_facts (o : Options) {fp : List Char} {cs : List Class} (stack ys : List Scrap) (e2 : stack = initialOuterScrap o true :: ys)
    (e3 : Tiles 0 (utf8 fp).length ys) (e4 : ∀ s ∈ ys, (s.clz = cL ∨ s.clz = cR) ∧ s.l < s.r ∧ s.children = [])
    (e5 : Linked (fun a b : Scrap => a.clz ≠ b.clz) ys) (e6 : byteClasses ys = Spec.spread fp cs) (hlen : cs.length = fp.length)
    (lines : List (List Char)) (h5 : fp = lines.flatten) (h6 : ∀ l ∈ lines, l ≠ []) (h7 : lines ≠ []) :
    ∃ rls, splitLines (levelsOf o stack) (lines.dropLast.map fun l => (utf8 l).length) = some rls ∧ rls.length = lines.length ∧
      ∀ before line after, lines = before ++ line :: after → ∃ lv, rls[before.length]? = some lv ∧
        (∀ pos, pos < (utf8 line).length → lv.directionAt pos = (levelsOf o stack).directionAt ((utf8 before.flatten).length + pos)) ∧
        ∃ runs, lv.reorder = some runs ∧ shown (starts 0 line) (outerDir o) runs =
          visualOrder ((starts 0 line).zip (((cs.map (Spec.level (outer o))).drop before.flatten.length).take line.length)) := by
  have hrest : RestLevels o (levelsOf o stack) (Spec.spread fp cs) := by
    have hl := spread_length _ _ hlen
    refine ⟨ys, { l := (stack.getLast?.getD {}).r, r := (stack.getLast?.getD {}).r, clz := cPDI }, ?_, ⟨e4, ?_, Or.inr ⟨_, rfl, Or.inr (Or.inr rfl), rfl, rfl⟩⟩,
      by rw [hl]; exact e3, e6, rfl, ?_⟩
    · unfold levelsOf
      rw [e2]
      rfl
    · rw [linked_append]
      refine ⟨e5, trivial, ?_⟩
      intro x hx y hy
      rw [List.head?_cons, Option.mem_def, Option.some.injEq] at hy
      rw [← hy]
      show x.clz ≠ cPDI
      rcases (e4 x (List.mem_of_getLast? hx)).1 with h | h <;> rw [h] <;> decide
    · show (stack.getLast?.getD {}).r = _
      rw [e2, hl]
      exact tiles_last ys _ 0 _ ⟨rfl, e3⟩
  cases lines with
  | nil => exact absurd rfl h7
  | cons first lines =>
    rw [h5, List.flatten_cons] at hrest hlen
    obtain ⟨rls, r1, r2, r3⟩ := split_lines o lines first _ cs h6 hlen hrest
    refine ⟨rls, r1, r2, ?_⟩
    intro before line after hb
    obtain ⟨lv, v1, v2⟩ := r3 before line after hb
    have hpar : first ++ lines.flatten = before.flatten ++ (line ++ after.flatten) := by
      rw [← List.flatten_cons, hb, List.flatten_append, List.flatten_cons]
    rw [hpar] at hlen
    simp only [List.length_append] at hlen
    have hl2 : ((cs.drop before.flatten.length).take line.length).length = line.length := by
      rw [List.length_take, List.length_drop]; omega
    refine ⟨lv, v1, ?_, ?_⟩
    · intro pos hpos
      have hlt : pos < (Spec.spread line ((cs.drop before.flatten.length).take line.length)).length := by rw [spread_length _ _ hl2]; exact hpos
      rw [line_direction v2 (List.getElem?_eq_getElem hlt)]
      have hall : Spec.spread (first ++ lines.flatten) cs = Spec.spread before.flatten (cs.take before.flatten.length) ++
          (Spec.spread line ((cs.drop before.flatten.length).take line.length) ++ Spec.spread after.flatten ((cs.drop before.flatten.length).drop line.length)) := by
        rw [hpar, ← spread_append _ _ _ _ hl2, List.take_append_drop, ← spread_append _ _ _ _ (by rw [List.length_take]; omega), List.take_append_drop]
      refine (line_direction hrest.line ?_).symm
      rw [hall, List.getElem?_append_right (by rw [spread_length _ _ (by rw [List.length_take]; omega)]; omega),
        spread_length _ _ (by rw [List.length_take]; omega), Nat.add_sub_cancel_left, List.getElem?_append_left hlt]
      exact List.getElem?_eq_getElem hlt
    · obtain ⟨runs, s1, s2⟩ := line_shown hl2 v2
      refine ⟨runs, s1, ?_⟩
      rw [s2]
      rw [List.map_take, List.map_drop]

/-- For the texts of C63_visual_partial and every division of the first paragraph into lines: splitting
does not panic and gives one result for each line. For each line, the direction of a position is that of the position in the
paragraph. Reorder does not panic, and displaying the runs shows the characters of the line in
the order of rule L2, with the levels which they have in the paragraph.
Missing: other texts, see `C72_embedding_violated`. -/
theorem C72_lines_partial (T : Tables) (o : Options) (sched : Nat → Nat) (t : List Char) (hT : KnownClasses T) (ho : o.markup = none)
    (h1 : PlainClasses (classes T o (firstParagraph T o t))) (h2 : (classes T o (firstParagraph T o t)).head? ≠ some cNSM)
    (h3 : NumbersLTR (outer o) (classes T o (firstParagraph T o t)))
    (h4 : SeparatorsSettled (outer o) (w5 cON (w4 cON (w3 (w2 (outer o) (w1 (outer o) (classes T o (firstParagraph T o t)))))))
      (resolved (outer o) (classes T o (firstParagraph T o t))))
    (lines : List (List Char)) (h5 : firstParagraph T o t = lines.flatten) (h6 : ∀ l ∈ lines, l ≠ []) (h7 : lines ≠ []) :
    ∃ rl rls, Resolves T o sched (utf8 t) rl ∧ splitLines rl (lines.dropLast.map fun l => (utf8 l).length) = some rls ∧ rls.length = lines.length ∧
      ∀ before line after, lines = before ++ line :: after → ∃ lv, rls[before.length]? = some lv ∧
        (∀ pos, pos < (utf8 line).length → lv.directionAt pos = rl.directionAt ((utf8 before.flatten).length + pos)) ∧
        ∃ runs, lv.reorder = some runs ∧ shown (starts 0 line) (outerDir o) runs =
          visualOrder ((starts 0 line).zip (((levels T o (firstParagraph T o t)).drop before.flatten.length).take line.length)) := by
  obtain ⟨N, p, ys, e1, e2, e3, e4, e5, e6⟩ := resolve_bytes hT ho sched t h1 h2 h3 h4 (known_notNull hT)
  have he : outer o = cL ∨ outer o = cR := by unfold outer; split <;> simp
  have hlen := resolved_length (T := T) (t := firstParagraph T o t) he h1 h3
  obtain ⟨rls, r⟩ := lines_facts o p.stack ys e2 e3 e4 e5 e6 hlen lines h5 h6 h7
  exact ⟨_, rls, resolves_of e1, r⟩

/-- Lines of a text with letters of both directions. -/
def mixedLines : List (List Char) := [mixed.take 9, (mixed.drop 9).take 6, mixed.drop 15]

example : firstParagraph sample {} mixed = mixedLines.flatten ∧ (∀ l ∈ mixedLines, l ≠ []) ∧ mixedLines ≠ [] := by decide +kernel

/-! ### The receiver of Split -/

/-- The levels after Split, which changes a scrap of its receiver. -/
def Levels.afterSplit (rl : Levels) (at_ : Nat) : Levels := ⟨rl.embedding, Bidi.afterSplit rl.scraps at_⟩

theorem splitLoop_some (at_ : Nat) : ∀ (l : List Scrap) (pre : List Scrap) (s rest : Scrap) (post : List Scrap), splitLoop at_ l = some (pre, s, rest, post) →
    ∃ x, l = pre ++ x :: post ∧ x.l ≤ at_ ∧ at_ < x.r ∧ s.clz = x.clz ∧ s.l = x.l ∧ s.r = at_ := by
  intro l
  induction l with
  | nil => intro pre s rest post h; rw [splitLoop] at h; cases h
  | cons y l ih =>
    intro pre s rest post h
    obtain ⟨c, a, b, x, ch⟩ := y
    rw [splitLoop] at h
    split at h
    · rename_i hc
      cases hs : splitChildren at_ ch with
      | none => rw [hs] at h; cases h
      | some v =>
        rw [hs] at h
        simp only [Option.some.injEq, Prod.mk.injEq] at h
        obtain ⟨rfl, rfl, rfl, rfl⟩ := h
        exact ⟨⟨c, a, b, x, ch⟩, rfl, hc.1, hc.2, rfl, rfl, rfl⟩
    · cases hs : splitLoop at_ l with
      | none => rw [hs] at h; cases h
      | some v =>
        obtain ⟨p', s', r', q'⟩ := v
        rw [hs] at h
        simp only [Option.some.injEq, Prod.mk.injEq] at h
        obtain ⟨rfl, rfl, rfl, rfl⟩ := h
        obtain ⟨x', e1, e2⟩ := ih _ _ _ _ hs
        exact ⟨x', by rw [e1]; rfl, e2⟩

theorem contig_outside : ∀ (l : List Scrap) (a z : Nat), Contig a z l → ∀ s ∈ l, a ≤ s.l ∧ s.l ≤ s.r ∧ s.r ≤ z := by
  intro l
  induction l with
  | nil => intro _ _ _ s hs; cases hs
  | cons y l ih =>
    intro a z h s hs
    obtain ⟨rfl, h2, h3⟩ := h
    have hz : y.r ≤ z := by
      cases l with
      | nil => exact Nat.le_of_eq h3
      | cons w l => have := ih _ _ h3 w (by simp); have := h3.1; omega
    rw [List.mem_cons] at hs
    rcases hs with rfl | hs
    · exact ⟨Nat.le_refl _, h2, hz⟩
    · have := ih _ _ h3 s hs; omega

theorem contig_append : ∀ (l m : List Scrap) (a z : Nat), Contig a z (l ++ m) → ∃ k, Contig a k l ∧ Contig k z m := by
  intro l
  induction l with
  | nil => intro m a z h; exact ⟨a, rfl, h⟩
  | cons y l ih =>
    intro m a z h
    obtain ⟨k, k1, k2⟩ := ih m _ _ h.2.2
    exact ⟨k, ⟨h.1, h.2.1, k1⟩, k2⟩

/-- What Split does to its receiver, for all contiguous levels: the piece of text which contains the
position is cut off there. For its rest DirectionAt gives left-to-right, whatever it was. -/
theorem C72_receiver_exactly (rl : Levels) (a z at_ : Nat) (h1 : Contig a z rl.scraps) (h2 : a ≤ at_) (h3 : at_ < z) (shift0 : Bool)
    (h4 : rl.split at_ shift0 ≠ none) :
    ∃ s ∈ rl.scraps, s.l ≤ at_ ∧ at_ < s.r ∧
      ∀ pos, (Levels.afterSplit rl at_).directionAt pos = if at_ ≤ pos ∧ pos < s.r then .ltr else rl.directionAt pos := by
  have hcon : irsContains rl.scraps at_ = some true := by
    cases hs : rl.scraps with
    | nil => rw [hs] at h1; have : a = z := h1; omega
    | cons x xs =>
      obtain ⟨y, hy⟩ : ∃ y, (x :: xs).getLast? = some y := ⟨_, List.getLast?_eq_some_getLast (by simp)⟩
      have hr : y.r = z := by
        obtain ⟨w, hw⟩ := List.getLast?_eq_some_iff.mp hy
        rw [hs, hw] at h1
        obtain ⟨k, -, k2⟩ := contig_append _ _ _ _ h1
        exact k2.2.2
      have hl : x.l = a := by rw [hs] at h1; exact h1.1
      unfold irsContains
      rw [hy, List.head?_cons]
      simp [hl, hr, h2, h3]
  cases hs : splitLoop at_ rl.scraps with
  | none =>
    refine absurd ?_ h4
    unfold Levels.split Bidi.split
    rw [hcon, hs]
    cases rl.scraps.head? <;> rfl
  | some v =>
    obtain ⟨pre, s, rest, post⟩ := v
    obtain ⟨x, x1, x2, x3, x4, x5, x6⟩ := splitLoop_some at_ _ _ _ _ _ hs
    refine ⟨x, by rw [x1]; simp, x2, x3, fun pos => ?_⟩
    have hafter : Bidi.afterSplit rl.scraps at_ = pre ++ s :: post := by
      unfold Bidi.afterSplit
      rw [hcon, hs]
    rw [x1] at h1
    obtain ⟨k, k1, k2⟩ := contig_append _ _ _ _ h1
    have hk : x.l = k := k2.1
    have hpre : ∀ y ∈ pre, y.r ≤ x.l := fun y hy => by have := contig_outside _ _ _ k1 y hy; omega
    have hpost : ∀ y ∈ post, x.r ≤ y.l := fun y hy => (contig_outside _ _ _ k2.2.2 y hy).1
    unfold Levels.directionAt Levels.afterSplit
    dsimp only
    rw [hafter, x1, List.find?_append, List.find?_append]
    cases hp : pre.find? (fun s => s.l ≤ pos && pos < s.r) with
    | some y =>
      have hy := List.find?_some hp
      have := hpre y (List.mem_of_find?_eq_some hp)
      simp only [Bool.and_eq_true, decide_eq_true_eq] at hy
      rw [if_neg (by omega)]
      rfl
    | none =>
      rw [Option.none_or, Option.none_or]
      by_cases hc : at_ ≤ pos ∧ pos < x.r
      · rw [if_pos hc, List.find?_cons_of_neg (by rw [x6]; simp; omega)]
        have : post.find? (fun s => s.l ≤ pos && pos < s.r) = none := by
          rw [List.find?_eq_none]
          intro y hy
          have := hpost y hy
          simp; omega
        rw [this]
      · rw [if_neg hc]
        by_cases hx : x.l ≤ pos ∧ pos < x.r
        · rw [List.find?_cons_of_pos (by rw [x5, x6]; simp; omega), List.find?_cons_of_pos (by simp; omega)]
          unfold directionOf
          dsimp only
          rw [x4]
        · rw [List.find?_cons_of_neg (by rw [x5, x6]; simp; omega), List.find?_cons_of_neg (by simp; omega)]

example : ∃ rl, Resolves sample { testing := true } (fun _ => 0) (ascii ['a', 'B', 'C', 'd']) rl ∧ Contig 0 4 rl.scraps ∧ (rl.split 2 false).isSome = true ∧
    (List.range 4).map (Levels.afterSplit rl 2).directionAt = [.ltr, .rtl, .ltr, .ltr] := by
  obtain ⟨rl, a1, a2⟩ := resolvedWith_iff (T := sample) (o := { testing := true }) (sched := fun _ => 0) (b := ascii ['a', 'B', 'C', 'd']) (n := 60)
    (f := fun rl => brief rl.scraps == [(cLRI, 0, 0), (cL, 0, 1), (cR, 1, 3), (cL, 3, 4), (cPDI, 4, 4)] && (rl.split 2 false).isSome &&
      decide ((List.range 4).map (Levels.afterSplit rl 2).directionAt = [.ltr, .rtl, .ltr, .ltr])) (by decide +kernel)
  simp only [Bool.and_eq_true, decide_eq_true_eq, beq_iff_eq] at a2
  refine ⟨rl, a1, ?_, a2.1.2, a2.2⟩
  have key : ∀ (l : List Scrap) (a z : Nat), (∀ b, brief l = b → Contig a z (b.map fun x => ({ clz := x.1, l := x.2.1, r := x.2.2 } : Scrap)) → Contig a z l) := by
    intro l
    induction l with
    | nil => intro a z b hb h; subst hb; exact h
    | cons y l ih =>
      intro a z b hb h
      subst hb
      exact ⟨h.1, h.2.1, ih _ _ _ rfl h.2.2⟩
  refine key _ _ _ _ a2.1.1 ?_
  simp [Contig]

/-- Split does not leave its receiver as it was: splitting a text at the same position again panics. -/
theorem C72_receiver_violated : ∃ rl x, Resolves sample {} (fun _ => 0) (ascii ['a', 'b']) rl ∧ rl.split 1 false = some x ∧ (Levels.afterSplit rl 1).split 1 false = none := by
  obtain ⟨rl, a1, a2⟩ := resolvedWith_iff (T := sample) (o := {}) (sched := fun _ => 0) (b := ascii ['a', 'b']) (n := 60)
    (f := fun rl => (rl.split 1 false).isSome && (Levels.afterSplit rl 1 |>.split 1 false).isNone) (by decide +kernel)
  simp only [Bool.and_eq_true, Option.isSome_iff_exists, Option.isNone_iff_eq_none] at a2
  obtain ⟨⟨x, hx⟩, h⟩ := a2
  exact ⟨rl, x, a1, hx, h⟩

/-- Splitting a text at its end gives a right part with which Split panics. -/
theorem C72_end_violated : ∃ rl l r, Resolves sample {} (fun _ => 0) (ascii ['a', 'b']) rl ∧ rl.split 2 true = some (l, r) ∧ r.split 0 true = none := by
  obtain ⟨rl, a1, a2⟩ := resolvedWith_iff (T := sample) (o := {}) (sched := fun _ => 0) (b := ascii ['a', 'b']) (n := 60)
    (f := fun rl => match rl.split 2 true with
      | some (_, r) => (r.split 0 true).isNone
      | none => false) (by decide +kernel)
  cases hs : rl.split 2 true with
  | none => rw [hs] at a2; cases a2
  | some x =>
    rw [hs] at a2
    exact ⟨rl, x.1, x.2, a1, hs, by simpa using a2⟩

/-- The parts do not know the direction of the paragraph: from right to left, the runs of a line "A1" come in
another order than those of a paragraph "A1". -/
theorem C72_embedding_violated : ∃ rl rl' l r runs runs', Resolves sample { testing := true, outerR2L := true } (fun _ => 0) (ascii ['A', '1', 'B']) rl ∧
    rl.split 2 true = some (l, r) ∧ l.reorder = some runs ∧ Resolves sample { testing := true, outerR2L := true } (fun _ => 0) (ascii ['A', '1']) rl' ∧
    rl'.reorder = some runs' ∧ briefRuns runs = [(.ltr, 1, [(1, 2)]), (.rtl, 1, [(0, 1)])] ∧ briefRuns runs' = [(.rtl, 1, [(0, 1)]), (.ltr, 1, [(1, 2)])] := by
  obtain ⟨rl, a1, a2⟩ := resolvedWith_iff (T := sample) (o := { testing := true, outerR2L := true }) (sched := fun _ => 0) (b := ascii ['A', '1', 'B']) (n := 60)
    (f := fun rl => match rl.split 2 true with
      | some (l, _) => decide (l.reorder.map briefRuns = some [(.ltr, 1, [(1, 2)]), (.rtl, 1, [(0, 1)])])
      | none => false) (by decide +kernel)
  obtain ⟨rl', b1, b2⟩ := resolvedWith_iff (T := sample) (o := { testing := true, outerR2L := true }) (sched := fun _ => 0) (b := ascii ['A', '1']) (n := 60)
    (f := fun rl => decide (rl.reorder.map briefRuns = some [(.rtl, 1, [(0, 1)]), (.ltr, 1, [(1, 2)])])) (by decide +kernel)
  cases hs : rl.split 2 true with
  | none => rw [hs] at a2; cases a2
  | some x =>
    rw [hs] at a2
    obtain ⟨runs, r1, r2⟩ := Option.map_eq_some_iff.mp (of_decide_eq_true a2)
    obtain ⟨runs', q1, q2⟩ := Option.map_eq_some_iff.mp (of_decide_eq_true b2)
    exact ⟨rl, rl', x.1, x.2, runs, runs', a1, hs, r1, b1, q1, r2, q2⟩

end Uax
