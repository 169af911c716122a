import Verif.Props.TwoBreakers
import Verif.Props.SimpleWord

/-! Property C77 for the simple word breaker, which has no penalty for positions that are not the end of a run. -/

namespace Uax
open Seg

namespace SWB

/-- A run of white space, or of other runes, ends after rune `i`. -/
def runEnds (isSpace : Int → Bool) (text : List Int) (i : Nat) : Bool :=
  match text[i]?, text[i + 1]? with
  | some a, some c => !(isSpace a == isSpace c)
  | _, _ => true

theorem cutAfter_runs (isSpace : Int → Bool) (text : List Int) : cutAfter (runEnds isSpace text) text = text.splitBy fun a c => isSpace a == isSpace c := by
  rw [splitBy_pieces, cutAfter]
  congr 2
  apply List.ext_getElem?
  intro i
  rw [List.getElem?_mapIdx, runMarks_get]
  cases h : text[i]? with
  | none => rfl
  | some a =>
    simp only [Option.map_some, runEnds, h]
    cases text[i + 1]? <;> rfl

variable (isSpace : Int → Bool)

theorem any_run (hz : isSpace 0 = false) : ∀ (past : List Int) (b : SWB), (Idle b ∨ ∃ c, In c b) →
    Idle ((breaker isSpace).run b past) ∨ ∃ c, In c ((breaker isSpace).run b past)
  | [], _, h => h
  | r :: past, b, h => by
    refine any_run hz past ((breaker isSpace).step b r).1 ?_
    by_cases hr : r = 0
    · subst hr
      rcases h with h | ⟨c, h⟩
      · exact .inl (step_end_idle isSpace hz h).1
      · exact .inl (step_end isSpace hz h).1
    · rcases h with h | ⟨c, h⟩
      · exact .inr ⟨_, step_idle isSpace h hr⟩
      · exact .inr ⟨_, (step_in isSpace h hr).1⟩

theorem past_idle (hz : isSpace 0 = false) (past : List Int) (hp : CompletePast past) : Idle ((breaker isSpace).run new past) := by
  rcases hp with rfl | h
  · exact new_idle
  · obtain ⟨ys, rfl⟩ := List.getLast?_eq_some_iff.mp h
    unfold Breaker.run
    rw [List.foldl_append]
    rcases any_run isSpace hz ys new (.inl new_idle) with h | ⟨c, h⟩
    · exact (step_end_idle isSpace hz h).1
    · exact (step_end isSpace hz h).1

/-- What is known about a position is known with the next rune. -/
theorem soFar (hz : isSpace 0 = false) {b : SWB} (h : Idle b) (text : List Int) (ht : ∀ x ∈ text, x ≠ 0) (i : Nat) (hi : i < text.length) :
    ∀ n, soFar0 (verdicts (breaker isSpace) [b] (text ++ [0])) i (n + 1) = if runEnds isSpace text i then (if isSpace text[i] then -100 else 100) else 0 := by
  have hv := verdict_at isSpace hz h text ht
  have term0 : ∀ n, n ≠ 1 → term (verdicts (breaker isSpace) [b] (text ++ [0])) i n = 0 := by
    intro n hn
    unfold term
    cases hg : (verdicts (breaker isSpace) [b] (text ++ [0]))[i + n]? with
    | none => rfl
    | some v => exact (hv _ v hg).1 n hn
  have ha : text[i]? = some text[i] := List.getElem?_eq_getElem hi
  intro n
  induction n with
  | zero =>
    rw [soFar0_succ, soFar0_zero, term0 0 (by decide), Int.zero_add]
    have hlt : i + 1 < (verdicts (breaker isSpace) [b] (text ++ [0])).length := by rw [verdicts_length]; simp; omega
    have he := List.getElem?_eq_getElem hlt
    have := (hv _ _ he).2.2.2.2 i _ rfl ha
    unfold term
    rw [Nat.zero_add, he, Option.map_some, Option.getD_some, this]
    simp only [runEnds, ha]
    cases text[i + 1]? with
    | none => rfl
    | some c =>
      simp only [Option.map_some, Option.getD_some]
      by_cases hb : (isSpace text[i] == isSpace c) = true
      · rw [if_pos hb, if_neg (by rw [hb]; decide)]
      · have hb' : (!(isSpace text[i] == isSpace c)) = true := by rw [Bool.not_eq_true] at hb; rw [hb]; rfl
        rw [if_neg hb, if_pos hb']
  | succ n ih => rw [soFar0_succ, ih, term0 _ (by omega), Int.add_zero]

theorem run_says (hz : isSpace 0 = false) {b : SWB} (h : Idle b) (text : List Int) (ht : ∀ x ∈ text, x ≠ 0) (i : Nat) (hi : i < text.length) :
    (runEnds isSpace text i = true → SaysYes (verdicts (breaker isSpace) [b] (text ++ [0])) i) ∧
    (runEnds isSpace text i = false → ∀ m, 1 ≤ m → soFar0 (verdicts (breaker isSpace) [b] (text ++ [0])) i m = 0) := by
  refine ⟨fun hc => ⟨fun n h1 _ => ?_⟩, fun hc m h1 => ?_⟩
  · obtain ⟨n, rfl⟩ : ∃ k, n = k + 1 := ⟨n - 1, by omega⟩
    rw [soFar isSpace hz h text ht i hi, if_pos hc]
    split <;> omega
  · obtain ⟨m, rfl⟩ : ∃ k, m = k + 1 := ⟨m - 1, by omega⟩
    rw [soFar isSpace hz h text ht i hi, if_neg (by rw [hc]; decide)]

theorem lam_end (hz : isSpace 0 = false) {b : SWB} (h : Idle b) (text : List Int) (ht : ∀ x ∈ text, x ≠ 0) (v : Verdict)
    (hv : (verdicts (breaker isSpace) [b] (text ++ [0]))[text.length]? = some v) : v.lam ≤ 1 := by
  have := (verdict_at isSpace hz h text ht _ v hv).2.2.2.1 rfl
  omega

end SWB

/-- The penalty of a break, if those of 0 are none. -/
def breaks (p : Int) : Bool := decide (p < 10000 ∧ p ≠ 0)

theorem breaks_feasible {z : Bool} (hz : z = false) (p : Int) (h : Feasible p z) : breaks p = true := by
  refine decide_eq_true ⟨h.1, fun h0 => ?_⟩
  have := h.2 h0
  rw [hz] at this
  cases this

theorem breaks_yes (p : Int) (h : p < 10000 ∧ p ≠ 0) : breaks p = true := decide_eq_true h

/-- One Segmenter with the simple word breaker and, second, one for graphemes, whatever it did before, if `BreakOnZero` is off for the first one: each
segment ends at the end of a run of white space or of other runes, or at the end of a grapheme. Put together up to the segments of which the first
penalty is that of a break, they are the runs; up to the segments of which the second penalty is less than 10000, they are the graphemes.
Missing: texts with NUL, and what is missing in C22 (GB9b). -/
theorem C77_simple_partial (isSpace : Int → Bool) (hz : isSpace 0 = false) (T' : GTables) (past : List Int) (hp : CompletePast past) {s : Seg (SWB ⊕ Graph.GBrk)}
    (hr : Reachable (both (SWB.breaker isSpace) (Graph.breaker T')) s)
    (hb : s.brk = [.inl ((SWB.breaker isSpace).run SWB.new past), .inr ((Graph.breaker T').run Graph.new past)]) (h0 : s.zero0 = false)
    (text : List Int) (ht : ∀ x ∈ text, x ≠ 0) (n : Nat) (hn : text.length + 1 < n) :
    ∃ segs, (s.initSlice text).collect (both (SWB.breaker isSpace) (Graph.breaker T')) n = some (segs, true) ∧
      (∀ src : List (Int × Nat), src.map (·.1) = text → text.length ≤ s.room →
        (s.initReader src none).collect (both (SWB.breaker isSpace) (Graph.breaker T')) n = some (segs, true)) ∧
      segs.map (·.runes) = cutAfter (fun i => SWB.runEnds isSpace text i ||
        gBoundary false ((text.take (i + 1)).map (Graph.classOf T')).reverse ((text.drop (i + 1)).map (Graph.classOf T'))) text ∧
      groups (fun g => decide (g.pens.1 < 10000 ∧ g.pens.1 ≠ 0)) segs = (text.splitBy fun a c => isSpace a == isSpace c) ∧
      groups (fun g => decide (g.pens.2 < 10000)) segs = clusters false (Graph.classOf T') text := by
  have h := SWB.past_idle isSpace hz past hp
  have hG := Graph.past_rep T' past hp
  generalize (SWB.breaker isSpace).run SWB.new past = a at *
  generalize (Graph.breaker T').run Graph.new past = b at *
  have hj := fun i => verdicts_both (SWB.breaker isSpace) (Graph.breaker T') (text ++ [0]) a b i
  have hl : (verdicts (SWB.breaker isSpace) [a] (text ++ [0])).length = (verdicts (Graph.breaker T') [b] (text ++ [0])).length := by rw [verdicts_length, verdicts_length]
  obtain ⟨segs, h1, h1', h2, h3, h4⟩ := heard_segments (both (SWB.breaker isSpace) (Graph.breaker T')) (verdicts (SWB.breaker isSpace) [a] (text ++ [0]))
    (verdicts (Graph.breaker T') [b] (text ++ [0])) text (SWB.runEnds isSpace text) (Graph.cutG false (Graph.classOf T') text) hr s.zero0 s.zero1
    (fun p => breaks p.1) (fun p => decide (p.2 < 10000)) (by rw [hb]; exact heard_first hj hl _ _ _) (breaks_feasible h0) breaks_yes
    (by intro i n; rw [hb, both_soFar0 hj hl])
    (fun i hi hc => .inl ((SWB.run_says isSpace hz h text ht i hi).1 hc))
    (fun i hi hc n m h1 h2 _ _ => by rw [(SWB.run_says isSpace hz h text ht i hi).2 hc m (by omega)]; rfl)
    (SWB.lam_end isSpace hz h text ht) below_feasible below_yes (by intro i n; rw [hb, both_soFar1 hj hl]) (Graph.decides T' hG text ht)
    (fun i _ => by rw [Graph.ripe_zero (T := T') hG, Bool.and_false]) (by rw [Graph.ripe_zero (T := T') hG, Bool.and_false]; rfl) n hn
  exact ⟨segs, h1, h1', h2, by rw [← SWB.cutAfter_runs]; exact h3, h4⟩

/-- The same with the breaker for graphemes as the first one. -/
theorem C77_simple_second_partial (isSpace : Int → Bool) (hz : isSpace 0 = false) (T' : GTables) (past : List Int) (hp : CompletePast past) {s : Seg (Graph.GBrk ⊕ SWB)}
    (hr : Reachable (both (Graph.breaker T') (SWB.breaker isSpace)) s)
    (hb : s.brk = [.inl ((Graph.breaker T').run Graph.new past), .inr ((SWB.breaker isSpace).run SWB.new past)]) (h0 : s.zero1 = false)
    (text : List Int) (ht : ∀ x ∈ text, x ≠ 0) (n : Nat) (hn : text.length + 1 < n) :
    ∃ segs, (s.initSlice text).collect (both (Graph.breaker T') (SWB.breaker isSpace)) n = some (segs, true) ∧
      (∀ src : List (Int × Nat), src.map (·.1) = text → text.length ≤ s.room →
        (s.initReader src none).collect (both (Graph.breaker T') (SWB.breaker isSpace)) n = some (segs, true)) ∧
      segs.map (·.runes) = cutAfter (fun i => SWB.runEnds isSpace text i ||
        gBoundary false ((text.take (i + 1)).map (Graph.classOf T')).reverse ((text.drop (i + 1)).map (Graph.classOf T'))) text ∧
      groups (fun g => decide (g.pens.1 < 10000)) segs = clusters false (Graph.classOf T') text ∧
      groups (fun g => decide (g.pens.2 < 10000 ∧ g.pens.2 ≠ 0)) segs = (text.splitBy fun a c => isSpace a == isSpace c) := by
  have h := SWB.past_idle isSpace hz past hp
  have hG := Graph.past_rep T' past hp
  generalize (SWB.breaker isSpace).run SWB.new past = a at *
  generalize (Graph.breaker T').run Graph.new past = b at *
  have hj := fun i => verdicts_both (Graph.breaker T') (SWB.breaker isSpace) (text ++ [0]) b a i
  have hl : (verdicts (SWB.breaker isSpace) [a] (text ++ [0])).length = (verdicts (Graph.breaker T') [b] (text ++ [0])).length := by rw [verdicts_length, verdicts_length]
  obtain ⟨segs, h1, h1', h2, h3, h4⟩ := heard_segments (both (Graph.breaker T') (SWB.breaker isSpace)) (verdicts (SWB.breaker isSpace) [a] (text ++ [0]))
    (verdicts (Graph.breaker T') [b] (text ++ [0])) text (SWB.runEnds isSpace text) (Graph.cutG false (Graph.classOf T') text) hr s.zero1 s.zero0
    (fun p => breaks p.2) (fun p => decide (p.1 < 10000)) (by rw [hb]; exact heard_second hj hl _ _ _) (breaks_feasible h0) breaks_yes
    (by intro i n; rw [hb, both_soFar1 hj hl.symm])
    (fun i hi hc => .inl ((SWB.run_says isSpace hz h text ht i hi).1 hc))
    (fun i hi hc n m h1 h2 _ _ => by rw [(SWB.run_says isSpace hz h text ht i hi).2 hc m (by omega)]; rfl)
    (SWB.lam_end isSpace hz h text ht) below_feasible below_yes (by intro i n; rw [hb, both_soFar0 hj hl.symm]) (Graph.decides T' hG text ht)
    (fun i _ => by rw [Graph.ripe_zero (T := T') hG, Bool.and_false]) (by rw [Graph.ripe_zero (T := T') hG, Bool.and_false]; rfl) n hn
  exact ⟨segs, h1, h1', h2, h4, by rw [← SWB.cutAfter_runs]; exact h3⟩

theorem SWB.ripe_zero (isSpace : Int → Bool) (hz : isSpace 0 = false) {b : SWB} (h : SWB.Idle b) (text : List Int) (ht : ∀ x ∈ text, x ≠ 0) (i : Nat) (hi : i < text.length) :
    ripe (verdicts (SWB.breaker isSpace) [b] (text ++ [0])) i 0 = false := by
  have hlt : i < (verdicts (SWB.breaker isSpace) [b] (text ++ [0])).length := by rw [verdicts_length]; simp; omega
  have he := List.getElem?_eq_getElem hlt
  have := (SWB.verdict_at isSpace hz h text ht _ _ he).2.2.1 hi
  unfold ripe
  rw [Nat.add_zero, he]
  simp only [Option.map_some, Option.getD_some, decide_eq_false_iff_not]
  omega

theorem SWB.mark_zero (isSpace : Int → Bool) (hz : isSpace 0 = false) {b : SWB} (h : SWB.Idle b) (text : List Int) (ht : ∀ x ∈ text, x ≠ 0) :
    soFar0 (verdicts (SWB.breaker isSpace) [b] (text ++ [0])) text.length 0 = 0 := by
  have hlt : text.length < (verdicts (SWB.breaker isSpace) [b] (text ++ [0])).length := by rw [verdicts_length]; simp
  have he := List.getElem?_eq_getElem hlt
  rw [soFar0_zero, term, Nat.add_zero, he]
  exact (SWB.verdict_at isSpace hz h text ht _ _ he).1 0 (by decide)

theorem Word.mark_zero (T : WTables) {b : Word.WBrk} (h : Word.Rep [] b) (text : List Int) :
    soFar0 (verdicts (Word.breaker T) [b] (text ++ [0])) text.length 0 = 0 := by
  obtain ⟨v, h1, -, h3⟩ := Word.verd_last (T := T) h text
  rw [soFar0_zero, term, Nat.add_zero, h1]
  exact h3

/-- One Segmenter with the simple word breaker and, second, the one for words of UAX#29: the same as for graphemes.
Missing: texts with NUL, and what is missing in C26 (the far-reaching rules for words). -/
theorem C77_simple_words_partial (isSpace : Int → Bool) (hz : isSpace 0 = false) (T : WTables) (past : List Int) (hp : CompletePast past) {s : Seg (SWB ⊕ Word.WBrk)}
    (hr : Reachable (both (SWB.breaker isSpace) (Word.breaker T)) s)
    (hb : s.brk = [.inl ((SWB.breaker isSpace).run SWB.new past), .inr ((Word.breaker T).run Word.new past)]) (h0 : s.zero0 = false)
    (text : List Int) (ht : ∀ x ∈ text, x ≠ 0) (n : Nat) (hn : text.length + 1 < n) :
    ∃ segs, (s.initSlice text).collect (both (SWB.breaker isSpace) (Word.breaker T)) n = some (segs, true) ∧
      (∀ src : List (Int × Nat), src.map (·.1) = text → text.length ≤ s.room →
        (s.initReader src none).collect (both (SWB.breaker isSpace) (Word.breaker T)) n = some (segs, true)) ∧
      segs.map (·.runes) = cutAfter (fun i => SWB.runEnds isSpace text i ||
        wBoundary false ((text.take (i + 1)).map (wordCharSeen T)).reverse ((text.drop (i + 1)).map (wordCharSeen T))) text ∧
      groups (fun g => decide (g.pens.1 < 10000 ∧ g.pens.1 ≠ 0)) segs = (text.splitBy fun a c => isSpace a == isSpace c) ∧
      groups (fun g => decide (g.pens.2 < 10000)) segs = words false (wordCharSeen T) text := by
  have h := SWB.past_idle isSpace hz past hp
  have hG := Word.past_rep T past hp
  generalize (SWB.breaker isSpace).run SWB.new past = a at *
  generalize (Word.breaker T).run Word.new past = b at *
  have hj := fun i => verdicts_both (SWB.breaker isSpace) (Word.breaker T) (text ++ [0]) a b i
  have hl : (verdicts (SWB.breaker isSpace) [a] (text ++ [0])).length = (verdicts (Word.breaker T) [b] (text ++ [0])).length := by rw [verdicts_length, verdicts_length]
  obtain ⟨segs, h1, h1', h2, h3, h4⟩ := heard_segments (both (SWB.breaker isSpace) (Word.breaker T)) (verdicts (SWB.breaker isSpace) [a] (text ++ [0]))
    (verdicts (Word.breaker T) [b] (text ++ [0])) text (SWB.runEnds isSpace text) (Word.cutS false (wordCharSeen T) text) hr s.zero0 s.zero1
    (fun p => breaks p.1) (fun p => decide (p.2 < 10000)) (by rw [hb]; exact heard_first hj hl _ _ _) (breaks_feasible h0) breaks_yes
    (by intro i n; rw [hb, both_soFar0 hj hl])
    (fun i hi hc => .inl ((SWB.run_says isSpace hz h text ht i hi).1 hc))
    (fun i hi hc n m h1 h2 _ _ => by rw [(SWB.run_says isSpace hz h text ht i hi).2 hc m (by omega)]; rfl)
    (SWB.lam_end isSpace hz h text ht) below_feasible below_yes (by intro i n; rw [hb, both_soFar1 hj hl]) (Word.decides T hG text ht)
    (fun i hi => by rw [SWB.ripe_zero isSpace hz h text ht i hi]; rfl)
    (by
      rw [hb]
      unfold okAt Tester.ok base
      rw [if_pos rfl, both_soFar0 hj hl, both_soFar1 hj hl, SWB.mark_zero isSpace hz h text ht, Word.mark_zero T hG]
      simp [Feasible]) n hn
  exact ⟨segs, h1, h1', h2, by rw [← SWB.cutAfter_runs]; exact h3, h4⟩

/-- The same with the breaker of UAX#29 as the first one. -/
theorem C77_simple_words_second_partial (isSpace : Int → Bool) (hz : isSpace 0 = false) (T : WTables) (past : List Int) (hp : CompletePast past) {s : Seg (Word.WBrk ⊕ SWB)}
    (hr : Reachable (both (Word.breaker T) (SWB.breaker isSpace)) s)
    (hb : s.brk = [.inl ((Word.breaker T).run Word.new past), .inr ((SWB.breaker isSpace).run SWB.new past)]) (h0 : s.zero1 = false)
    (text : List Int) (ht : ∀ x ∈ text, x ≠ 0) (n : Nat) (hn : text.length + 1 < n) :
    ∃ segs, (s.initSlice text).collect (both (Word.breaker T) (SWB.breaker isSpace)) n = some (segs, true) ∧
      (∀ src : List (Int × Nat), src.map (·.1) = text → text.length ≤ s.room →
        (s.initReader src none).collect (both (Word.breaker T) (SWB.breaker isSpace)) n = some (segs, true)) ∧
      segs.map (·.runes) = cutAfter (fun i => SWB.runEnds isSpace text i ||
        wBoundary false ((text.take (i + 1)).map (wordCharSeen T)).reverse ((text.drop (i + 1)).map (wordCharSeen T))) text ∧
      groups (fun g => decide (g.pens.1 < 10000)) segs = words false (wordCharSeen T) text ∧
      groups (fun g => decide (g.pens.2 < 10000 ∧ g.pens.2 ≠ 0)) segs = (text.splitBy fun a c => isSpace a == isSpace c) := by
  have h := SWB.past_idle isSpace hz past hp
  have hG := Word.past_rep T past hp
  generalize (SWB.breaker isSpace).run SWB.new past = a at *
  generalize (Word.breaker T).run Word.new past = b at *
  have hj := fun i => verdicts_both (Word.breaker T) (SWB.breaker isSpace) (text ++ [0]) b a i
  have hl : (verdicts (SWB.breaker isSpace) [a] (text ++ [0])).length = (verdicts (Word.breaker T) [b] (text ++ [0])).length := by rw [verdicts_length, verdicts_length]
  obtain ⟨segs, h1, h1', h2, h3, h4⟩ := heard_segments (both (Word.breaker T) (SWB.breaker isSpace)) (verdicts (SWB.breaker isSpace) [a] (text ++ [0]))
    (verdicts (Word.breaker T) [b] (text ++ [0])) text (SWB.runEnds isSpace text) (Word.cutS false (wordCharSeen T) text) hr s.zero1 s.zero0
    (fun p => breaks p.2) (fun p => decide (p.1 < 10000)) (by rw [hb]; exact heard_second hj hl _ _ _) (breaks_feasible h0) breaks_yes
    (by intro i n; rw [hb, both_soFar1 hj hl.symm])
    (fun i hi hc => .inl ((SWB.run_says isSpace hz h text ht i hi).1 hc))
    (fun i hi hc n m h1 h2 _ _ => by rw [(SWB.run_says isSpace hz h text ht i hi).2 hc m (by omega)]; rfl)
    (SWB.lam_end isSpace hz h text ht) below_feasible below_yes (by intro i n; rw [hb, both_soFar0 hj hl.symm]) (Word.decides T hG text ht)
    (fun i hi => by rw [SWB.ripe_zero isSpace hz h text ht i hi]; rfl)
    (by
      rw [hb]
      unfold okAt Tester.ok base
      rw [if_pos rfl, both_soFar0 hj hl.symm, both_soFar1 hj hl.symm, SWB.mark_zero isSpace hz h text ht, Word.mark_zero T hG]
      simp [Feasible]) n hn
  exact ⟨segs, h1, h1', h2, h4, by rw [← SWB.cutAfter_runs]; exact h3⟩

/-- Where a run ends, no match of the simple word breaker is open. -/
theorem SWB.ripe_next (isSpace : Int → Bool) (hz : isSpace 0 = false) {b : SWB} (h : SWB.Idle b) (text : List Int) (ht : ∀ x ∈ text, x ≠ 0) (i : Nat) (hi : i < text.length)
    (hc : SWB.runEnds isSpace text i = true) : ripe (verdicts (SWB.breaker isSpace) [b] (text ++ [0])) i 1 = true := by
  have hlt : i + 1 < (verdicts (SWB.breaker isSpace) [b] (text ++ [0])).length := by rw [verdicts_length]; simp; omega
  have he := List.getElem?_eq_getElem hlt
  have ha : text[i]? = some text[i] := List.getElem?_eq_getElem hi
  unfold ripe
  by_cases hl : i + 1 < text.length
  · have hr0 : text[i + 1] ≠ 0 := ht _ (List.getElem_mem hl)
    have ha0 : text[i] ≠ 0 := ht _ (List.getElem_mem hi)
    have hne : SWB.classFor isSpace text[i + 1] ≠ SWB.classFor isSpace text[i] := by
      simp only [SWB.runEnds, ha, List.getElem?_eq_getElem hl, Bool.not_eq_true', beq_eq_false_iff_ne, ne_eq] at hc
      rw [SWB.classFor_text isSpace hr0, SWB.classFor_text isSpace ha0]
      intro h
      apply hc
      cases h1 : isSpace text[i] <;> cases h2 : isSpace text[i + 1] <;> simp [h1, h2] at h ⊢
    have htk : (text ++ [0]).take (i + 1) = text.take i ++ [text[i]] := by
      rw [List.take_append_of_le_length (by omega), List.take_add_one, ha]; rfl
    have hin := SWB.run_in isSpace h (text.take i) text[i] (fun x hx => by
      rcases List.mem_append.mp hx with h | h
      · exact ht x (List.mem_of_mem_take h)
      · rw [List.mem_singleton.mp h]; exact ha0)
    rw [verdicts_get, List.getElem?_append_left hl, List.getElem?_eq_getElem hl, htk]
    generalize (SWB.breaker isSpace).run b (text.take i ++ [text[i]]) = st at hin
    show decide (max (((SWB.breaker isSpace).step st text[i + 1]).2.1) 0 ≤ _) = true
    have hst : ((SWB.breaker isSpace).step st text[i + 1]).2.1 = 1 := by
      show (st.proceed text[i + 1] (SWB.classFor isSpace text[i + 1])).len (st.proceed text[i + 1] (SWB.classFor isSpace text[i + 1])).matchType = 1
      have hk : SWB.classFor isSpace text[i + 1] < 2 := by rw [SWB.classFor_text isSpace hr0]; split <;> omega
      have hsm := hin.small
      have hty := hin.typ
      generalize SWB.classFor isSpace text[i + 1] = k at *
      generalize SWB.classFor isSpace text[i] = c at *
      obtain ⟨pens, l0, l1, l2, mt⟩ := st
      simp only at hty
      subst hty
      have hcc : k = 0 ∨ k = 1 := by omega
      have hmm : mt = 0 ∨ mt = 1 := by omega
      rcases hcc with rfl | rfl <;> rcases hmm with rfl | rfl <;> simp at hne <;> simp only [SWB.proceed, SWB.close] <;>
        split <;> rename_i h' <;> simp_all [SWB.setLen, SWB.len] <;> split <;> simp_all [SWB.setLen, SWB.len]
    rw [hst]
    decide
  · have := (SWB.verdict_at isSpace hz h text ht _ _ he).2.2.2.1 (by omega)
    rw [he]
    simp only [Option.map_some, Option.getD_some, decide_eq_true_eq]
    omega

theorem SWB.decides (isSpace : Int → Bool) (hz : isSpace 0 = false) {b : SWB} (h : SWB.Idle b) (text : List Int) (ht : ∀ x ∈ text, x ≠ 0) :
    Decides (verdicts (SWB.breaker isSpace) [b] (text ++ [0])) text.length breaks (SWB.runEnds isSpace text) where
  len := by rw [verdicts_length]; simp
  yes i hi hc := (SWB.run_says isSpace hz h text ht i hi).1 hc
  no i hi hc n m h1 h2 _ _ := by rw [(SWB.run_says isSpace hz h text ht i hi).2 hc m (by omega)]; rfl
  last := SWB.lam_end isSpace hz h text ht

/-- One Segmenter with the simple word breaker and, second, the one for line wraps: the same as for graphemes, if there is an opportunity to wrap before a
carriage return only where a run ends (not for "LF CR": `C77_simple_lines_violated`). Missing: that, texts with NUL, and what is missing in C29. -/
theorem C77_simple_lines_partial (isSpace : Int → Bool) (hz : isSpace 0 = false) (T : LTables) (past : List Int) (hp : CompletePast past) {s : Seg (SWB ⊕ Line.LBrk)}
    (hr : Reachable (both (SWB.breaker isSpace) (Line.breaker T)) s)
    (hb : s.brk = [.inl ((SWB.breaker isSpace).run SWB.new past), .inr ((Line.breaker T).run Line.new past)]) (h0 : s.zero0 = false)
    (text : List Int) (ht : ∀ x ∈ text, x ≠ 0)
    (hc : ∀ i r, text[i + 1]? = some r → Line.raw T r = .CR → lBoundary false ((text.take (i + 1)).map (Line.raw T)).reverse ((text.drop (i + 1)).map (Line.raw T)) = true →
      SWB.runEnds isSpace text i = true) (n : Nat) (hn : text.length + 1 < n) :
    ∃ segs, (s.initSlice text).collect (both (SWB.breaker isSpace) (Line.breaker T)) n = some (segs, true) ∧
      (∀ src : List (Int × Nat), src.map (·.1) = text → text.length ≤ s.room →
        (s.initReader src none).collect (both (SWB.breaker isSpace) (Line.breaker T)) n = some (segs, true)) ∧
      segs.map (·.runes) = cutAfter (fun i => lBoundary false ((text.take (i + 1)).map (Line.raw T)).reverse ((text.drop (i + 1)).map (Line.raw T)) ||
        SWB.runEnds isSpace text i) text ∧
      groups (fun g => decide (g.pens.1 < 10000 ∧ g.pens.1 ≠ 0)) segs = (text.splitBy fun a c => isSpace a == isSpace c) ∧
      groups (fun g => decide (g.pens.2 < 10000)) segs = lines false (Line.raw T) text := by
  have hG := SWB.past_idle isSpace hz past hp
  have h := Line.past_rep T past hp
  generalize (SWB.breaker isSpace).run SWB.new past = a at *
  generalize (Line.breaker T).run Line.new past = b at *
  have hj := fun i => verdicts_both (SWB.breaker isSpace) (Line.breaker T) (text ++ [0]) a b i
  have hl : (verdicts (Line.breaker T) [b] (text ++ [0])).length = (verdicts (SWB.breaker isSpace) [a] (text ++ [0])).length := by rw [verdicts_length, verdicts_length]
  obtain ⟨segs, h1, h1', h2, h3, h4⟩ := heard_segments (both (SWB.breaker isSpace) (Line.breaker T)) (verdicts (Line.breaker T) [b] (text ++ [0]))
    (verdicts (SWB.breaker isSpace) [a] (text ++ [0])) text (Line.cutS false (Line.raw T) text) (SWB.runEnds isSpace text) hr s.zero1 s.zero0
    (fun p => decide (p.2 < 10000)) (fun p => breaks p.1) (by rw [hb]; exact heard_second hj hl _ _ _) below_feasible below_yes
    (by intro i n; rw [hb, both_soFar1 hj hl.symm])
    (fun i hi hc' => by
      rcases (Line.cut_says_cr (T := T) h text ht s.zero0 i hi).1 (by rw [Line.cut_text T _ ht i hi]; exact hc') with h | ⟨h, r, h1, h2⟩
      · exact .inl h
      · have hw := hc i r h1 h2 hc'
        exact .inr ⟨h, hw, SWB.ripe_next isSpace hz hG text ht i hi hw⟩)
    (says_no fun i hi hc => ⟨_, (Line.cut_says (T := T) h text ht s.zero0 i hi).2 (by rw [Line.cut_text T _ ht i hi]; exact hc)⟩)
    (by
      intro v hv
      obtain ⟨v', h1, h2⟩ := Line.verd_last (T := T) h text
      rw [h1] at hv
      cases hv
      omega)
    (breaks_feasible h0) breaks_yes (by intro i n; rw [hb, both_soFar0 hj hl.symm]) (SWB.decides isSpace hz hG text ht)
    (fun i _ => by rw [Line.ripe_zero T h text ht, Bool.false_and]) (by rw [Line.ripe_zero T h text ht]; rfl) n hn
  exact ⟨segs, h1, h1', h2, by rw [← SWB.cutAfter_runs]; exact h4, h3⟩

/-- The same with the breaker for line wraps as the first one. -/
theorem C77_simple_lines_second_partial (isSpace : Int → Bool) (hz : isSpace 0 = false) (T : LTables) (past : List Int) (hp : CompletePast past) {s : Seg (Line.LBrk ⊕ SWB)}
    (hr : Reachable (both (Line.breaker T) (SWB.breaker isSpace)) s)
    (hb : s.brk = [.inl ((Line.breaker T).run Line.new past), .inr ((SWB.breaker isSpace).run SWB.new past)]) (h0 : s.zero1 = false)
    (text : List Int) (ht : ∀ x ∈ text, x ≠ 0)
    (hc : ∀ i r, text[i + 1]? = some r → Line.raw T r = .CR → lBoundary false ((text.take (i + 1)).map (Line.raw T)).reverse ((text.drop (i + 1)).map (Line.raw T)) = true →
      SWB.runEnds isSpace text i = true) (n : Nat) (hn : text.length + 1 < n) :
    ∃ segs, (s.initSlice text).collect (both (Line.breaker T) (SWB.breaker isSpace)) n = some (segs, true) ∧
      (∀ src : List (Int × Nat), src.map (·.1) = text → text.length ≤ s.room →
        (s.initReader src none).collect (both (Line.breaker T) (SWB.breaker isSpace)) n = some (segs, true)) ∧
      segs.map (·.runes) = cutAfter (fun i => lBoundary false ((text.take (i + 1)).map (Line.raw T)).reverse ((text.drop (i + 1)).map (Line.raw T)) ||
        SWB.runEnds isSpace text i) text ∧
      groups (fun g => decide (g.pens.1 < 10000)) segs = lines false (Line.raw T) text ∧
      groups (fun g => decide (g.pens.2 < 10000 ∧ g.pens.2 ≠ 0)) segs = (text.splitBy fun a c => isSpace a == isSpace c) := by
  have hG := SWB.past_idle isSpace hz past hp
  have h := Line.past_rep T past hp
  generalize (SWB.breaker isSpace).run SWB.new past = a at *
  generalize (Line.breaker T).run Line.new past = b at *
  have hj := fun i => verdicts_both (Line.breaker T) (SWB.breaker isSpace) (text ++ [0]) b a i
  have hl : (verdicts (Line.breaker T) [b] (text ++ [0])).length = (verdicts (SWB.breaker isSpace) [a] (text ++ [0])).length := by rw [verdicts_length, verdicts_length]
  obtain ⟨segs, h1, h1', h2, h3, h4⟩ := heard_segments (both (Line.breaker T) (SWB.breaker isSpace)) (verdicts (Line.breaker T) [b] (text ++ [0]))
    (verdicts (SWB.breaker isSpace) [a] (text ++ [0])) text (Line.cutS false (Line.raw T) text) (SWB.runEnds isSpace text) hr s.zero0 s.zero1
    (fun p => decide (p.1 < 10000)) (fun p => breaks p.2) (by rw [hb]; exact heard_first hj hl _ _ _) below_feasible below_yes
    (by intro i n; rw [hb, both_soFar0 hj hl])
    (fun i hi hc' => by
      rcases (Line.cut_says_cr (T := T) h text ht s.zero0 i hi).1 (by rw [Line.cut_text T _ ht i hi]; exact hc') with h | ⟨h, r, h1, h2⟩
      · exact .inl h
      · have hw := hc i r h1 h2 hc'
        exact .inr ⟨h, hw, SWB.ripe_next isSpace hz hG text ht i hi hw⟩)
    (says_no fun i hi hc => ⟨_, (Line.cut_says (T := T) h text ht s.zero0 i hi).2 (by rw [Line.cut_text T _ ht i hi]; exact hc)⟩)
    (by
      intro v hv
      obtain ⟨v', h1, h2⟩ := Line.verd_last (T := T) h text
      rw [h1] at hv
      cases hv
      omega)
    (breaks_feasible h0) breaks_yes (by intro i n; rw [hb, both_soFar1 hj hl]) (SWB.decides isSpace hz hG text ht)
    (fun i _ => by rw [Line.ripe_zero T h text ht, Bool.false_and]) (by rw [Line.ripe_zero T h text ht]; rfl) n hn
  exact ⟨segs, h1, h1', h2, h3, by rw [← SWB.cutAfter_runs]; exact h4⟩

/-- White space of the next examples: space, line feed and carriage return. -/
def someSpace (r : Int) : Bool := r == 0x20 || r == 0x0a || r == 0x0d

/-- Line wraps and the simple word breaker do not go together: "a LF CR LF b" has three lines, as the breaker for line wraps finds when it is alone. With the simple word
breaker, as the second or the first one, the break after the first line feed is lost. -/
theorem C77_simple_lines_violated :
    (((Seg.new [Line.new]).initSlice [0x61, 0x0a, 0x0d, 0x0a, 0x62]).collect (Line.breaker someTables) 20).map (·.1.map (·.runes)) = some [[0x61, 0x0a], [0x0d, 0x0a], [0x62]] ∧
    (((Seg.new [Sum.inl Line.new, .inr SWB.new]).initSlice [0x61, 0x0a, 0x0d, 0x0a, 0x62]).collect (both (Line.breaker someTables) (SWB.breaker someSpace)) 20).map (·.1.map (·.runes)) =
      some [[0x61], [0x0a, 0x0d, 0x0a], [0x62]] ∧
    (((Seg.new [Sum.inl SWB.new, .inr Line.new]).initSlice [0x61, 0x0a, 0x0d, 0x0a, 0x62]).collect (both (SWB.breaker someSpace) (Line.breaker someTables)) 20).map (·.1.map (·.runes)) =
      some [[0x61], [0x0a, 0x0d, 0x0a], [0x62]] := by decide +kernel

/-- Three breakers do not go together: the penalties of the second and the third one are added, and the sum tells nothing about each of them. "ab  b" has five graphemes,
but with breakers for words, line wraps and graphemes in one Segmenter the two spaces come as one segment (the line must not be wrapped between them by 20000, and a
grapheme ends there by -10); and after the first letter, where there is no opportunity to wrap, the sum is 9992, which is less than the least penalty for that. -/
theorem C77_three_violated :
    (((Seg.new [Graph.new]).initSlice [0x61, 0x62, 0x20, 0x20, 0x62]).collect (Graph.breaker realG) 20).map (·.1.map (·.runes)) = some [[0x61], [0x62], [0x20], [0x20], [0x62]] ∧
    (((Seg.new [Line.new]).initSlice [0x61, 0x62, 0x20, 0x20, 0x62]).collect (Line.breaker someTables) 20).map (·.1.map (·.runes)) = some [[0x61, 0x62, 0x20, 0x20], [0x62]] ∧
    (((Seg.new [Sum.inl (Sum.inl Word.new), .inl (.inr Line.new), .inr Graph.new]).initSlice [0x61, 0x62, 0x20, 0x20, 0x62]).collect
        (both (both (Word.breaker realW) (Line.breaker someTables)) (Graph.breaker realG)) 20).map (·.1) =
      some [⟨[0x61], (10000, 9992)⟩, ⟨[0x62], (10, 19990)⟩, ⟨[0x20, 0x20], (10, -39)⟩, ⟨[0x62], (10, -19010)⟩] := by decide +kernel

/-- Two lines with CR LF at the end of the first: the condition of `C77_simple_lines_partial` is met. -/
example : ∀ i r, ([0x61, 0x20, 0x61, 0x0d, 0x0a, 0x62] : List Int)[i + 1]? = some r → Line.raw someTables r = .CR →
    lBoundary false ((([0x61, 0x20, 0x61, 0x0d, 0x0a, 0x62] : List Int).take (i + 1)).map (Line.raw someTables)).reverse ((([0x61, 0x20, 0x61, 0x0d, 0x0a, 0x62] : List Int).drop (i + 1)).map (Line.raw someTables)) = true →
    SWB.runEnds someSpace [0x61, 0x20, 0x61, 0x0d, 0x0a, 0x62] i = true := by
  intro i r h1 h2 h3
  match i, h1, h3 with
  | 0, h1, _ => exact by decide +kernel
  | 1, h1, _ => exact by decide +kernel
  | 2, h1, _ => exact by decide +kernel
  | 3, h1, _ => cases h1; exact absurd h2 (by decide +kernel)
  | 4, h1, _ => exact by decide +kernel
  | i + 5, h1, _ => cases h1

example : (((Seg.new [Sum.inl Line.new, .inr SWB.new]).initSlice [0x61, 0x20, 0x61, 0x0d, 0x0a, 0x62]).collect (both (Line.breaker someTables) (SWB.breaker someSpace)) 20).map (·.1.map (·.runes)) =
    some [[0x61], [0x20], [0x61], [0x0d, 0x0a], [0x62]] := by decide +kernel

/-- "né  a": the last of the spaces ends a run, the first one does not. -/
example : (((Seg.new [Sum.inl SWB.new, .inr Graph.new]).initSlice [0x6e, 0x65, 0x301, 0x20, 0x20, 0x61]).collect (both (SWB.breaker (· == 32)) (Graph.breaker realG)) 20).map (·.1) =
    some [⟨[0x6e], (0, -10)⟩, ⟨[0x65, 0x301], (100, -10)⟩, ⟨[0x20], (0, -10)⟩, ⟨[0x20], (-100, -10)⟩, ⟨[0x61], (100, -10)⟩] := by decide +kernel

/-- "a.b, c": the runs are "a.b,", the space and "c"; the words are "a.b", the comma, the space and "c". -/
example : (((Seg.new [Sum.inl SWB.new, .inr Word.new]).initSlice [0x61, 0x2e, 0x62, 0x2c, 0x20, 0x63]).collect (both (SWB.breaker (· == 32)) (Word.breaker realW)) 20).map (·.1.map (·.runes)) =
    some [[0x61, 0x2e, 0x62], [0x2c], [0x20], [0x63]] := by decide +kernel

/-- The Segmenters of the examples are among those of the theorems. -/
example : Reachable (both (SWB.breaker (· == 32)) (Word.breaker realW)) (Seg.new [.inl ((SWB.breaker (· == 32)).run SWB.new []), .inr ((Word.breaker realW).run Word.new [])]) ∧
    CompletePast [] ∧ (Seg.new [Sum.inl SWB.new, Sum.inr Word.new]).zero0 = false := ⟨.new _, .inl rfl, rfl⟩

/-- With `BreakOnZero` for the simple word breaker, graphemes are torn apart. -/
example : ((({ Seg.new [Sum.inl SWB.new, .inr Graph.new] with zero0 := true } : Seg (SWB ⊕ Graph.GBrk)).initSlice [0x6e, 0x65, 0x301]).collect (both (SWB.breaker (· == 32)) (Graph.breaker realG)) 20).map (·.1.map (·.runes)) =
    some [[0x6e], [0x65], [0x301]] := by decide +kernel

end Uax
