import Verif.ByLine
import Verif.Props.Line
import Verif.Props.SimpleWord

/-! Property C70: segmenting a text line by line. -/

namespace Uax
open Seg

theorem all_of {β : Type} {B : Breaker β} {n : Nat} {s : Seg β} {p : List (List Int)}
    (h : ∃ segs, s.collect B n = some (segs, true) ∧ segs.map (·.runes) = p) : s.all B n = some p := by
  obtain ⟨segs, h1, h2⟩ := h
  unfold Seg.all
  rw [h1, ← h2]

theorem lines_member {ls : List (List Int)} {l : List Int} (hl : l ∈ ls) (P : Int → Prop) (h : ∀ x ∈ ls.flatten, P x) : ∀ x ∈ l, P x :=
  fun x hx => h x (List.mem_flatten.mpr ⟨l, hl, hx⟩)

theorem lines_length {ls : List (List Int)} {l : List Int} (hl : l ∈ ls) : l.length ≤ ls.flatten.length := by
  induction ls with
  | nil => cases hl
  | cons a ls ih =>
    rw [List.flatten_cons, List.length_append]
    rcases List.mem_cons.mp hl with rfl | h
    · omega
    · have := ih h; omega

/-- From the segments of texts to those of their lines. -/
theorem by_lines {β : Type} (B : Breaker β) (Ok : Seg β → Prop) (cuts : List Int → List (List Int)) (n : Nat) (ls : List (List Int))
    (hc : cuts ls.flatten = (ls.map cuts).flatten) (hz : ∀ x ∈ ls.flatten, x ≠ 0) (hn : ls.flatten.length + 1 < n)
    (h : ∀ s, Ok s → ∀ text : List Int, (∀ x ∈ text, x ≠ 0) → text.length + 1 < n → (s.initSlice text).all B n = some (cuts text)) :
    ∃ parts : List (List (List Int)), parts.length = ls.length ∧
      (∀ (i : Nat) l p, ls[i]? = some l → parts[i]? = some p → ∀ s, Ok s → (s.initSlice l).all B n = some p) ∧
      ∀ s, Ok s → (s.initSlice ls.flatten).all B n = some parts.flatten := by
  refine ⟨ls.map cuts, List.length_map _, ?_, ?_⟩
  · intro i l p h1 h2 s hs
    rw [List.getElem?_map, h1] at h2
    cases h2
    have hm := List.mem_of_getElem? h1
    exact h s hs l (lines_member hm _ hz) (by have := lines_length hm; omega)
  · intro s hs
    rw [← hc]
    exact h s hs _ hz hn

/-- A segmenter, however obtained, with one breaker that has read some complete texts. -/
def OneBreaker {β : Type} (B : Breaker β) (new : β) (s : Seg β) : Prop :=
  Reachable B s ∧ ∃ past, CompletePast past ∧ s.brk = [B.run new past]

/-- Graphemes: the clusters of a text are those of its lines, one after the other, where the lines
end with CR, LF or other controls, and CR LF is not separated. Each line and the text may be
given to different segmenters, new ones or used ones. -/
theorem C70_graphemes (T : GTables) (ls : List (List Int)) (hz : ∀ x ∈ ls.flatten, x ≠ 0)
    (hl : Lines (fun x => (Graph.classOf T x).isCtl = true) (fun x => Graph.classOf T x = .CR) (fun x => Graph.classOf T x = .LF) ls)
    (n : Nat) (hn : ls.flatten.length + 1 < n) :
    ∃ parts : List (List (List Int)), parts.length = ls.length ∧
      (∀ (i : Nat) l p, ls[i]? = some l → parts[i]? = some p → ∀ s, OneBreaker (Graph.breaker T) Graph.new s → (s.initSlice l).all (Graph.breaker T) n = some p) ∧
      ∀ s, OneBreaker (Graph.breaker T) Graph.new s → (s.initSlice ls.flatten).all (Graph.breaker T) n = some parts.flatten := by
  refine by_lines _ _ (clusters false (Graph.classOf T)) n ls ?_ hz hn ?_
  · refine cutWith_lines (gBoundary false) (Graph.classOf T) _ _ _ ?_ ls hl
    intro x second h1 h2
    apply gStops _ _ _ h1
    intro ⟨h3, h4⟩
    cases second with
    | nil => cases h4
    | cons y rest => exact h2 ⟨h3, y, rest, rfl, Option.some.inj h4⟩
  · intro s ⟨hr, past, hp, hb⟩ text ht hn'
    exact all_of (C22_slice_clusters_without_GB9b_partial T past hp hr hb text ht n hn')

/-- Words: lines end with CR, LF or newline characters. -/
theorem C70_words (T : WTables) (ls : List (List Int)) (hz : ∀ x ∈ ls.flatten, x ≠ 0)
    (hl : Lines (fun x => Word.classForRune T x ∈ [WClass.Newline, .CR, .LF]) (fun x => Word.classForRune T x = .CR) (fun x => Word.classForRune T x = .LF) ls)
    (n : Nat) (hn : ls.flatten.length + 1 < n) :
    ∃ parts : List (List (List Int)), parts.length = ls.length ∧
      (∀ (i : Nat) l p, ls[i]? = some l → parts[i]? = some p → ∀ s, OneBreaker (Word.breaker T) Word.new s ∧ s.zero0 = false →
        (s.initSlice l).all (Word.breaker T) n = some p) ∧
      ∀ s, OneBreaker (Word.breaker T) Word.new s ∧ s.zero0 = false → (s.initSlice ls.flatten).all (Word.breaker T) n = some parts.flatten := by
  refine by_lines _ _ (words false (wordCharSeen T)) n ls ?_ hz hn ?_
  · refine cutWith_lines (wBoundary false) (wordCharSeen T) _ _ _ ?_ ls hl
    intro x second h1 h2
    apply wStops _ _ _ h1
    intro ⟨h3, h4⟩
    cases second with
    | nil => cases h4
    | cons y rest => exact h2 ⟨h3, y, rest, rfl, Option.some.inj h4⟩
  · intro s ⟨⟨hr, past, hp, hb⟩, hz0⟩ text ht hn'
    exact all_of (C26_slice_words_near_partial T past hp hr hb hz0 text ht n hn')

/-- Line wrap opportunities: lines end with BK, CR, LF or NL. -/
theorem C70_lines (T : LTables) (ls : List (List Int)) (hz : ∀ x ∈ ls.flatten, x ≠ 0)
    (hl : Lines (fun x => Line.raw T x ∈ [LClass.BK, .CR, .LF, .NL]) (fun x => Line.raw T x = .CR) (fun x => Line.raw T x = .LF) ls)
    (n : Nat) (hn : ls.flatten.length + 1 < n) :
    ∃ parts : List (List (List Int)), parts.length = ls.length ∧
      (∀ (i : Nat) l p, ls[i]? = some l → parts[i]? = some p → ∀ s, OneBreaker (Line.breaker T) Line.new s → (s.initSlice l).all (Line.breaker T) n = some p) ∧
      ∀ s, OneBreaker (Line.breaker T) Line.new s → (s.initSlice ls.flatten).all (Line.breaker T) n = some parts.flatten := by
  refine by_lines _ _ (lines false (Line.raw T)) n ls ?_ hz hn ?_
  · refine cutWith_lines (lBoundary false) (Line.raw T) _ _ _ ?_ ls hl
    intro x second h1 h2
    apply lStops _ _ _ h1
    intro ⟨h3, h4⟩
    cases second with
    | nil => cases h4
    | cons y rest => exact h2 ⟨h3, y, rest, rfl, Option.some.inj h4⟩
  · intro s ⟨hr, past, hp, hb⟩ text ht hn'
    exact all_of (C29_slice_lines_near_partial T past hp hr hb text ht n hn')

/-- Three lines for examples: each of the first two ends with a rune of which `ends` is true. -/
theorem three_lines (ends cr lf : Int → Prop) (a b c : List Int) (x y : Int) (hx : ends x) (hy : ends y) (hb : ∀ z r, b ++ [y] = z :: r → ¬ lf z)
    (hc : ∀ z r, c = z :: r → ¬ lf z) : Lines ends cr lf [a ++ [x], b ++ [y], c] :=
  ⟨⟨a, x, rfl, hx, fun ⟨_, z, r, e, h⟩ => hb z r e h⟩, ⟨b, y, rfl, hy, fun ⟨_, z, r, e, h⟩ => hc z r e h⟩, trivial⟩

/-- Lines with CR LF, and then LF; the next line begins with a combining character or a flag. -/
example : Lines (fun x => (Graph.classOf numTables x).isCtl = true) (fun x => Graph.classOf numTables x = .CR) (fun x => Graph.classOf numTables x = .LF)
    [[33, 32, 20] ++ [21], [24, 25] ++ [20], [25, 25]] ∧
    ((Seg.new [Graph.new]).initSlice ([33, 32, 20] ++ [21] ++ ([24, 25] ++ [20] ++ [25, 25]))).all (Graph.breaker numTables) 20 =
      some [[33, 32], [20, 21], [24], [25], [20], [25, 25]] := by
  refine ⟨three_lines _ _ _ _ _ _ _ _ (by decide) (by decide) ?_ ?_, by decide +kernel⟩
  · intro z r h; injection h with h; subst h; decide
  · intro z r h; injection h with h; subst h; decide

/-- The condition on CR LF is needed. -/
theorem C70_needs_crlf :
    ((Seg.new [Graph.new]).initSlice [20, 21]).all (Graph.breaker numTables) 5 = some [[20, 21]] ∧
    ((Seg.new [Graph.new]).initSlice [20]).all (Graph.breaker numTables) 5 = some [[20]] ∧
    ((Seg.new [Graph.new]).initSlice [21]).all (Graph.breaker numTables) 5 = some [[21]] := by decide +kernel

/-- An apostrophe at the end of a line, letters around the line end, a mark at the beginning of a line. -/
example : Lines (fun x => Word.classForRune numWords x ∈ [WClass.Newline, .CR, .LF]) (fun x => Word.classForRune numWords x = .CR)
    (fun x => Word.classForRune numWords x = .LF) [[20, 35] ++ [28], [20] ++ [32], [23, 20]] ∧
    ((Seg.new [Word.new]).initSlice ([20, 35] ++ [28] ++ ([20] ++ [32] ++ [23, 20]))).all (Word.breaker numWords) 20 =
      some [[20], [35], [28], [20], [32], [23], [20]] := by
  refine ⟨three_lines _ _ _ _ _ _ _ _ (by decide) (by decide) ?_ ?_, by decide +kernel⟩
  · intro z r h; injection h with h; subst h; decide
  · intro z r h; injection h with h; subst h; decide

/-- Spaces and a quotation mark before a line end, a mark and a number after it. -/
example : Lines (fun x => Line.raw numLines x ∈ [LClass.BK, .CR, .LF, .NL]) (fun x => Line.raw numLines x = .CR)
    (fun x => Line.raw numLines x = .LF) [runesOf [.OP, .SP] ++ runesOf [.BK], runesOf [.CM, .NU] ++ runesOf [.NL], runesOf [.RI, .RI, .RI]] ∧
    ((Seg.new [Line.new]).initSlice (runesOf [.OP, .SP, .BK] ++ (runesOf [.CM, .NU, .NL] ++ runesOf [.RI, .RI, .RI]))).all (Line.breaker numLines) 20 =
      some [runesOf [.OP, .SP, .BK], runesOf [.CM, .NU, .NL], runesOf [.RI, .RI], runesOf [.RI]] := by
  refine ⟨three_lines _ _ _ _ _ _ _ _ (by decide) (by decide) ?_ ?_, by decide +kernel⟩
  · intro z r h; injection h with h; subst h; decide
  · intro z r h; injection h with h; subst h; decide

/-- The simple word breaker is not one of them: for it, line ends are just white space. -/
theorem C70_simple_breaker_differs :
    let isSpace : Int → Bool := fun r => r == 10 || r == 32
    ((Seg.new [SWB.new]).initSlice [97, 10, 32, 98]).all (SWB.breaker isSpace) 6 = some [[97], [10, 32], [98]] ∧
    ((Seg.new [SWB.new]).initSlice [97, 10]).all (SWB.breaker isSpace) 6 = some [[97], [10]] ∧
    ((Seg.new [SWB.new]).initSlice [32, 98]).all (SWB.breaker isSpace) 6 = some [[32], [98]] := by decide +kernel

end Uax
