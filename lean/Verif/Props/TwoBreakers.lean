import Verif.TwoBreakers
import Verif.Props.InsideLine
import Verif.Props.Word

/-! Property C77: words, or lines, and graphemes in one Segmenter. -/

namespace Uax
open Seg

/-- Segments put together: a group ends with a segment that passes the test. -/
def groups (test : Segment → Bool) (segs : List Segment) : List (List Int) := (pieces test [] segs).map fun w => (w.map (·.runes)).flatten

/-- What a Segmenter with two breakers, the second one for graphemes, returns: a segment ends wherever one of the breakers wants it to, and the
penalties tell which. -/
structure BothCuts (segs : List Segment) (cutP cutG : Nat → Bool) (text : List Int) : Prop where
  all : segs.map (·.runes) = cutAfter (fun i => cutP i || cutG i) text
  first : groups (fun g => decide (g.pens.1 < 10000)) segs = cutAfter cutP text
  second : groups (fun g => decide (g.pens.2 < 10000)) segs = cutAfter cutG text

theorem Graph.feasible_cut (T : GTables) {b : Graph.GBrk} (h : Graph.Rep .idle b) (text : List Int) (ht : ∀ x ∈ text, x ≠ 0) (i : Nat) (hi : i < text.length) :
    (∀ n, 1 ≤ n → ∀ z, (Feasible (soFar0 (verdicts (Graph.breaker T) [b] (text ++ [0])) i n) z ↔ Graph.cutG false (Graph.classOf T) text i = true) ∧
      (soFar0 (verdicts (Graph.breaker T) [b] (text ++ [0])) i n < 10000 ↔ Graph.cutG false (Graph.classOf T) text i = true)) ∧
    (Graph.cutG false (Graph.classOf T) text i = true → ripe (verdicts (Graph.breaker T) [b] (text ++ [0])) i 1 = true) := by
  obtain ⟨c, d, hc, hd⟩ := Graph.text_next (T := T) text i (by rw [List.length_append, List.length_singleton]; omega)
  obtain ⟨e1, e2, e3, e4⟩ := Graph.early (T := T) h (text ++ [0]) i c d hc hd
  have hcut := Graph.cut_text T false false h text ht i hi
  rw [Graph.cutTime_X (T := T) false false h text i c d hc hd] at hcut
  have hX := Graph.X_vals (Graph.GA.run .idle (((text ++ [0]).map (Graph.classOf T)).take i)) c d
  have hcr : d = .CR → Graph.X (Graph.GA.run .idle (((text ++ [0]).map (Graph.classOf T)).take i)) c d < 10000 := by
    rintro rfl
    exact Graph.X_cr _ _
  have hcut' : Graph.X (Graph.GA.run .idle (((text ++ [0]).map (Graph.classOf T)).take i)) c d < 10000 ↔ Graph.cutG false (Graph.classOf T) text i = true := by
    rw [← hcut]
    split <;> rename_i hx
    · exact ⟨fun _ => rfl, fun _ => hx⟩
    · exact ⟨fun h => absurd h hx, fun h => nomatch h⟩
  refine ⟨fun n hn z => ?_, fun hg => ?_⟩
  · rw [← hcut']
    unfold Feasible
    rcases e2 n hn with e | ⟨e, e'⟩
    · rw [e]
      exact ⟨⟨fun h => h.1, fun h => ⟨h, fun h0 => absurd h0 hX⟩⟩, Iff.rfl⟩
    · have := hcr e
      rw [e']
      exact ⟨⟨fun _ => this, fun _ => ⟨by omega, fun h0 => by omega⟩⟩, ⟨fun _ => this, fun _ => by omega⟩⟩
  · cases hr : ripe (verdicts (Graph.breaker T) [b] (text ++ [0])) i 1 with
    | true => rfl
    | false =>
      have := hcut'.mpr hg
      rw [e4 hr] at this
      omega

theorem Graph.lam_last (T : GTables) {b : Graph.GBrk} (h : Graph.Rep .idle b) (text : List Int) (v : Verdict)
    (hv : (verdicts (Graph.breaker T) [b] (text ++ [0]))[text.length]? = some v) : v.lam ≤ 1 := by
  rw [Graph.verdicts_eq T h, Graph.verd, List.getElem?_map, List.getElem?_append_right (Nat.le_refl _), Nat.sub_self] at hv
  simp only [List.getElem?_cons_zero, Option.map_some, Option.some.injEq] at hv
  rw [← hv]
  show max 1 (Graph.GA.len (Graph.GA.next _ (Graph.classOf T 0))) ≤ 1
  generalize Graph.GA.run _ _ = a
  have : Graph.classOf T 0 = .eot := rfl
  rw [this]
  have hl : (a.next .eot).len ≤ 1 := by cases a <;> first | decide | (show (Graph.GA.len .idle) ≤ 1; decide)
  omega

theorem cutAfter_or (c1 c2 : Nat → Bool) (text : List Int) (h : ∀ i, i < text.length → c1 i = true → c2 i = true) : cutAfter (fun i => c1 i || c2 i) text = cutAfter c2 text := by
  unfold cutAfter
  congr 2
  apply List.ext_getElem?
  intro i
  rw [List.getElem?_mapIdx, List.getElem?_mapIdx]
  cases ht : text[i]? with
  | none => rfl
  | some r =>
    have := h i (List.getElem?_eq_some_iff.mp ht).1
    cases h1 : c1 i with
    | false => simp [h1]
    | true => simp [h1, this h1]

/-- Graphemes are decided. -/
theorem Graph.decides (T : GTables) {b : Graph.GBrk} (h : Graph.Rep .idle b) (text : List Int) (ht : ∀ x ∈ text, x ≠ 0) :
    Decides (verdicts (Graph.breaker T) [b] (text ++ [0])) text.length (fun p => decide (p < 10000)) (Graph.cutG false (Graph.classOf T) text) where
  len := by rw [verdicts_length]; simp
  yes i hi hc := by
    constructor
    intro n h1 _
    have := (((Graph.feasible_cut T h text ht i hi).1 n h1 false).1).mpr hc
    exact ⟨this.1, fun e => nomatch this.2 e⟩
  no i hi hc n m h1 h2 _ _ := by
    have := (((Graph.feasible_cut T h text ht i hi).1 m (by omega) false).2)
    rw [hc] at this
    exact decide_eq_false fun hlt => nomatch this.mp hlt
  last v hv := Graph.lam_last T h text v hv

/-- Words are decided. -/
theorem Word.decides (T : WTables) {b : Word.WBrk} (h : Word.Rep [] b) (text : List Int) (ht : ∀ x ∈ text, x ≠ 0) :
    Decides (verdicts (Word.breaker T) [b] (text ++ [0])) text.length (fun p => decide (p < 10000)) (Word.cutS false (wordCharSeen T) text) where
  len := by rw [verdicts_length]; simp
  yes i hi hc := (Word.cut_says (T := T) h text i hi).1 (by rw [Word.cut_text T _ ht i hi]; exact hc)
  no i hi hc n m h1 h2 h3 h4 := by
    have hN := (Word.cut_says (T := T) h text i hi).2 (by rw [Word.cut_text T _ ht i hi]; exact hc)
    have := hN.no n h1 (by omega) h4
    have := hN.mono n m h1 h2 h3
    exact decide_eq_false (by omega)
  last v hv := by
    obtain ⟨v', h1, h2, -⟩ := Word.verd_last (T := T) h text
    rw [h1] at hv
    cases hv
    omega

/-- A breaker that decides, and another one, in any order. -/
theorem heard_segments {γ : Type} (B : Breaker γ) (vP vG : List Verdict) (text : List Int) (cutP cutG : Nat → Bool)
    {s : Seg γ} (hr : Reachable B s) (zP zG : Bool) (tP tG : Int × Int → Bool)
    (H : Heard ⟨s.zero0, s.zero1, decide (1 < s.brk.length)⟩ (verdicts B s.brk (text ++ [0])) vP vG text.length zP zG)
    {good : Int → Bool} (hgf : ∀ p, Feasible p zP → good p = true) (hgy : ∀ p : Int, p < 10000 ∧ p ≠ 0 → good p = true)
    (htP : ∀ i n, tP (soFar0 (verdicts B s.brk (text ++ [0])) i n, soFar1 (verdicts B s.brk (text ++ [0])) i n) = good (soFar0 vP i n))
    (hy : ∀ i, i < text.length → cutP i = true → SaysYes vP i ∨ (SaysOnce vP i ∧ cutG i = true ∧ ripe vG i 1 = true))
    (hn : ∀ i, i < text.length → cutP i = false → ∀ n m, 1 ≤ n → n ≤ m → i + m < vP.length → ripe vP i n = true → good (soFar0 vP i m) = false)
    (hlast : ∀ v, vP[text.length]? = some v → v.lam ≤ 1) {good' : Int → Bool} (hgf' : ∀ p, Feasible p zG → good' p = true) (hgy' : ∀ p : Int, p < 10000 ∧ p ≠ 0 → good' p = true)
    (htG : ∀ i n, tG (soFar0 (verdicts B s.brk (text ++ [0])) i n, soFar1 (verdicts B s.brk (text ++ [0])) i n) = good' (soFar0 vG i n))
    (D : Decides vG text.length good' cutG) (h00 : ∀ i, i < text.length → (ripe vP i 0 && ripe vG i 0) = false)
    (hm : (ripe vP text.length 0 && ripe vG text.length 0 && okAt ⟨s.zero0, s.zero1, decide (1 < s.brk.length)⟩ (verdicts B s.brk (text ++ [0])) text.length text.length 0) = false) (n : Nat) (hN : text.length + 1 < n) :
    ∃ segs, (s.initSlice text).collect B n = some (segs, true) ∧
      (∀ src : List (Int × Nat), src.map (·.1) = text → text.length ≤ s.room → (s.initReader src none).collect B n = some (segs, true)) ∧ segs.map (·.runes) = cutAfter (fun i => cutP i || cutG i) text ∧
      groups (fun g => tP g.pens) segs = cutAfter cutP text ∧ groups (fun g => tG g.pens) segs = cutAfter cutG text := by
  have hst := both_steady H hy hgf hgy hn hlast hgf' hgy' D h00
  have hcut := both_cut H hy hgf hgy hn hlast hgf' hgy' D h00
  have hmark := both_mark H hy hgf hgy hn hlast hgf' hgy' D h00 (by rw [H.ripe]; exact hm)
  have hbel := both_below H hy hgf hgy hn hlast hgf' hgy' D h00
  have hlast' : ((placesEarly B s.brk s.zero0 s.zero1 text)[text.length]?.map (·.cut)) = some false := by
    rw [placesEarly_cut _ _ _ _ _ _ (Nat.le_refl _), hmark]
    rfl
  have hrun := placesEarly_runes B s.brk s.zero0 s.zero1 text
  have group : ∀ (t : Int × Int → Bool) (cut : Nat → Bool),
      (∀ i n, i < text.length → cutTime ⟨s.zero0, s.zero1, decide (1 < s.brk.length)⟩ (verdicts B s.brk (text ++ [0])) text.length i = some n →
        t (soFar0 (verdicts B s.brk (text ++ [0])) i n, soFar1 (verdicts B s.brk (text ++ [0])) i n) = cut i) →
      (∀ i, i < text.length → (cutP i || cutG i) = false → cut i = false) →
      groups (fun g => t g.pens) (segmentsOf (placesEarly B s.brk s.zero0 s.zero1 text)) = cutAfter cut text := by
    intro t cut h1 h2
    refine segments_groups _ t cut text hrun ?_ hlast'
    intro i hi
    have hlt : i < (text ++ [0]).length := by rw [List.length_append, List.length_singleton]; omega
    have hbase : base text.length i = 0 := by unfold base; rw [if_neg (by omega)]
    unfold placesEarly
    simp only
    rw [List.getElem?_mapIdx, List.getElem?_eq_getElem hlt, Option.map_some, Option.map_some]
    simp only [hbase, Int.zero_add]
    cases hc : cutTime ⟨s.zero0, s.zero1, decide (1 < s.brk.length)⟩ (verdicts B s.brk (text ++ [0])) text.length i with
    | none =>
      have := hcut i hi
      rw [hc] at this
      rw [h2 i hi this.symm]
      rfl
    | some m =>
      simp only [Bool.true_and, Option.some.injEq]
      exact h1 i m hi hc
  have hall : (segmentsOf (placesEarly B s.brk s.zero0 s.zero1 text)).map (·.runes) = cutAfter (fun i => cutP i || cutG i) text := by
    refine segmentsOf_cutAfter _ _ text hrun ?_ hlast'
    intro i hi
    rw [placesEarly_cut _ _ _ _ _ _ (Nat.le_of_lt hi)]
    exact congrArg some (hcut i hi)
  refine ⟨_, collect_slice_early _ hr text n hst ?_ hN, ?_, hall, group tP cutP ?_ ?_, group tG cutG ?_ ?_⟩
  · intro p hp
    rw [hp] at hlast'
    simpa using hlast'
  · rintro src rfl hroom
    rw [List.length_map] at hst hN hroom
    rw [collect_reader_early B hr src n hst hN]
    congr 2
    refine (List.map_congr_left fun g hg => ?_).trans (List.map_id _)
    have hm : g.runes ∈ cutAfter (fun i => cutP i || cutG i) (src.map (·.1)) := by
      rw [← hall]
      exact List.mem_map_of_mem hg
    have := (cutAfter_lengths _ _ _ hm).2
    rw [List.length_map] at this
    rw [List.take_of_length_le (by omega)]
    rfl
  · intro i m hi hc
    rw [htP]
    exact (hbel i m hi hc).1
  · intro i _ h
    rw [Bool.or_eq_false_iff] at h
    exact h.1
  · intro i m hi hc
    rw [htG]
    exact (hbel i m hi hc).2
  · intro i _ h
    rw [Bool.or_eq_false_iff] at h
    exact h.2

theorem below_feasible {z : Bool} (p : Int) (h : Feasible p z) : decide (p < 10000) = true := decide_eq_true h.1

theorem below_yes (p : Int) (h : p < 10000 ∧ p ≠ 0) : decide (p < 10000) = true := decide_eq_true h.1

theorem says_no {vs : List Verdict} {e : Nat} {cut : Nat → Bool} (h : ∀ i, i < e → cut i = false → ∃ z, SaysNo z vs i) :
    ∀ i, i < e → cut i = false → ∀ n m, 1 ≤ n → n ≤ m → i + m < vs.length → ripe vs i n = true → decide (soFar0 vs i m < 10000) = false := by
  intro i hi hc n m h1 h2 h3 h4
  obtain ⟨z, hN⟩ := h i hi hc
  have := hN.no n h1 (by omega) h4
  have := hN.mono n m h1 h2 h3
  exact decide_eq_false (by omega)

/-- The one that decides is the second one. -/
theorem both_segments {α β : Type} (A : Breaker α) (a : α) (B : Breaker β) (b : β) (text : List Int) (cutP cutG : Nat → Bool)
    (hy : ∀ i, i < text.length → cutP i = true → SaysYes (verdicts A [a] (text ++ [0])) i ∨
      (SaysOnce (verdicts A [a] (text ++ [0])) i ∧ cutG i = true ∧ ripe (verdicts B [b] (text ++ [0])) i 1 = true))
    (hn : ∀ i, i < text.length → cutP i = false → ∃ z, SaysNo z (verdicts A [a] (text ++ [0])) i)
    (hlast : ∀ v, (verdicts A [a] (text ++ [0]))[text.length]? = some v → v.lam ≤ 1) (D : Decides (verdicts B [b] (text ++ [0])) text.length (fun p => decide (p < 10000)) cutG)
    (h00 : ∀ i, (ripe (verdicts A [a] (text ++ [0])) i 0 && ripe (verdicts B [b] (text ++ [0])) i 0) = false)
    {s : Seg (α ⊕ β)} (hr : Reachable (both A B) s) (hb : s.brk = [.inl a, .inr b]) (n : Nat) (hN : text.length + 1 < n) :
    ∃ segs, (s.initSlice text).collect (both A B) n = some (segs, true) ∧
      (∀ src : List (Int × Nat), src.map (·.1) = text → text.length ≤ s.room → (s.initReader src none).collect (both A B) n = some (segs, true)) ∧ BothCuts segs cutP cutG text := by
  have hj := fun i => verdicts_both A B (text ++ [0]) a b i
  have hl : (verdicts A [a] (text ++ [0])).length = (verdicts B [b] (text ++ [0])).length := by rw [verdicts_length, verdicts_length]
  obtain ⟨segs, h1, h1', h2, h3, h4⟩ := heard_segments (both A B) (verdicts A [a] (text ++ [0])) (verdicts B [b] (text ++ [0])) text cutP cutG hr s.zero0 s.zero1
    (fun p => decide (p.1 < 10000)) (fun p => decide (p.2 < 10000)) (by rw [hb]; exact heard_first hj hl _ _ _)
    below_feasible below_yes (by intro i n; rw [hb, both_soFar0 hj hl]) hy (says_no hn) hlast below_feasible below_yes (by intro i n; rw [hb, both_soFar1 hj hl]) D (fun i _ => h00 i) (by rw [h00]; rfl) n hN
  exact ⟨segs, h1, h1', h2, h3, h4⟩

/-- The one that decides is the first one. -/
theorem both_segments' {α β : Type} (A : Breaker α) (a : α) (B : Breaker β) (b : β) (text : List Int) (cutP cutG : Nat → Bool)
    (hy : ∀ i, i < text.length → cutP i = true → SaysYes (verdicts A [a] (text ++ [0])) i ∨
      (SaysOnce (verdicts A [a] (text ++ [0])) i ∧ cutG i = true ∧ ripe (verdicts B [b] (text ++ [0])) i 1 = true))
    (hn : ∀ i, i < text.length → cutP i = false → ∃ z, SaysNo z (verdicts A [a] (text ++ [0])) i)
    (hlast : ∀ v, (verdicts A [a] (text ++ [0]))[text.length]? = some v → v.lam ≤ 1) (D : Decides (verdicts B [b] (text ++ [0])) text.length (fun p => decide (p < 10000)) cutG)
    (h00 : ∀ i, (ripe (verdicts A [a] (text ++ [0])) i 0 && ripe (verdicts B [b] (text ++ [0])) i 0) = false)
    {s : Seg (β ⊕ α)} (hr : Reachable (both B A) s) (hb : s.brk = [.inl b, .inr a]) (n : Nat) (hN : text.length + 1 < n) :
    ∃ segs, (s.initSlice text).collect (both B A) n = some (segs, true) ∧
      (∀ src : List (Int × Nat), src.map (·.1) = text → text.length ≤ s.room → (s.initReader src none).collect (both B A) n = some (segs, true)) ∧ BothCuts segs cutG cutP text := by
  have hj := fun i => verdicts_both B A (text ++ [0]) b a i
  have hl : (verdicts A [a] (text ++ [0])).length = (verdicts B [b] (text ++ [0])).length := by rw [verdicts_length, verdicts_length]
  obtain ⟨segs, h1, h1', h2, h3, h4⟩ := heard_segments (both B A) (verdicts A [a] (text ++ [0])) (verdicts B [b] (text ++ [0])) text cutP cutG hr s.zero1 s.zero0
    (fun p => decide (p.2 < 10000)) (fun p => decide (p.1 < 10000)) (by rw [hb]; exact heard_second hj hl _ _ _)
    below_feasible below_yes (by intro i n; rw [hb, both_soFar1 hj hl.symm]) hy (says_no hn) hlast below_feasible below_yes (by intro i n; rw [hb, both_soFar0 hj hl.symm]) D (fun i _ => h00 i) (by rw [h00]; rfl) n hN
  refine ⟨segs, h1, h1', ?_, h4, h3⟩
  rw [h2]
  congr 1
  funext i
  exact Bool.or_comm _ _

/-- One Segmenter with a breaker for words and, second, one for graphemes, whatever it did before: each segment ends at the end of a word or at the
end of a grapheme, and no such end is missed. Put together up to the segments of which the first penalty is less than 10000, they are the words; up to
the segments of which the second penalty is less than 10000, they are the graphemes. Penalties of 0 may be breaks or not. Missing: texts with NUL, and
what is missing in C22 and C26 (GB9b, and the far-reaching rules for words). -/
theorem C77_words_partial (T : WTables) (T' : GTables) (past : List Int) (hp : CompletePast past) {s : Seg (Word.WBrk ⊕ Graph.GBrk)}
    (hr : Reachable (both (Word.breaker T) (Graph.breaker T')) s) (hb : s.brk = [.inl ((Word.breaker T).run Word.new past), .inr ((Graph.breaker T').run Graph.new past)])
    (text : List Int) (ht : ∀ x ∈ text, x ≠ 0) (n : Nat) (hn : text.length + 1 < n) :
    ∃ segs, (s.initSlice text).collect (both (Word.breaker T) (Graph.breaker T')) n = some (segs, true) ∧
      (∀ src : List (Int × Nat), src.map (·.1) = text → text.length ≤ s.room → (s.initReader src none).collect (both (Word.breaker T) (Graph.breaker T')) n = some (segs, true)) ∧
      BothCuts segs (fun i => wBoundary false ((text.take (i + 1)).map (wordCharSeen T)).reverse ((text.drop (i + 1)).map (wordCharSeen T)))
        (fun i => gBoundary false ((text.take (i + 1)).map (Graph.classOf T')).reverse ((text.drop (i + 1)).map (Graph.classOf T'))) text ∧
      groups (fun g => decide (g.pens.1 < 10000)) segs = words false (wordCharSeen T) text ∧
      groups (fun g => decide (g.pens.2 < 10000)) segs = clusters false (Graph.classOf T') text := by
  have h := Word.past_rep T past hp
  obtain ⟨segs, h1, h1', h2⟩ := both_segments (Word.breaker T) _ (Graph.breaker T') _ text (Word.cutS false (wordCharSeen T) text) (Graph.cutG false (Graph.classOf T') text)
    (fun i hi hc => .inl ((Word.decides T h text ht).yes i hi hc))
    (fun i hi hc => ⟨_, (Word.cut_says (T := T) h text i hi).2 (by rw [Word.cut_text T _ ht i hi]; exact hc)⟩)
    (Word.decides T h text ht).last (Graph.decides T' (Graph.past_rep T' past hp) text ht)
    (fun i => by rw [Graph.ripe_zero (T := T') (Graph.past_rep T' past hp), Bool.and_false]) hr hb n hn
  exact ⟨segs, h1, h1', h2, h2.first, h2.second⟩

/-- The same with the breaker for graphemes as the first one. -/
theorem C77_words_second_partial (T : WTables) (T' : GTables) (past : List Int) (hp : CompletePast past) {s : Seg (Graph.GBrk ⊕ Word.WBrk)}
    (hr : Reachable (both (Graph.breaker T') (Word.breaker T)) s) (hb : s.brk = [.inl ((Graph.breaker T').run Graph.new past), .inr ((Word.breaker T).run Word.new past)])
    (text : List Int) (ht : ∀ x ∈ text, x ≠ 0) (n : Nat) (hn : text.length + 1 < n) :
    ∃ segs, (s.initSlice text).collect (both (Graph.breaker T') (Word.breaker T)) n = some (segs, true) ∧
      (∀ src : List (Int × Nat), src.map (·.1) = text → text.length ≤ s.room → (s.initReader src none).collect (both (Graph.breaker T') (Word.breaker T)) n = some (segs, true)) ∧
      BothCuts segs (fun i => gBoundary false ((text.take (i + 1)).map (Graph.classOf T')).reverse ((text.drop (i + 1)).map (Graph.classOf T')))
        (fun i => wBoundary false ((text.take (i + 1)).map (wordCharSeen T)).reverse ((text.drop (i + 1)).map (wordCharSeen T))) text ∧
      groups (fun g => decide (g.pens.1 < 10000)) segs = clusters false (Graph.classOf T') text ∧
      groups (fun g => decide (g.pens.2 < 10000)) segs = words false (wordCharSeen T) text := by
  have h := Word.past_rep T past hp
  obtain ⟨segs, h1, h1', h2⟩ := both_segments' (Word.breaker T) _ (Graph.breaker T') _ text (Word.cutS false (wordCharSeen T) text) (Graph.cutG false (Graph.classOf T') text)
    (fun i hi hc => .inl ((Word.decides T h text ht).yes i hi hc))
    (fun i hi hc => ⟨_, (Word.cut_says (T := T) h text i hi).2 (by rw [Word.cut_text T _ ht i hi]; exact hc)⟩)
    (Word.decides T h text ht).last (Graph.decides T' (Graph.past_rep T' past hp) text ht)
    (fun i => by rw [Graph.ripe_zero (T := T') (Graph.past_rep T' past hp), Bool.and_false]) hr hb n hn
  exact ⟨segs, h1, h1', h2, h2.first, h2.second⟩

/-- The same with the real tables, for a text of which words and graphemes go together (see C75): the segments are the graphemes. -/
theorem C77_together_partial (past : List Int) (hp : CompletePast past) {s : Seg (Word.WBrk ⊕ Graph.GBrk)}
    (hr : Reachable (both (Word.breaker realW) (Graph.breaker realG)) s)
    (hb : s.brk = [.inl ((Word.breaker realW).run Word.new past), .inr ((Graph.breaker realG).run Graph.new past)])
    (text : List Int) (h : Together text) (n : Nat) (hn : text.length + 1 < n) :
    ∃ segs, (s.initSlice text).collect (both (Word.breaker realW) (Graph.breaker realG)) n = some (segs, true) ∧
      (∀ src : List (Int × Nat), src.map (·.1) = text → text.length ≤ s.room → (s.initReader src none).collect (both (Word.breaker realW) (Graph.breaker realG)) n = some (segs, true)) ∧
      segs.map (·.runes) = clusters false (Graph.classOf realG) text ∧
      groups (fun g => decide (g.pens.1 < 10000)) segs = words false (wordCharSeen realW) text ∧
      groups (fun g => decide (g.pens.2 < 10000)) segs = clusters false (Graph.classOf realG) text := by
  obtain ⟨segs, h1, h1', h2, h3, h4⟩ := C77_words_partial realW realG past hp hr hb text (fun r hr => (h.plain r hr).1) n hn
  exact ⟨segs, h1, h1', by rw [h2.all]; exact cutAfter_or _ _ text (words_cuts false _ _ text
    (fun r hr => real_agree r (h.plain r hr).1 (h.plain r hr).2.1 (h.plain r hr).2.2) (together_joined h) h.flags), h3, h4⟩

/-- There is a grapheme boundary before a carriage return. -/
theorem cutG_ctl (T : GTables) (text : List Int) (i : Nat) (r : Int) (h : text[i + 1]? = some r) (hc : Graph.classOf T r = .CR) : Graph.cutG false (Graph.classOf T) text i = true := by
  obtain ⟨hi, e⟩ := List.getElem?_eq_some_iff.mp h
  unfold Graph.cutG
  rw [List.drop_eq_getElem_cons hi, List.map_cons, e, hc]
  cases ((text.take (i + 1)).map (Graph.classOf T)).reverse with
  | nil => rfl
  | cons a l =>
    rw [gBoundary, if_neg (fun h => nomatch h.2)]
    split <;> rfl

/-- One Segmenter with a breaker for line wraps and, second, one for graphemes, for all tables in which the carriage return is one for graphemes if it is
one for lines: each segment ends at an opportunity to wrap or at the end of a grapheme, and the penalties tell which. Missing: as for words. -/
theorem C77_lines_partial (T : LTables) (T' : GTables) (past : List Int) (hp : CompletePast past) {s : Seg (Line.LBrk ⊕ Graph.GBrk)}
    (hr : Reachable (both (Line.breaker T) (Graph.breaker T')) s) (hb : s.brk = [.inl ((Line.breaker T).run Line.new past), .inr ((Graph.breaker T').run Graph.new past)])
    (text : List Int) (ht : ∀ x ∈ text, x ≠ 0) (hc : ∀ x ∈ text, Line.raw T x = .CR → Graph.classOf T' x = .CR) (n : Nat) (hn : text.length + 1 < n) :
    ∃ segs, (s.initSlice text).collect (both (Line.breaker T) (Graph.breaker T')) n = some (segs, true) ∧
      (∀ src : List (Int × Nat), src.map (·.1) = text → text.length ≤ s.room → (s.initReader src none).collect (both (Line.breaker T) (Graph.breaker T')) n = some (segs, true)) ∧
      BothCuts segs (fun i => lBoundary false ((text.take (i + 1)).map (Line.raw T)).reverse ((text.drop (i + 1)).map (Line.raw T)))
        (fun i => gBoundary false ((text.take (i + 1)).map (Graph.classOf T')).reverse ((text.drop (i + 1)).map (Graph.classOf T'))) text ∧
      groups (fun g => decide (g.pens.1 < 10000)) segs = lines false (Line.raw T) text ∧
      groups (fun g => decide (g.pens.2 < 10000)) segs = clusters false (Graph.classOf T') text := by
  have h := Line.past_rep T past hp
  obtain ⟨segs, h1, h1', h2⟩ := both_segments (Line.breaker T) _ (Graph.breaker T') _ text (Line.cutS false (Line.raw T) text) (Graph.cutG false (Graph.classOf T') text)
    (fun i hi hc' => by
      rcases (Line.cut_says_cr (T := T) h text ht s.zero0 i hi).1 (by rw [Line.cut_text T _ ht i hi]; exact hc') with h | ⟨h, r, h1, h2⟩
      · exact .inl h
      · have := cutG_ctl T' text i r h1 (hc r (List.mem_of_getElem? h1) h2)
        exact .inr ⟨h, this, (Graph.feasible_cut T' (Graph.past_rep T' past hp) text ht i hi).2 this⟩)
    (fun i hi hc => ⟨_, (Line.cut_says (T := T) h text ht s.zero0 i hi).2 (by rw [Line.cut_text T _ ht i hi]; exact hc)⟩)
    (by
      intro v hv
      obtain ⟨v', h1, h2⟩ := Line.verd_last (T := T) h text
      rw [h1] at hv
      cases hv
      omega)
    (Graph.decides T' (Graph.past_rep T' past hp) text ht)
    (fun i => by rw [Graph.ripe_zero (T := T') (Graph.past_rep T' past hp), Bool.and_false]) hr hb n hn
  exact ⟨segs, h1, h1', h2, h2.first, h2.second⟩

/-- The same with the breaker for graphemes as the first one. -/
theorem C77_lines_second_partial (T : LTables) (T' : GTables) (past : List Int) (hp : CompletePast past) {s : Seg (Graph.GBrk ⊕ Line.LBrk)}
    (hr : Reachable (both (Graph.breaker T') (Line.breaker T)) s) (hb : s.brk = [.inl ((Graph.breaker T').run Graph.new past), .inr ((Line.breaker T).run Line.new past)])
    (text : List Int) (ht : ∀ x ∈ text, x ≠ 0) (hc : ∀ x ∈ text, Line.raw T x = .CR → Graph.classOf T' x = .CR) (n : Nat) (hn : text.length + 1 < n) :
    ∃ segs, (s.initSlice text).collect (both (Graph.breaker T') (Line.breaker T)) n = some (segs, true) ∧
      (∀ src : List (Int × Nat), src.map (·.1) = text → text.length ≤ s.room → (s.initReader src none).collect (both (Graph.breaker T') (Line.breaker T)) n = some (segs, true)) ∧
      BothCuts segs (fun i => gBoundary false ((text.take (i + 1)).map (Graph.classOf T')).reverse ((text.drop (i + 1)).map (Graph.classOf T')))
        (fun i => lBoundary false ((text.take (i + 1)).map (Line.raw T)).reverse ((text.drop (i + 1)).map (Line.raw T))) text ∧
      groups (fun g => decide (g.pens.1 < 10000)) segs = clusters false (Graph.classOf T') text ∧
      groups (fun g => decide (g.pens.2 < 10000)) segs = lines false (Line.raw T) text := by
  have h := Line.past_rep T past hp
  obtain ⟨segs, h1, h1', h2⟩ := both_segments' (Line.breaker T) _ (Graph.breaker T') _ text (Line.cutS false (Line.raw T) text) (Graph.cutG false (Graph.classOf T') text)
    (fun i hi hc' => by
      rcases (Line.cut_says_cr (T := T) h text ht s.zero0 i hi).1 (by rw [Line.cut_text T _ ht i hi]; exact hc') with h | ⟨h, r, h1, h2⟩
      · exact .inl h
      · have := cutG_ctl T' text i r h1 (hc r (List.mem_of_getElem? h1) h2)
        exact .inr ⟨h, this, (Graph.feasible_cut T' (Graph.past_rep T' past hp) text ht i hi).2 this⟩)
    (fun i hi hc => ⟨_, (Line.cut_says (T := T) h text ht s.zero0 i hi).2 (by rw [Line.cut_text T _ ht i hi]; exact hc)⟩)
    (by
      intro v hv
      obtain ⟨v', h1, h2⟩ := Line.verd_last (T := T) h text
      rw [h1] at hv
      cases hv
      omega)
    (Graph.decides T' (Graph.past_rep T' past hp) text ht)
    (fun i => by rw [Graph.ripe_zero (T := T') (Graph.past_rep T' past hp), Bool.and_false]) hr hb n hn
  exact ⟨segs, h1, h1', h2, h2.first, h2.second⟩

/-- If the text is wrapped between graphemes (see C76), then the segments are the graphemes. -/
theorem C77_wrapped_partial (T : LTables) (T' : GTables) (past : List Int) (hp : CompletePast past) {s : Seg (Line.LBrk ⊕ Graph.GBrk)}
    (hr : Reachable (both (Line.breaker T) (Graph.breaker T')) s) (hb : s.brk = [.inl ((Line.breaker T).run Line.new past), .inr ((Graph.breaker T').run Graph.new past)])
    (text : List Int) (ht : ∀ x ∈ text, x ≠ 0) (hw : Wrapped (Graph.classOf T') (Line.raw T) text) (hc : ∀ x ∈ text, Line.raw T x = .CR → Graph.classOf T' x = .CR)
    (n : Nat) (hn : text.length + 1 < n) :
    ∃ segs, (s.initSlice text).collect (both (Line.breaker T) (Graph.breaker T')) n = some (segs, true) ∧
      (∀ src : List (Int × Nat), src.map (·.1) = text → text.length ≤ s.room → (s.initReader src none).collect (both (Line.breaker T) (Graph.breaker T')) n = some (segs, true)) ∧
      segs.map (·.runes) = clusters false (Graph.classOf T') text ∧
      groups (fun g => decide (g.pens.1 < 10000)) segs = lines false (Line.raw T) text := by
  obtain ⟨segs, h1, h1', h2, h3, -⟩ := C77_lines_partial T T' past hp hr hb text ht hc n hn
  exact ⟨segs, h1, h1', by rw [h2.all]; exact cutAfter_or _ _ text (lines_cuts _ _ text hw), h3⟩

theorem Word.acts_cr (h : List WClass) : ∀ k ∈ Word.acts (.CR :: h), k.ml ≤ 1 := by
  intro k hk
  unfold Word.acts at hk
  rw [List.mem_flatMap] at hk
  obtain ⟨R, hR, hk⟩ := hk
  by_cases hreg : (Word.isPair R || Word.isTriple R) = true
  · rw [Word.st_eq hreg] at hk
    unfold Word.midRead at hk
    rw [Word.skip_not rfl, Word.hd_cons, Word.hd_cons] at hk
    have : Word.lft R .CR = false ∧ Word.mid R .CR = false := by cases R <;> exact ⟨rfl, rfl⟩
    rw [this.1, this.2] at hk
    cases hk
  · rcases Word.irregular hR hreg with rfl | rfl | rfl | rfl | rfl <;> simp [Word.st, Word.hd, Word.odd, WClass.ign] at hk
    subst hk
    decide

/-- The word breaker has no match open after a carriage return, except for that of CR LF. -/
theorem Word.ripe_cr (T : WTables) {b : Word.WBrk} (h : Word.Rep [] b) (text : List Int) (i : Nat) (r : Int) (hr : text[i + 1]? = some r) (hc : Word.classForRune T r = .CR) :
    ripe (verdicts (Word.breaker T) [b] (text ++ [0])) i 1 = true := by
  have hi := (List.getElem?_eq_some_iff.mp hr).1
  have e : Word.classOf T r = .CR := by unfold Word.classOf; rw [hc]; rfl
  obtain ⟨v, h1, h2, -⟩ := Word.verd T h (text ++ [0]) (i + 1) .CR (by rw [List.getElem?_map, List.getElem?_append_left hi, hr, Option.map_some, e])
  unfold ripe
  rw [h1]
  simp only [Option.map_some, Option.getD_some, decide_eq_true_eq]
  rcases h2.eq with h | ⟨k, hk, e⟩
  · omega
  · rw [e]
    exact Word.acts_cr _ k hk

/-- There is a word boundary before a carriage return. -/
theorem Word.cutS_cr (T : WTables) (text : List Int) (i : Nat) (r : Int) (h : text[i + 1]? = some r) (hc : Word.classForRune T r = .CR) : Word.cutS false (wordCharSeen T) text i = true := by
  obtain ⟨hi, e⟩ := List.getElem?_eq_some_iff.mp h
  unfold Word.cutS
  rw [List.drop_eq_getElem_cons hi, List.map_cons, e]
  have hw : (wordCharSeen T r).wb = .CR := hc
  cases ((text.take (i + 1)).map (wordCharSeen T)).reverse with
  | nil => rfl
  | cons a l =>
    rw [wBoundary, if_neg (fun h => by have := h.2; rw [hw] at this; cases this)]
    by_cases ha : a.wb ∈ [WClass.Newline, .CR, .LF]
    · rw [if_pos ha]
    · rw [if_neg ha, if_pos (by rw [hw]; decide)]

theorem Line.ripe_zero (T : LTables) {b : Line.LBrk} (h : Line.Rep [] b) (text : List Int) (ht : ∀ x ∈ text, x ≠ 0) (i : Nat) :
    ripe (verdicts (Line.breaker T) [b] (text ++ [0])) i 0 = false := by
  rcases Nat.lt_trichotomy i text.length with hi | hi | hi
  · exact (Line.at_of T h (text ++ [0]) i (by rw [List.length_append, List.length_singleton]; omega)
      (by rw [Line.H_text T text _ (by omega)]; exact Line.H_good T text ht _)).ripe0
  · obtain ⟨v, h1, h2⟩ := Line.verd_last (T := T) h text
    unfold ripe
    rw [hi, Nat.add_zero, h1]
    simp only [Option.map_some, Option.getD_some, h2]
    decide
  · unfold ripe
    rw [List.getElem?_eq_none (by rw [verdicts_length, List.length_append, List.length_singleton]; omega)]
    rfl

/-- One Segmenter with a breaker for line wraps and, second, one for words, for all tables in which the carriage return is one for words if it is
one for lines: each segment ends at an opportunity to wrap or at the end of a word, and the penalties tell which. Missing: as for words. -/
theorem C77_lines_words_partial (T : LTables) (T' : WTables) (past : List Int) (hp : CompletePast past) {s : Seg (Line.LBrk ⊕ Word.WBrk)}
    (hr : Reachable (both (Line.breaker T) (Word.breaker T')) s) (hb : s.brk = [.inl ((Line.breaker T).run Line.new past), .inr ((Word.breaker T').run Word.new past)])
    (text : List Int) (ht : ∀ x ∈ text, x ≠ 0) (hc : ∀ x ∈ text, Line.raw T x = .CR → Word.classForRune T' x = .CR) (n : Nat) (hn : text.length + 1 < n) :
    ∃ segs, (s.initSlice text).collect (both (Line.breaker T) (Word.breaker T')) n = some (segs, true) ∧
      (∀ src : List (Int × Nat), src.map (·.1) = text → text.length ≤ s.room → (s.initReader src none).collect (both (Line.breaker T) (Word.breaker T')) n = some (segs, true)) ∧
      BothCuts segs (fun i => lBoundary false ((text.take (i + 1)).map (Line.raw T)).reverse ((text.drop (i + 1)).map (Line.raw T)))
        (fun i => wBoundary false ((text.take (i + 1)).map (wordCharSeen T')).reverse ((text.drop (i + 1)).map (wordCharSeen T'))) text ∧
      groups (fun g => decide (g.pens.1 < 10000)) segs = lines false (Line.raw T) text ∧
      groups (fun g => decide (g.pens.2 < 10000)) segs = words false (wordCharSeen T') text := by
  have h := Line.past_rep T past hp
  have h' := Word.past_rep T' past hp
  obtain ⟨segs, h1, h1', h2⟩ := both_segments (Line.breaker T) _ (Word.breaker T') _ text (Line.cutS false (Line.raw T) text) (Word.cutS false (wordCharSeen T') text)
    (fun i hi hc' => by
      rcases (Line.cut_says_cr (T := T) h text ht s.zero0 i hi).1 (by rw [Line.cut_text T _ ht i hi]; exact hc') with h | ⟨h, r, h1, h2⟩
      · exact .inl h
      · have hw := hc r (List.mem_of_getElem? h1) h2
        exact .inr ⟨h, Word.cutS_cr T' text i r h1 hw, Word.ripe_cr T' h' text i r h1 hw⟩)
    (fun i hi hc => ⟨_, (Line.cut_says (T := T) h text ht s.zero0 i hi).2 (by rw [Line.cut_text T _ ht i hi]; exact hc)⟩)
    (by
      intro v hv
      obtain ⟨v', h1, h2⟩ := Line.verd_last (T := T) h text
      rw [h1] at hv
      cases hv
      omega)
    (Word.decides T' h' text ht) (fun i => by rw [Line.ripe_zero T h text ht, Bool.false_and]) hr hb n hn
  exact ⟨segs, h1, h1', h2, h2.first, h2.second⟩

/-- The same with the breaker for words as the first one. -/
theorem C77_words_lines_partial (T : LTables) (T' : WTables) (past : List Int) (hp : CompletePast past) {s : Seg (Word.WBrk ⊕ Line.LBrk)}
    (hr : Reachable (both (Word.breaker T') (Line.breaker T)) s) (hb : s.brk = [.inl ((Word.breaker T').run Word.new past), .inr ((Line.breaker T).run Line.new past)])
    (text : List Int) (ht : ∀ x ∈ text, x ≠ 0) (hc : ∀ x ∈ text, Line.raw T x = .CR → Word.classForRune T' x = .CR) (n : Nat) (hn : text.length + 1 < n) :
    ∃ segs, (s.initSlice text).collect (both (Word.breaker T') (Line.breaker T)) n = some (segs, true) ∧
      (∀ src : List (Int × Nat), src.map (·.1) = text → text.length ≤ s.room → (s.initReader src none).collect (both (Word.breaker T') (Line.breaker T)) n = some (segs, true)) ∧
      BothCuts segs (fun i => wBoundary false ((text.take (i + 1)).map (wordCharSeen T')).reverse ((text.drop (i + 1)).map (wordCharSeen T')))
        (fun i => lBoundary false ((text.take (i + 1)).map (Line.raw T)).reverse ((text.drop (i + 1)).map (Line.raw T))) text ∧
      groups (fun g => decide (g.pens.1 < 10000)) segs = words false (wordCharSeen T') text ∧
      groups (fun g => decide (g.pens.2 < 10000)) segs = lines false (Line.raw T) text := by
  have h := Line.past_rep T past hp
  have h' := Word.past_rep T' past hp
  obtain ⟨segs, h1, h1', h2⟩ := both_segments' (Line.breaker T) _ (Word.breaker T') _ text (Line.cutS false (Line.raw T) text) (Word.cutS false (wordCharSeen T') text)
    (fun i hi hc' => by
      rcases (Line.cut_says_cr (T := T) h text ht s.zero0 i hi).1 (by rw [Line.cut_text T _ ht i hi]; exact hc') with h | ⟨h, r, h1, h2⟩
      · exact .inl h
      · have hw := hc r (List.mem_of_getElem? h1) h2
        exact .inr ⟨h, Word.cutS_cr T' text i r h1 hw, Word.ripe_cr T' h' text i r h1 hw⟩)
    (fun i hi hc => ⟨_, (Line.cut_says (T := T) h text ht s.zero0 i hi).2 (by rw [Line.cut_text T _ ht i hi]; exact hc)⟩)
    (by
      intro v hv
      obtain ⟨v', h1, h2⟩ := Line.verd_last (T := T) h text
      rw [h1] at hv
      cases hv
      omega)
    (Word.decides T' h' text ht) (fun i => by rw [Line.ripe_zero T h text ht, Bool.false_and]) hr hb n hn
  exact ⟨segs, h1, h1', h2, h2.first, h2.second⟩

example : (((Seg.new [Sum.inl Word.new, .inr Graph.new]).initSlice insideSample).collect (both (Word.breaker realW) (Graph.breaker realG)) 20).map (·.1) =
    some [⟨[0x65, 0x301], (10000, -10)⟩, ⟨[0x61], (10, -10)⟩, ⟨[0x1f1e9, 0x1f1ea], (10, -10)⟩, ⟨[0x1f468, 0x200d, 0x1f469], (10, -10)⟩, ⟨[0x1100, 0x1161, 0x11a8], (10, -10)⟩,
      ⟨[0x0d, 0x0a], (-19990, -40010)⟩] := by decide +kernel

example : (((Seg.new [Sum.inl Line.new, .inr Graph.new]).initSlice wrapSample).collect (both (Line.breaker someTables) (Graph.breaker realG)) 20).map (·.1) =
    some [⟨[0x65, 0x301], (20000, -10)⟩, ⟨[0x20], (-29, -10)⟩, ⟨[0x1f1e9, 0x1f1ea], (1, -10)⟩, ⟨[0x1f1e9], (1, -10)⟩, ⟨[0x1f44d, 0x1f3fd], (1, -10)⟩,
      ⟨[0x1100, 0x1161, 0x11a8], (1, -10)⟩, ⟨[0xff76, 0xff9e], (20000, -10)⟩, ⟨[0x0d, 0x0a], (-57000, -40010)⟩] := by decide +kernel

/-- The graphemes of this text go together with its lines and words. -/
example : (∀ x ∈ wrapSample, Line.raw someTables x = .CR → Graph.classOf realG x = .CR) ∧ (∀ x ∈ wrapSample, Line.raw someTables x = .CR → Word.classForRune realW x = .CR) ∧
    Wrapped (Graph.classOf realG) (Line.raw someTables) wrapSample := ⟨by decide +kernel, by decide +kernel, wrapSample_wrapped⟩

/-- Line wraps and words: the line feed is followed by a carriage return, before which the line breaker wants to break for a moment only. -/
example : (((Seg.new [Sum.inl Line.new, .inr Word.new]).initSlice [0x65, 0x0a, 0x0d, 0x65, 0x27, 0x65, 0x20, 0x65]).collect (both (Line.breaker someTables) (Word.breaker realW)) 20).map (·.1) =
    some [⟨[0x65], (20000, -10000)⟩, ⟨[0x0a], (1000, -9990)⟩, ⟨[0x0d], (-19000, -10000)⟩, ⟨[0x65, 0x27, 0x65], (20000, 10)⟩, ⟨[0x20], (-29, 10)⟩, ⟨[0x65], (-19000, 10)⟩] := by decide +kernel

/-- A new Segmenter with two breakers is one of those the theorems are about. -/
example : Reachable (both (Word.breaker realW) (Graph.breaker realG)) (Seg.new [.inl ((Word.breaker realW).run Word.new []), .inr ((Graph.breaker realG).run Graph.new [])]) ∧
    CompletePast [] ∧ Together insideSample := ⟨.new _, .inl rfl, insideSample_together⟩

/-- A text that is not `Together`: the sign after the letter does not end a grapheme before it, but a word, so the first segment is not a grapheme. -/
example : (((Seg.new [Sum.inl Word.new, .inr Graph.new]).initSlice [0xe01, 0xe33]).collect (both (Word.breaker realW) (Graph.breaker realG)) 6).map (·.1.map (·.runes)) =
      some [[0xe01], [0xe33]] ∧ clusters false (Graph.classOf realG) [0xe01, 0xe33] = [[0xe01, 0xe33]] := by decide +kernel

end Uax
