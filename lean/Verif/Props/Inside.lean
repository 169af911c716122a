import Verif.Inside
import Verif.Props.ClassTables
import Verif.Props.Word

/-! Property C75: words are made of graphemes. -/

namespace Uax
open Seg SpecWord

theorem covered_listed {rs ss : List (Nat × Nat)} (h : (rs.all fun x => ss.any fun y => decide (y.1 ≤ x.1 ∧ x.2 ≤ y.2)) = true) {r : Int}
    (hl : Listed rs r) : Listed ss r := by
  obtain ⟨p, hp, h1, h2⟩ := hl
  obtain ⟨q, hq, hd⟩ := List.any_eq_true.mp (List.all_eq_true.mp h p hp)
  have := of_decide_eq_true hd
  exact ⟨q, hq, by omega, by omega⟩

theorem covered_marks : ((TabG.SpacingMark.filter fun x => !(x == (0xe33, 0xe33) || x == (0xeb3, 0xeb3))).all fun x => TabW.Extend.any fun y => decide (y.1 ≤ x.1 ∧ x.2 ≤ y.2)) = true := by
  decide +kernel

theorem covered_extend : (TabG.Extend.all fun x => TabW.Extend.any fun y => decide (y.1 ≤ x.1 ∧ x.2 ≤ y.2)) = true := by decide +kernel

theorem covered_hangul : (([.L, .V, .T, .LV, .LVT] : List GClass).all fun c => (gTable c).all fun x => TabW.ALetter.any fun y => decide (y.1 ≤ x.1 ∧ x.2 ≤ y.2)) = true := by
  decide +kernel

theorem covered_same : (([(.CR, .CR), (.LF, .LF), (.ZWJ, .ZWJ), (.RI, .RI)] : List (GClass × WClass)).all fun c => (gTable c.1).all fun x => (wTable c.2).any fun y => decide (y.1 ≤ x.1 ∧ x.2 ≤ y.2)) = true ∧
    (([(.CR, .CR), (.LF, .LF), (.Control, .Newline), (.RI, .RI)] : List (GClass × WClass)).all fun c => (wTable c.2).all fun x => (gTable c.1).any fun y => decide (y.1 ≤ x.1 ∧ x.2 ≤ y.2)) = true := by
  decide +kernel

theorem classOf_listed {r : Int} (h0 : r ≠ 0) {c : GClass} (hc : c ∈ Graph.tabled) : Graph.classOf realG r = c ↔ Listed (gTable c) r := by
  rw [← C55_grapheme_classes r h0 c hc]
  unfold Graph.classOf
  split
  · rename_i e
    rw [e]
    constructor
    · intro h
      split at h <;> (subst h; revert hc; decide)
    · rintro rfl
      exact absurd hc (by decide)
  · exact Iff.rfl

/-- The tables of /repo agree, but for two vowel signs. -/
theorem real_agree (r : Int) (h0 : r ≠ 0) (h1 : r ≠ 0xe33) (h2 : r ≠ 0xeb3) : Agree (Graph.classOf realG r) (wordCharSeen realW r) := by
  have same : ∀ c ∈ ([(.CR, .CR), (.LF, .LF), (.ZWJ, .ZWJ), (.RI, .RI)] : List (GClass × WClass)), Graph.classOf realG r = c.1 → Word.classForRune realW r = c.2 := by
    intro c hc h
    have k : c.1 ∈ Graph.tabled ∧ c.2 ∈ Word.tabled := by
      clear h
      revert c
      decide
    rw [C55_word_classes r h0 _ k.2]
    exact covered_listed (List.all_eq_true.mp covered_same.1 c hc) ((classOf_listed h0 k.1).mp h)
  have back : ∀ c ∈ ([(.CR, .CR), (.LF, .LF), (.Control, .Newline), (.RI, .RI)] : List (GClass × WClass)), Word.classForRune realW r = c.2 → Graph.classOf realG r = c.1 := by
    intro c hc h
    have k : c.1 ∈ Graph.tabled ∧ c.2 ∈ Word.tabled := by
      clear h
      revert c
      decide
    rw [classOf_listed h0 k.1]
    exact covered_listed (List.all_eq_true.mp covered_same.2 c hc) ((C55_word_classes r h0 _ k.2).mp h)
  refine ⟨fun h => same (.CR, .CR) (by decide) h, fun h => same (.LF, .LF) (by decide) h, ?_, ?_, ?_, fun h => same (.ZWJ, .ZWJ) (by decide) h,
    ⟨fun h => same (.RI, .RI) (by decide) h, fun h => back (.RI, .RI) (by decide) h⟩⟩
  · intro h
    have h : Word.classForRune realW r ∈ [WClass.Newline, .CR, .LF] := h
    simp only [List.mem_cons, List.not_mem_nil, or_false] at h
    rcases h with h | h | h
    · rw [back (.Control, .Newline) (by decide) h]; rfl
    · rw [back (.CR, .CR) (by decide) h]; rfl
    · rw [back (.LF, .LF) (by decide) h]; rfl
  · intro h
    have k : Graph.classOf realG r ∈ Graph.tabled := by
      generalize Graph.classOf realG r = c at h
      revert h
      cases c <;> decide
    exact (C55_word_classes r h0 .ALetter (by decide)).mpr (covered_listed (List.all_eq_true.mp covered_hangul _ h) ((classOf_listed h0 k).mp rfl))
  · intro h
    simp only [List.mem_cons, List.not_mem_nil, or_false] at h
    have ext : Listed TabW.Extend r → ignorable (wordCharSeen realW r) = true := by
      intro hl
      have : (wordCharSeen realW r).wb = .Extend := (C55_word_classes r h0 .Extend (by decide)).mpr hl
      rw [ignorable, this]
      decide
    rcases h with h | h | h
    · exact ext (covered_listed covered_extend ((classOf_listed h0 (by decide)).mp h))
    · have : (wordCharSeen realW r).wb = .ZWJ := same (.ZWJ, .ZWJ) (by decide) h
      rw [ignorable, this]
      decide
    · refine ext (covered_listed covered_marks ?_)
      obtain ⟨p, hp, k⟩ := (classOf_listed h0 (c := .SpacingMark) (by decide)).mp h
      refine ⟨p, List.mem_filter.mpr ⟨hp, ?_⟩, k⟩
      simp only [Bool.not_eq_true', Bool.or_eq_false_iff, beq_eq_false_iff_ne, ne_eq]
      constructor
      · rintro rfl
        exact h1 (by dsimp only at k; omega)
      · rintro rfl
        exact h2 (by dsimp only at k; omega)

/-- A text of which words and graphemes go together: no NUL, no U+0E33 or U+0EB3, no joiner before a pictograph which
is a letter, and no ignorable characters between two regional indicators. -/
structure Together (text : List Int) : Prop where
  plain : ∀ r ∈ text, r ≠ 0 ∧ r ≠ 0xe33 ∧ r ≠ 0xeb3
  joined : ∀ pre x post, text = pre ++ 0x200d :: x :: post → x ∉ letterPicts
  flags : FlagsTight (wordChar realW) text

theorem together_joined {text : List Int} (h : Together text) : ∀ pre a b post, text = pre ++ a :: b :: post → Graph.classOf realG a = .ZWJ → Graph.classOf realG b = .Pict →
    (wordCharSeen realW b).pict = true := by
  intro pre a b post e ha hb
  have hma : a ∈ text := by rw [e]; simp
  have hla := (classOf_listed (h.plain a hma).1 (c := .ZWJ) (by decide)).mp ha
  have ea : a = 0x200d := by
    have ht : gTable .ZWJ = [(0x200d, 0x200d)] := by decide +kernel
    rw [ht] at hla
    obtain ⟨p, hp, k⟩ := hla
    obtain rfl := List.mem_singleton.mp hp
    dsimp only at k
    omega
  subst ea
  have hn := h.joined pre b post e
  have hp := (C55_grapheme_pictographs b).mp hb
  have hw := (C55_word_pictographs_partial b).mpr ⟨hp, hn⟩
  have hb2 : realW.pict b = true := (inRanges_iff _ _).mpr hp
  show (realW.pict b && Word.classForRune realW b == .Other) = true
  rw [hb2, Bool.true_and]
  unfold Word.classOf at hw
  split at hw
  · rename_i e; rw [e]; rfl
  · exfalso
    revert hw
    unfold Word.classForRune
    split
    · intro h; cases h
    · intro h
      cases hf : Word.tabled.find? fun d => realW.is d b with
      | none => rw [hf] at h; cases h
      | some d =>
        rw [hf] at h
        have := List.mem_of_find?_eq_some hf
        rw [Option.getD_some] at h
        subst h
        revert this
        decide

theorem together_madeOf {text : List Int} (h : Together text) : MadeOf (words false (wordCharSeen realW) text) (clusters false (Graph.classOf realG) text) := by
  exact words_madeOf false _ _ text (fun r hr => real_agree r (h.plain r hr).1 (h.plain r hr).2.1 (h.plain r hr).2.2) (together_joined h) h.flags

/-- Two Segmenters, one for words and one for graphemes, are given the same text: each word is a sequence of graphemes, and
together these are all of the graphemes. Missing: the texts which are not `Together`, see below, and texts with NUL. -/
theorem C75_words_partial (text : List Int) (h : Together text) {s : Seg Word.WBrk} (hr : Reachable (Word.breaker realW) s) (past : List Int) (hp : CompletePast past)
    (hb : s.brk = [(Word.breaker realW).run Word.new past]) (hz : s.zero0 = false) {t : Seg Graph.GBrk} (hr' : Reachable (Graph.breaker realG) t) (past' : List Int)
    (hp' : CompletePast past') (hb' : t.brk = [(Graph.breaker realG).run Graph.new past']) (n : Nat) (hn : text.length + 1 < n) :
    ∃ ws gs, (s.initSlice text).collect (Word.breaker realW) n = some (ws, true) ∧ (t.initSlice text).collect (Graph.breaker realG) n = some (gs, true) ∧
      MadeOf (ws.map (·.runes)) (gs.map (·.runes)) := by
  obtain ⟨ws, e1, e2⟩ := C26_slice_words_near_partial realW past hp hr hb hz text (fun r hr => (h.plain r hr).1) n hn
  obtain ⟨gs, e3, e4⟩ := C22_slice_clusters_without_GB9b_partial realG past' hp' hr' hb' text (fun r hr => (h.plain r hr).1) n hn
  refine ⟨ws, gs, e1, e3, ?_⟩
  rw [e2, e4]
  exact together_madeOf h

/-- A test for `FlagsTight`. -/
def tightB (ri ig : Int → Bool) : List Int → Bool
  | [] => true
  | x :: l => (!(ri x && ((l.dropWhile ig).head?.map ri).getD false) || ((l.takeWhile ig).isEmpty)) && tightB ri ig l

theorem tightB_tight {ri ig : Int → Bool} (hd : ∀ y, ri y = true → ig y = false) : ∀ (text : List Int), tightB ri ig text = true → ∀ pre x mid y post,
    text = pre ++ x :: (mid ++ y :: post) → ri x = true → ri y = true → (∀ z ∈ mid, ig z = true) → mid = [] := by
  intro text
  induction text with
  | nil => intro _ pre x mid y post e; cases pre <;> cases e
  | cons a text ih =>
    intro h pre x mid y post e hx hy hm
    rw [tightB, Bool.and_eq_true] at h
    cases pre with
    | cons p pre =>
      obtain ⟨-, e'⟩ := List.cons.inj e
      exact ih h.2 pre x mid y post e' hx hy hm
    | nil =>
      obtain ⟨rfl, rfl⟩ := List.cons.inj e
      have h1 : (mid ++ y :: post).dropWhile ig = y :: post := by
        rw [List.dropWhile_append_of_pos hm, List.dropWhile_cons, if_neg (by simp [hd y hy])]
      have h2 : (mid ++ y :: post).takeWhile ig = mid := by
        rw [List.takeWhile_append_of_pos hm, List.takeWhile_cons, if_neg (by simp [hd y hy]), List.append_nil]
      rw [h1, h2] at h
      simpa [hx, hy] using h.1

/-- é, the flag of Germany, a family joined by ZWJ, a Hangul syllable in parts, a line feed: words and graphemes. -/
def insideSample : List Int := [0x65, 0x301, 0x61, 0x1f1e9, 0x1f1ea, 0x1f468, 0x200d, 0x1f469, 0x1100, 0x1161, 0x11a8, 0x0d, 0x0a]

theorem insideSample_together : Together insideSample where
  plain := by decide
  joined := by
    intro pre x post e
    have : ∀ (l : List Int), (∀ i, i < l.length → l[i]? = some 0x200d → ∀ y ∈ l[i + 1]?, y ∉ letterPicts) → ∀ pre x post, l = pre ++ 0x200d :: x :: post → x ∉ letterPicts := by
      rintro _ h pre x post rfl
      exact h pre.length (by simp) (by simp) x (by simp)
    exact this insideSample (by decide) pre x post e
  flags := by
    intro pre x mid y post e hx hy hm
    exact tightB_tight (ri := fun r => (wordChar realW r).wb == .RI) (ig := fun r => ignorable (wordChar realW r)) (by
      intro z hz
      have : (wordChar realW z).wb = .RI := by simpa using hz
      show ignorable (wordChar realW z) = false
      rw [ignorable, this]
      decide) insideSample (by decide +kernel) pre x mid y post e (by simpa using hx) (by simpa using hy) hm

example : ((((Seg.new [Word.new]).initSlice insideSample).collect (Word.breaker realW) 20).map (·.1.map (·.runes)),
    (((Seg.new [Graph.new]).initSlice insideSample).collect (Graph.breaker realG) 20).map (·.1.map (·.runes))) =
    (some [[0x65, 0x301, 0x61], [0x1f1e9, 0x1f1ea], [0x1f468, 0x200d, 0x1f469], [0x1100, 0x1161, 0x11a8], [0x0d, 0x0a]],
     some [[0x65, 0x301], [0x61], [0x1f1e9, 0x1f1ea], [0x1f468, 0x200d, 0x1f469], [0x1100, 0x1161, 0x11a8], [0x0d, 0x0a]]) := by decide +kernel

/-- The Thai letter KO KAI with the vowel sign SARA AM is one grapheme and two words: the sign is a SpacingMark, but has no word break property. -/
theorem C75_vowel_violated :
    (((Seg.new [Word.new]).initSlice [0xe01, 0xe33]).collect (Word.breaker realW) 6).map (·.1.map (·.runes)) = some [[0xe01], [0xe33]] ∧
    (((Seg.new [Graph.new]).initSlice [0xe01, 0xe33]).collect (Graph.breaker realG) 6).map (·.1.map (·.runes)) = some [[0xe01, 0xe33]] := by decide +kernel

/-- A heart joined with ℹ is one grapheme and two words. -/
theorem C75_joined_violated :
    (((Seg.new [Word.new]).initSlice [0x2764, 0x200d, 0x2139]).collect (Word.breaker realW) 6).map (·.1.map (·.runes)) = some [[0x2764, 0x200d], [0x2139]] ∧
    (((Seg.new [Graph.new]).initSlice [0x2764, 0x200d, 0x2139]).collect (Graph.breaker realG) 6).map (·.1.map (·.runes)) = some [[0x2764, 0x200d, 0x2139]] := by decide +kernel

/-- A regional indicator with an accent before a flag: the words pair up the first and the second indicator, the graphemes the second and the third. -/
theorem C75_flags_violated :
    (((Seg.new [Word.new]).initSlice [0x1f1e9, 0x301, 0x1f1e9, 0x1f1ea]).collect (Word.breaker realW) 8).map (·.1.map (·.runes)) =
      some [[0x1f1e9, 0x301, 0x1f1e9], [0x1f1ea]] ∧
    (((Seg.new [Graph.new]).initSlice [0x1f1e9, 0x301, 0x1f1e9, 0x1f1ea]).collect (Graph.breaker realG) 8).map (·.1.map (·.runes)) =
      some [[0x1f1e9, 0x301], [0x1f1e9, 0x1f1ea]] := by decide +kernel

end Uax
