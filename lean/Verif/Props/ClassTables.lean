import Verif.ClassTables
import Verif.Props.Grapheme
import Verif.Props.Word

/-! Properties C55, C56 and C57: the classes of code points in the tables of /repo. -/

namespace Uax

/-! ### C55: one break class for each code point -/

/-- A test that the tables of two different classes have no code point in common. -/
def tablesApart {κ : Type} [DecidableEq κ] (cs : List κ) (tab : κ → List (Nat × Nat)) : Bool :=
  cs.all fun c => sortedB (tab c) && cs.all fun d => decide (c = d) || apart 3000 (tab c) (tab d)

theorem tablesApart_disjoint {κ : Type} [DecidableEq κ] {cs : List κ} {tab : κ → List (Nat × Nat)} (h : tablesApart cs tab = true)
    {c d : κ} (hc : c ∈ cs) (hd : d ∈ cs) {r : Int} (h1 : Listed (tab c) r) (h2 : Listed (tab d) r) : c = d := by
  unfold tablesApart at h
  simp only [List.all_eq_true, Bool.and_eq_true, Bool.or_eq_true, decide_eq_true_eq] at h
  rcases (h c hc).2 d hd with e | e
  · exact e
  · exact absurd h2 (apart_disjoint _ _ _ e ((sortedB_iff _).mp (h c hc).1) ((sortedB_iff _).mp (h d hd).1) r h1)

theorem classFound_unique {κ : Type} [DecidableEq κ] {cs : List κ} {tab : κ → List (Nat × Nat)} (h : tablesApart cs tab = true) (r : Int) (c : κ) (hc : c ∈ cs) :
    cs.find? (fun d => inRanges (tab d) r) = some c ↔ Listed (tab c) r := by
  constructor
  · intro e
    have := List.find?_some e
    exact (inRanges_iff _ _).mp this
  · intro hl
    cases e : cs.find? (fun d => inRanges (tab d) r) with
    | none => exact absurd ((inRanges_iff _ _).mpr hl) (List.find?_eq_none.mp e c hc)
    | some d =>
      have hd := List.find?_some e
      rw [tablesApart_disjoint h (List.mem_of_find?_eq_some e) hc ((inRanges_iff _ _).mp hd) hl]

theorem g_apart : tablesApart Graph.tabled gTable = true := by decide +kernel

theorem w_apart : tablesApart Word.tabled wTable = true := by decide +kernel

/-- Graphemes: every rune is found in the table of its class, whatever the order in which the tables are searched. -/
theorem C55_grapheme_classes (r : Int) (h0 : r ≠ 0) (c : GClass) (hc : c ∈ Graph.tabled) :
    Graph.classForRune realG r = c ↔ Listed (gTable c) r := by
  rw [← classFound_unique g_apart r c hc]
  unfold Graph.classForRune
  rw [if_neg h0]
  show (Graph.tabled.find? fun d => inRanges (gTable d) r).getD .Any = c ↔ _
  cases e : Graph.tabled.find? fun d => inRanges (gTable d) r with
  | none =>
    simp only [Option.getD_none, reduceCtorEq, iff_false]
    rintro rfl
    exact absurd hc (by decide)
  | some d => simp

/-- Words: the same. -/
theorem C55_word_classes (r : Int) (h0 : r ≠ 0) (c : WClass) (hc : c ∈ Word.tabled) :
    Word.classForRune realW r = c ↔ Listed (wTable c) r := by
  rw [← classFound_unique w_apart r c hc]
  unfold Word.classForRune
  rw [if_neg h0]
  show (Word.tabled.find? fun d => inRanges (wTable d) r).getD .Other = c ↔ _
  cases e : Word.tabled.find? fun d => inRanges (wTable d) r with
  | none =>
    simp only [Option.getD_none, reduceCtorEq, iff_false]
    rintro rfl
    exact absurd hc (by decide)
  | some d => simp

example : Graph.classForRune realG 0x300 = .Extend ∧ Word.classForRune realW 0x61 = .ALetter := by
  constructor
  · exact (C55_grapheme_classes 0x300 (by decide) .Extend (by decide)).mpr (by decide +kernel)
  · exact (C55_word_classes 0x61 (by decide) .ALetter (by decide)).mpr (by decide +kernel)

theorem g_pict_apart : Graph.tabled.all (fun c => sortedB (gTable c) && apart 3000 TabE.Extended_Pictographic (gTable c)) = true ∧
    sortedB TabE.Extended_Pictographic = true := by decide +kernel

/-- Graphemes: the pictographs of GB11 are exactly the runes in `emoji.Extended_Pictographic`: none of them
is hidden by another class. -/
theorem C55_grapheme_pictographs (r : Int) : Graph.classOf realG r = .Pict ↔ Listed TabE.Extended_Pictographic r := by
  by_cases h0 : r = 0
  · subst h0
    constructor
    · intro h; exact absurd h (by decide)
    · intro h; exact absurd h (by decide +kernel)
  have hne : Graph.classForRune realG r ≠ .Pict := by
    unfold Graph.classForRune
    rw [if_neg h0]
    cases e : Graph.tabled.find? fun d => realG.is d r with
    | none => simp
    | some d =>
      have := List.mem_of_find?_eq_some e
      simp only [Option.getD_some]
      rintro rfl
      exact absurd this (by decide)
  unfold Graph.classOf
  constructor
  · intro h
    split at h
    · split at h
      · rename_i hp
        exact (inRanges_iff _ _).mp hp
      · cases h
    · exact absurd h hne
  · intro h
    have hp : realG.pict r = true := (inRanges_iff _ _).mpr h
    have hany : Graph.classForRune realG r = .Any := by
      unfold Graph.classForRune
      rw [if_neg h0]
      rw [List.find?_eq_none.mpr, Option.getD_none]
      intro c hc hin
      have ha := List.all_eq_true.mp g_pict_apart.1 c hc
      rw [Bool.and_eq_true] at ha
      exact apart_disjoint _ _ _ ha.2 ((sortedB_iff _).mp g_pict_apart.2) ((sortedB_iff _).mp ha.1) r h
        ((inRanges_iff _ _).mp hin)
    rw [if_pos hany, if_pos hp]

example : Graph.classOf realG 0x1f600 = .Pict := (C55_grapheme_pictographs _).mpr (by decide +kernel)

/-- The pictographs which are also letters. -/
def letterPicts : List Int := [0x2139, 0x24c2, 0x1f170, 0x1f171, 0x1f17e, 0x1f17f]

theorem w_pict_apart : Word.tabled.all (fun c => decide (c = .ALetter) || (sortedB (wTable c) && apart 3000 TabE.Extended_Pictographic (wTable c))) = true := by
  decide +kernel

theorem w_pict_letters : inter 2000 TabE.Extended_Pictographic TabW.ALetter =
    [(0x2139, 0x2139), (0x24c2, 0x24c2), (0x1f170, 0x1f171), (0x1f17e, 0x1f17f)] ∧
    sortedB TabW.ALetter = true ∧ TabE.Extended_Pictographic.length + TabW.ALetter.length ≤ 2000 := by decide +kernel

/-- Words: the pictographs of WB3c are the runes in `emoji.Extended_Pictographic`, but for six of them which
are also letters. Missing: these six (`C55_violated`). -/
theorem C55_word_pictographs_partial (r : Int) :
    Word.classOf realW r = .Pict ↔ Listed TabE.Extended_Pictographic r ∧ r ∉ letterPicts := by
  by_cases h0 : r = 0
  · subst h0
    constructor
    · intro h; exact absurd h (by decide)
    · intro h; exact absurd h.1 (by decide +kernel)
  have hne : Word.classForRune realW r ≠ .Pict := by
    unfold Word.classForRune
    rw [if_neg h0]
    cases e : Word.tabled.find? fun d => realW.is d r with
    | none => simp
    | some d =>
      have := List.mem_of_find?_eq_some e
      simp only [Option.getD_some]
      rintro rfl
      exact absurd this (by decide)
  have hletter : Listed TabE.Extended_Pictographic r → (Listed TabW.ALetter r ↔ r ∈ letterPicts) := by
    intro hp
    have := inter_eq w_pict_letters.2.2 g_pict_apart.2 w_pict_letters.2.1 w_pict_letters.1 r
    simp only [hp, true_and] at this
    rw [← this]
    simp only [listed_cons, listed_nil, letterPicts, List.mem_cons, List.not_mem_nil, or_false]
    omega
  unfold Word.classOf
  constructor
  · intro h
    split at h
    · rename_i hother
      split at h
      · rename_i hp
        have hp' := (inRanges_iff _ _).mp hp
        refine ⟨hp', fun hm => ?_⟩
        have := (C55_word_classes r h0 .ALetter (by decide)).mpr ((hletter hp').mpr hm)
        rw [this] at hother
        cases hother
      · cases h
    · exact absurd h hne
  · rintro ⟨h, hm⟩
    have hp : realW.pict r = true := (inRanges_iff _ _).mpr h
    have hany : Word.classForRune realW r = .Other := by
      unfold Word.classForRune
      rw [if_neg h0]
      rw [List.find?_eq_none.mpr, Option.getD_none]
      intro c hc hin
      have hin' : Listed (wTable c) r := (inRanges_iff _ _).mp hin
      have ha := List.all_eq_true.mp w_pict_apart c hc
      simp only [Bool.or_eq_true, Bool.and_eq_true, decide_eq_true_eq] at ha
      rcases ha with rfl | ha
      · exact hm ((hletter h).mp hin')
      · exact apart_disjoint _ _ _ ha.2 ((sortedB_iff _).mp g_pict_apart.2) ((sortedB_iff _).mp ha.1) r h hin'
    rw [if_pos hany, if_pos hp]

/-- C55 does not hold for words: ℹ is a pictograph and a letter; only the letter is seen, and the joined sequence
U+2764 U+200D U+2139 is cut, contrary to WB3c. -/
theorem C55_violated :
    (∀ r ∈ letterPicts, Listed TabE.Extended_Pictographic r ∧ Word.classOf realW r = .ALetter) ∧
    (((Seg.new [Word.new]).initSlice [0x2764, 0x200d, 0x2139]).collect (Word.breaker realW) 6).map (·.1.map (·.runes)) =
      some [[0x2764, 0x200d], [0x2139]] ∧
    words true (wordChar realW) [0x2764, 0x200d, 0x2139] = [[0x2764, 0x200d, 0x2139]] := by decide +kernel

/-! ### C56: classes which Unicode defines by numbers -/

theorem lv_eq : TabG.LV = (List.range 399).map fun i => (0xac00 + 28 * i, 0xac00 + 28 * i) := by decide +kernel

theorem lvt_eq : TabG.LVT = (List.range 399).map fun i => (0xac01 + 28 * i, 0xac1b + 28 * i) := by decide +kernel

theorem listed_steps (n a b : Nat) (r : Int) :
    Listed ((List.range n).map fun i => (a + 28 * i, b + 28 * i)) r ↔ ∃ i, i < n ∧ (a : Int) + 28 * i ≤ r ∧ r ≤ (b : Int) + 28 * i := by
  unfold Listed
  constructor
  · rintro ⟨p, hp, k⟩
    obtain ⟨i, hi, rfl⟩ := List.mem_map.mp hp
    exact ⟨i, List.mem_range.mp hi, by dsimp only at k; omega, by dsimp only at k; omega⟩
  · rintro ⟨i, hi, k⟩
    exact ⟨_, List.mem_map.mpr ⟨i, List.mem_range.mpr hi, rfl⟩, by dsimp only; omega, by dsimp only; omega⟩

/-- The precomposed Hangul syllables: with the `l`-th leading consonant, the `v`-th vowel and the
`t`-th trailing consonant (0: none), U+AC00 + (21 l + v) 28 + t, according to chapter 3.12 of the
Unicode standard. -/
theorem C56_hangul_syllables (l v t : Nat) (hl : l < 19) (hv : v < 21) (ht : t < 28) :
    Graph.classOf realG (0xac00 + (21 * l + v) * 28 + t : Nat) = if t = 0 then .LV else .LVT := by
  have key : Graph.classForRune realG (0xac00 + (21 * l + v) * 28 + t : Nat) = if t = 0 then .LV else .LVT := by
    split
    · rw [C55_grapheme_classes _ (by omega) _ (by decide)]
      show Listed TabG.LV _
      rw [lv_eq, listed_steps]
      exact ⟨21 * l + v, by omega, by omega, by omega⟩
    · rw [C55_grapheme_classes _ (by omega) _ (by decide)]
      show Listed TabG.LVT _
      rw [lvt_eq, listed_steps]
      exact ⟨21 * l + v, by omega, by omega, by omega⟩
  unfold Graph.classOf
  rw [key]
  split <;> simp_all

/-- There are no other syllables. -/
theorem C56_hangul_syllables_only (r : Int) (h : Graph.classOf realG r = .LV ∨ Graph.classOf realG r = .LVT) :
    0xac00 ≤ r ∧ r ≤ 0xd7a3 := by
  have h0 : r ≠ 0 := by
    rintro rfl
    rcases h with h | h <;> exact absurd h (by decide)
  have hk : Graph.classForRune realG r = .LV ∨ Graph.classForRune realG r = .LVT := by
    unfold Graph.classOf at h
    split at h
    · split at h <;> simp at h
    · exact h
  rcases hk with hk | hk
  · rw [C55_grapheme_classes r h0 _ (by decide)] at hk
    change Listed TabG.LV r at hk
    rw [lv_eq, listed_steps] at hk
    omega
  · rw [C55_grapheme_classes r h0 _ (by decide)] at hk
    change Listed TabG.LVT r at hk
    rw [lvt_eq, listed_steps] at hk
    omega

/-- The class of a rune is the tabled class `c` exactly if it is in the table. -/
theorem g_class (r : Int) (c : GClass) (hc : c ∈ Graph.tabled) (h0 : ¬ Listed (gTable c) 0) :
    Graph.classOf realG r = c ↔ Listed (gTable c) r := by
  by_cases hr : r = 0
  · subst hr
    have : Graph.classOf realG 0 = .eot := rfl
    rw [this]
    constructor
    · rintro rfl; exact absurd hc (by decide)
    · intro h; exact absurd h h0
  · rw [← C55_grapheme_classes r hr c hc]
    unfold Graph.classOf
    constructor
    · intro h
      split at h
      · split at h
        · subst h; exact absurd hc (by decide)
        · subst h; exact absurd hc (by decide)
      · exact h
    · rintro h
      rw [if_neg]
      · exact h
      · rw [h]; rintro rfl; exact absurd hc (by decide)

theorem w_class (r : Int) (c : WClass) (hc : c ∈ Word.tabled) (h0 : ¬ Listed (wTable c) 0) :
    Word.classOf realW r = c ↔ Listed (wTable c) r := by
  by_cases hr : r = 0
  · subst hr
    have : Word.classOf realW 0 = .eot := rfl
    rw [this]
    constructor
    · rintro rfl; exact absurd hc (by decide)
    · intro h; exact absurd h h0
  · rw [← C55_word_classes r hr c hc]
    unfold Word.classOf
    constructor
    · intro h
      split at h
      · split at h
        · subst h; exact absurd hc (by decide)
        · subst h; exact absurd hc (by decide)
      · exact h
    · rintro h
      rw [if_neg]
      · exact h
      · rw [h]; rintro rfl; exact absurd hc (by decide)

/-- The conjoining jamo. -/
theorem C56_jamo (r : Int) :
    (Graph.classOf realG r = .L ↔ (0x1100 ≤ r ∧ r ≤ 0x115f) ∨ (0xa960 ≤ r ∧ r ≤ 0xa97c)) ∧
    (Graph.classOf realG r = .V ↔ (0x1160 ≤ r ∧ r ≤ 0x11a7) ∨ (0xd7b0 ≤ r ∧ r ≤ 0xd7c6)) ∧
    (Graph.classOf realG r = .T ↔ (0x11a8 ≤ r ∧ r ≤ 0x11ff) ∨ (0xd7cb ≤ r ∧ r ≤ 0xd7fb)) := by
  refine ⟨?_, ?_, ?_⟩
  · rw [g_class r .L (by decide) (by decide)]
    simp [gTable, TabG.L, listed_cons, listed_nil]
  · rw [g_class r .V (by decide) (by decide)]
    simp [gTable, TabG.V, listed_cons, listed_nil]
  · rw [g_class r .T (by decide) (by decide)]
    simp [gTable, TabG.T, listed_cons, listed_nil]

/-- Line ends, the joiner and the regional indicators, for graphemes and for words. -/
theorem C56_special (r : Int) :
    (Graph.classOf realG r = .CR ↔ r = 0x0d) ∧ (Graph.classOf realG r = .LF ↔ r = 0x0a) ∧ (Graph.classOf realG r = .ZWJ ↔ r = 0x200d) ∧
    (Graph.classOf realG r = .RI ↔ 0x1f1e6 ≤ r ∧ r ≤ 0x1f1ff) ∧
    (Word.classOf realW r = .CR ↔ r = 0x0d) ∧ (Word.classOf realW r = .LF ↔ r = 0x0a) ∧ (Word.classOf realW r = .ZWJ ↔ r = 0x200d) ∧
    (Word.classOf realW r = .RI ↔ 0x1f1e6 ≤ r ∧ r ≤ 0x1f1ff) ∧
    (Word.classOf realW r = .Newline ↔ r = 0x0b ∨ r = 0x0c ∨ r = 0x85 ∨ r = 0x2028 ∨ r = 0x2029) := by
  refine ⟨?_, ?_, ?_, ?_, ?_, ?_, ?_, ?_, ?_⟩
  · rw [g_class r _ (by decide) (by decide)]; simp [gTable, TabG.CR, listed_cons, listed_nil]; omega
  · rw [g_class r _ (by decide) (by decide)]; simp [gTable, TabG.LF, listed_cons, listed_nil]; omega
  · rw [g_class r _ (by decide) (by decide)]; simp [gTable, TabG.ZWJ, listed_cons, listed_nil]; omega
  · rw [g_class r _ (by decide) (by decide)]; simp [gTable, TabG.Regional_Indicator, listed_cons, listed_nil]
  · rw [w_class r _ (by decide) (by decide)]; simp [wTable, TabW.CR, listed_cons, listed_nil]; omega
  · rw [w_class r _ (by decide) (by decide)]; simp [wTable, TabW.LF, listed_cons, listed_nil]; omega
  · rw [w_class r _ (by decide) (by decide)]; simp [wTable, TabW.ZWJ, listed_cons, listed_nil]; omega
  · rw [w_class r _ (by decide) (by decide)]; simp [wTable, TabW.Regional_Indicator, listed_cons, listed_nil]
  · rw [w_class r _ (by decide) (by decide)]; simp [wTable, TabW.Newline, listed_cons, listed_nil]; omega

/-- The part of a table below U+0080. -/
def lowPart (t : List (Nat × Nat)) : List (Nat × Nat) := inter 3000 [(0, 127)] t

theorem lowPart_eq {t : List (Nat × Nat)} (hs : sortedB t = true) (hl : t.length < 3000) (r : Nat) (h : r < 128) :
    inRanges t r = inRanges (lowPart t) r := by
  rw [Bool.eq_iff_iff, inRanges_iff, inRanges_iff]
  unfold lowPart
  have : Listed [(0, 127)] (r : Int) := ⟨(0, 127), by simp, by simp, by simp; omega⟩
  rw [inter_iff 3000 _ _ (by simp; omega) ((sortedB_iff _).mp (by decide)) ((sortedB_iff _).mp hs)]
  exact ⟨fun k => ⟨this, k⟩, fun k => k.2⟩

/-- The tables below U+0080. -/
def lowG : GTables := ⟨fun c r => inRanges (lowPart (gTable c)) r, fun r => inRanges (lowPart TabE.Extended_Pictographic) r⟩
def lowW : WTables := ⟨fun c r => inRanges (lowPart (wTable c)) r, fun r => inRanges (lowPart TabE.Extended_Pictographic) r⟩

theorem lowG_eq (r : Nat) (h : r < 128) : Graph.classOf realG r = Graph.classOf lowG r := by
  have hall : ∀ c : GClass, sortedB (gTable c) = true ∧ (gTable c).length < 3000 := by
    intro c; cases c <;> decide +kernel
  have h1 : (fun c => realG.is c (r : Int)) = fun c => lowG.is c (r : Int) := by
    funext c; exact lowPart_eq (hall c).1 (hall c).2 r h
  have h2 : realG.pict (r : Int) = lowG.pict (r : Int) := lowPart_eq g_pict_apart.2 (by decide +kernel) r h
  unfold Graph.classOf Graph.classForRune
  rw [h1, h2]

theorem lowW_eq (r : Nat) (h : r < 128) : Word.classOf realW r = Word.classOf lowW r := by
  have hall : ∀ c : WClass, sortedB (wTable c) = true ∧ (wTable c).length < 3000 := by
    intro c; cases c <;> decide +kernel
  have h1 : (fun c => realW.is c (r : Int)) = fun c => lowW.is c (r : Int) := by
    funext c; exact lowPart_eq (hall c).1 (hall c).2 r h
  have h2 : realW.pict (r : Int) = lowW.pict (r : Int) := lowPart_eq g_pict_apart.2 (by decide +kernel) r h
  unfold Word.classOf Word.classForRune
  rw [h1, h2]

/-- The ASCII characters, for graphemes: controls, and characters without a class. -/
theorem C56_ascii_graphemes (r : Nat) (h0 : 0 < r) (h : r < 128) :
    Graph.classOf realG r = if r = 0x0d then .CR else if r = 0x0a then .LF else if r < 0x20 ∨ r = 0x7f then .Control else .Any := by
  have : ∀ r : Nat, r < 128 → 0 < r → Graph.classOf lowG (r : Int) = if r = 0x0d then .CR else if r = 0x0a then .LF else
      if r < 0x20 ∨ r = 0x7f then .Control else .Any := by decide +kernel
  rw [lowG_eq r h]
  exact this r h h0

/-- The ASCII characters, for words. -/
theorem C56_ascii_words (r : Nat) (h0 : 0 < r) (h : r < 128) :
    Word.classOf realW r = if r = 0x0d then .CR else if r = 0x0a then .LF else if r = 0x0b ∨ r = 0x0c then .Newline else
      if r = 0x20 then .WSegSpace else if (0x41 ≤ r ∧ r ≤ 0x5a) ∨ (0x61 ≤ r ∧ r ≤ 0x7a) then .ALetter else
      if 0x30 ≤ r ∧ r ≤ 0x39 then .Numeric else if r = 0x22 then .DoubleQuote else if r = 0x27 then .SingleQuote else
      if r = 0x2c ∨ r = 0x3b then .MidNum else if r = 0x2e then .MidNumLet else if r = 0x3a then .MidLetter else
      if r = 0x5f then .ExtendNumLet else .Other := by
  have : ∀ r : Nat, r < 128 → 0 < r → Word.classOf lowW (r : Int) = if r = 0x0d then .CR else if r = 0x0a then .LF else if r = 0x0b ∨ r = 0x0c then .Newline else
      if r = 0x20 then .WSegSpace else if (0x41 ≤ r ∧ r ≤ 0x5a) ∨ (0x61 ≤ r ∧ r ≤ 0x7a) then .ALetter else
      if 0x30 ≤ r ∧ r ≤ 0x39 then .Numeric else if r = 0x22 then .DoubleQuote else if r = 0x27 then .SingleQuote else
      if r = 0x2c ∨ r = 0x3b then .MidNum else if r = 0x2e then .MidNumLet else if r = 0x3a then .MidLetter else
      if r = 0x5f then .ExtendNumLet else .Other := by decide +kernel
  rw [lowW_eq r h]
  exact this r h h0

/-- C56 does not hold for U+FFFD, the character which stands for invalid bytes: it is no control character in
Unicode, but is one here, and marks after it are cut off. -/
theorem C56_violated : Graph.classOf realG 0xfffd = .Control ∧
    (((Seg.new [Graph.new]).initSlice [0xfffd, 0x301]).collect (Graph.breaker realG) 4).map (·.1.map (·.runes)) = some [[0xfffd], [0x301]] ∧
    (((Seg.new [Graph.new]).initSlice [0x61, 0x301]).collect (Graph.breaker realG) 4).map (·.1.map (·.runes)) = some [[0x61, 0x301]] := by
  decide +kernel

/-! ### C57: emoji classes -/

/-- The class found is one of the rune's classes. -/
theorem C57_sound (r : Int) (c : EClass) (h : emojisClassForRune r = some c) : Listed (eTable c) r := by
  have := List.find?_some h
  exact (inRanges_iff _ _).mp this

/-- A class is found if there is one. -/
theorem C57_complete (r : Int) (c : EClass) (h : Listed (eTable c) r) : emojisClassForRune r ≠ none := by
  intro hn
  have hc : c ∈ eClasses := by cases c <;> decide
  exact List.find?_eq_none.mp hn c hc ((inRanges_iff _ _).mpr h)

example : emojisClassForRune 0x1f600 = some .Emoji ∧ emojisClassForRune 0x200d = some .Component ∧
    emojisClassForRune 0x2605 = some .Pictographic ∧ emojisClassForRune 0x41 = none := by decide +kernel

theorem emoji_subsets : inter 1000 TabE.Emoji_Presentation TabE.Emoji = TabE.Emoji_Presentation ∧
    inter 1000 TabE.Emoji_Modifier TabE.Emoji = TabE.Emoji_Modifier ∧
    inter 1000 TabE.Emoji_Modifier_Base TabE.Emoji = TabE.Emoji_Modifier_Base ∧
    sortedB TabE.Emoji = true ∧ sortedB TabE.Emoji_Presentation = true ∧ sortedB TabE.Emoji_Modifier = true ∧
    sortedB TabE.Emoji_Modifier_Base = true := by decide +kernel

/-- C57 does not hold: three of the classes are never reported, because all of their runes are also in the class Emoji,
which comes first. -/
theorem C57_violated (r : Int) (c : EClass) (hc : c ∈ [EClass.Presentation, .Modifier, .ModifierBase]) (h : Listed (eTable c) r) :
    emojisClassForRune r = some .Emoji := by
  have he : Listed TabE.Emoji r := by
    obtain ⟨h1, h2, h3, s0, s1, s2, s3⟩ := emoji_subsets
    simp only [List.mem_cons, List.not_mem_nil, or_false] at hc
    rcases hc with rfl | rfl | rfl
    · exact ((inter_eq (by decide +kernel) s1 s0 h1 r).mp h).2
    · exact ((inter_eq (by decide +kernel) s2 s0 h2 r).mp h).2
    · exact ((inter_eq (by decide +kernel) s3 s0 h3 r).mp h).2
  unfold emojisClassForRune eClasses
  rw [List.find?_cons, show inRanges (eTable .Emoji) r = true from (inRanges_iff _ _).mpr he]

example : Listed (eTable .Modifier) 0x1f3fb ∧ Listed (eTable .Presentation) 0x1f600 ∧ Listed (eTable .ModifierBase) 0x1f44b := by
  decide +kernel

end Uax
