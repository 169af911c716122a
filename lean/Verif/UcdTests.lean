import Verif.UcdProofs

/-! Lemmas on test files. -/

namespace Uax.Ucd

theorem words_eq (r : Nat) (l : Line) : words (r :: l) = if isSpace r then words l else match l with
    | [] => [[r]]
    | s :: _ => if isSpace s then [r] :: words l else match words l with
      | [] => [[r]]
      | w :: ws => (r :: w) :: ws := by
  cases l <;> rfl

theorem words_space {s : Nat} (h : isSpace s = true) (l : Line) : words (s :: l) = words l := by rw [words_eq, if_pos h]

theorem words_spaces {ws : Line} (h : ∀ c ∈ ws, isSpace c = true) (l : Line) : words (ws ++ l) = words l := by
  induction ws with
  | nil => rfl
  | cons c ws ih => rw [List.cons_append, words_space (h c (by simp)), ih fun x hx => h x (by simp [hx])]

theorem words_single {r : Nat} (h : isSpace r = false) : words [r] = [[r]] := by rw [words_eq, if_neg (by simp [h])]

theorem words_stop {r s : Nat} (h : isSpace r = false) (hs : isSpace s = true) (l : Line) : words (r :: s :: l) = [r] :: words (s :: l) := by
  rw [words_eq, if_neg (by simp [h])]
  simp only
  rw [if_pos hs]

theorem words_go {r s : Nat} (h : isSpace r = false) (hs : isSpace s = false) (l : Line) {w : Line} {ws : List Line} (e : words (s :: l) = w :: ws) :
    words (r :: s :: l) = (r :: w) :: ws := by
  rw [words_eq, if_neg (by simp [h])]
  simp only
  rw [if_neg (by simp [hs]), e]

theorem words_word {w : Line} (h0 : w ≠ []) (h : ∀ c ∈ w, isSpace c = false) {s : Nat} (hs : isSpace s = true) (l : Line) :
    words (w ++ s :: l) = w :: words (s :: l) := by
  induction w with
  | nil => exact absurd rfl h0
  | cons r w ih =>
    cases w with
    | nil => exact words_stop (h r (by simp)) hs l
    | cons r' w => exact words_go (h r (by simp)) (h r' (by simp)) _ (ih (by simp) fun c hc => h c (by simp [List.mem_cons.mp hc]))

theorem words_last {w : Line} (h0 : w ≠ []) (h : ∀ c ∈ w, isSpace c = false) : words w = [w] := by
  induction w with
  | nil => exact absurd rfl h0
  | cons r w ih =>
    cases w with
    | nil => exact words_single (h r (by simp))
    | cons r' w => exact words_go (h r (by simp)) (h r' (by simp)) _ (ih (by simp) fun c hc => h c (by simp [List.mem_cons.mp hc]))

theorem spaced_words {t : Line} {l : List Line} (h : Spaced t l) : words t = l := by
  induction h with
  | blank ws h => have := words_spaces h []; rw [List.append_nil] at this; rw [this]; rfl
  | last ws w h hw => rw [words_spaces h, words_last hw.1 hw.2]
  | word ws w s rest l h hw hs _ ih => rw [words_spaces h, words_word hw.1 hw.2 hs, ih]

theorem words_ltrim (l : Line) : words (l.dropWhile isSpace) = words l := by
  induction l with
  | nil => rfl
  | cons r l ih =>
    cases h : isSpace r with
    | true => rw [List.dropWhile_cons_of_pos h, words_space h, ih]
    | false => rw [List.dropWhile_cons_of_neg (by simp [h])]

theorem words_snoc (l : Line) {s : Nat} (hs : isSpace s = true) : words (l ++ [s]) = words l := by
  induction l with
  | nil => exact words_space hs []
  | cons r l ih =>
    rw [List.cons_append]
    cases h : isSpace r with
    | true => rw [words_space h, words_space h, ih]
    | false =>
      cases l with
      | nil => rw [List.nil_append, words_stop h hs, words_single h, words_space hs]; rfl
      | cons r' l =>
        rw [List.cons_append] at ih ⊢
        cases h' : isSpace r' with
        | true => rw [words_stop h h', words_stop h h', ih]
        | false =>
          have hne : ∃ w ws, words (r' :: l) = w :: ws := by
            rw [words_eq, if_neg (by simp [h'])]
            split
            · exact ⟨_, _, rfl⟩
            · split
              · exact ⟨_, _, rfl⟩
              · split <;> exact ⟨_, _, rfl⟩
          obtain ⟨w, ws, e⟩ := hne
          rw [words_go h h' l e, words_go h h' (l ++ [s]) (by rw [ih, e])]

theorem words_rtrim (l : Line) : words (rtrim l) = words l := by
  have : ∀ m : Line, words ((m.dropWhile isSpace).reverse) = words m.reverse := by
    intro m
    induction m with
    | nil => rfl
    | cons x m ih =>
      cases h : isSpace x with
      | true => rw [List.dropWhile_cons_of_pos h, ih, List.reverse_cons, words_snoc _ h]
      | false => rw [List.dropWhile_cons_of_neg (by simp [h])]
  unfold rtrim
  rw [this, List.reverse_reverse]

theorem words_trim (l : Line) : words (trimSpace l) = words l := by rw [trimSpace_eq, words_rtrim, words_ltrim]

theorem testRune_hex {w : Line} (h : CodePoint w) : testRune w = hexValue w := by
  unfold testRune
  rw [foldlM_hex h.2.1]
  show (if (0xd800 ≤ hexValue w ∧ hexValue w ≤ 0xdfff) ∨ 0x10ffff < hexValue w then 0xfffd else hexValue w) = _
  rw [if_neg (by have := h.2.2; omega)]

theorem codePoint_ne {w : Line} (h : CodePoint w) {c : Nat} (hc : 128 ≤ c) : w ≠ [c] := by
  rintro rfl
  have := hex_lt (h.2.1 c (by simp))
  omega

theorem breakLoop_cp {w : Line} (h : CodePoint w) (ws : List Line) (inp : Line) (out : List Line) (run : Line) :
    breakLoop (w :: ws) inp out run = breakLoop ws (inp ++ [hexValue w]) out (run ++ [hexValue w]) := by
  rw [breakLoop, if_neg (codePoint_ne h (by decide)), if_neg (codePoint_ne h (by decide)), testRune_hex h]

theorem breakLoop_segment (s : List Line) (h0 : s ≠ []) (h : ∀ w ∈ s, CodePoint w) (ws : List Line) (inp : Line) (out : List Line) (run : Line) :
    breakLoop (segmentWords s ++ ws) inp out run = breakLoop ws (inp ++ s.map hexValue) (out ++ [run ++ s.map hexValue]) [] := by
  induction s generalizing inp run with
  | nil => exact absurd rfl h0
  | cons c cs ih =>
    cases cs with
    | nil =>
      show breakLoop (c :: [0xf7] :: ws) inp out run = _
      rw [breakLoop_cp (h c (by simp)), breakLoop, if_pos rfl, if_neg (by simp)]
      rfl
    | cons d cs =>
      show breakLoop (c :: [0xd7] :: (segmentWords (d :: cs) ++ ws)) inp out run = _
      rw [breakLoop_cp (h c (by simp)), breakLoop, if_neg (by decide), if_pos rfl, ih (by simp) fun w hw => h w (by simp [List.mem_cons.mp hw])]
      simp

theorem breakLoop_segments (ss : List (List Line)) (h : ∀ s ∈ ss, s ≠ [] ∧ ∀ w ∈ s, CodePoint w) (inp : Line) (out : List Line) :
    breakLoop (ss.flatMap segmentWords) inp out [] = (inp ++ ss.flatten.map hexValue, out ++ ss.map (List.map hexValue)) := by
  induction ss generalizing inp out with
  | nil => simp [breakLoop]
  | cons s ss ih =>
    rw [List.flatMap_cons, breakLoop_segment s (h s (by simp)).1 (h s (by simp)).2, ih fun x hx => h x (by simp [hx])]
    simp

theorem breakTestInput_words (c : TestCase) (h : c.Valid) (text : Line) (ht : words text = c.words) : breakTestInput text = c.meaning := by
  unfold breakTestInput
  rw [ht]
  unfold TestCase.words
  have : breakLoop ([c.start] :: c.segments.flatMap segmentWords) [] [] [] = breakLoop (c.segments.flatMap segmentWords) [] [] [] := by
    rw [breakLoop]
    rcases h.start with e | e
    · rw [e, if_pos rfl, if_pos rfl]
    · rw [e, if_neg (by decide), if_pos rfl]
  rw [this, breakLoop_segments _ h.segments]
  simp [TestCase.meaning]

theorem spaced_ne {t : Line} {l : List Line} (h : Spaced t l) (hl : l ≠ []) : t ≠ [] := by
  rintro rfl
  have := spaced_words h
  exact hl this.symm

theorem spaced_mem {t : Line} {l : List Line} (h : Spaced t l) {x : Nat} (hx : x ∈ t) : isSpace x = true ∨ ∃ w ∈ l, x ∈ w := by
  induction h with
  | blank ws h => exact .inl (h x hx)
  | last ws w h hw =>
    rcases List.mem_append.mp hx with hx | hx
    · exact .inl (h x hx)
    · exact .inr ⟨w, by simp, hx⟩
  | word ws w s rest l h hw hs _ ih =>
    rcases List.mem_append.mp hx with hx | hx
    · exact .inl (h x hx)
    · rcases List.mem_append.mp hx with hx | hx
      · exact .inr ⟨w, by simp, hx⟩
      · rcases ih hx with h | ⟨w', hw', hx'⟩
        · exact .inl h
        · exact .inr ⟨w', by simp [hw'], hx'⟩

theorem segmentWords_mem (s : List Line) (w : Line) (h : w ∈ segmentWords s) : w ∈ s ∨ w = [0xf7] ∨ w = [0xd7] := by
  induction s with
  | nil => simp [segmentWords] at h; simp [h]
  | cons c cs ih =>
    cases cs with
    | nil => simp [segmentWords] at h; rcases h with h | h <;> simp [h]
    | cons d cs =>
      simp only [segmentWords, List.mem_cons] at h
      rcases h with h | h | h
      · simp [h]
      · simp [h]
      · rcases ih h with h | h
        · exact .inl (by simp [List.mem_cons.mp h])
        · exact .inr h

theorem text_plain {c : TestCase} (h : c.Valid) {text : Line} (ht : Spaced text c.words) : 35 ∉ text := by
  intro hx
  rcases spaced_mem ht hx with h' | ⟨w, hw, hx⟩
  · cases h'
  · unfold TestCase.words at hw
    rw [List.mem_cons, List.mem_flatMap] at hw
    rcases hw with rfl | ⟨s, hs, hw⟩
    · have : 35 = c.start := by simpa using hx
      rcases h.start with e | e <;> rw [e] at this <;> cases this
    · rcases segmentWords_mem s w hw with hw | rfl | rfl
      · have := ((h.segments s hs).2 w hw).2.1 35 hx
        exact absurd this (by decide)
      · simp at hx
      · simp at hx

theorem dropWhile_stop (a : Line) (c : Nat) (s : Line) (hc : isSpace c = false) :
    (a ++ c :: s).dropWhile isSpace = a.dropWhile isSpace ++ c :: s := by
  induction a with
  | nil => rw [List.nil_append, List.dropWhile_cons_of_neg (by simp [hc])]; rfl
  | cons x a ih =>
    rw [List.cons_append]
    cases hx : isSpace x with
    | true => rw [List.dropWhile_cons_of_pos hx, List.dropWhile_cons_of_pos hx, ih]
    | false => rw [List.dropWhile_cons_of_neg (by simp [hx]), List.dropWhile_cons_of_neg (by simp [hx])]; rfl

theorem scan_go_test (c : TestCase) (text : Line) (cm : Option Line) (ls : List Line) (tf : TestFile) (h : (TestLine.test c text cm).Valid) :
    ∃ tf', TestFile.scan.go ((TestLine.test c text cm).line :: ls) tf = (tf', true) ∧ tf'.input = ls ∧ words tf'.text = c.words := by
  obtain ⟨hc, ht⟩ := h
  have h35 := text_plain hc ht
  have hne := spaced_ne ht (by simp [TestCase.words])
  have hw := spaced_words ht
  have hl : (TestLine.test c text cm).line ≠ [] := by simp [TestLine.line, hne]
  have hh : (TestLine.test c text cm).line.head? ≠ some 35 := by
    obtain ⟨x, t, rfl⟩ := List.exists_cons_of_ne_nil hne
    intro e
    simp only [TestLine.line, List.cons_append, List.head?_cons, Option.some.injEq] at e
    exact h35 (by simp [e])
  unfold TestFile.scan.go
  rw [if_neg hl, if_neg hh]
  cases cm with
  | none =>
    have e : split 35 (trimSpace (TestLine.test c text none).line) = [trimSpace text] := by
      have : (TestLine.test c text none).line = text := by simp [TestLine.line]
      rw [this, split_none]
      intro hx
      rw [trimSpace_eq] at hx
      exact h35 ((List.dropWhile_sublist _).subset (rtrim_mem hx))
    rw [e]
    exact ⟨_, rfl, rfl, by rw [words_trim, hw]⟩
  | some cm =>
    have e : ∃ x xs, split 35 (trimSpace (TestLine.test c text (some cm)).line) = text.dropWhile isSpace :: x :: xs := by
      have : (TestLine.test c text (some cm)).line = text ++ 35 :: cm := rfl
      rw [this, trimSpace_eq, dropWhile_stop _ _ _ (by decide), rtrim_append _ _ _ (by decide),
        split_append fun hx => h35 ((List.dropWhile_sublist _).subset hx)]
      have : ∀ l : Line, ∃ x xs, split 35 l = x :: xs := by
        intro l
        cases l with
        | nil => exact ⟨_, _, rfl⟩
        | cons r l =>
          rw [split]
          split
          · exact ⟨_, _, rfl⟩
          · split <;> exact ⟨_, _, rfl⟩
      obtain ⟨x, xs, e⟩ := this (rtrim cm)
      exact ⟨x, xs, by rw [e]⟩
    obtain ⟨x, xs, e⟩ := e
    rw [e]
    exact ⟨_, rfl, rfl, by rw [words_ltrim, hw]⟩

theorem runTests_eq : ∀ (ls : List TestLine) (n : Nat) (tf : TestFile), (∀ l ∈ ls, l.Valid) → tf.input = ls.map TestLine.line →
    ls.length < n → runTests n tf = testCases ls := by
  have key : ∀ (ls : List TestLine) (tf : TestFile), (∀ l ∈ ls, l.Valid) →
      (testCases ls = [] ∧ ∃ tf', TestFile.scan.go (ls.map TestLine.line) tf = (tf', false)) ∨
      (∃ c : TestCase, c.Valid ∧ ∃ ls', testCases ls = c.meaning :: testCases ls' ∧ ls'.length < ls.length ∧ (∀ l ∈ ls', l.Valid) ∧
        ∃ tf', TestFile.scan.go (ls.map TestLine.line) tf = (tf', true) ∧ tf'.input = ls'.map TestLine.line ∧ words tf'.text = c.words) := by
    intro ls
    induction ls with
    | nil => intro tf _; exact .inl ⟨rfl, _, rfl⟩
    | cons l ls ih =>
      intro tf h
      cases l with
      | comment cm =>
        have e : TestFile.scan.go ((TestLine.comment cm :: ls).map TestLine.line) tf =
            TestFile.scan.go (ls.map TestLine.line) { tf with input := ls.map TestLine.line } := by
          show TestFile.scan.go ((35 :: cm) :: ls.map TestLine.line) tf = _
          rw [TestFile.scan.go, if_neg (by simp), if_pos (by simp)]
        rw [e]
        have hc : testCases (.comment cm :: ls) = testCases ls := rfl
        rw [hc]
        rcases ih { tf with input := ls.map TestLine.line } fun l hl => h l (by simp [hl]) with g | ⟨c, hv, ls', g1, g2, g3⟩
        · exact .inl g
        · exact .inr ⟨c, hv, ls', g1, by simp; omega, g3⟩
      | test c text cm =>
        right
        have hv := h (.test c text cm) (by simp)
        exact ⟨c, hv.1, ls, rfl, by simp, fun l hl => h l (by simp [hl]), scan_go_test c text cm _ tf hv⟩
  intro ls n
  induction n generalizing ls with
  | zero => intro tf _ _ h; omega
  | succ n ih =>
    intro tf hv hi hn
    rcases key ls tf hv with ⟨h1, tf', h2⟩ | ⟨c, hc, ls', g1, g2, g3, tf', g4, g5, g6⟩
    · unfold runTests TestFile.scan
      rw [hi, h2, h1]
    · unfold runTests TestFile.scan
      rw [hi, g4, g1]
      simp only
      rw [breakTestInput_words c hc _ g6, ih ls' tf' g3 g5 (by omega)]

end Uax.Ucd
