import Verif.RegroupLine
import Verif.Props.ByLine

/-! Property C73: cutting a text at boundaries of its segments. -/

namespace Uax
open Seg

theorem all_some {β : Type} {B : Breaker β} {n : Nat} {s : Seg β} {p q : List (List Int)}
    (h : ∃ segs, s.collect B n = some (segs, true) ∧ segs.map (·.runes) = p) (hq : s.all B n = some q) : p = q := by
  rw [all_of h] at hq
  exact Option.some.inj hq

theorem group_length {parts : List (List (List Int))} {p : List (List Int)} (hp : p ∈ parts) : p.flatten.length ≤ parts.flatten.flatten.length := by
  rw [List.flatten_flatten]
  exact lines_length (List.mem_map_of_mem (f := List.flatten) hp)

theorem group_member {parts : List (List (List Int))} {p : List (List Int)} (hp : p ∈ parts) {x : Int} (hx : x ∈ p.flatten) : x ∈ parts.flatten.flatten := by
  rw [List.flatten_flatten]
  exact List.mem_flatten.mpr ⟨p.flatten, List.mem_map_of_mem hp, hx⟩

/-- Graphemes: if `parts` are the clusters of a text, in groups, then the text of every group
consists of just the clusters of the group. -/
theorem C73_graphemes (T : GTables) (s : Seg Graph.GBrk) (hs : OneBreaker (Graph.breaker T) Graph.new s) (text : List Int) (ht : ∀ x ∈ text, x ≠ 0)
    (n : Nat) (hn : text.length + 1 < n) (parts : List (List (List Int))) (h : (s.initSlice text).all (Graph.breaker T) n = some parts.flatten)
    (p : List (List Int)) (hp : p ∈ parts) (s' : Seg Graph.GBrk) (hs' : OneBreaker (Graph.breaker T) Graph.new s') :
    (s'.initSlice p.flatten).all (Graph.breaker T) n = some p := by
  obtain ⟨hr, past, hpa, hb⟩ := hs
  obtain ⟨hr', past', hpa', hb'⟩ := hs'
  have e : cutWith (gBoundary false) (Graph.classOf T) text = parts.flatten :=
    all_some (C22_slice_clusters_without_GB9b_partial T past hpa hr hb text ht n hn) h
  have et : parts.flatten.flatten = text := by rw [← e]; exact cutWith_flatten (gTwoSided false) _ _
  have hl := group_length hp
  rw [et] at hl
  have key := cutWith_groups (gTwoSided false) (fun _ _ _ => trivial) _ parts text trivial e p hp
  have := all_of (C22_slice_clusters_without_GB9b_partial T past' hpa' hr' hb' p.flatten (fun x hx => ht x (et ▸ group_member hp hx)) n (by omega))
  rw [this]
  exact congrArg some key

/-- Line wrap opportunities. -/
theorem C73_lines (T : LTables) (s : Seg Line.LBrk) (hs : OneBreaker (Line.breaker T) Line.new s) (text : List Int) (ht : ∀ x ∈ text, x ≠ 0)
    (n : Nat) (hn : text.length + 1 < n) (parts : List (List (List Int))) (h : (s.initSlice text).all (Line.breaker T) n = some parts.flatten)
    (p : List (List Int)) (hp : p ∈ parts) (s' : Seg Line.LBrk) (hs' : OneBreaker (Line.breaker T) Line.new s') :
    (s'.initSlice p.flatten).all (Line.breaker T) n = some p := by
  obtain ⟨hr, past, hpa, hb⟩ := hs
  obtain ⟨hr', past', hpa', hb'⟩ := hs'
  have e : cutWith (lBoundary false) (Line.raw T) text = parts.flatten :=
    all_some (C29_slice_lines_near_partial T past hpa hr hb text ht n hn) h
  have et : parts.flatten.flatten = text := by rw [← e]; exact cutWith_flatten lTwoSided _ _
  have hl := group_length hp
  rw [et] at hl
  have key := cutWith_groups lTwoSided (fun _ _ _ => trivial) _ parts text trivial e p hp
  have := all_of (C29_slice_lines_near_partial T past' hpa' hr' hb' p.flatten (fun x hx => ht x (et ▸ group_member hp hx)) n (by omega))
  rw [this]
  exact congrArg some key

/-- Words: for texts in which no double quote is followed by an ignorable character, see `C73_words_violated`. -/
theorem C73_words_partial (T : WTables) (s : Seg Word.WBrk) (hs : OneBreaker (Word.breaker T) Word.new s) (hz : s.zero0 = false) (text : List Int) (ht : ∀ x ∈ text, x ≠ 0)
    (hq : ∀ (i : Nat) x y, text[i]? = some x → text[i + 1]? = some y → Word.classForRune T x = .DoubleQuote → Word.classForRune T y ∉ [.Extend, .Format, .ZWJ])
    (n : Nat) (hn : text.length + 1 < n) (parts : List (List (List Int))) (h : (s.initSlice text).all (Word.breaker T) n = some parts.flatten)
    (p : List (List Int)) (hp : p ∈ parts) (s' : Seg Word.WBrk) (hs' : OneBreaker (Word.breaker T) Word.new s') (hz' : s'.zero0 = false) :
    (s'.initSlice p.flatten).all (Word.breaker T) n = some p := by
  obtain ⟨hr, past, hpa, hb⟩ := hs
  obtain ⟨hr', past', hpa', hb'⟩ := hs'
  have e : cutWith (wBoundary false) (wordCharSeen T) text = parts.flatten :=
    all_some (C26_slice_words_near_partial T past hpa hr hb hz text ht n hn) h
  have et : parts.flatten.flatten = text := by rw [← e]; exact cutWith_flatten (wTwoSided false) _ _
  have hl := group_length hp
  rw [et] at hl
  have hQ : PlainQuotes false (text.map (wordCharSeen T)) := by
    right
    intro i x y h1 h2 h3
    rw [List.getElem?_map] at h1 h2
    cases hx : text[i]? with
    | none => rw [hx] at h1; cases h1
    | some x' =>
      cases hy : text[i + 1]? with
      | none => rw [hy] at h2; cases h2
      | some y' =>
        rw [hx] at h1
        rw [hy] at h2
        cases h1
        cases h2
        exact decide_eq_false (hq i x' y' hx hy h3)
  have key := cutWith_groups (wTwoSided false) (plainQuotes_suffix false) _ parts text hQ e p hp
  have := all_of (C26_slice_words_near_partial T past' hpa' hr' hb' hz' p.flatten (fun x hx => ht x (et ▸ group_member hp hx)) n (by omega))
  rw [this]
  exact congrArg some key

/-- Hebrew_Letter Double_Quote Extend Hebrew_Letter: the second word of it is no word by itself. -/
theorem C73_words_violated :
    ((Seg.new [Word.new]).initSlice [26, 22, 23, 26]).all (Word.breaker numWords) 6 = some [[26], [22, 23, 26]] ∧
    ((Seg.new [Word.new]).initSlice [22, 23, 26]).all (Word.breaker numWords) 6 = some [[22, 23], [26]] := by decide +kernel

/-- Runs of white space and of other runes, the default. -/
theorem C73_simple (isSpace : Int → Bool) (hz : isSpace 0 = false) (text : List Int) (ht : ∀ x ∈ text, x ≠ 0) (n : Nat) (hn : text.length + 1 < n)
    (parts : List (List (List Int))) (h : ((Seg.new [SWB.new]).initSlice text).all (SWB.breaker isSpace) n = some parts.flatten)
    (p : List (List Int)) (hp : p ∈ parts) : ((Seg.new [SWB.new]).initSlice p.flatten).all (SWB.breaker isSpace) n = some p := by
  have runs : ∀ t : List Int, (∀ x ∈ t, x ≠ 0) → t.length + 1 < n →
      ((Seg.new [SWB.new]).initSlice t).all (SWB.breaker isSpace) n = some (t.splitBy fun a c => isSpace a == isSpace c) := by
    intro t h1 h2
    apply all_of
    refine ⟨_, C21_slice_gives_runs isSpace hz t h1 n h2, ?_⟩
    unfold wordRuns
    rw [List.map_map]
    exact List.map_id' _
  rw [runs text ht hn] at h
  have e := Option.some.inj h
  obtain ⟨e1, e2, e3, e4⟩ := List.splitBy_eq_iff.mp e
  have hl := group_length hp
  rw [← e1] at hl
  rw [runs p.flatten (fun x hx => ht x (e1 ▸ group_member hp hx)) (by omega)]
  congr 1
  have hin : p <:+: parts.flatten := by
    obtain ⟨l1, l2, rfl⟩ := List.append_of_mem hp
    exact ⟨l1.flatten, l2.flatten, by rw [List.flatten_append, List.flatten_cons, List.append_assoc]⟩
  rw [List.splitBy_eq_iff]
  exact ⟨rfl, fun hh => e2 (hin.subset hh), fun m hm => e3 m (hin.subset hm), e4.infix hin⟩

/-- Every segment by itself is one segment: graphemes. -/
theorem C73_grapheme_alone (T : GTables) (s : Seg Graph.GBrk) (hs : OneBreaker (Graph.breaker T) Graph.new s) (text : List Int) (ht : ∀ x ∈ text, x ≠ 0)
    (n : Nat) (hn : text.length + 1 < n) (segs : List (List Int)) (h : (s.initSlice text).all (Graph.breaker T) n = some segs) (p : List Int) (hp : p ∈ segs) :
    (s.initSlice p).all (Graph.breaker T) n = some [p] := by
  have := C73_graphemes T s hs text ht n hn (segs.map ([·])) (by rw [h, ← List.flatMap_def, List.flatMap_singleton']) [p] (List.mem_map_of_mem hp) s hs
  rwa [List.flatten_singleton] at this

/-- Lines that can be broken no more. -/
theorem C73_line_alone (T : LTables) (s : Seg Line.LBrk) (hs : OneBreaker (Line.breaker T) Line.new s) (text : List Int) (ht : ∀ x ∈ text, x ≠ 0)
    (n : Nat) (hn : text.length + 1 < n) (segs : List (List Int)) (h : (s.initSlice text).all (Line.breaker T) n = some segs) (p : List Int) (hp : p ∈ segs) :
    (s.initSlice p).all (Line.breaker T) n = some [p] := by
  have := C73_lines T s hs text ht n hn (segs.map ([·])) (by rw [h, ← List.flatMap_def, List.flatMap_singleton']) [p] (List.mem_map_of_mem hp) s hs
  rwa [List.flatten_singleton] at this

theorem fresh_one {β : Type} (B : Breaker β) (new : β) : OneBreaker B new (Seg.new [new]) :=
  ⟨Reachable.new _, [], Or.inl rfl, rfl⟩

/-- Flags and CR LF: seven clusters in groups of one, three, none and three. -/
example : ((Seg.new [Graph.new]).initSlice [33, 25, 25, 25, 24, 20, 21, 24, 25, 25]).all (Graph.breaker numTables) 20 =
      some [[[33]], [[25, 25], [25, 24], [20, 21]], [], [[24], [25, 25]]].flatten ∧
    ((Seg.new [Graph.new]).initSlice [25, 25, 25, 24, 20, 21]).all (Graph.breaker numTables) 20 = some [[25, 25], [25, 24], [20, 21]] := by
  have h : ((Seg.new [Graph.new]).initSlice [33, 25, 25, 25, 24, 20, 21, 24, 25, 25]).all (Graph.breaker numTables) 20 =
      some [[[33]], [[25, 25], [25, 24], [20, 21]], [], [[24], [25, 25]]].flatten := by decide +kernel
  refine ⟨h, ?_⟩
  exact C73_graphemes numTables _ (fresh_one _ _) _ (by decide) 20 (by decide) [[[33]], [[25, 25], [25, 24], [20, 21]], [], [[24], [25, 25]]] h
    [[25, 25], [25, 24], [20, 21]] (by decide) _ (fresh_one _ _)

/-- Words with an apostrophe inside and at the end. -/
example : ((Seg.new [Word.new]).initSlice [20, 35, 20]).all (Word.breaker numWords) 20 = some [[20, 35, 20]] ∧
    ((Seg.new [Word.new]).initSlice [35, 36]).all (Word.breaker numWords) 20 = some [[35], [36]] := by
  have h : ((Seg.new [Word.new]).initSlice [20, 35, 20, 35, 36]).all (Word.breaker numWords) 20 = some [[[20, 35, 20]], [[35], [36]]].flatten := by decide +kernel
  have hq : ∀ (i : Nat) x y, [(20 : Int), 35, 20, 35, 36][i]? = some x → [(20 : Int), 35, 20, 35, 36][i + 1]? = some y →
      Word.classForRune numWords x = .DoubleQuote → Word.classForRune numWords y ∉ [.Extend, .Format, .ZWJ] := by
    intro i x y h1 _ h3
    have : x ∈ [(20 : Int), 35, 20, 35, 36] := List.mem_of_getElem? h1
    exact absurd h3 ((by decide : ∀ x ∈ [(20 : Int), 35, 20, 35, 36], Word.classForRune numWords x ≠ .DoubleQuote) x this)
  have key := fun p hp => C73_words_partial numWords _ (fresh_one _ _) rfl _ (by decide) hq 20 (by decide) [[[20, 35, 20]], [[35], [36]]] h p hp _ (fresh_one _ _) rfl
  exact ⟨key [[20, 35, 20]] (by decide), key [[35], [36]] (by decide)⟩

/-- A number with a prefix, words, and a mark after a space. -/
example : ((Seg.new [Line.new]).initSlice (runesOf [.PR, .OP, .NU, .IS, .NU, .SP])).all (Line.breaker numLines) 20 = some [runesOf [.PR, .OP, .NU, .IS, .NU, .SP]] := by
  have h : ((Seg.new [Line.new]).initSlice (runesOf [.AL, .SP, .PR, .OP, .NU, .IS, .NU, .SP, .CM, .AL])).all (Line.breaker numLines) 20 =
      some [runesOf [.AL, .SP], runesOf [.PR, .OP, .NU, .IS, .NU, .SP], runesOf [.CM, .AL]] := by decide +kernel
  exact C73_line_alone numLines _ (fresh_one _ _) _ (by decide) 20 (by decide) _ h (runesOf [.PR, .OP, .NU, .IS, .NU, .SP]) (by decide)

end Uax
