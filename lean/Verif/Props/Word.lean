import Verif.WordSpecProofs
import Verif.Props.Grapheme

/-! Properties C24, C25 and C26 for the word breaker. -/

namespace Uax
open Seg Word

/-- The characters of UAX#29, by the tables. -/
def wordChar (T : WTables) (r : Int) : WChar := ⟨classForRune T r, T.pict r⟩

/-- The characters as the breaker knows them: those with a word break property are not pictographic. -/
def wordCharSeen (T : WTables) (r : Int) : WChar := ⟨classForRune T r, T.pict r && classForRune T r == .Other⟩

namespace Word

theorem seen_class (T : WTables) (r : Int) : toC (wordCharSeen T r) = classOf T r := by
  unfold toC wordCharSeen classOf
  by_cases h : classForRune T r = .Other
  · simp only [h, if_true, beq_self_eq_true, Bool.and_true]
  · simp only [h, if_false]

theorem seen_real (T : WTables) (r : Int) (hr : r ≠ 0) : Real (wordCharSeen T r) := by
  unfold Real wordCharSeen classForRune
  rw [if_neg hr]
  cases hf : tabled.find? fun c => T.is c r with
  | none => simp
  | some c =>
    have hm := List.mem_of_find?_eq_some hf
    simp only [Option.getD_some]
    constructor <;> (intro e; subst e; revert hm; decide)

theorem past_rep (T : WTables) (past : List Int) (h : CompletePast past) : Rep [] ((breaker T).run Word.new past) := by
  have hr := run_rep T past new_rep
  rcases h with rfl | h
  · exact new_rep
  · obtain ⟨ys, rfl⟩ := List.getLast?_eq_some_iff.mp h
    rw [List.map_append, List.reverse_append] at hr
    exact rep_eot hr

/-- The boundary after rune `i` of a text. -/
def cutS (far : Bool) (ch : Int → WChar) (text : List Int) (i : Nat) : Bool :=
  wBoundary far ((text.take (i + 1)).map ch).reverse ((text.drop (i + 1)).map ch)

theorem words_eq (far : Bool) (ch : Int → WChar) (text : List Int) : words far ch text = cutAfter (cutS far ch text) text := rfl

theorem wb_end (h rest : List WClass) : wb h .eot rest = true := by
  unfold wb
  rw [if_neg (fun h => nomatch h.2)]
  by_cases hn : (hd WClass.nl h || WClass.eot.nl) = true
  · rw [if_pos hn]
  · rw [if_neg hn]
    have h1 : ∀ R ∈ allRules, joins R h .eot = false := by
      intro R hR
      have : rgt R .eot = false := by cases R <;> rfl
      by_cases hreg : (isPair R || isTriple R) = true
      · rcases Bool.or_eq_true _ _ |>.mp hreg with h | h
        · rcases pair_cases h with rfl | rfl | rfl | rfl | rfl | rfl | rfl | rfl <;> simp only [joins, this, Bool.and_false]
        · rcases triple_cases h with rfl | rfl | rfl <;> simp only [joins, this, Bool.and_false]
      · rcases irregular hR hreg with rfl | rfl | rfl | rfl | rfl <;> simp [joins, WClass.ign]
    have h2 : ¬ (allRules.any fun R => joins R h .eot) = true := by
      intro h
      obtain ⟨R, hR, hj⟩ := List.any_eq_true.mp h
      rw [h1 R hR] at hj; cases hj
    rw [if_neg h2]
    rfl

theorem cut_text (T : WTables) (text : List Int) (ht : ∀ x ∈ text, x ≠ 0) (i : Nat) (hi : i < text.length) :
    cutW T text i = cutS false (wordCharSeen T) text i := by
  have hmap : ∀ l : List Int, l.map (classOf T) = (l.map (wordCharSeen T)).map toC := by
    intro l
    rw [List.map_map]
    exact List.map_congr_left fun r _ => (seen_class T r).symm
  have hbef : ((text.take (i + 1)).map (wordCharSeen T)).reverse = wordCharSeen T text[i] :: ((text.take i).map (wordCharSeen T)).reverse := by
    rw [List.take_succ_eq_append_getElem hi, List.map_append, List.reverse_append]; rfl
  have hreal : ∀ (l : List Int), (∀ x ∈ l, x ∈ text) → ∀ x ∈ l.map (wordCharSeen T), Real x := by
    intro l hl x hx
    obtain ⟨y, hy, rfl⟩ := List.mem_map.mp hx
    exact seen_real T y (ht y (hl y hy))
  have hH : H ((text ++ [0]).map (classOf T)) (i + 1) = (((text.take (i + 1)).map (wordCharSeen T)).reverse).map toC := by
    unfold H
    rw [← List.map_take, List.take_append_of_le_length (by omega), List.map_reverse, ← hmap]
  unfold cutW cutS
  rw [hH]
  by_cases hj : i + 1 < text.length
  · have hd : ((text ++ [0]).map (classOf T))[i + 1]?.getD .eot = toC (wordCharSeen T text[i + 1]) := by
      rw [List.getElem?_map, List.getElem?_append_left hj, List.getElem?_eq_getElem hj, seen_class]; rfl
    have hrest : ((text ++ [0]).map (classOf T)).drop (i + 2) = ((text.drop (i + 2)).map (wordCharSeen T)).map toC ++ [.eot] := by
      rw [← List.map_drop, List.drop_append_of_le_length (by omega), List.map_append, hmap]; rfl
    rw [hd, hrest, List.drop_eq_getElem_cons hj, List.map_cons, hbef]
    refine wb_boundary _ _ _ _ ?_ (seen_real T _ (ht _ (List.getElem_mem _))) (hreal _ fun x hx => List.mem_of_mem_drop hx) ?_
    · rw [← hbef]
      intro x hx
      exact hreal _ (fun y hy => List.mem_of_mem_take hy) x (List.mem_reverse.mp hx)
    · unfold wordCharSeen
      simp only [Bool.and_eq_true, beq_iff_eq]
      exact fun h => h.2
  · have he : i + 1 = text.length := by omega
    have hd : ((text ++ [0]).map (classOf T))[i + 1]?.getD .eot = .eot := by
      rw [he, List.getElem?_map, List.getElem?_append_right (Nat.le_refl _), Nat.sub_self]; rfl
    rw [hd, wb_end, hbef, List.drop_of_length_le (by omega)]
    rfl

end Word

/-! ### C26 -/

/-- The class of a rune in the following theorems is the one of the only table in which it is; the
runes in no table are others. -/
theorem C26_classes (T : WTables) (r : Int) (hr : r ≠ 0) :
    (∀ c, c ∉ [WClass.Pict, .Other, .eot] → (∀ d, T.is d r = true ↔ d = c) → wordChar T r = ⟨c, T.pict r⟩) ∧
    ((∀ d, T.is d r = false) → wordChar T r = ⟨.Other, T.pict r⟩) := by
  unfold wordChar classForRune
  rw [if_neg hr]
  constructor
  · intro c hc h
    have hm : c ∈ tabled := by
      cases c <;> first | decide | exact absurd (by decide) hc
    have hf : tabled.find? (fun d => T.is d r) = some c := by
      cases e : tabled.find? (fun d => T.is d r) with
      | none => exact absurd ((h c).mpr rfl) (List.find?_eq_none.mp e c hm)
      | some d => rw [(h d).mp (by simpa using List.find?_some e)]
    rw [hf, Option.getD_some]
  · intro h
    rw [List.find?_eq_none.mpr (fun d _ => by simp [h d])]
    rfl

example : (wordChar { is := fun c r => c == .ALetter && r == 65, pict := fun r => r == 0x2764 } 65).wb = .ALetter := by decide

/-- The breaker never panics. -/
theorem C26_never_panics (T : WTables) (rs : List Int) : ∃ b, rs.foldlM (stepO T) Word.new = some b := by
  suffices h : ∀ (rs : List Int) (h : List WClass) (b : WBrk), Rep h b → ∃ b', rs.foldlM (stepO T) b = some b' from h rs _ _ new_rep
  intro rs
  induction rs with
  | nil => intro h b _; exact ⟨b, rfl⟩
  | cons r rs ih =>
    intro h b hR
    obtain ⟨b', h1, h2, _⟩ := stepO_rep T hR r
    rw [List.foldlM_cons, h1]
    exact ih _ _ h2

/-- The segments of a text, for reader input, are its words according to UAX#29, with two
exceptions, see `C26_violated`: WB7b does not look through ignorable characters (`far = false`), and
WB3c does not apply to characters with a word break property (`wordCharSeen`). The text has no NUL
and fits into the output buffer, for which see C09. The breaker is new or has processed complete
texts, and `BreakOnZero` has not been switched on for it. -/
theorem C26_words_near_partial (T : WTables) (past : List Int) (hp : CompletePast past) {s : Seg WBrk}
    (hr : Reachable (breaker T) s) (hb : s.brk = [(breaker T).run Word.new past]) (hz : s.zero0 = false) (src : List (Int × Nat))
    (ht : ∀ x ∈ src, x.1 ≠ 0) (hlen : src.length ≤ s.room) (n : Nat) (hn : src.length + 1 < n) :
    ∃ segs, (s.initReader src none).collect (breaker T) n = some (segs, true) ∧
      segs.map (·.runes) = words false (wordCharSeen T) (src.map (·.1)) := by
  have h := past_rep T past hp
  have ht' : ∀ x ∈ src.map (·.1), x ≠ 0 := by
    intro x hx
    obtain ⟨y, hy, rfl⟩ := List.mem_map.mp hx
    exact ht y hy
  have hl : (src.map (·.1)).length = src.length := List.length_map _
  obtain ⟨segs, h1, h2⟩ := collect_reader_cutAfter (breaker T) hr src n (cutS false (wordCharSeen T) (src.map (·.1)))
    (by rw [hb, hz]; have := word_steady (T := T) h (src.map (·.1)) s.zero1; rw [hl] at this; exact this)
    (by
      intro i hi
      rw [hb, hz]
      have := word_cut (T := T) h (src.map (·.1)) s.zero1 i (by rw [hl]; exact hi)
      rw [cut_text T _ ht' i (by rw [hl]; exact hi), hl] at this
      exact this)
    (by rw [hb, hz]; have := word_mark (T := T) h (src.map (·.1)) s.zero1; rw [hl] at this; exact this) hn
  exact ⟨segs, h1, by rw [h2, words_eq, cutAfter_take _ _ _ (by rw [hl]; exact hlen)]⟩

/-- Slice input, of any length. -/
theorem C26_slice_words_near_partial (T : WTables) (past : List Int) (hp : CompletePast past) {s : Seg WBrk}
    (hr : Reachable (breaker T) s) (hb : s.brk = [(breaker T).run Word.new past]) (hz : s.zero0 = false) (text : List Int)
    (ht : ∀ x ∈ text, x ≠ 0) (n : Nat) (hn : text.length + 1 < n) :
    ∃ segs, (s.initSlice text).collect (breaker T) n = some (segs, true) ∧
      segs.map (·.runes) = words false (wordCharSeen T) text := by
  have h := past_rep T past hp
  exact collect_slice_cutAfter (breaker T) hr text n (cutS false (wordCharSeen T) text)
    (by rw [hb, hz]; exact word_steady (T := T) h text s.zero1)
    (by
      intro i hi
      rw [hb, hz]
      have := word_cut (T := T) h text s.zero1 i hi
      rw [cut_text T _ ht i hi] at this
      exact this)
    (by rw [hb, hz]; exact word_mark (T := T) h text s.zero1) hn

namespace Word
open SpecWord

variable (f : WChar → WChar) (hf : ∀ x, (f x).wb = x.wb)
include hf

theorem ignorable_map (x : WChar) : ignorable (f x) = ignorable x := by unfold ignorable; rw [hf]

theorem strip_map (l : List WChar) : strip (l.map f) = (strip l).map f := by
  unfold strip
  induction l with
  | nil => rfl
  | cons x l ih =>
    rw [List.map_cons, List.dropWhile_cons, List.dropWhile_cons, ignorable_map f hf]
    split
    · exact ih
    · rfl

theorem starts_map (cs : List WClass) (l : List WChar) : starts cs (l.map f) = starts cs l := by
  cases l with
  | nil => rfl
  | cons x l => simp [starts, hf]

theorem count_map (l : List WChar) : (((l.map f).filter fun x => !ignorable x).takeWhile fun x => x.wb == .RI).length =
    ((l.filter fun x => !ignorable x).takeWhile fun x => x.wb == .RI).length := by
  induction l with
  | nil => rfl
  | cons x l ih =>
    rw [List.map_cons]
    cases hx : ignorable x with
    | true => rw [List.filter_cons_of_neg (by simp [ignorable_map f hf, hx]), List.filter_cons_of_neg (by simp [hx])]; exact ih
    | false =>
      rw [List.filter_cons_of_pos (by simp [ignorable_map f hf, hx]), List.filter_cons_of_pos (by simp [hx])]
      by_cases hr : x.wb = .RI
      · rw [List.takeWhile_cons_of_pos (by simp [hf, hr]), List.takeWhile_cons_of_pos (by simp [hr]), List.length_cons, List.length_cons, ih]
      · rw [List.takeWhile_cons_of_neg (by simp [hf, hr]), List.takeWhile_cons_of_neg (by simp [hr])]

/-- Only the right neighbour's Extended_Pictographic property matters, and only after ZWJ. -/
theorem wBoundary_map (far : Bool) (a b : WChar) (bef aft : List WChar) (hb : a.wb = .ZWJ → (f b).pict = b.pict) :
    wBoundary far ((a :: bef).map f) ((b :: aft).map f) = wBoundary far (a :: bef) (b :: aft) := by
  have h1 : strip ((a :: bef).map f) = (strip (a :: bef)).map f := strip_map f hf _
  have h2 : strip ((strip (a :: bef)).map f).tail = (strip (strip (a :: bef)).tail).map f := by
    rw [← List.map_tail, strip_map f hf]
  have h3 : strip (aft.map f) = (strip aft).map f := strip_map f hf _
  have h4 := count_map f hf (a :: bef)
  simp only [List.map_cons] at h1 h4 ⊢
  have h5 : (if far then (strip aft).map f else aft.map f) = (if far then strip aft else aft).map f := by split <;> rfl
  have h6 : (a.wb = .ZWJ ∧ (f b).pict = true) ↔ (a.wb = .ZWJ ∧ b.pict = true) := by
    constructor
    · rintro ⟨h, h'⟩; exact ⟨h, by rw [← hb h]; exact h'⟩
    · rintro ⟨h, h'⟩; exact ⟨h, by rw [hb h]; exact h'⟩
  simp only [wBoundary, h1, h2, h3, h4, h5, hf, starts_map f hf, ignorable_map f hf, h6]

omit hf in
/-- Without an ignorable character after the double quote both versions of WB7b are the same. -/
theorem wBoundary_far (a b : WChar) (bef aft : List WChar) (hb : b.wb = .DoubleQuote → ∀ x, aft.head? = some x → ignorable x = false) :
    wBoundary true (a :: bef) (b :: aft) = wBoundary false (a :: bef) (b :: aft) := by
  by_cases hd : b.wb = .DoubleQuote
  · have : strip aft = aft := by
      cases aft with
      | nil => rfl
      | cons x aft => unfold strip; rw [List.dropWhile_cons_of_neg (by rw [hb hd x rfl]; simp)]
    simp only [wBoundary, this, if_true]
    rfl
  · simp only [wBoundary, hd, false_and, and_false, if_false]

end Word

/-- Texts in which the exceptions do not occur: no double quote is followed by an Extend, Format or
ZWJ, and no ZWJ by a pictographic character that has a word break property. -/
def PlainWords (T : WTables) (text : List Int) : Prop :=
  ∀ (i : Nat) x y, text[i]? = some x → text[i + 1]? = some y →
    (classForRune T x = .DoubleQuote → classForRune T y ∉ [.Extend, .Format, .ZWJ]) ∧
    (classForRune T x = .ZWJ → T.pict y = true → classForRune T y = .Other)

theorem words_plain (T : WTables) (text : List Int) (h : PlainWords T text) : words false (wordCharSeen T) text = words true (wordChar T) text := by
  rw [words_eq, words_eq]
  unfold cutAfter
  congr 2
  apply List.ext_getElem?
  intro i
  rw [List.getElem?_mapIdx, List.getElem?_mapIdx]
  cases hx : text[i]? with
  | none => rfl
  | some x =>
    have hi := (List.getElem?_eq_some_iff.mp hx).1
    have hx' := (List.getElem?_eq_some_iff.mp hx).2
    simp only [Option.map_some, Option.some.injEq, Prod.mk.injEq, true_and]
    unfold cutS
    have hbef : ∀ ch : Int → WChar, ((text.take (i + 1)).map ch).reverse = ch x :: ((text.take i).map ch).reverse := by
      intro ch
      rw [List.take_succ_eq_append_getElem hi, hx', List.map_append, List.reverse_append]; rfl
    by_cases hj : i + 1 < text.length
    · have hy : text[i + 1]? = some text[i + 1] := List.getElem?_eq_getElem hj
      obtain ⟨h1, h2⟩ := h i x _ hx hy
      let f : WChar → WChar := fun c => ⟨c.wb, c.pict && c.wb == .Other⟩
      have hfm : ∀ l : List Int, l.map (wordCharSeen T) = (l.map (wordChar T)).map f := by
        intro l; rw [List.map_map]; rfl
      have e1 : ((text.take (i + 1)).map (wordCharSeen T)).reverse = (wordChar T x :: ((text.take i).map (wordChar T)).reverse).map f := by
        rw [hbef, hfm, ← List.map_reverse]; rfl
      have e2 : (text.drop (i + 1)).map (wordCharSeen T) = (wordChar T text[i + 1] :: (text.drop (i + 2)).map (wordChar T)).map f := by
        rw [hfm, List.drop_eq_getElem_cons hj]; rfl
      rw [e1, e2, wBoundary_map f (fun _ => rfl), hbef, List.drop_eq_getElem_cons hj, List.map_cons]
      · refine (wBoundary_far _ _ _ _ ?_).symm
        intro hd z hz
        obtain ⟨w, hw, rfl⟩ : ∃ w, (text.drop (i + 2)).head? = some w ∧ wordChar T w = z := by
          rw [List.head?_map] at hz
          obtain ⟨w, hw, e⟩ := Option.map_eq_some_iff.mp hz
          exact ⟨w, hw, e⟩
        rw [List.head?_drop] at hw
        have := (h (i + 1) _ w hy hw).1 hd
        unfold SpecWord.ignorable
        exact decide_eq_false this
      · intro hz
        show (T.pict text[i + 1] && classForRune T text[i + 1] == .Other) = T.pict text[i + 1]
        cases hp : T.pict text[i + 1] with
        | false => rfl
        | true => rw [h2 hz hp]; rfl
    · rw [List.drop_of_length_le (by omega), hbef, hbef]; rfl

/-- All other texts are segmented exactly as UAX#29 wants it (reader input). -/
theorem C26_words_partial (T : WTables) (past : List Int) (hp : CompletePast past) {s : Seg WBrk}
    (hr : Reachable (breaker T) s) (hb : s.brk = [(breaker T).run Word.new past]) (hz : s.zero0 = false) (src : List (Int × Nat))
    (ht : ∀ x ∈ src, x.1 ≠ 0) (hlen : src.length ≤ s.room) (n : Nat) (hn : src.length + 1 < n) (hw : PlainWords T (src.map (·.1))) :
    ∃ segs, (s.initReader src none).collect (breaker T) n = some (segs, true) ∧
      segs.map (·.runes) = words true (wordChar T) (src.map (·.1)) := by
  rw [← words_plain T _ hw]
  exact C26_words_near_partial T past hp hr hb hz src ht hlen n hn

/-- The same for slices. -/
theorem C26_slice_words_partial (T : WTables) (past : List Int) (hp : CompletePast past) {s : Seg WBrk}
    (hr : Reachable (breaker T) s) (hb : s.brk = [(breaker T).run Word.new past]) (hz : s.zero0 = false) (text : List Int)
    (ht : ∀ x ∈ text, x ≠ 0) (n : Nat) (hn : text.length + 1 < n) (hw : PlainWords T text) :
    ∃ segs, (s.initSlice text).collect (breaker T) n = some (segs, true) ∧
      segs.map (·.runes) = words true (wordChar T) text := by
  rw [← words_plain T _ hw]
  exact C26_slice_words_near_partial T past hp hr hb hz text ht n hn

/-- All of the text is delivered. -/
theorem C26_words_cover_text (far : Bool) (ch : Int → WChar) (text : List Int) : (words far ch text).flatten = text := by
  rw [words_eq]
  apply cutAfter_flatten
  intro i hi
  unfold cutS
  rw [List.drop_of_length_le (by omega)]
  cases ((text.take (i + 1)).map ch).reverse <;> rfl

/-- Tables for examples: rune 20 + n has the class with number n, 38 is pictographic and 120 is a
pictographic letter. -/
def numWords : WTables := ⟨fun c r => r == c.num + 20 || (c == .ALetter && r == 120), fun r => r == 38 || r == 120⟩

/-- Hebrew_Letter Double_Quote Extend Hebrew_Letter is cut before the quote, and ZWJ is separated
from a pictographic letter. -/
theorem C26_violated :
    (((Seg.new [Word.new]).initReader [(26, 2), (22, 1), (23, 2), (26, 2)] none).collect (breaker numWords) 6).map (·.1.map (·.runes)) = some [[26], [22, 23, 26]] ∧
    words true (wordChar numWords) [26, 22, 23, 26] = [[26, 22, 23, 26]] ∧
    (((Seg.new [Word.new]).initReader [(37, 3), (120, 1)] none).collect (breaker numWords) 4).map (·.1.map (·.runes)) = some [[37], [120]] ∧
    words true (wordChar numWords) [37, 120] = [[37, 120]] := by decide +kernel

/-- With `BreakOnZero` switched on the breaker cuts where it must not. -/
theorem C26_needs_break_on_zero_off :
    ((((Seg.new [Word.new]).breakOnZero true false).initSlice [97, 23]).collect (breaker numWords) 4).map (·.1.map (·.runes)) = some [[97], [23]] ∧
    words true (wordChar numWords) [97, 23] = [[97, 23]] := by decide +kernel

/-- Letters with an apostrophe, ignorable characters in between, numbers, CR LF and spaces. -/
example : words true (wordChar numWords) [20, 23, 35, 25, 20, 33, 30, 33, 36, 36, 21, 28, 23, 20, 35] =
    [[20, 23, 35, 25, 20, 33, 30, 33], [36, 36], [21, 28], [23], [20], [35]] := by decide +kernel

example : (((Seg.new [Word.new]).initSlice [20, 23, 35, 25, 20, 36]).collect (breaker numWords) 8).map (·.1.map (·.runes)) =
    some [[20, 23, 35, 25, 20], [36]] := by decide +kernel

/-- The hypotheses of C26 can be met. -/
example : Reachable (breaker numWords) (Seg.new [Word.new]) ∧ (Seg.new [Word.new]).brk = [(breaker numWords).run Word.new []] ∧
    CompletePast [] ∧ (Seg.new [Word.new]).zero0 = false := ⟨Reachable.new _, rfl, Or.inl rfl, rfl⟩

example : PlainWords numWords [20, 23, 35, 25, 20, 22, 26, 37, 38] := by
  intro i x y hx hy
  match i with
  | 0 | 1 | 2 | 3 | 4 | 5 | 6 | 7 =>
    simp only [List.getElem?_cons_succ, List.getElem?_cons_zero, Option.some.injEq] at hx hy
    subst hx; subst hy
    exact of_decide_eq_true rfl
  | n + 8 =>
    simp at hy

/-! ### C24 -/

theorem word_flags (ch : Int → WChar) (text : List Int) (i : Nat)
    (hi : i = 0 ∨ ∃ x, text[i - 1]? = some x ∧ (ch x).wb ≠ .RI ∧ SpecWord.ignorable (ch x) = false) :
    ∀ (j : Nat), (∀ k, k < j → ∃ x, text[i + k]? = some x ∧ (ch x).wb = .RI) →
      ((((text.take (i + j)).map ch).reverse.filter fun x => !SpecWord.ignorable x).takeWhile fun x => x.wb == .RI).length = j := by
  intro j
  induction j with
  | zero =>
    intro _
    rcases hi with rfl | ⟨x, h1, h2, h3⟩
    · rfl
    · cases i with
      | zero => rfl
      | succ i =>
        have hl := (List.getElem?_eq_some_iff.mp h1).1
        have hx := (List.getElem?_eq_some_iff.mp h1).2
        simp only [Nat.add_sub_cancel] at hl hx
        rw [Nat.add_zero, List.take_succ_eq_append_getElem hl, hx, List.map_append, List.reverse_append]
        simp only [List.map_cons, List.map_nil, List.reverse_cons, List.reverse_nil, List.nil_append, List.cons_append]
        rw [List.filter_cons_of_pos (by simp [h3]), List.takeWhile_cons_of_neg (by simpa using h2)]
        rfl
  | succ j ih =>
    intro h
    obtain ⟨x, h1, h2⟩ := h j (by omega)
    have hl := (List.getElem?_eq_some_iff.mp h1).1
    have hx := (List.getElem?_eq_some_iff.mp h1).2
    have h3 : SpecWord.ignorable (ch x) = false := by unfold SpecWord.ignorable; rw [h2]; rfl
    rw [← Nat.add_assoc, List.take_succ_eq_append_getElem hl, hx, List.map_append, List.reverse_append]
    simp only [List.map_cons, List.map_nil, List.reverse_cons, List.reverse_nil, List.nil_append, List.cons_append]
    rw [List.filter_cons_of_pos (by simp [h3]), List.takeWhile_cons_of_pos (by simpa using h2), List.length_cons, ih fun k hk => h k (by omega)]

/-- In each run of Regional_Indicator characters, which starts at `i` and does not follow an
ignorable character, the text is cut after every second one and nowhere else. -/
theorem C24_words_flags_paired (T : WTables) (past : List Int) (hp : CompletePast past) {s : Seg WBrk}
    (hr : Reachable (breaker T) s) (hb : s.brk = [(breaker T).run Word.new past]) (hz : s.zero0 = false) (text : List Int)
    (ht : ∀ x ∈ text, x ≠ 0) (n : Nat) (hn : text.length + 1 < n) :
    ∃ segs cut, (s.initSlice text).collect (breaker T) n = some (segs, true) ∧ segs.map (·.runes) = cutAfter cut text ∧
      ∀ (i len : Nat), (i = 0 ∨ ∃ x, text[i - 1]? = some x ∧ classForRune T x ∉ [.RI, .Extend, .Format, .ZWJ]) →
        (∀ k, k < len → ∃ x, text[i + k]? = some x ∧ classForRune T x = .RI) →
        ∀ k, k + 1 < len → cut (i + k) = decide (k % 2 = 1) := by
  obtain ⟨segs, h1, h2⟩ := C26_slice_words_near_partial T past hp hr hb hz text ht n hn
  refine ⟨segs, cutS false (wordCharSeen T) text, h1, h2, ?_⟩
  intro i len hi hri k hk
  obtain ⟨x, hx, cx⟩ := hri k (by omega)
  obtain ⟨y, hy, cy⟩ := hri (k + 1) hk
  have hlx := (List.getElem?_eq_some_iff.mp hx).1
  have hx' := (List.getElem?_eq_some_iff.mp hx).2
  have hly := (List.getElem?_eq_some_iff.mp hy).1
  have hy' := (List.getElem?_eq_some_iff.mp hy).2
  have hi' : i = 0 ∨ ∃ x, text[i - 1]? = some x ∧ (wordCharSeen T x).wb ≠ .RI ∧ SpecWord.ignorable (wordCharSeen T x) = false := by
    rcases hi with h | ⟨x, e, h⟩
    · exact Or.inl h
    · rw [List.mem_cons, not_or] at h
      exact Or.inr ⟨x, e, h.1, decide_eq_false h.2⟩
  have hcount := word_flags (wordCharSeen T) text i hi' (k + 1) fun k' hk' => hri k' (by omega)
  unfold cutS
  rw [← Nat.add_assoc] at hcount hy hly
  simp only [← Nat.add_assoc] at hy'
  have cx' : (wordCharSeen T x).wb = .RI := cx
  have cy' : (wordCharSeen T y).wb = .RI := cy
  have hig : ∀ {z : WChar}, z.wb = .RI → SpecWord.ignorable z = false := fun h => by unfold SpecWord.ignorable; rw [h]; rfl
  rw [List.drop_eq_getElem_cons hly, hy', List.map_cons]
  rw [List.take_succ_eq_append_getElem hlx, hx', List.map_append, List.reverse_append] at hcount ⊢
  simp only [List.map_cons, List.map_nil, List.reverse_cons, List.reverse_nil, List.nil_append, List.cons_append] at hcount ⊢
  simp only [wBoundary, hcount, hig cy', cx', cy']
  by_cases hodd : k % 2 = 1
  · rw [decide_eq_true hodd]
    simp [show ¬ (k + 1) % 2 = 1 by omega, SpecWord.AHLetter, SpecWord.MidNumLetQ]
  · rw [decide_eq_false hodd]
    simp [show (k + 1) % 2 = 1 by omega, SpecWord.AHLetter, SpecWord.MidNumLetQ]

example : (((Seg.new [Word.new]).initSlice [20, 34, 34, 34, 34]).collect (breaker numWords) 7).map (·.1.map (·.runes)) =
    some [[20], [34, 34], [34, 34]] := by decide +kernel

/-! ### C25 -/

theorem list_ext_getD {l l' : List Int} (hl : l.length = l'.length) (h : ∀ j, l.getD j 0 = l'.getD j 0) : l = l' := by
  apply List.ext_getElem hl
  intro j h1 h2
  have := h j
  rw [List.getD_eq_getElem?_getD, List.getD_eq_getElem?_getD, List.getElem?_eq_getElem h1, List.getElem?_eq_getElem h2] at this
  exact this

theorem word_verdicts_eq (T : WTables) {b b' : WBrk} (h : Rep [] b) (h' : Rep [] b') (rs : List Int) :
    verdicts (breaker T) [b] rs = verdicts (breaker T) [b'] rs := by
  apply List.ext_getElem?
  intro i
  cases hi : rs[i]? with
  | none => rw [verdicts_get, verdicts_get, hi]; rfl
  | some r =>
    have hc : (rs.map (classOf T))[i]? = some (classOf T r) := by rw [List.getElem?_map, hi]; rfl
    obtain ⟨v, e1, e2, e3, e4, e5⟩ := verd T h rs i _ hc
    obtain ⟨v', f1, f2, f3, f4, f5⟩ := verd T h' rs i _ hc
    rw [e1, f1]
    have hl : v.lam = v'.lam := Bank.longest_unique V e2 f2 (List.Perm.refl _)
    have hp : v.prim = v'.prim := list_ext_getD (by rw [e4, f4]) (fun j => by rw [e3, f3])
    obtain ⟨a, b, c⟩ := v
    obtain ⟨a', b', c'⟩ := v'
    simp only at hl hp e5 f5
    rw [hl, hp, e5, f5]

/-- After complete texts the breaker reacts to anything that follows like a new one. -/
theorem C25_word_breaker_like_new (T : WTables) (past : List Int) (hp : CompletePast past) (rs : List Int) :
    verdicts (breaker T) [(breaker T).run Word.new past] rs = verdicts (breaker T) [Word.new] rs :=
  word_verdicts_eq T (past_rep T past hp) new_rep rs

/-- A segmenter that was used to the end of a text delivers the words of the next one. -/
theorem C25_word_reuse (T : WTables) (src : List (Int × Nat)) (cs : List SegCall) (s : Seg WBrk)
    (h : ((Seg.new [Word.new]).initReader src none).after (breaker T) cs = some s) (hE : s.atEOF = true) (hz : s.zero0 = false)
    (text : List Int) (ht : ∀ x ∈ text, x ≠ 0) (n : Nat) (hn : text.length + 1 < n) :
    ∃ segs, (s.initSlice text).collect (breaker T) n = some (segs, true) ∧ segs.map (·.runes) = words false (wordCharSeen T) text := by
  have hr0 : Reachable (breaker T) ((Seg.new [Word.new]).initReader src none) := Reachable.reader _ _ (Reachable.new _)
  have hr := after_reachable _ cs hr0 h
  exact C26_slice_words_near_partial T (src.map (·.1) ++ [0]) (Or.inr (by simp)) hr
    (exhausted_brk _ (Reachable.new [Word.new]) src cs h hE) hz text ht n hn

/-- A text that ends in the middle of a match leaves nothing behind. -/
example : CompletePast [26, 22, 0] ∧
    verdicts (breaker numWords) [(breaker numWords).run Word.new [26, 22, 0]] [26, 20] = verdicts (breaker numWords) [Word.new] [26, 20] :=
  ⟨Or.inr rfl, by decide +kernel⟩

end Uax
