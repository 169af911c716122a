import Verif.Inside
import Verif.SpecInsideLine

/-! Breaks of lines are grapheme boundaries, if the classes go together. -/

namespace Uax
open SpecLine

theorem allowed_not {flags : Bool} {h : List LClass} {a d : LClass} (next : Option LClass) (ha : h.head? = some a) (h1 : a ∉ [LClass.BK, .LF, .NL, .CR, .SP, .CB, .ZW]) (h2 : d ≠ .CB)
    (hd : (a = .JL ∧ d ∈ [LClass.JL, .JV, .H2, .H3]) ∨ (a ∈ [LClass.JV, .H2] ∧ d ∈ [LClass.JV, .JT]) ∨ (a ∈ [LClass.JT, .H3] ∧ d = .JT) ∨ (flags = true ∧ d = .RI) ∨ (a = .EB ∧ d = .EM) ∨ d = .NS ∨ (a = .AL ∧ d = .AL)) :
    allowed flags h d next = false := by
  cases h with
  | nil => cases ha
  | cons x h =>
    obtain rfl : x = a := by simpa using ha
    simp only [List.mem_cons, List.not_mem_nil, or_false, not_or] at h1
    obtain ⟨n1, n2, n3, n4, n5, n6, n7⟩ := h1
    have hb : beforeSpaces (x :: h) = x := by
      rw [beforeSpaces, List.dropWhile_cons, if_neg (by simpa using n5)]
      rfl
    unfold allowed
    rw [hb, List.headD_cons]
    rw [if_neg (by simp [n1, n2, n3]), if_neg n4]
    refine ite_keep (ite_keep ?_)
    rw [if_neg n7]
    iterate 8 refine ite_keep ?_
    rw [if_neg n5]
    refine ite_keep ?_
    rw [if_neg (by simp [h2, n6])]
    rcases hd with hd | hd | hd | hd | hd | hd | hd
    · iterate 11 refine ite_keep ?_
      rw [if_pos hd]
    · iterate 12 refine ite_keep ?_
      rw [if_pos hd]
    · iterate 13 refine ite_keep ?_
      rw [if_pos hd]
    · iterate 20 refine ite_keep ?_
      rw [if_pos hd]
    · iterate 21 refine ite_keep ?_
      rw [if_pos hd]
    · rw [if_pos (.inl (by rw [hd]; decide))]
    · iterate 16 refine ite_keep ?_
      rw [if_pos ⟨by rw [hd.1]; decide, by rw [hd.2]; decide⟩]

theorem repeated_base {c : LClass} (h : List LClass) (hm : mark c = false) : repeated (c :: h) = c :: repeated h := by
  rw [repeated, if_neg (by simp [hm])]

/-- What precedes a mark does not stand alone, if it is a mark or none of the separators. -/
theorem repeated_not_alone {c : LClass} (h : List LClass) (hc : c ∉ [LClass.BK, .CR, .LF, .NL, .SP, .ZW]) : alone (repeated (c :: h)) = false := by
  rw [repeated]
  by_cases hm : mark c = true
  · rw [if_pos hm]
    by_cases ha : alone (repeated h) = true
    · rw [if_pos ha]
      rfl
    · rw [if_neg ha]
      cases hr : repeated h with
      | nil => rw [hr] at ha; exact absurd rfl ha
      | cons x t =>
        rw [hr] at ha
        simpa [alone] using ha
  · rw [if_neg hm]
    show decide (c ∈ _) = false
    rw [decide_eq_false hc]

/-- The base of marks at the end. -/
theorem repeated_head : ∀ (h : List LClass) (x : LClass), x ≠ .AL → (repeated h).head? = some x → ∃ ms post, h = ms ++ x :: post ∧ ∀ m ∈ ms, mark m = true
  | [], _, _, e => by cases e
  | c :: h, x, hx, e => by
    rw [repeated] at e
    by_cases hm : mark c = true
    · rw [if_pos hm, List.head?_cons] at e
      by_cases ha : alone (repeated h) = true
      · rw [if_pos ha] at e
        exact absurd (Option.some.inj e).symm hx
      · rw [if_neg ha] at e
        cases hr : repeated h with
        | nil => rw [hr] at ha; exact absurd rfl ha
        | cons y t =>
          rw [hr] at e
          obtain ⟨ms, post, e1, e2⟩ := repeated_head h x hx (by rw [hr]; exact e)
          refine ⟨c :: ms, post, by rw [e1]; rfl, ?_⟩
          intro m hm'
          rcases List.mem_cons.mp hm' with rfl | hm'
          · exact hm
          · exact e2 m hm'
    · rw [if_neg hm, List.head?_cons] at e
      obtain rfl := Option.some.inj e
      exact ⟨[], h, rfl, fun m hm => by cases hm⟩

/-- Flags without marks inside: the pairs are counted as usual. -/
theorem oddFlagsMarks_count : ∀ (l : List LClass), (∀ pre mid post, LClass.RI :: l = pre ++ LClass.RI :: (mid ++ .RI :: post) → (∀ z ∈ mid, mark z = true) → mid = []) →
    oddFlagsMarks (.RI :: l) = decide (((LClass.RI :: l).takeWhile (· == .RI)).length % 2 = 1)
  | [], _ => rfl
  | c :: t, h => by
    have e0 : ∀ l, oddFlagsMarks (.RI :: l) = !oddFlagsMarks l := fun l => by rw [oddFlagsMarks, if_neg (by decide), if_pos rfl]
    have stop : c ≠ .RI → decide (((LClass.RI :: c :: t).takeWhile (· == .RI)).length % 2 = 1) = true := by
      intro hc
      rw [List.takeWhile_cons, if_pos (by decide), List.takeWhile_cons, if_neg (by simpa using hc)]
      rfl
    rw [e0]
    by_cases hm : mark c = true
    · have hc : c ≠ .RI := by rintro rfl; exact absurd hm (by decide)
      rw [stop hc, oddFlagsMarks, if_pos hm]
      by_cases hr : (repeated t).head? = some .RI
      · obtain ⟨ms, post, e1, e2⟩ := repeated_head t .RI (by decide) hr
        have := h [] (c :: ms) post (by rw [e1]; rfl) (by
          intro z hz
          rcases List.mem_cons.mp hz with rfl | hz
          · exact hm
          · exact e2 z hz)
        cases this
      · rw [decide_eq_false hr]
        rfl
    · by_cases hc : c = .RI
      · subst hc
        rw [oddFlagsMarks_count t fun pre mid post e => h (LClass.RI :: pre) mid post (by rw [e]; rfl)]
        rw [List.takeWhile_cons (a := LClass.RI) (l := LClass.RI :: t), if_pos (by decide), List.length_cons]
        generalize ((LClass.RI :: t).takeWhile (· == .RI)).length = n
        by_cases hn : n % 2 = 1
        · rw [decide_eq_true hn, decide_eq_false (by omega)]
          rfl
        · rw [decide_eq_false hn, decide_eq_true (by omega)]
          rfl
      · rw [stop hc, oddFlagsMarks, if_neg hm, if_neg hc]
        rfl

theorem line_attached (bef aft : List LClass) {a b : LClass} (na : a ∉ [LClass.BK, .CR, .LF, .NL, .ZW]) (h : Attached a b) : lBoundary false (a :: bef) (b :: aft) = false := by
  rw [lBoundary, if_neg (by decide)]
  rcases h with h | h | h | h
  · rw [if_pos ⟨h.1, repeated_not_alone bef (by
      simp only [List.mem_cons, List.not_mem_nil, or_false, not_or] at na ⊢
      exact ⟨na.1, na.2.1, na.2.2.1, na.2.2.2.1, h.2, na.2.2.2.2⟩)⟩]
  · rw [if_neg (by rw [h.1]; rintro ⟨e, -⟩; cases e), h.1, h.2]
    rw [repeated_base bef (by decide)]
    exact allowed_not _ rfl (by decide) (by decide) (.inr (.inr (.inr (.inr (.inl ⟨rfl, rfl⟩)))))
  · rw [if_neg (by rw [h.1]; rintro ⟨e, -⟩; cases e), h.1]
    have hm : mark a = false := decide_eq_false (by
      have := h.2
      simp only [List.mem_cons, List.not_mem_nil, or_false, not_or] at this ⊢
      exact ⟨this.2.2.1, this.2.2.2⟩)
    rw [repeated_base bef hm]
    refine allowed_not _ rfl ?_ (by decide) (.inr (.inr (.inr (.inr (.inr (.inl rfl))))))
    have := h.2
    simp only [List.mem_cons, List.not_mem_nil, or_false, not_or] at this na ⊢
    exact ⟨na.1, na.2.2.1, na.2.2.2.1, na.2.1, this.1, this.2.1, na.2.2.2.2⟩
  · rw [if_neg (by rw [h.1]; rintro ⟨e, -⟩; cases e), h.1, h.2]
    rw [repeated_base bef (by decide)]
    exact allowed_not _ rfl (by decide) (by decide) (.inr (.inr (.inr (.inr (.inr (.inr ⟨rfl, rfl⟩))))))

theorem not_ctl {g : GClass} {c : LClass} (h : AgreeL g c) (hg : g.isCtl = false) : c ∉ [LClass.BK, .CR, .LF, .NL, .ZW] := fun hm => by
  rw [h.ctl hm] at hg
  cases hg

theorem line_crlf (flags : Bool) (h : List LClass) (next : Option LClass) : allowed flags (LClass.CR :: h) .LF next = false := by
  unfold allowed
  rw [List.headD_cons, if_neg (by decide), if_pos rfl]
  decide

/-- A break of lines is a boundary of graphemes. -/
theorem line_inside (g : Int → GClass) (c : Int → LClass) (a b : Int) (bef aft : List Int) (ha : AgreeL (g a) (c a)) (hb : AgreeL (g b) (c b)) (hbef : ∀ x ∈ bef, AgreeL (g x) (c x))
    (hat : g b ∈ [GClass.Extend, .ZWJ, .SpacingMark] → (g a).isCtl = false → Attached (c a) (c b)) (hj : ¬ (g a = .ZWJ ∧ g b = .Pict))
    (hf : ∀ pre x mid y post, a :: bef = pre ++ x :: (mid ++ y :: post) → c x = .RI → c y = .RI → (∀ z ∈ mid, mark (c z) = true) → mid = [])
    (h : gBoundary false ((a :: bef).map g) ((b :: aft).map g) = false) : lBoundary false ((a :: bef).map c) ((b :: aft).map c) = false := by
  rw [List.map_cons, List.map_cons] at h ⊢
  rcases gBoundary_false h with ⟨h1, h2⟩ | ⟨na, nb, hc | hc | hc | hc⟩
  · rw [ha.cr h1, hb.lf h2, lBoundary, if_neg (by decide), if_neg (by rintro ⟨e, -⟩; cases e), repeated_base _ (by decide), if_neg (by decide)]
    exact line_crlf _ _ _
  · have key : ∀ {x y : LClass}, x ∈ [LClass.JL, .JV, .JT, .H2, .H3] → y ∈ [LClass.JL, .JV, .JT, .H2, .H3] →
        ((x = .JL ∧ y ∈ [LClass.JL, .JV, .H2, .H3]) ∨ (x ∈ [LClass.JV, .H2] ∧ y ∈ [LClass.JV, .JT]) ∨ (x ∈ [LClass.JT, .H3] ∧ y = .JT)) →
        lBoundary false (x :: bef.map c) (y :: aft.map c) = false := by
      intro x y hx hy hxy
      have mx : mark x = false := by revert hx; cases x <;> decide
      have my : mark y = false := by revert hy; cases y <;> decide
      rw [lBoundary, if_neg (by decide), if_neg (by rw [my]; rintro ⟨e, -⟩; cases e), repeated_base _ mx, if_neg (by simp [my])]
      refine allowed_not _ rfl (by revert hx; cases x <;> decide) (by rintro rfl; exact absurd hy (by decide)) ?_
      rcases hxy with k | k | k
      · exact .inl k
      · exact .inr (.inl k)
      · exact .inr (.inr (.inl k))
    have conv : ∀ r, AgreeL (g r) (c r) → g r ∈ hangul → (g r, c r) ∈ ([(.L, .JL), (.V, .JV), (.T, .JT), (.LV, .H2), (.LVT, .H3)] : List (GClass × LClass)) := by
      intro r hr hg
      simp only [hangul, List.mem_cons, List.not_mem_nil, or_false] at hg
      rcases hg with e | e | e | e | e
      · rw [e, hr.l e]; decide
      · rw [e, hr.v e]; decide
      · rw [e, hr.t e]; decide
      · rw [e, hr.lv e]; decide
      · rw [e, hr.lvt e]; decide
    have k1 := conv a ha hc.1
    have k2 := conv b hb hc.2.1
    have k3 := hc.2.2
    unfold HangulPair at k3
    generalize c a = x at k1 key ⊢
    generalize c b = y at k2 key ⊢
    generalize g a = p at k1 k3
    generalize g b = q at k2 k3
    have fin : ∀ z ∈ ([(.L, .JL), (.V, .JV), (.T, .JT), (.LV, .H2), (.LVT, .H3)] : List (GClass × LClass)), ∀ w ∈ ([(.L, .JL), (.V, .JV), (.T, .JT), (.LV, .H2), (.LVT, .H3)] : List (GClass × LClass)),
        ((z.1 = .L ∧ w.1 ∈ [GClass.L, .V, .LV, .LVT]) ∨ (z.1 ∈ [GClass.LV, .V] ∧ w.1 ∈ [GClass.V, .T]) ∨ (z.1 ∈ [GClass.LVT, .T] ∧ w.1 = .T)) →
        (z.2 ∈ [LClass.JL, .JV, .JT, .H2, .H3] ∧ w.2 ∈ [LClass.JL, .JV, .JT, .H2, .H3] ∧
        ((z.2 = .JL ∧ w.2 ∈ [LClass.JL, .JV, .H2, .H3]) ∨ (z.2 ∈ [LClass.JV, .H2] ∧ w.2 ∈ [LClass.JV, .JT]) ∨ (z.2 ∈ [LClass.JT, .H3] ∧ w.2 = .JT))) := by decide
    obtain ⟨f1, f2, f3⟩ := fin _ k1 _ k2 k3
    exact key f1 f2 f3
  · exact line_attached _ _ (not_ctl ha na) (hat hc na)
  · exact absurd hc hj
  · have hga : g a = .RI := by
      refine Classical.byContradiction fun hn => ?_
      have := hc.2
      rw [List.takeWhile_cons, if_neg (by simpa using hn)] at this
      cases this
    have w1 := ha.ri.1 hga
    have w2 := hb.ri.1 hc.1
    have e1 : ((c a :: bef.map c).takeWhile (· == .RI)).length = ((g a :: bef.map g).takeWhile (· == .RI)).length := by
      rw [← List.map_cons, ← List.map_cons, List.takeWhile_map, List.takeWhile_map, List.length_map, List.length_map]
      congr 1
      have : ∀ l : List Int, (∀ x ∈ l, AgreeL (g x) (c x)) → l.takeWhile ((· == LClass.RI) ∘ c) = l.takeWhile ((· == GClass.RI) ∘ g) := by
        intro l
        induction l with
        | nil => intro _; rfl
        | cons x l ih =>
          intro hl
          have hx := (hl x (List.mem_cons_self ..)).ri
          rw [List.takeWhile_cons, List.takeWhile_cons, ih fun y hy => hl y (List.mem_cons_of_mem _ hy)]
          by_cases e : g x = .RI
          · rw [if_pos (by simp [hx.1 e]), if_pos (by simp [e])]
          · rw [if_neg (by simpa using fun e' => e (hx.2 e')), if_neg (by simpa using e)]
      refine this _ fun x hx => ?_
      rcases List.mem_cons.mp hx with rfl | hx
      · exact ha
      · exact hbef x hx
    have odd : oddFlagsMarks (c a :: bef.map c) = true := by
      have e2 := hc.2
      rw [← e1, w1] at e2
      rw [w1, oddFlagsMarks_count, decide_eq_true e2]
      intro pre mid post e hm
      rw [← w1, ← List.map_cons] at e
      obtain ⟨l1, l2, e3, rfl, e4⟩ := List.map_eq_append_iff.mp e
      obtain ⟨x, l3, rfl, e5, e6⟩ := List.map_eq_cons_iff.mp e4
      obtain ⟨l4, l5, rfl, rfl, e8⟩ := List.map_eq_append_iff.mp e6
      obtain ⟨y, l6, rfl, e9, -⟩ := List.map_eq_cons_iff.mp e8
      have := hf l1 x l4 y l6 e3 (by rw [e5]; exact w1) (by rw [e9]; exact w1) fun z hz => hm _ (List.mem_map.mpr ⟨z, hz, rfl⟩)
      rw [this]
      rfl
    rw [lBoundary, if_neg (by decide), if_neg (by rw [w2]; rintro ⟨e, -⟩; cases e), odd, w1, w2, repeated_base _ (by decide)]
    exact allowed_not _ rfl (by decide) (by decide) (.inr (.inr (.inr (.inl ⟨rfl, rfl⟩))))

/-- Lines end where graphemes end. -/
theorem lines_cuts (g : Int → GClass) (c : Int → LClass) (text : List Int) (hw : Wrapped g c text) :
    ∀ i, i < text.length → lBoundary false ((text.take (i + 1)).map c).reverse ((text.drop (i + 1)).map c) = true →
      gBoundary false ((text.take (i + 1)).map g).reverse ((text.drop (i + 1)).map g) = true := by
  intro i hi h
  by_cases hl : i + 1 = text.length
  · rw [List.drop_eq_nil_of_le (by omega)]
    cases ((text.take (i + 1)).map g).reverse <;> rfl
  · have hi' : i + 1 < text.length := by omega
    have e1 : text.take (i + 1) = text.take i ++ [text[i]] := by rw [List.take_succ_eq_append_getElem hi]
    have e2 : text.drop (i + 1) = text[i + 1] :: text.drop (i + 2) := by rw [List.drop_eq_getElem_cons hi']
    have e0 : text = text.take i ++ text[i] :: text[i + 1] :: text.drop (i + 2) := by
      rw [← e2]
      have := List.take_append_drop (i + 1) text
      rw [e1, List.append_assoc] at this
      exact this.symm
    rw [← List.map_reverse, e1, e2, List.reverse_append, List.reverse_singleton, List.singleton_append] at h ⊢
    refine Classical.byContradiction fun hn => ?_
    rw [Bool.not_eq_true] at hn
    rw [line_inside g c _ _ _ _ (hw.classes _ (List.getElem_mem ..)) (hw.classes _ (List.getElem_mem ..)) ?_ (hw.attached _ _ _ _ e0) (hw.joined _ _ _ _ e0) ?_ hn] at h
    · cases h
    · intro x hx
      exact hw.classes x (List.mem_of_mem_take (List.mem_reverse.mp hx))
    · intro pre x mid y post e hx hy hm
      have e' := congrArg List.reverse e
      rw [List.reverse_cons, List.reverse_reverse] at e'
      have := hw.flags post.reverse y mid.reverse x (pre.reverse ++ text.drop (i + 1)) (by
        have e4 := List.take_append_drop (i + 1) text
        rw [e1, e'] at e4
        generalize text.drop (i + 1) = rest at e4
        rw [← e4]
        simp) hy hx (fun z hz => hm z (List.mem_reverse.mp hz))
      exact List.reverse_eq_nil_iff.mp this

/-- Lines are made of graphemes. -/
theorem lines_madeOf (g : Int → GClass) (c : Int → LClass) (text : List Int) (hw : Wrapped g c text) : MadeOf (lines false c text) (clusters false g text) := by
  refine cutAfter_inside _ _ text (lines_cuts g c text hw) ?_
  intro i hi
  rw [List.drop_eq_nil_of_le (by omega)]
  have : ((text.take (i + 1)).map c).reverse ≠ [] := by
    intro e
    have := congrArg List.length e
    rw [List.length_reverse, List.length_map, List.length_take, List.length_nil] at this
    omega
  cases hr : ((text.take (i + 1)).map c).reverse with
  | nil => exact absurd hr this
  | cons x l => rfl

end Uax
