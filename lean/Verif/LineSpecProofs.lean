import Verif.LineVerdict

/-! The verdicts of the line breaker in terms of the classes of the text (`SpecLine`). -/

namespace Uax
namespace Line

open SpecLine

theorem real_not_mark {c : LClass} (h : c ∈ real) : mark c = false := by
  revert h; cases c <;> decide

theorem sees_snoc (T : LTables) (rs : List Int) (r : Int) : (sees T [] (rs ++ [r])).reverse = cls T (sees T [] rs).reverse r :: (sees T [] rs).reverse := by
  rw [sees_append, List.append_nil, List.reverse_append]; rfl

theorem alone_last {h : List LC} (hg : Good h) : alone (cl h) = decide (last h ∈ [LClass.sot, .BK, .CR, .LF, .NL, .SP, .ZW]) := by
  rw [good_last hg]
  cases h with
  | nil => rfl
  | cons c h =>
    have := (real_not (hg c List.mem_cons_self)).2
    simp only [cl, List.map_cons, alone, List.headD_cons, List.mem_cons (b := LClass.sot), this, false_or]

theorem sees_good (T : LTables) (rs : List Int) (ht : ∀ x ∈ rs, x ≠ 0) : Good (sees T [] rs).reverse := by
  intro c hc
  exact good_sees T rs ht c (List.mem_reverse.mp hc)

theorem cls_mark (T : LTables) {h : List LC} (hg : Good h) {r : Int} (hm : mark (raw T r) = true) :
    cls T h r = (if last h ∈ [LClass.sot, .BK, .CR, .LF, .NL, .SP, .ZW] then .AL else last h, true) := by
  unfold cls
  rw [sub_mark hm]
  refine Prod.ext rfl ?_
  simp only [decide_eq_true_eq]
  intro he
  rw [he] at hm
  split at hm
  · cases hm
  · rename_i hl
    cases h with
    | nil => exact hl (by decide)
    | cons c h =>
      rw [last_cons, if_neg (real_not (hg c List.mem_cons_self)).1, real_not_mark (hg c List.mem_cons_self)] at hm
      cases hm

theorem cls_not (T : LTables) (h : List LC) {r : Int} (hm : mark (raw T r) = false) : cls T h r = (raw T r, false) := by
  unfold cls
  rw [sub_not hm]
  simp

theorem sees_repeated (T : LTables) (rs : List Int) (ht : ∀ x ∈ rs, x ≠ 0) :
    cl (sees T [] rs).reverse = repeated (rs.map (raw T)).reverse ∧ odd (sees T [] rs).reverse = oddFlagsMarks (rs.map (raw T)).reverse := by
  induction rs using List.reverseRecOn with
  | nil => exact ⟨rfl, rfl⟩
  | append_singleton rs r ih =>
    have ht' : ∀ x ∈ rs, x ≠ 0 := fun x hx => ht x (List.mem_append_left _ hx)
    have hr : r ≠ 0 := ht r (by simp)
    obtain ⟨i1, i2⟩ := ih ht'
    have hg := sees_good T rs ht'
    rw [sees_snoc, List.map_append, List.reverse_append]
    simp only [List.map_cons, List.map_nil, List.reverse_cons, List.reverse_nil, List.nil_append, List.cons_append]
    have hal := alone_last hg
    rw [i1] at hal
    cases hm : mark (raw T r) with
    | true =>
      simp only [repeated, oddFlagsMarks, hm, if_true]
      have e : cls T (sees T [] rs).reverse r = (if alone (repeated (rs.map (raw T)).reverse) then .AL else last (sees T [] rs).reverse, true) := by
        rw [cls_mark T hg hm, hal]
        simp only [decide_eq_true_eq]
      rw [e]
      constructor
      · simp only [cl, List.map_cons]
        rw [show List.map Prod.fst (sees T [] rs).reverse = repeated (rs.map (raw T)).reverse from i1]
        congr 1
        by_cases h1 : alone (repeated (rs.map (raw T)).reverse) = true
        · rw [if_pos h1, if_pos h1]
        · rw [if_neg h1, if_neg h1, good_last hg, i1]
          cases hx : repeated (rs.map (raw T)).reverse with
          | nil => rw [hx] at h1; exact absurd rfl h1
          | cons c l => rfl
      · simp only [odd, Bool.true_or, Bool.and_true]
        by_cases h1 : alone (repeated (rs.map (raw T)).reverse) = true
        · rw [if_pos h1]
          cases hx : repeated (rs.map (raw T)).reverse with
          | nil => rfl
          | cons c l =>
            rw [hx] at h1
            have hc : c ≠ .RI := by rintro rfl; cases h1
            simp [hc]
        · rw [if_neg h1, good_last hg, i1]
          cases hx : repeated (rs.map (raw T)).reverse with
          | nil => rw [hx] at h1; exact absurd rfl h1
          | cons c l =>
            simp only [List.headD_cons, List.head?_cons, Option.some.injEq]
            rfl
    | false =>
      simp only [repeated, oddFlagsMarks, hm, Bool.false_eq_true, if_false]
      rw [cls_not T _ hm]
      constructor
      · simp only [cl, List.map_cons]
        rw [show List.map Prod.fst (sees T [] rs).reverse = repeated (rs.map (raw T)).reverse from i1]
      · simp only [odd, Bool.false_or, i2]
        by_cases h1 : raw T r = .RI
        · rw [h1]; rfl
        · rw [if_neg h1]
          simp [h1]

theorem lb25_next {h : List LClass} {d : LClass} {n n' : Option LClass} (hn : d ∈ [LClass.OP, .HY] → (n = some .NU ↔ n' = some .NU)) : lb25 h d n = lb25 h d n' := by
  have : (decide (d ∈ [LClass.OP, .HY]) && n == some .NU) = (decide (d ∈ [LClass.OP, .HY]) && n' == some .NU) := by
    by_cases hd : d ∈ [LClass.OP, .HY]
    · rw [decide_eq_true hd, Bool.true_and, Bool.true_and, Bool.eq_iff_iff, beq_iff_eq, beq_iff_eq]
      exact hn hd
    · rw [decide_eq_false hd]; rfl
  unfold lb25
  simp only [this]

theorem allowed_next {o : Bool} {h : List LClass} {d : LClass} {n n' : Option LClass} (hn : d ∈ [LClass.OP, .HY] → (n = some .NU ↔ n' = some .NU)) :
    allowed o h d n = allowed o h d n' := by
  rw [allowed_eq, allowed_eq, lb25_next hn]

/-- The boundary after rune `i` of a text. -/
def cutS (std : Bool) (cl : Int → LClass) (text : List Int) (i : Nat) : Bool :=
  lBoundary std ((text.take (i + 1)).map cl).reverse ((text.drop (i + 1)).map cl)

theorem lines_eq (std : Bool) (cl : Int → LClass) (text : List Int) : lines std cl text = cutAfter (cutS std cl text) text := rfl

theorem bef_eq (cl : Int → LClass) (text : List Int) (i : Nat) (hi : i < text.length) :
    ((text.take (i + 1)).map cl).reverse = cl text[i] :: ((text.take i).map cl).reverse := by
  rw [List.take_succ_eq_append_getElem hi, List.map_append, List.reverse_append]; rfl

theorem cut_text (T : LTables) (text : List Int) (ht : ∀ x ∈ text, x ≠ 0) (i : Nat) (hi : i < text.length) :
    cutL T text i = cutS false (raw T) text i := by
  have htake : ∀ x ∈ text.take (i + 1), x ≠ 0 := fun x hx => ht x (List.mem_of_mem_take hx)
  have hH : H (sees T [] text) (i + 1) = (sees T [] (text.take (i + 1))).reverse := by unfold H; rw [sees_take]
  obtain ⟨e1, e2⟩ := sees_repeated T (text.take (i + 1)) htake
  have hg := sees_good T (text.take (i + 1)) htake
  rw [← hH] at e1 e2 hg
  have hlt : i + 1 < (text ++ [0]).length := by rw [List.length_append, List.length_singleton]; omega
  unfold cutL cutS
  rw [sees_get T _ _ hlt, H_text T text _ (by omega), Option.getD_some]
  by_cases hj : i + 1 < text.length
  · rw [List.getElem_append_left hj, List.drop_eq_getElem_cons hj, List.map_cons]
    have hy : text[i + 1] ≠ 0 := ht _ (List.getElem_mem _)
    rw [bef_eq (raw T) text i hi] at e1 e2 ⊢
    unfold lBoundary
    simp only [Bool.false_eq_true, if_false]
    rw [← e1, ← e2, alone_last hg]
    have hH2 : H (sees T [] (text ++ [0])) (i + 2) = cls T (H (sees T [] text) (i + 1)) text[i + 1] :: H (sees T [] text) (i + 1) := by
      have := sees_get T (text ++ [0]) (i + 1) hlt
      rw [H_text T text _ (by omega), List.getElem_append_left hj] at this
      rw [H_succ _ _ _ this, H_text T text _ (by omega)]
    generalize H (sees T [] text) (i + 1) = h at *
    have hreal := (good_cls T hg _ hy).1
    unfold lb
    rw [if_neg (real_not hreal).1]
    -- what follows
    have hnext : (cls T h text[i + 1]).1 ∈ [LClass.OP, .HY] →
        (((cl ((sees T [] (text ++ [0])).drop (i + 2))).head? = some .NU) ↔ ((text.drop (i + 2)).map (raw T)).head? = some .NU) := by
      intro hop
      by_cases hk : i + 2 < text.length
      · have hlt2 : i + 2 < (text ++ [0]).length := by rw [List.length_append, List.length_singleton]; omega
        have hs := sees_get T (text ++ [0]) (i + 2) hlt2
        have hl2 : i + 2 < (sees T [] (text ++ [0])).length := by rw [sees_length]; exact hlt2
        rw [cl, List.head?_map, List.head?_drop, hs, List.head?_map, List.head?_drop, List.getElem?_eq_getElem hk, List.getElem_append_left hk]
        simp only [Option.map_some, Option.some.injEq]
        have hl : last (H (sees T [] (text ++ [0])) (i + 2)) = (cls T h text[i + 1]).1 := by
          rw [hH2, last_cons, if_neg (real_not hreal).1]
        cases hm : mark (raw T text[i + 2]) with
        | true =>
          unfold cls
          rw [sub_mark hm, hl]
          constructor
          · intro hx
            exfalso
            split at hx
            · cases hx
            · rw [hx] at hop; revert hop; decide
          · intro hx; rw [hx] at hm; cases hm
        | false =>
          unfold cls
          rw [sub_not hm]
      · have he : i + 2 = text.length := by omega
        have hlt2 : i + 2 < (text ++ [0]).length := by rw [List.length_append, List.length_singleton]; omega
        have hs := sees_get T (text ++ [0]) (i + 2) hlt2
        have : (text ++ [0])[i + 2] = 0 := by rw [List.getElem_append_right (by omega)]; simp
        rw [this, cls_zero] at hs
        rw [cl, List.head?_map, List.head?_drop, hs, List.drop_of_length_le (by omega)]
        simp
    cases hm : mark (raw T text[i + 1]) with
    | true =>
      have hc := cls_mark T hg hm
      by_cases ha : last h ∈ [LClass.sot, .BK, .CR, .LF, .NL, .SP, .ZW]
      · rw [if_pos ha] at hc
        rw [hc] at hnext ⊢
        have hne : ¬ last h = .AL := by intro e; rw [e] at ha; revert ha; decide
        simp only [hne, and_false, if_false, decide_eq_true ha, if_true, Bool.true_eq_false]
        exact allowed_next hnext
      · rw [if_neg ha] at hc
        rw [hc]
        simp only [and_self, if_true, decide_eq_false ha]
    | false =>
      have hc := cls_not T h hm
      rw [hc] at hnext ⊢
      simp only [Bool.false_eq_true, false_and, if_false]
      exact allowed_next hnext
  · have he : i + 1 = text.length := by omega
    have : (text ++ [0])[i + 1] = 0 := by rw [List.getElem_append_right (by omega)]; simp
    rw [this, cls_zero, bef_eq (raw T) text i hi, List.drop_of_length_le (show text.length ≤ i + 1 by omega)]
    rfl

/-! ### Texts for which the code does what UAX#14 wants -/

/-- The two classes may follow each other in a plain text. -/
def plainPair (x y : LClass) : Bool :=
  (x != .ZWJ || mark y || decide (y ∈ [LClass.BK, .CR, .LF, .NL, .SP, .ZW])) && (!mark y || decide (x ∉ [LClass.OP, .HY, .BA, .CL, .CP, .RI]))

/-- Two views of the same text. -/
structure Same (bef c r : List LClass) (o : Bool) : Prop where
  head : c.head? = r.head?
  spaces : beforeSpaces c = beforeSpaces r
  num : number c = number r
  hyphen : c.headD .sot ∈ [LClass.HY, .BA] → c.tail.head? = r.tail.head?
  close : c.headD .sot ∈ [LClass.CL, .CP] → number c.tail = number r.tail
  flags : oddFlags c = o
  base : (bef.head?.map mark).getD false = true → c.headD .sot ∉ [LClass.OP, .HY, .BA, .CL, .CP, .RI]
  plain : (bef.head?.map mark).getD false = false → c.head? = bef.head?

theorem number_cons' (c : LClass) (h : List LClass) : SpecLine.number (c :: h) = if c = .SY ∨ c = .IS then SpecLine.number h else decide (c = .NU) := by
  unfold SpecLine.number
  by_cases hc : c = .SY ∨ c = .IS
  · rw [if_pos hc, List.dropWhile_cons_of_pos (by simpa using hc)]
  · rw [if_neg hc, List.dropWhile_cons_of_neg (by simpa using hc)]
    simp

theorem spaces_cons (c : LClass) (h : List LClass) : beforeSpaces (c :: h) = if c = .SP then beforeSpaces h else c := by
  unfold beforeSpaces
  by_cases hc : c = .SP
  · rw [if_pos hc, List.dropWhile_cons_of_pos (by simpa using hc)]
  · rw [if_neg hc, List.dropWhile_cons_of_neg (by simpa using hc)]
    rfl

theorem flags_cons (c : LClass) (h : List LClass) : oddFlags (c :: h) = if c = .RI then !oddFlags h else false := by
  unfold oddFlags
  by_cases hc : c = .RI
  · rw [if_pos hc, List.takeWhile_cons_of_pos (by simpa using hc), List.length_cons]
    generalize (List.takeWhile (fun x => x == LClass.RI) h).length = m
    by_cases h : m % 2 = 1
    · simp [h, show ¬ (m + 1) % 2 = 1 by omega]
    · simp [h, show (m + 1) % 2 = 1 by omega]
  · rw [if_neg hc, List.takeWhile_cons_of_neg (by simpa using hc)]
    rfl

theorem same_of (bef : List LClass) (hp : bef.IsChain fun y x => plainPair x y = true) :
    Same bef (collapse bef) (repeated bef) (oddFlagsMarks bef) := by
  induction bef with
  | nil => exact ⟨rfl, rfl, rfl, fun _ => rfl, fun _ => rfl, rfl, (fun h => nomatch h), fun _ => rfl⟩
  | cons c bef ih =>
    have ih := ih hp.tail
    cases hm : mark c with
    | false =>
      simp only [collapse, repeated, oddFlagsMarks, hm, Bool.false_eq_true, if_false]
      refine ⟨rfl, ?_, ?_, fun _ => ih.head, fun _ => ih.num, ?_, ?_, fun _ => rfl⟩
      · rw [spaces_cons, spaces_cons, ih.spaces]
      · rw [number_cons', number_cons', ih.num]
      · rw [flags_cons, ih.flags]
      · intro h; rw [List.head?_cons, Option.map_some, Option.getD_some, hm] at h; cases h
    | true =>
      have hal : alone (collapse bef) = alone (repeated bef) := by
        have := ih.head
        cases h1 : collapse bef <;> cases h2 : repeated bef <;> rw [h1, h2] at this <;> simp_all [alone]
      simp only [collapse, repeated, oddFlagsMarks, hm, if_true]
      rw [← hal, ← ih.head]
      by_cases ha : alone (collapse bef) = true
      · rw [if_pos ha, if_pos ha]
        refine ⟨rfl, ?_, ?_, ?_, ?_, ?_, ?_, ?_⟩
        · rw [spaces_cons, spaces_cons, ih.spaces]
        · rw [number_cons', number_cons', ih.num]
        · intro h; simp at h
        · intro h; simp at h
        · rw [flags_cons]
          cases h1 : collapse bef with
          | nil => rfl
          | cons x l =>
            rw [h1] at ha
            have : x ≠ .RI := by rintro rfl; cases ha
            simp [this]
        · intro _; simp
        · intro h; rw [List.head?_cons, Option.map_some, Option.getD_some, hm] at h; cases h
      · rw [if_neg ha, if_neg ha]
        -- the base
        cases h1 : collapse bef with
        | nil => rw [h1] at ha; exact absurd rfl ha
        | cons x l =>
          have hx : x ∉ [LClass.OP, .HY, .BA, .CL, .CP, .RI] := by
            cases hb : (bef.head?.map mark).getD false with
            | true => have := ih.base hb; rw [h1] at this; exact this
            | false =>
              have := ih.plain hb
              rw [h1, List.head?_cons] at this
              cases bef with
              | nil => cases h1
              | cons z bef =>
                rw [List.head?_cons, Option.some.injEq] at this
                subst this
                have := (List.isChain_cons_cons.mp hp).1
                unfold plainPair at this
                rw [hm, Bool.and_eq_true] at this
                simpa using this.2
          have h2 : (repeated bef).head? = some x := by rw [← ih.head, h1]; rfl
          cases hr : repeated bef with
          | nil => rw [hr] at h2; cases h2
          | cons x' l' =>
            rw [hr, List.head?_cons, Option.some.injEq] at h2
            subst h2
            have hsp := ih.spaces
            have hnu := ih.num
            have hfl := ih.flags
            rw [h1] at hsp hnu hfl
            rw [hr] at hsp hnu
            refine ⟨rfl, ?_, ?_, ?_, ?_, ?_, ?_, ?_⟩
            · show beforeSpaces (x' :: l) = beforeSpaces (x' :: x' :: l')
              have hs : x' ≠ .SP := by rintro rfl; rw [h1] at ha; exact ha rfl
              rw [spaces_cons, spaces_cons, if_neg hs, if_neg hs]
            · show SpecLine.number (x' :: l) = SpecLine.number (x' :: x' :: l')
              rw [number_cons' x' (x' :: l'), ← hnu, number_cons']
              split <;> rfl
            · intro h; exfalso; simp only [List.headD_cons, List.mem_cons] at h hx; simp_all
            · intro h; exfalso; simp only [List.headD_cons, List.mem_cons] at h hx; simp_all
            · rw [flags_cons]
              have : x' ≠ .RI := by rintro rfl; exact hx (by decide)
              simp [this]
            · intro _; exact hx
            · intro h; rw [List.head?_cons, Option.map_some, Option.getD_some, hm] at h; cases h

theorem lb25_same {bef c r : List LClass} {o : Bool} (h : Same bef c r o) (d : LClass) (n : Option LClass) : lb25 c d n = lb25 r d n := by
  have hh : c.headD .sot = r.headD .sot := by
    have := h.head
    cases c <;> cases r <;> simp_all
  have h1 : (decide (c.headD .sot ∈ [LClass.CL, .CP]) && SpecLine.number c.tail) = (decide (c.headD .sot ∈ [LClass.CL, .CP]) && SpecLine.number r.tail) := by
    by_cases hc : c.headD .sot ∈ [LClass.CL, .CP]
    · rw [h.close hc]
    · rw [decide_eq_false hc]; rfl
  unfold lb25
  simp only [h1, h.num]
  rw [hh]

theorem allowedQ_hyphen (hl hl' q o : Bool) (a b d : LClass) (h : a ∈ [LClass.HY, .BA] → hl = hl') : allowedQ hl q o a b d = allowedQ hl' q o a b d := by
  by_cases ha : a ∈ [LClass.HY, .BA]
  · rw [h ha]
  · have : ∀ x : Bool, (a ∈ [LClass.HY, .BA] ∧ x = true) ↔ False := fun x => ⟨fun h => ha h.1, False.elim⟩
    unfold allowedQ
    simp only [this]

theorem boundary_same (a d : LClass) (bef aft : List LClass) (hp : (a :: bef).IsChain fun y x => plainPair x y = true)
    (had : plainPair a d = true) (hd : ∀ y, aft.head? = some y → plainPair d y = true) :
    lBoundary true (a :: bef) (d :: aft) = lBoundary false (a :: bef) (d :: aft) := by
  have hs := same_of _ hp
  have hal : alone (collapse (a :: bef)) = alone (repeated (a :: bef)) := by
    have := hs.head
    cases h1 : collapse (a :: bef) <;> cases h2 : repeated (a :: bef) <;> rw [h1, h2] at this <;> simp_all [alone]
  have hh : (collapse (a :: bef)).headD .sot = (repeated (a :: bef)).headD .sot := by
    have := hs.head
    cases h1 : collapse (a :: bef) <;> cases h2 : repeated (a :: bef) <;> rw [h1, h2] at this <;> simp_all
  unfold lBoundary
  simp only [if_true, Bool.false_eq_true, if_false]
  rw [hal]
  by_cases hm : mark d = true ∧ alone (repeated (a :: bef)) = false
  · rw [if_pos hm, if_pos hm]
  · rw [if_neg hm, if_neg hm]
    have hz : ¬ (a = .ZWJ ∧ d ∉ [LClass.BK, .CR, .LF, .NL, .SP, .ZW]) := by
      rintro ⟨rfl, hd⟩
      unfold plainPair at had
      rw [decide_eq_false hd, Bool.or_false, Bool.and_eq_true] at had
      have hmd : mark d = true := by simpa using had.1
      apply hm
      refine ⟨hmd, ?_⟩
      rw [← hal]
      unfold collapse
      rw [if_pos (by rfl)]
      by_cases h1 : alone (collapse bef) = true
      · rw [if_pos h1]; rfl
      · rw [if_neg h1]; simpa using h1
    rw [if_neg hz, allowed_eq, allowed_eq, hs.flags, hs.spaces, hh, ← lb25_same hs]
    have hn : ∀ x, (if mark d = true then LClass.AL else d) = x → x ∈ [LClass.OP, .HY] → ((aft.dropWhile mark).head? = some .NU ↔ aft.head? = some .NU) := by
      intro x hx hop
      have hd' : d = x ∧ mark d = false := by
        cases hmd : mark d with
        | true => rw [hmd, if_pos rfl] at hx; subst hx; exact absurd hop (by decide)
        | false => rw [hmd] at hx; exact ⟨hx, rfl⟩
      obtain ⟨rfl, _⟩ := hd'
      cases aft with
      | nil => exact Iff.rfl
      | cons y aft =>
        have := hd y rfl
        unfold plainPair at this
        rw [Bool.and_eq_true] at this
        have hy : mark y = false := by
          have h2 := this.2
          cases hmy : mark y with
          | false => rfl
          | true =>
            exfalso
            rw [hmy] at h2
            simp only [Bool.not_true, Bool.false_or, decide_eq_true_eq] at h2
            apply h2
            rcases List.mem_cons.mp hop with rfl | h
            · decide
            · rw [List.mem_singleton.mp h]; decide
        rw [List.dropWhile_cons_of_neg (by rw [hy]; decide)]
    rw [lb25_next (hn _ rfl)]
    apply allowedQ_hyphen
    intro h
    rw [← hh] at h
    rw [hs.hyphen h]

end Line
end Uax
