import Verif.Regroup

/-! The same for line breaks. -/

namespace Uax
open SpecLine

/-- Characters after which nothing that precedes them matters. -/
def hard : List LClass := [.BK, .CR, .LF, .NL]

theorem allowed_next (f : Bool) (h : List LClass) (d : LClass) (n1 n2 : Option LClass)
    (e : d ∈ [LClass.OP, .HY] → (n1 == some LClass.NU) = (n2 == some LClass.NU)) : allowed f h d n1 = allowed f h d n2 := by
  have e1 : lb25 h d n1 = lb25 h d n2 := by
    unfold lb25
    by_cases hd : d ∈ [LClass.OP, .HY]
    · simp only [e hd]
    · simp only [hd, decide_false, Bool.false_and]
  unfold allowed
  simp only [e1]

theorem no_cut_nu (f : Bool) (m : LClass) (h : List LClass) (n : Option LClass) (hm : m ∈ [LClass.OP, .HY]) : allowed f (m :: h) .NU n = false := by
  rcases List.mem_cons.mp hm with rfl | hm
  · simp [allowed, beforeSpaces]
  · cases List.mem_singleton.mp hm
    simp [allowed, beforeSpaces, lb25]

theorem no_cut_ri (h : List LClass) (n : Option LClass) : allowed true (.RI :: h) .RI n = false := by
  simp [allowed, beforeSpaces, lb25]

theorem no_cut_sp (f : Bool) (r : LClass) (h : List LClass) (n : Option LClass) (hr : r ∉ hard) : allowed f (r :: h) .SP n = false := by
  have h1 : r ∉ [LClass.BK, .LF, .NL] := by revert hr; cases r <;> decide
  have h2 : r ≠ .CR := by rintro rfl; exact hr (by decide)
  have h3 : LClass.SP ∈ [LClass.SP, .ZW] := by decide
  unfold allowed
  simp only [List.headD_cons, if_neg h1, if_neg h2, if_pos h3, ite_self]

theorem no_cut_close (f : Bool) (r d : LClass) (h : List LClass) (n : Option LClass) (hr : r ∉ hard) (hs : r ∉ [LClass.SP, .ZW])
    (hd : d ∈ [LClass.SY, .IS, .CL, .CP]) : allowed f (r :: h) d n = false := by
  have h1 : r ∉ [LClass.BK, .LF, .NL] := by revert hr; cases r <;> decide
  have h2 : r ≠ .CR := by rintro rfl; exact hr (by decide)
  have h3 : beforeSpaces (r :: h) = r := by
    unfold beforeSpaces
    have : (r == LClass.SP) = false := by revert hs; cases r <;> decide
    rw [List.dropWhile_cons, this]; rfl
  have h4 : r ≠ .ZW := by rintro rfl; exact hs (by decide)
  have h5 : d ∈ [LClass.CL, .CP, .EX, .IS, .SY] := by revert hd; cases d <;> decide
  unfold allowed
  simp only [List.headD_cons, if_neg h1, if_neg h2, h3, if_neg h4, if_pos h5, ite_self]

theorem no_cut_hyphen (f : Bool) (d : LClass) (h : List LClass) (n : Option LClass) (hd : d ∈ [LClass.HY, .BA]) : allowed f (.HL :: h) d n = false := by
  rcases List.mem_cons.mp hd with rfl | hd
  · simp [allowed, beforeSpaces]
  · cases List.mem_singleton.mp hd
    simp [allowed, beforeSpaces]

theorem lBefore (a : LClass) (bef : List LClass) (m : LClass) (mid v : List LClass) (h : lBoundary false ((m :: mid).reverse ++ a :: bef) v = true) :
    lBoundary false (a :: bef) (m :: mid ++ v) = lBoundary false (a :: bef) (m :: mid) := by
  simp only [List.cons_append, lBoundary, Bool.false_eq_true, if_false]
  split
  · rfl
  · apply allowed_next
    intro hd
    cases mid with
    | cons b mid => rfl
    | nil =>
      cases v with
      | nil => rfl
      | cons v1 v =>
        have hm : mark m = false := by
          cases hm : mark m with
          | false => rfl
          | true => rw [hm] at hd; exact absurd hd (show LClass.AL ∉ [LClass.OP, .HY] by decide)
        have hd : m ∈ [LClass.OP, .HY] := by rw [hm] at hd; exact hd
        show (some v1 == some LClass.NU) = (none == some LClass.NU)
        cases hv : (some v1 == some LClass.NU) with
        | false => rfl
        | true =>
          cases Option.some.inj (eq_of_beq hv)
          exfalso
          have hmm : mark LClass.NU = false := rfl
          have er : repeated (m :: a :: bef) = m :: repeated (a :: bef) := by rw [repeated, hm]; rfl
          simp only [List.reverse_cons, List.reverse_nil, List.nil_append, List.singleton_append, lBoundary, Bool.false_eq_true, if_false, hmm, false_and, er] at h
          rw [no_cut_nu _ _ _ _ hd] at h
          cases h

theorem repeated_split : ∀ (l r : List LClass), (∀ p, l.getLast? = some p → mark p = true → alone (repeated r) = true) →
    repeated (l ++ r) = repeated l ++ repeated r
  | [], r, _ => rfl
  | [c], r, h => by
    have := h c rfl
    simp only [List.cons_append, List.nil_append, repeated]
    split
    · rename_i hc
      rw [this hc]; rfl
    · rfl
  | c :: c' :: l, r, h => by
    have ih := repeated_split (c' :: l) r (fun p hp => h p (by rw [List.getLast?_cons_cons]; exact hp))
    rw [List.cons_append, repeated.eq_2, ih, repeated.eq_2 c (c' :: l)]
    cases hr : repeated (c' :: l) with
    | nil => exact absurd hr (repeated_ne _ _)
    | cons x y =>
      simp only [List.cons_append, alone, List.headD_cons]
      split <;> rfl

theorem flags_head : ∀ (h : List LClass), oddFlagsMarks h = true → (repeated h).head? = some .RI
  | [], h => by cases h
  | c :: h, hh => by
    rw [oddFlagsMarks] at hh
    rw [repeated]
    split at hh
    · rename_i hc
      rw [if_pos hc]
      have e := of_decide_eq_true hh
      cases hr : repeated h with
      | nil => rw [hr] at e; cases e
      | cons x y => rw [hr] at e; cases e; rfl
    · rename_i hc
      rw [if_neg hc]
      split at hh
      · rename_i e; rw [e]; rfl
      · cases hh

theorem flags_split : ∀ (l r : List LClass), (∀ p, l.getLast? = some p → mark p = true → alone (repeated r) = true) →
    (l.getLast? = some .RI → oddFlagsMarks r = false) → l ≠ [] → oddFlagsMarks (l ++ r) = oddFlagsMarks l
  | [], r, _, _, h => absurd rfl h
  | [c], r, h, h2, _ => by
    have := h c rfl
    simp only [List.cons_append, List.nil_append, oddFlagsMarks]
    split
    · rename_i hc
      have ha := this hc
      cases hr : repeated r with
      | nil => rfl
      | cons x y =>
        rw [hr] at ha
        have : x ≠ .RI := by rintro rfl; cases ha
        simp [this, repeated]
    · split
      · rename_i e; subst e; rw [h2 rfl]
      · rfl
  | c :: c' :: l, r, h, h2, _ => by
    have hl : ∀ p, (c' :: l).getLast? = some p → mark p = true → alone (repeated r) = true :=
      fun p hp => h p (by rw [List.getLast?_cons_cons]; exact hp)
    have ih := flags_split (c' :: l) r hl (fun hp => h2 (by rw [List.getLast?_cons_cons]; exact hp)) (List.cons_ne_nil _ _)
    rw [List.cons_append, oddFlagsMarks.eq_2, oddFlagsMarks.eq_2 c (c' :: l), ih, repeated_split _ _ hl]
    cases hr : repeated (c' :: l) with
    | nil => exact absurd hr (repeated_ne _ _)
    | cons x y => rfl

theorem repeated_last : ∀ (l : List LClass) p, l.getLast? = some p → (repeated l).getLast? = some (if mark p then .AL else p)
  | [], p, h => by cases h
  | [c], p, h => by
    have h : c = p := Option.some.inj h
    subst h
    simp only [repeated, alone, if_true]
    cases mark c <;> rfl
  | c :: c' :: l, p, h => by
    have ih := repeated_last (c' :: l) p (by rw [List.getLast?_cons_cons] at h; exact h)
    rw [repeated.eq_2 c (c' :: l)]
    cases hr : repeated (c' :: l) with
    | nil => exact absurd hr (repeated_ne _ _)
    | cons x y =>
      rw [hr] at ih
      split <;> rw [List.getLast?_cons_cons] <;> exact ih

theorem number_split (H : List LClass) (r : LClass) (R : List LClass) (hq : ∀ q, H.getLast? = some q → q ∈ [LClass.SY, .IS] → r ∈ hard ++ [.SP, .ZW])
    (hn : H = [] → r ∈ hard ++ [.SP, .ZW]) : number (H ++ r :: R) = number H := by
  unfold number
  rcases dropWhile_over (fun c => c == LClass.SY || c == LClass.IS) H (r :: R) with ⟨b, l', h1, h2⟩ | ⟨h1, h2, h3⟩
  · rw [h1, h2]; rfl
  · have hr : r ∈ hard ++ [LClass.SP, .ZW] := by
      cases hl : H.getLast? with
      | none => exact hn (List.getLast?_eq_none_iff.mp hl)
      | some q =>
        apply hq q hl
        have := h1 q (List.mem_of_getLast? hl)
        simp only [Bool.or_eq_true, beq_iff_eq] at this
        rcases this with e | e <;> rw [e] <;> decide
    rw [h2, h3]
    have e : (r == LClass.SY || r == LClass.IS) = false := by revert hr; cases r <;> decide
    rw [List.dropWhile_cons, e]
    have : r ≠ .NU := by rintro rfl; revert hr; decide
    simp [this]

theorem allowed_split (f f' : Bool) (q : LClass) (H : List LClass) (r : LClass) (R : List LClass) (n n' : Option LClass) (d : LClass)
    (hH : H.getLast? = some q) (h : allowed f' (r :: R) q n' = true) : allowed f (H ++ r :: R) d n = allowed f H d n := by
  have k1 : q = .SP → r ∈ hard := by
    rintro rfl
    apply Classical.byContradiction
    intro hr
    rw [no_cut_sp _ _ _ _ hr] at h; cases h
  have k2 : q ∈ [LClass.SY, .IS, .CL, .CP] → r ∈ hard ++ [LClass.SP, .ZW] := by
    intro hq
    apply Classical.byContradiction
    intro hr
    rw [List.mem_append, not_or] at hr
    rw [no_cut_close _ _ _ _ _ hr.1 hr.2 hq] at h; cases h
  have k3 : q ∈ [LClass.HY, .BA] → r ≠ .HL := by
    rintro hq rfl
    rw [no_cut_hyphen _ _ _ _ hq] at h; cases h
  cases H with
  | nil => cases hH
  | cons a H =>
    have e0 : number (a :: H ++ r :: R) = number (a :: H) := by
      apply number_split
      · intro q' h1 h2
        rw [hH] at h1
        cases h1
        exact k2 (by revert h2; cases q <;> decide)
      · intro e; cases e
    have e1 : lb25 (a :: H ++ r :: R) d n = lb25 (a :: H) d n := by
      unfold lb25
      rw [e0]
      simp only [List.cons_append, List.headD_cons, List.tail_cons]
      by_cases ha : a ∈ [LClass.CL, .CP]
      · rw [number_split H r R]
        · rfl
        · intro q' h1 h2
          cases H with
          | nil => cases h1
          | cons b H =>
            rw [List.getLast?_cons_cons, h1] at hH
            cases hH
            exact k2 (by revert h2; cases q <;> decide)
        · rintro rfl
          cases hH
          exact k2 (by clear e0 k1 k2 k3 h; revert ha; cases a <;> decide)
      · simp only [ha, decide_false, Bool.false_and]
        rfl
    have e2 : (a ∈ [LClass.HY, .BA] ∧ (a :: H ++ r :: R).tail.head? = some LClass.HL) = (a ∈ [LClass.HY, .BA] ∧ (a :: H).tail.head? = some LClass.HL) := by
      apply propext
      simp only [List.cons_append, List.tail_cons]
      cases H with
      | cons b l => rfl
      | nil =>
        cases hH
        constructor
        · rintro ⟨h1, h2⟩; exact absurd (Option.some.inj h2) (k3 h1)
        · rintro ⟨_, h2⟩; cases h2
    have e3 : beforeSpaces (a :: H ++ r :: R) = beforeSpaces (a :: H) ∨
        (r ∈ hard ∧ beforeSpaces (a :: H ++ r :: R) = r ∧ beforeSpaces (a :: H) = .sot) := by
      unfold beforeSpaces
      rcases dropWhile_over (fun c => c == LClass.SP) (a :: H) (r :: R) with ⟨b, l', h1, h2⟩ | ⟨h1, h2, h3⟩
      · left; rw [h1, h2]; rfl
      · right
        have hr := k1 (eq_of_beq (h1 q (List.mem_of_getLast? hH)))
        refine ⟨hr, ?_, ?_⟩
        · rw [h2]
          have : (r == LClass.SP) = false := by revert hr; cases r <;> decide
          rw [List.dropWhile_cons, this]; rfl
        · rw [h3]; rfl
    have e5 : (a :: H ++ r :: R).headD LClass.sot = a := rfl
    unfold allowed
    simp only [e1, e5, List.headD_cons, e2]
    rcases e3 with e3 | ⟨hx, e3, e4⟩
    · rw [e3]; rfl
    · rw [e3, e4]
      have f1 : ∀ c : LClass, c ∉ hard → (r = c) = False := fun c hc => by
        apply eq_false; intro h; exact hc (h ▸ hx)
      have g : (r ∈ [LClass.CL, .CP]) = False := by apply eq_false; clear e3 e4 k1 k2 k3 h e0 e1 e2 f1; revert hx; cases r <;> decide
      have g' : (LClass.sot ∈ [LClass.CL, .CP]) = False := by apply eq_false; decide
      simp only [f1 .ZW (by decide), f1 .OP (by decide), f1 .QU (by decide), f1 .B2 (by decide), g, g', reduceCtorEq]
      rfl

theorem lTwoSided : TwoSided (lBoundary false) (fun _ => True) where
  last _ _ := rfl
  before a bef m mid v _ h := lBefore a bef m mid v h
  behind a w p pre post _ h := by
    have hlast : (p :: pre).reverse.getLast? = some p := by rw [List.getLast?_reverse]; rfl
    obtain ⟨z, l, hz⟩ : ∃ z l, (p :: pre).reverse = z :: l := by
      cases h : (p :: pre).reverse with
      | nil => simp at h
      | cons z l => exact ⟨z, l, rfl⟩
    rw [hz] at hlast ⊢
    cases post with
    | nil => rfl
    | cons d rest =>
      simp only [List.cons_append, lBoundary, Bool.false_eq_true, if_false] at h
      split at h
      · cases h
      · rename_i hm
        obtain ⟨r, R, hR⟩ : ∃ r R, repeated (a :: w) = r :: R := by
          cases hr : repeated (a :: w) with
          | nil => exact absurd hr (repeated_ne _ _)
          | cons r R => exact ⟨r, R, rfl⟩
        have ha : ∀ q, (z :: l).getLast? = some q → mark q = true → alone (repeated (a :: w)) = true := by
          intro q hq hmq
          rw [hlast] at hq
          cases hq
          cases ha : alone (repeated (a :: w)) with
          | true => rfl
          | false => exact absurd ⟨hmq, ha⟩ hm
        have hf : (z :: l).getLast? = some .RI → oddFlagsMarks (a :: w) = false := by
          intro hq
          rw [hlast] at hq
          cases hq
          cases ho : oddFlagsMarks (a :: w) with
          | false => rfl
          | true =>
            have := flags_head _ ho
            rw [hR] at this
            cases this
            have hmm : mark LClass.RI = false := rfl
            rw [ho, hR, hmm] at h
            rw [if_neg (by decide), no_cut_ri] at h
            cases h
        have e1 := repeated_split (z :: l) (a :: w) ha
        have e2 := flags_split (z :: l) (a :: w) ha hf (List.cons_ne_nil _ _)
        have e3 := repeated_last _ _ hlast
        rw [hR] at h e1
        have e4 : alone (repeated (z :: l) ++ r :: R) = alone (repeated (z :: l)) := by
          cases hr : repeated (z :: l) with
          | nil => exact absurd hr (repeated_ne _ _)
          | cons x y => rfl
        rw [List.cons_append] at e1 e2 ⊢
        simp only [lBoundary, Bool.false_eq_true, if_false]
        rw [e1, e2, e4]
        split
        · rfl
        · exact allowed_split _ _ _ _ _ _ _ _ _ e3 h

end Uax
