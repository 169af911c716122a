import Verif.BidiReorder

/-
Lemmas about splitting resolved levels.
-/
namespace Uax.Bidi

/-- Where a run starts. -/
def startOf (ch : List Scrap) : Nat := (ch.head?.map (·.l)).getD 0

/-- Where a run ends. -/
def endOf (ch : List Scrap) : Nat := (ch.getLast?.map (·.r)).getD 0

mutual

/-- The classes at a position of the text, from the outermost scrap there to the
innermost. -/
def pathAt (pos : Nat) : List Scrap → List Class
  | [] => []
  | ⟨c, l, r, _, ch⟩ :: rest => if l ≤ pos ∧ pos < r then c :: pathIn pos ch else pathAt pos rest

/-- The classes at a position within nested runs. -/
def pathIn (pos : Nat) : List (List Scrap) → List Class
  | [] => []
  | ch :: more => if startOf ch ≤ pos ∧ pos < endOf ch then pathAt pos ch else pathIn pos more

end

/-- The scraps are contiguous from `a` to `z`, and so are nested runs, which are
in the order of the text. -/
inductive Tiled : Nat → Nat → List Scrap → Prop
  | nil (a : Nat) : Tiled a a []
  | cons (a z : Nat) (s : Scrap) (rest : List Scrap) (hl : s.l = a) (hr : s.l ≤ s.r)
      (hne : ∀ ch ∈ s.children, ch ≠ [])
      (hch : ∀ ch ∈ s.children, Tiled (startOf ch) (endOf ch) ch)
      (hord : s.children.Pairwise fun c d => endOf c ≤ startOf d)
      (h : Tiled s.r z rest) : Tiled a z (s :: rest)

/-- Cutting at a position does not separate a scrap from nested runs: if no
nested run contains the position, then they all are on the left of it. -/
inductive CleanCut (at_ : Nat) : List Scrap → Prop
  | mk (scraps : List Scrap)
      (h : ∀ s ∈ scraps, s.l ≤ at_ ∧ at_ < s.r →
        (∃ ch ∈ s.children, startOf ch ≤ at_ ∧ at_ < endOf ch) ∨ ∀ ch ∈ s.children, endOf ch ≤ at_)
      (hc : ∀ s ∈ scraps, s.l ≤ at_ ∧ at_ < s.r → ∀ ch ∈ s.children, startOf ch ≤ at_ ∧ at_ < endOf ch → CleanCut at_ ch) :
      CleanCut at_ scraps

theorem CleanCut.tail {at_ : Nat} {s : Scrap} {rest : List Scrap} (h : CleanCut at_ (s :: rest)) : CleanCut at_ rest := by
  cases h with
  | mk _ h hc => exact ⟨_, fun t ht => h t (by simp [ht]), fun t ht => hc t (by simp [ht])⟩

theorem Tiled.le {a z : Nat} {scraps : List Scrap} (h : Tiled a z scraps) : a ≤ z := by
  induction h with
  | nil a => exact Nat.le_refl a
  | cons a z s rest hl hr _ _ _ _ _ ih => omega

theorem Tiled.start {a z : Nat} {scraps : List Scrap} (h : Tiled a z scraps) (hn : scraps ≠ []) : startOf scraps = a := by
  cases h with
  | nil => exact absurd rfl hn
  | cons _ _ s rest hl => simp [startOf, hl]

theorem Tiled.end_ {a z : Nat} {scraps : List Scrap} (h : Tiled a z scraps) (hn : scraps ≠ []) : endOf scraps = z := by
  induction h with
  | nil => exact absurd rfl hn
  | cons a z s rest _ _ _ _ _ h _ ih =>
    by_cases hr : rest = []
    · subst hr; cases h; simp [endOf]
    · rw [← ih hr]
      simp [endOf, List.getLast?_cons]
      cases hg : rest.getLast? with
      | none => exact absurd (List.getLast?_eq_none_iff.mp hg) hr
      | some x => rfl

/-- Outside of the interval there is nothing. -/
theorem Tiled.outside {a z : Nat} {scraps : List Scrap} (h : Tiled a z scraps) (pos : Nat) (hp : pos < a ∨ z ≤ pos) :
    pathAt pos scraps = [] := by
  induction h with
  | nil => rw [pathAt]
  | cons a z s rest hl hr _ _ _ h _ ih =>
    have := h.le
    cases s with
    | mk c l r x ch =>
      simp only at *
      rw [pathAt, if_neg (by omega), ih (by omega)]

theorem irsContains_eq {ch : List Scrap} (h : ch ≠ []) (pos : Nat) :
    irsContains ch pos = some (decide (startOf ch ≤ pos) && decide (pos < endOf ch)) := by
  cases ch with
  | nil => exact absurd rfl h
  | cons a t =>
    unfold irsContains startOf endOf
    cases hg : (a :: t).getLast? with
    | none => simp at hg
    | some z => rfl

/-- The scraps are contiguous from `a` to `z`. -/
def Contig : Nat → Nat → List Scrap → Prop
  | a, z, [] => a = z
  | a, z, s :: rest => s.l = a ∧ s.l ≤ s.r ∧ Contig s.r z rest

theorem Tiled.contig {a z : Nat} {scraps : List Scrap} (h : Tiled a z scraps) : Contig a z scraps := by
  induction h with
  | nil => rfl
  | cons a z s rest hl hr _ _ _ _ _ ih => exact ⟨hl, hr, ih⟩

theorem Contig.le : ∀ {scraps : List Scrap} {a z : Nat}, Contig a z scraps → a ≤ z
  | [], _, _, h => Nat.le_of_eq h
  | _ :: _, _, _, h => by have := h.2.2.le; have := h.1; have := h.2.1; omega

theorem Contig.start {a z : Nat} {scraps : List Scrap} (h : Contig a z scraps) (hn : scraps ≠ []) : startOf scraps = a := by
  cases scraps with
  | nil => exact absurd rfl hn
  | cons s rest => simp [startOf, h.1]

theorem Contig.end_ : ∀ {scraps : List Scrap} {a z : Nat}, Contig a z scraps → scraps ≠ [] → endOf scraps = z
  | [], _, _, _, hn => absurd rfl hn
  | [s], _, _, h, _ => by simp [endOf]; exact h.2.2
  | s :: t :: rest, _, _, h, _ => by
    rw [← Contig.end_ h.2.2 (by simp)]
    simp [endOf, List.getLast?_cons]

theorem Contig.outside : ∀ {scraps : List Scrap} {a z : Nat}, Contig a z scraps → ∀ pos, pos < a ∨ z ≤ pos → pathAt pos scraps = []
  | [], _, _, _, pos, _ => by rw [pathAt]
  | ⟨c, l, r, x, ch⟩ :: rest, _, _, h, pos, hp => by
    have h1 := h.1
    have h2 := h.2.1
    have h3 := h.2.2.le
    simp only at h1 h2 h3
    rw [pathAt, if_neg (by omega), Contig.outside h.2.2 pos (by simp only; omega)]

theorem pathIn_before (pos : Nat) : ∀ (chs : List (List Scrap)), (∀ ch ∈ chs, pos < startOf ch) → pathIn pos chs = []
  | [], _ => by rw [pathIn]
  | ch :: more, h => by
    have := h ch (by simp)
    rw [pathIn, if_neg (by omega), pathIn_before pos more (fun c hc => h c (by simp [hc]))]

theorem endOf_cons (f : Scrap) {l : List Scrap} (h : l ≠ []) : endOf (f :: l) = endOf l := by
  cases l with
  | nil => exact absurd rfl h
  | cons s rest => simp [endOf, List.getLast?_cons]

mutual

theorem splitLoop_ok (at_ : Nat) : ∀ (scraps : List Scrap) (a z : Nat), Tiled a z scraps → a ≤ at_ → at_ < z →
    CleanCut at_ scraps →
    ∃ pre s rest post, splitLoop at_ scraps = some (pre, s, rest, post) ∧ Contig a at_ (pre ++ [s]) ∧
      Contig at_ z (rest :: post) ∧ (∀ pos, pos < at_ → pathAt pos (pre ++ [s]) = pathAt pos scraps) ∧
      (∀ pos, at_ ≤ pos → pathAt pos (rest :: post) = pathAt pos scraps)
  | [], a, z, ht, ha, hz, _ => by cases ht; omega
  | ⟨c, l, r, x, ch⟩ :: post, a, z, ht, ha, hz, hcl => by
    cases ht with
    | cons _ _ _ _ hl hr hne hch hord h =>
      simp only at hl hr hne hch hord h
      subst hl
      by_cases hin : l ≤ at_ ∧ at_ < r
      · have hcc : ((∃ d ∈ ch, startOf d ≤ at_ ∧ at_ < endOf d) ∨ ∀ d ∈ ch, endOf d ≤ at_) ∧
            ∀ d ∈ ch, startOf d ≤ at_ ∧ at_ < endOf d → CleanCut at_ d := by
          cases hcl with
          | mk _ h hc => exact ⟨h _ (List.mem_cons_self ..) hin, hc _ (List.mem_cons_self ..) hin⟩
        obtain ⟨left, right, he, h1, h2⟩ := splitChildren_ok at_ ch hne hch hord hcc.1 hcc.2
        refine ⟨[], ⟨c, l, at_, x, left⟩, ⟨c, at_, r, {}, right⟩, post, ?_, ⟨rfl, hin.1, rfl⟩,
          ⟨rfl, Nat.le_of_lt hin.2, h.contig⟩, ?_, ?_⟩
        · rw [splitLoop, if_pos hin, he]
        · intro pos hpos
          rw [List.nil_append, pathAt, pathAt, pathAt]
          by_cases hp : l ≤ pos
          · rw [if_pos ⟨hp, hpos⟩, if_pos ⟨hp, by omega⟩, h1 pos hpos]
          · rw [if_neg (by omega), if_neg (by omega), h.outside pos (by omega)]
        · intro pos hpos
          rw [pathAt, pathAt]
          by_cases hp : pos < r
          · rw [if_pos ⟨hpos, hp⟩, if_pos ⟨by omega, hp⟩, h2 pos hpos]
          · rw [if_neg (by omega), if_neg (by omega)]
      · obtain ⟨pre, s, rest, post', he, k1, k2, k3, k4⟩ := splitLoop_ok at_ post r z h (by omega) hz hcl.tail
        refine ⟨⟨c, l, r, x, ch⟩ :: pre, s, rest, post', ?_, ⟨rfl, hr, k1⟩, k2, ?_, ?_⟩
        · rw [splitLoop, if_neg hin, he]
        · intro pos hpos
          rw [List.cons_append, pathAt, pathAt, k3 pos hpos]
        · intro pos hpos
          rw [k4 pos hpos, pathAt, if_neg (by omega)]

theorem splitChildren_ok (at_ : Nat) : ∀ (chs : List (List Scrap)), (∀ ch ∈ chs, ch ≠ []) →
    (∀ ch ∈ chs, Tiled (startOf ch) (endOf ch) ch) → chs.Pairwise (fun c d => endOf c ≤ startOf d) →
    ((∃ d ∈ chs, startOf d ≤ at_ ∧ at_ < endOf d) ∨ ∀ d ∈ chs, endOf d ≤ at_) →
    (∀ d ∈ chs, startOf d ≤ at_ ∧ at_ < endOf d → CleanCut at_ d) →
    ∃ left right, splitChildren at_ chs = some (left, right) ∧
      (∀ pos, pos < at_ → pathIn pos left = pathIn pos chs) ∧ (∀ pos, at_ ≤ pos → pathIn pos right = pathIn pos chs)
  | [], _, _, _, _, _ => ⟨[], [], by rw [splitChildren], fun _ _ => rfl, fun _ _ => rfl⟩
  | ch :: more, hne, hch, hord, hcut, hcl => by
    have hn : ch ≠ [] := hne ch (by simp)
    have ht := hch ch (by simp)
    obtain ⟨ho1, ho2⟩ := List.pairwise_cons.mp hord
    have hle := ht.le
    by_cases hin : startOf ch ≤ at_ ∧ at_ < endOf ch
    · obtain ⟨pre, s, rest, post, he, k1, k2, k3, k4⟩ :=
        splitLoop_ok at_ ch (startOf ch) (endOf ch) ht hin.1 hin.2 (hcl ch (by simp) hin)
      obtain ⟨f, hf⟩ : ∃ f, ch.head? = some f := by
        cases ch with
        | nil => exact absurd rfl hn
        | cons f l => exact ⟨f, rfl⟩
      refine ⟨[(splitResult f pre s rest post).1], (splitResult f pre s rest post).2 :: more, ?_, ?_, ?_⟩
      · rw [splitChildren, irsContains_eq hn]
        simp only [hin.1, hin.2, decide_true, Bool.and_self, hf, he]
      · intro pos hpos
        have e1 : startOf (splitResult f pre s rest post).1 = startOf ch := k1.start (by simp)
        have e2 : endOf (splitResult f pre s rest post).1 = at_ := k1.end_ (by simp)
        rw [pathIn, pathIn, pathIn, e1, e2]
        by_cases hp : startOf ch ≤ pos
        · rw [if_pos ⟨hp, hpos⟩, if_pos ⟨hp, by omega⟩]
          exact k3 pos hpos
        · rw [if_neg (by omega), if_neg (by omega), pathIn_before]
          intro d hd
          have := ho1 d hd
          omega
      · intro pos hpos
        have e1 : startOf (splitResult f pre s rest post).2 ≤ at_ := by
          unfold splitResult
          by_cases hi : isIsolate f = true
          · rw [if_pos hi]
            have : startOf ch = f.l := by
              cases ch with
              | nil => exact absurd rfl hn
              | cons g l => simp at hf; subst hf; simp [startOf]
            simp [startOf] at *
            omega
          · rw [if_neg hi]
            rw [k2.start (by simp)]
            exact Nat.le_refl _
        have e2 : endOf (splitResult f pre s rest post).2 = endOf ch := by
          unfold splitResult
          by_cases hi : isIsolate f = true
          · rw [if_pos hi]
            rw [endOf_cons _ (by simp)]
            exact k2.end_ (by simp)
          · rw [if_neg hi]
            exact k2.end_ (by simp)
        have e3 : pathAt pos (splitResult f pre s rest post).2 = pathAt pos ch := by
          unfold splitResult
          by_cases hi : isIsolate f = true
          · rw [if_pos hi]
            obtain ⟨fc, fl, fr, fx, fch⟩ := f
            rw [pathAt]
            by_cases hp : fl ≤ pos ∧ pos < fr
            · rw [if_pos hp]
              cases ch with
              | nil => exact absurd rfl hn
              | cons g l => simp at hf; subst hf; rw [pathAt, if_pos hp]
            · rw [if_neg hp]
              exact k4 pos hpos
          · rw [if_neg hi]
            exact k4 pos hpos
        rw [pathIn, pathIn, e2]
        by_cases hp : pos < endOf ch
        · rw [if_pos ⟨by omega, hp⟩, if_pos ⟨by omega, hp⟩, e3]
        · rw [if_neg (by omega), if_neg (by omega)]
    · have hcut' : (∃ d ∈ more, startOf d ≤ at_ ∧ at_ < endOf d) ∨ ∀ d ∈ more, endOf d ≤ at_ := by
        rcases hcut with ⟨d, hd, hd2⟩ | h
        · rcases List.mem_cons.mp hd with rfl | hd
          · exact absurd hd2 hin
          · exact Or.inl ⟨d, hd, hd2⟩
        · exact Or.inr fun d hd => h d (by simp [hd])
      have hend : endOf ch ≤ at_ := by
        rcases hcut with ⟨d, hd, hd2⟩ | h
        · rcases List.mem_cons.mp hd with rfl | hd
          · exact absurd hd2 hin
          · have := ho1 d hd
            omega
        · exact h ch (by simp)
      obtain ⟨left, right, he, h1, h2⟩ := splitChildren_ok at_ more (fun c hc => hne c (by simp [hc]))
        (fun c hc => hch c (by simp [hc])) ho2 hcut' (fun c hc => hcl c (by simp [hc]))
      refine ⟨ch :: left, right, ?_, ?_, ?_⟩
      · rw [splitChildren, irsContains_eq hn]
        have : (decide (startOf ch ≤ at_) && decide (at_ < endOf ch)) = false := by
          simp; omega
        rw [this]
        simp only [he]
      · intro pos hpos
        rw [pathIn, pathIn, h1 pos hpos]
      · intro pos hpos
        rw [h2 pos hpos, pathIn, if_neg (by omega)]

end

theorem split_ok (at_ : Nat) (scraps : List Scrap) (a z : Nat) (ht : Tiled a z scraps) (ha : a ≤ at_) (hz : at_ < z)
    (hc : CleanCut at_ scraps) :
    ∃ f p s, scraps.head? = some f ∧ split scraps at_ = some (p, if isIsolate f then f :: s else s) ∧
      Contig a at_ p ∧ Contig at_ z s ∧ (∀ pos, pos < at_ → pathAt pos p = pathAt pos scraps) ∧
      (∀ pos, at_ ≤ pos → pathAt pos s = pathAt pos scraps) ∧
      (∀ pos, at_ ≤ pos → pathAt pos (f :: s) = pathAt pos scraps) := by
  have hn : scraps ≠ [] := by
    intro h; subst h; cases ht; omega
  obtain ⟨pre, s, rest, post, he, k1, k2, k3, k4⟩ := splitLoop_ok at_ scraps a z ht ha hz hc
  obtain ⟨f, hf⟩ : ∃ f, scraps.head? = some f := by
    cases scraps with
    | nil => exact absurd rfl hn
    | cons f l => exact ⟨f, rfl⟩
  refine ⟨f, pre ++ [s], rest :: post, hf, ?_, k1, k2, k3, k4, ?_⟩
  · unfold split
    rw [irsContains_eq hn, hf, ht.start hn, ht.end_ hn, he]
    simp only [ha, hz, decide_true, Bool.and_self]
    rfl
  · intro pos hpos
    cases scraps with
    | nil => exact absurd rfl hn
    | cons g l =>
      simp at hf
      subst hf
      obtain ⟨gc, gl, gr, gx, gch⟩ := g
      rw [pathAt]
      by_cases hp : gl ≤ pos ∧ pos < gr
      · rw [if_pos hp, pathAt, if_pos hp]
      · rw [if_neg hp]
        exact k4 pos hpos

end Uax.Bidi
