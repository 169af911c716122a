import Verif.BidiReorder
import Verif.SpecBlocks

/-
Lemmas about reversing and reordering.
-/
namespace Uax.Bidi

theorem exchange_ends (a m c : List Scrap) (x y : Scrap) :
    exchange (a ++ x :: (m ++ y :: c)) a.length (a.length + m.length + 1) = a ++ y :: (m ++ x :: c) := by
  have h1 : (a ++ x :: (m ++ y :: c))[a.length]? = some x := by simp
  have h2 : (a ++ x :: (m ++ y :: c))[a.length + m.length + 1]? = some y := by
    rw [List.getElem?_append_right (by omega)]
    rw [show a.length + m.length + 1 - a.length = m.length + 1 by omega]
    simp
  simp only [exchange, h1, h2]
  rw [List.set_append_right (i := a.length) (h := Nat.le_refl _), Nat.sub_self, List.set_cons_zero]
  rw [List.set_append_right _ _ (by omega)]
  rw [show a.length + m.length + 1 - a.length = m.length + 1 by omega, List.set_cons_succ]
  rw [List.set_append_right _ _ (Nat.le_refl _), Nat.sub_self, List.set_cons_zero]

theorem reverseLoop_block : ∀ (n : Nat) (a b c : List Scrap), b.length = n →
    reverseLoop (a ++ b ++ c) a.length (a.length + b.length - 1) = a ++ b.reverse ++ c := by
  intro n
  induction n using Nat.strongRecOn with
  | ind n ih =>
    intro a b c hb
    match b, hb with
    | [], hb =>
      rw [reverseLoop, if_neg (by simp)]; simp
    | [x], hb =>
      rw [reverseLoop, if_neg (by simp)]; simp
    | x :: y :: t, hb =>
      obtain ⟨m, z, hz⟩ : ∃ m z, y :: t = m ++ [z] :=
        ⟨(y :: t).dropLast, (y :: t).getLast (by simp), (List.dropLast_concat_getLast (by simp)).symm⟩
      rw [hz] at hb ⊢
      have hl : (x :: (m ++ [z])).length = m.length + 2 := by simp
      rw [hl] at hb ⊢
      rw [reverseLoop, if_pos (by omega)]
      have e1 : a ++ (x :: (m ++ [z])) ++ c = a ++ x :: (m ++ z :: c) := by simp
      rw [e1, show a.length + (m.length + 2) - 1 = a.length + m.length + 1 by omega, exchange_ends]
      have := ih m.length (by omega) (a ++ [z]) m (x :: c) rfl
      rw [List.length_append, List.length_singleton] at this
      rw [show a.length + m.length + 1 - 1 = a.length + 1 + m.length - 1 by omega]
      have e2 : a ++ z :: (m ++ x :: c) = a ++ [z] ++ m ++ x :: c := by simp
      rw [e2, this]
      simp

/-- reverse on a list in three parts. -/
theorem reverse_block (a b c : List Scrap) :
    reverse (a ++ b ++ c) a.length (a.length + b.length) = a ++ b.reverse ++ c := by
  unfold reverse
  rw [if_neg (by omega)]
  simp only
  by_cases hb : b = []
  · subst hb
    rw [reverseLoop, if_neg (by simp; omega)]; simp
  · have : 0 < b.length := List.length_pos_iff.mpr hb
    rw [show min (a.length + b.length - 1) ((a ++ b ++ c).length - 1) = a.length + b.length - 1 by
      simp only [List.length_append]; omega]
    exact reverseLoop_block b.length a b c rfl

theorem three_parts {α : Type} (l : List α) {a z : Nat} (h : a ≤ z) :
    l.take a ++ (l.take z).drop a ++ l.drop z = l := by
  conv => rhs; rw [← List.take_append_drop z l, ← List.take_append_drop a (l.take z)]
  rw [List.take_take, Nat.min_eq_left h]

theorem reverse_le (scraps : List Scrap) {i j : Nat} (h : i ≤ j) :
    reverse scraps i j = scraps.take i ++ ((scraps.take j).drop i).reverse ++ scraps.drop j := by
  by_cases hi : i ≤ scraps.length
  · have e := three_parts scraps h
    by_cases hj : j ≤ scraps.length
    · have := reverse_block (scraps.take i) ((scraps.take j).drop i) (scraps.drop j)
      rw [e] at this
      rw [← this]
      congr 1
      · simp [hi]
      · simp [hi, hj]; omega
    · have := reverse_block (scraps.take i) ((scraps.take j).drop i) (scraps.drop j)
      rw [e] at this
      rw [← this]
      have hl : (scraps.take i).length = i := by simp [hi]
      have hm : ((scraps.take j).drop i).length = scraps.length - i := by simp; omega
      rw [hl, hm]
      unfold reverse
      rw [if_neg (by omega), if_neg (by omega)]
      simp only
      rw [show min (j - 1) (scraps.length - 1) = min (i + (scraps.length - i) - 1) (scraps.length - 1) by omega]
  · have h1 : scraps.take i = scraps := List.take_of_length_le (by omega)
    have h2 : scraps.take j = scraps := List.take_of_length_le (by omega)
    have h3 : scraps.drop i = [] := List.drop_of_length_le (by omega)
    have h4 : scraps.drop j = [] := List.drop_of_length_le (by omega)
    rw [h1, h2, h3, h4]
    unfold reverse
    rw [if_neg (by omega)]
    simp only
    rw [reverseLoop, if_neg (by omega)]
    simp

/-- reverse in general. -/
theorem reverse_eq (scraps : List Scrap) (i j : Nat) :
    reverse scraps i j = scraps.take (min i j) ++ ((scraps.take (max i j)).drop (min i j)).reverse ++ scraps.drop (max i j) := by
  rcases Nat.le_total i j with h | h
  · rw [Nat.min_eq_left h, Nat.max_eq_right h, reverse_le scraps h]
  · rw [Nat.min_eq_right h, Nat.max_eq_left h, ← reverse_le scraps h]
    rcases Nat.lt_or_eq_of_le h with h | h
    · unfold reverse
      rw [if_pos h, if_neg (by omega)]
    · rw [h]

theorem reverse_perm (scraps : List Scrap) (i j : Nat) : (reverse scraps i j).Perm scraps := by
  rw [reverse_eq]
  have e := three_parts scraps (show min i j ≤ max i j by omega)
  refine List.Perm.trans ?_ (List.Perm.of_eq e)
  exact (List.Perm.append_left _ (List.reverse_perm _)).append_right _

theorem reverse_twice (scraps : List Scrap) (i j : Nat) : reverse (reverse scraps i j) i j = scraps := by
  have hlen : (reverse scraps i j).length = scraps.length := (reverse_perm scraps i j).length_eq
  have hmm : min i j ≤ max i j := by omega
  have e := three_parts scraps (show min i j ≤ max i j by omega)
  rw [reverse_eq (reverse scraps i j)]
  conv => rhs; rw [← e]
  rw [reverse_eq]
  generalize min i j = a at *
  generalize max i j = z at *
  by_cases ha : a ≤ scraps.length
  · have la : (scraps.take a).length = a := by simp [ha]
    have lm : (scraps.take a ++ ((scraps.take z).drop a).reverse).length = min z scraps.length := by
      simp only [List.length_append, la, List.length_reverse, List.length_drop, List.length_take]; omega
    have t1 : (scraps.take a ++ ((scraps.take z).drop a).reverse ++ scraps.drop z).take a = scraps.take a := by
      rw [List.append_assoc, List.take_append_of_le_length (by omega), List.take_of_length_le (by omega)]
    have t2 : (scraps.take a ++ ((scraps.take z).drop a).reverse ++ scraps.drop z).take z
        = scraps.take a ++ ((scraps.take z).drop a).reverse := by
      by_cases hz : z ≤ scraps.length
      · rw [List.take_append_of_le_length (by omega), List.take_of_length_le (by omega)]
      · rw [List.drop_of_length_le (show scraps.length ≤ z by omega), List.append_nil, List.take_of_length_le (by omega)]
    have t3 : (scraps.take a ++ ((scraps.take z).drop a).reverse ++ scraps.drop z).drop z = scraps.drop z := by
      by_cases hz : z ≤ scraps.length
      · rw [List.drop_append_of_le_length (by omega), List.drop_of_length_le (by omega), List.nil_append]
      · rw [List.drop_of_length_le (show scraps.length ≤ z by omega), List.append_nil, List.drop_of_length_le (by omega)]
    rw [t1, t2, t3]
    congr 2
    rw [List.drop_append_of_le_length (by omega), List.drop_of_length_le (by omega), List.nil_append, List.reverse_reverse]
  · have h1 : scraps.take a = scraps := List.take_of_length_le (by omega)
    have h2 : scraps.take z = scraps := List.take_of_length_le (by omega)
    have h3 : scraps.drop a = [] := List.drop_of_length_le (by omega)
    have h4 : scraps.drop z = [] := List.drop_of_length_le (by omega)
    simp [h1, h2, h3, h4]

/-! ### The loop of reorder -/

theorem flipBlocks_perm {α : Type} (p : α → Bool) : ∀ (l acc : List α), (flipBlocks p acc l).Perm (acc ++ l) := by
  intro l
  induction l with
  | nil => intro acc; simp [flipBlocks]
  | cons s rest ih =>
    intro acc
    unfold flipBlocks
    split
    · exact (ih (s :: acc)).trans (List.perm_middle.symm)
    · exact List.Perm.append_left _ (List.Perm.cons _ (ih []))

theorem reorderLoop_eq (d : Dir) : ∀ (rest : List Scrap) (done blk : List Scrap) (st : Nat) (coll : Bool),
    (∀ s ∈ rest, s.clz ≠ cNULL) →
    (coll = true → st = done.length ∧ blk ≠ []) → (coll = false → blk = []) → rest ≠ [] →
    reorderLoop d rest.length (done.length + blk.length) st coll (done ++ blk ++ rest)
      = done ++ flipBlocks (fun s => decide (0 < level s d)) blk.reverse rest := by
  intro rest
  induction rest with
  | nil => intro _ _ _ _ _ _ _ h; exact absurd rfl h
  | cons s rest ih =>
    intro done blk st coll hn hc1 hc2 _
    have hs : s.clz ≠ cNULL := hn s (by simp)
    have hn' : ∀ s ∈ rest, s.clz ≠ cNULL := fun t ht => hn t (by simp [ht])
    have hget : (done ++ blk ++ s :: rest)[done.length + blk.length]? = some s := by
      rw [← List.length_append]; simp
    rw [List.length_cons, reorderLoop, hget]
    simp only
    unfold flipBlocks
    by_cases hl : 0 < level s d
    · rw [if_pos (show decide (0 < level s d) = true by simpa using hl)]
      have e2 : done ++ blk ++ s :: rest = done ++ (blk ++ [s]) ++ rest := by simp
      by_cases hr : rest = []
      · subst hr
        cases coll with
        | false =>
          have := hc2 rfl; subst this
          simp [hl, flipBlocks]
        | true =>
          obtain ⟨h1, h2⟩ := hc1 rfl
          subst h1
          simp only [Bool.true_eq_false, if_false, List.length_nil]
          rw [if_neg (show ¬ level s d = 0 by omega)]
          simp only [if_true, true_or]
          rw [e2, show done.length + blk.length + 1 = done.length + (blk ++ [s]).length by simp; omega, reverse_block]
          simp [flipBlocks]
      · have hrl : ¬ rest.length = 0 := by simpa using hr
        cases coll with
        | false =>
          have := hc2 rfl; subst this
          simp only [if_true, gt_iff_lt, if_pos hl]
          rw [if_neg (by simp [hrl, hs])]
          have := ih done [s] (done.length + 0) true hn' (by simp) (by simp) hr
          simpa using this
        | true =>
          obtain ⟨h1, h2⟩ := hc1 rfl
          subst h1
          simp only [Bool.true_eq_false, if_false]
          rw [if_neg (show ¬ level s d = 0 by omega), if_neg hrl]
          simp only
          rw [if_neg (by simp [hrl, hs])]
          have := ih done (blk ++ [s]) done.length true hn' (by simp) (by simp) hr
          rw [e2, show done.length + blk.length + 1 = done.length + (blk ++ [s]).length by simp; omega, this]
          simp
    · rw [if_neg (show ¬ decide (0 < level s d) = true by simpa using hl)]
      have hl0 : level s d = 0 := by omega
      have e2 : done ++ blk ++ s :: rest = done ++ blk ++ (s :: rest) := rfl
      have e3 : ∀ b : List Scrap, done ++ b ++ s :: rest = (done ++ b ++ [s]) ++ [] ++ rest := by intro b; simp
      by_cases hr : rest = []
      · subst hr
        cases coll with
        | false =>
          have := hc2 rfl; subst this
          simp [hl, flipBlocks]
        | true =>
          obtain ⟨h1, h2⟩ := hc1 rfl
          subst h1
          simp only [Bool.true_eq_false, if_false, hl0, if_true, List.length_nil, true_or]
          rw [reverse_block]
          simp [flipBlocks]
      · have hrl : ¬ rest.length = 0 := by simpa using hr
        cases coll with
        | false =>
          have := hc2 rfl; subst this
          simp only [if_true, gt_iff_lt, if_neg hl]
          rw [if_neg (by simp [hrl, hs])]
          have := ih (done ++ [s]) [] st false hn' (by simp) (by simp) hr
          simpa using this
        | true =>
          obtain ⟨h1, h2⟩ := hc1 rfl
          subst h1
          simp only [Bool.true_eq_false, if_false, hl0, if_true]
          rw [if_neg (by simp [hrl, hs]), reverse_block, e3]
          have := ih (done ++ blk.reverse ++ [s]) [] 0 false hn' (by simp) (by simp) hr
          rw [show done.length + blk.length + 1 = (done ++ blk.reverse ++ [s]).length + ([] : List Scrap).length by simp; omega, this]
          simp

/-- What reorder does with the scraps of one run. -/
theorem reorderFlat_eq (d : Dir) (scraps : List Scrap) (hn : ∀ s ∈ scraps, s.clz ≠ cNULL) :
    reorderFlat d scraps = flipBlocks (fun s => decide (0 < level s d)) [] scraps := by
  by_cases h : scraps = []
  · subst h; rfl
  · have := reorderLoop_eq d scraps [] [] 0 false hn (by simp) (by simp) h
    simpa [reorderFlat] using this

end Uax.Bidi
