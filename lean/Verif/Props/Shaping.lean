import Verif.TableGen
import Verif.TablesArabic
import Verif.TablesPositional
import Verif.TablesSyllabic

/-! Properties C53 and C54: the tables of package `shaping`, and the generator that made them. -/

namespace Uax
open Shaping TableGen

/-- All tables of package `shaping`. -/
def shapingTables : List (String × RangeTable) := arabic ++ positional ++ syllabic

theorem shaping_wf : ∀ t ∈ shapingTables, t.2.WellFormed := by
  have h : shapingTables.all (fun t => t.2.wellFormedB) = true := by decide +kernel
  intro t ht
  exact RangeTable.wellFormed_of (List.all_eq_true.mp h t ht)

/-! ### C53 -/

/-- Looking up any rune in any of the tables with `unicode.Is` answers whether it is in one of the
ranges of the literal (the tables are sorted, so the binary search does not miss a range). -/
theorem C53_lookup_exact (name : String) (t : RangeTable) (ht : (name, t) ∈ shapingTables) (r : Int) (hr : -0x80000000 ≤ r) :
    t.is r = true ↔ Listed t.ranges r :=
  RangeTable.is_iff (shaping_wf _ ht) r hr

example : ("UISC_Virama", UISC_Virama) ∈ shapingTables ∧ UISC_Virama.is 0x94d = true ∧ UISC_Virama.is 0x94e = false := by
  refine ⟨by decide +kernel, ?_, ?_⟩
  · exact (C53_lookup_exact "UISC_Virama" _ (by decide +kernel) _ (by decide)).mpr (by decide +kernel)
  · rw [Bool.eq_false_iff]
    intro h
    exact absurd ((C53_lookup_exact "UISC_Virama" UISC_Virama (by decide +kernel) 0x94e (by decide)).mp h) (by decide +kernel)

/-- The range of U+0000 comes first, and only there. -/
theorem shaping_nul : ∀ t ∈ shapingTables, t.2.ranges = (0, 0) :: t.2.ranges.tail ∧ Sorted t.2.ranges := by
  have h : shapingTables.all (fun t => decide (t.2.ranges = (0, 0) :: t.2.ranges.tail) && sortedB t.2.ranges) = true := by decide +kernel
  intro t ht
  have := List.all_eq_true.mp h t ht
  simp only [Bool.and_eq_true, decide_eq_true_eq] at this
  exact ⟨this.1, (sortedB_iff _).mp this.2⟩

/-- Two tables of the same list have only U+0000 in common. -/
def apartAll : List (String × RangeTable) → Bool
  | [] => true
  | t :: ts => ts.all (fun u => apart 1000 t.2.ranges.tail u.2.ranges.tail) && apartAll ts

theorem apartAll_pair : ∀ (ts : List (String × RangeTable)), apartAll ts = true → ∀ (i j : Nat) t u, i < j →
    ts[i]? = some t → ts[j]? = some u → apart 1000 t.2.ranges.tail u.2.ranges.tail = true := by
  intro ts
  induction ts with
  | nil => intro _ i j t u _ h; simp at h
  | cons a ts ih =>
    intro h i j t u hij hi hj
    unfold apartAll at h
    rw [Bool.and_eq_true, List.all_eq_true] at h
    cases j with
    | zero => omega
    | succ j =>
      rw [List.getElem?_cons_succ] at hj
      cases i with
      | zero =>
        simp only [List.getElem?_cons_zero, Option.some.injEq] at hi
        subst hi
        exact h.1 u (List.mem_of_getElem? hj)
      | succ i => exact ih h.2 i j t u (by omega) (by simpa using hi) hj

/-- C53, for all runes but U+0000: a rune has at most one joining type, one positional category and
one syllabic category. Missing: U+0000, which is in all the tables (`C53_violated`). -/
theorem C53_one_value_partial (group : List (String × RangeTable)) (hg : group ∈ [arabic, positional, syllabic])
    (i j : Nat) (t u : String × RangeTable) (hi : group[i]? = some t) (hj : group[j]? = some u)
    (r : Int) (hr : -0x80000000 ≤ r) (h0 : r ≠ 0) (ht : t.2.is r = true) (hu : u.2.is r = true) : i = j := by
  have hall : apartAll group = true := by
    have : [arabic, positional, syllabic].all apartAll = true := by decide +kernel
    exact List.all_eq_true.mp this group hg
  have hmem : ∀ v ∈ group, v ∈ shapingTables := by
    intro v hv
    simp only [List.mem_cons, List.not_mem_nil, or_false] at hg
    unfold shapingTables
    rcases hg with rfl | rfl | rfl
    · exact List.mem_append_left _ (List.mem_append_left _ hv)
    · exact List.mem_append_left _ (List.mem_append_right _ hv)
    · exact List.mem_append_right _ hv
  have tail : ∀ v ∈ group, v.2.is r = true → Listed v.2.ranges.tail r := by
    intro v hv h
    have h1 := (C53_lookup_exact v.1 v.2 (hmem v hv) r hr).mp h
    rw [(shaping_nul v (hmem v hv)).1, listed_cons] at h1
    rcases h1 with h1 | h1
    · simp only [Int.natCast_zero] at h1; omega
    · exact h1
  have mt := List.mem_of_getElem? hi
  have mu := List.mem_of_getElem? hj
  have st := (shaping_nul t (hmem t mt)).2.tail
  have su := (shaping_nul u (hmem u mu)).2.tail
  rcases Nat.lt_trichotomy i j with e | e | e
  · exact absurd (tail u mu hu) (apart_disjoint _ _ _ (apartAll_pair group hall i j t u e hi hj) st su r (tail t mt ht))
  · exact e
  · exact absurd (tail t mt ht) (apart_disjoint _ _ _ (apartAll_pair group hall j i u t e hj hi) su st r (tail u mu hu))

/-- C53 does not hold: U+0000 is in every table. -/
theorem C53_violated : ∀ t ∈ shapingTables, t.2.is 0 = true := by
  intro t ht
  rw [C53_lookup_exact t.1 t.2 ht 0 (by decide), (shaping_nul t ht).1, listed_cons]
  exact Or.inl (by decide)

example : shapingTables.length = 56 := by decide +kernel

/-! ### C54 -/

/-- Ranges which follow each other without a gap. -/
def Consecutive : List (Nat × Nat) → Prop
  | [] => True
  | [_] => True
  | p :: q :: rs => q.1 = p.2 + 1 ∧ Consecutive (q :: rs)

/-- All ranges of a collector, the one in work included. -/
def Collector.pending (c : Collector) : List (Nat × Nat) := c.ranges ++ [(c.lo, c.hi)]

/-- Before number `switch32` ranges are small, from there on they are large. -/
structure CInv (c : Collector) (rows : List (Nat × Nat)) : Prop where
  cnt : c.cnt = c.ranges.length
  sorted : Sorted (Collector.pending c)
  listed : ∀ r, Listed (Collector.pending c) r ↔ r = 0 ∨ Listed rows r
  hi : c.hi = (rows.getLast?.getD (0, 0)).2
  lo : ∀ p ∈ rows.getLast?, c.lo ≤ p.1
  pos : rows ≠ [] → (∀ p ∈ rows.head?, 2 ≤ p.1) → 0 < c.lo

theorem cinv_new : CInv Collector.new [] where
  cnt := rfl
  sorted := by simp [Collector.pending, Collector.new, Sorted]
  listed := by
    intro r
    show Listed [(0, 0)] r ↔ _
    rw [listed_cons]
    simp only [listed_nil, or_false, Int.natCast_zero]
    omega
  hi := rfl
  lo := by intro p hp; cases hp
  pos := fun h => absurd rfl h

theorem listed_last (rs : List (Nat × Nat)) (p : Nat × Nat) (r : Int) :
    Listed (rs ++ [p]) r ↔ Listed rs r ∨ ((p.1 : Int) ≤ r ∧ r ≤ (p.2 : Int)) := by
  rw [listed_append, listed_cons]
  simp [listed_nil]

theorem cinv_append {c : Collector} {rows : List (Nat × Nat)} (h : CInv c rows) (row : Nat × Nat)
    (hle : row.1 ≤ row.2) (hgt : c.hi < row.1) : CInv (c.append row) (rows ++ [row]) := by
  have hs := sorted_append.mp h.sorted
  have hlh : c.lo ≤ c.hi := hs.2.1.1
  unfold Collector.append
  split
  · rename_i hadj
    refine ⟨h.cnt, ?_, ?_, by simp, ?_, ?_⟩
    rotate_left 2
    · intro p hp
      simp only [List.getLast?_append, List.getLast?_singleton, Option.some_or, Option.mem_some_iff] at hp
      subst hp
      show c.lo ≤ row.1
      omega
    · intro _ h2
      show 0 < c.lo
      cases rows with
      | nil =>
        have h3 := h2 row rfl
        have h4 : c.hi = 0 := h.hi
        omega
      | cons a rows => exact h.pos (by simp) fun p hp => h2 p (by simpa using hp)
    · show Sorted (c.ranges ++ [(c.lo, row.2)])
      refine sorted_append.mpr ⟨hs.1, ⟨?_, by simp, trivial⟩, ?_⟩
      · show c.lo ≤ row.2; omega
      · intro p hp q hq
        have := hs.2.2 p hp (c.lo, c.hi) (by simp)
        simp only [List.mem_singleton] at hq
        subst hq; exact this
    · intro r
      have hl := h.listed r
      unfold Collector.pending at hl ⊢
      rw [listed_last] at hl ⊢
      rw [listed_last]
      dsimp only at hl ⊢
      constructor
      · rintro (k | k)
        · rcases hl.mp (Or.inl k) with k | k
          · exact Or.inl k
          · exact Or.inr (Or.inl k)
        · by_cases hr : r ≤ c.hi
          · rcases hl.mp (Or.inr ⟨k.1, hr⟩) with k | k
            · exact Or.inl k
            · exact Or.inr (Or.inl k)
          · exact Or.inr (Or.inr ⟨by omega, k.2⟩)
      · rintro (k | k | k)
        · rcases hl.mpr (Or.inl k) with k | k
          · exact Or.inl k
          · exact Or.inr ⟨k.1, by omega⟩
        · rcases hl.mpr (Or.inr k) with k | k
          · exact Or.inl k
          · exact Or.inr ⟨k.1, by omega⟩
        · exact Or.inr ⟨by omega, k.2⟩
  · refine ⟨by simp [h.cnt], ?_, ?_, by simp, ?_, ?_⟩
    rotate_left 2
    · intro p hp
      simp only [List.getLast?_append, List.getLast?_singleton, Option.some_or, Option.mem_some_iff] at hp
      subst hp
      exact Nat.le_refl _
    · intro _ _
      show 0 < row.1
      omega
    · show Sorted ((c.ranges ++ [(c.lo, c.hi)]) ++ [(row.1, row.2)])
      refine sorted_append.mpr ⟨h.sorted, ⟨hle, by simp, trivial⟩, ?_⟩
      intro p hp q hq
      simp only [List.mem_singleton] at hq
      subst hq
      rcases List.mem_append.mp hp with hp | hp
      · have := hs.2.2 p hp (c.lo, c.hi) (by simp)
        show p.2 < row.1
        dsimp only at this
        omega
      · simp only [List.mem_singleton] at hp
        subst hp; exact hgt
    · intro r
      have hl := h.listed r
      show Listed ((c.ranges ++ [(c.lo, c.hi)]) ++ [(row.1, row.2)]) r ↔ _
      unfold Collector.pending at hl
      rw [listed_last (c.ranges ++ _), hl, listed_last, or_assoc]

theorem cinv_foldl (rows : List (Nat × Nat)) : ∀ (c : Collector) (done : List (Nat × Nat)), CInv c done →
    Sorted (done ++ rows) → (∀ p ∈ (done ++ rows).head?, 1 ≤ p.1) → CInv (rows.foldl Collector.append c) (done ++ rows) := by
  induction rows with
  | nil => intro c done h _ _; rw [List.append_nil]; exact h
  | cons row rows ih =>
    intro c done h hs h1
    rw [List.foldl_cons]
    rw [show done ++ row :: rows = (done ++ [row]) ++ rows by simp] at hs h1 ⊢
    obtain ⟨s1, s2, s3⟩ := sorted_append.mp (sorted_append.mp hs).1
    refine ih _ _ (cinv_append h row s2.1 ?_) hs h1
    rw [h.hi]
    cases e : done.getLast? with
    | none =>
      rw [List.getLast?_eq_none_iff] at e
      subst e
      have := h1 row rfl
      show 0 < row.1
      omega
    | some p => exact s3 p (List.mem_of_getLast? e) row (by simp)

theorem cinv_fold (rows : List (Nat × Nat)) (hs : Sorted rows) (h1 : ∀ p ∈ rows.head?, 1 ≤ p.1) :
    CInv (rows.foldl Collector.append Collector.new) rows := cinv_foldl rows _ [] cinv_new hs h1

theorem append_consecutive (lost : List (Nat × Nat)) (c : Collector) (h : Consecutive lost)
    (hh : ∀ p ∈ lost.head?, p.1 = c.hi + 1) : (lost.foldl Collector.append c).ranges = c.ranges := by
  induction lost generalizing c with
  | nil => rfl
  | cons p lost ih =>
    have hp := hh p rfl
    rw [List.foldl_cons]
    have he : c.append p = { c with hi := p.2 } := by unfold Collector.append; rw [if_pos hp]
    rw [he, ih]
    · cases lost with
      | nil => trivial
      | cons q lost => exact h.2
    · intro q hq
      cases lost with
      | nil => cases hq
      | cons s lost =>
        simp only [List.head?_cons, Option.mem_some_iff] at hq
        subst hq
        exact h.1

theorem output_ranges (c : Collector) : c.output.ranges = c.ranges := by
  unfold Collector.output RangeTable.ranges
  split
  · exact List.take_append_drop _ _
  · simp

/-- C54, what the generator does: of the rows of a category, in ascending order, the table has all
but the last block without gaps; in addition it has U+0000. Missing: the last block, and the
absence of U+0000 (`C54_violated`). -/
theorem C54_generated_partial (kept lost : List (Nat × Nat)) (hs : Sorted (kept ++ lost)) (hne : lost ≠ [])
    (h2 : ∀ p ∈ (kept ++ lost).head?, 2 ≤ p.1) (hc : Consecutive lost)
    (hgap : ∀ p ∈ kept.getLast?, ∀ q ∈ lost.head?, q.1 ≠ p.2 + 1) (r : Int) :
    Listed (table (kept ++ lost)).ranges r ↔ r = 0 ∨ Listed kept r := by
  obtain ⟨s1, s2, s3⟩ := sorted_append.mp hs
  obtain ⟨a, lost', rfl⟩ := List.exists_cons_of_ne_nil hne
  have hk : CInv (kept.foldl Collector.append Collector.new) kept := by
    refine cinv_fold kept s1 ?_
    intro p hp
    have := h2 p (by rw [List.head?_append]; cases kept with | nil => cases hp | cons b k => simpa using hp)
    omega
  unfold table
  rw [output_ranges, List.foldl_append, List.foldl_cons]
  generalize kept.foldl Collector.append Collector.new = c at hk
  have hna : a.1 ≠ c.hi + 1 := by
    rw [hk.hi]
    cases e : kept.getLast? with
    | none =>
      rw [List.getLast?_eq_none_iff] at e
      subst e
      have := h2 a rfl
      show a.1 ≠ 0 + 1
      omega
    | some p => exact hgap p (by rw [e]; rfl) a rfl
  rw [append_consecutive]
  · unfold Collector.append
    rw [if_neg hna]
    exact hk.listed r
  · cases lost' with
    | nil => trivial
    | cons b lost' => exact hc.2
  · intro q hq
    unfold Collector.append
    rw [if_neg hna]
    cases lost' with
    | nil => cases hq
    | cons b lost' =>
      simp only [List.head?_cons, Option.mem_some_iff] at hq
      subst hq
      exact hc.1

example : Sorted ([(0x93c, 0x93c), (0x941, 0x944)] ++ [(0x94d, 0x94e), (0x94f, 0x94f)]) ∧
    Consecutive [(0x94d, 0x94e), (0x94f, 0x94f)] ∧
    (table ([(0x93c, 0x93c), (0x941, 0x944)] ++ [(0x94d, 0x94e), (0x94f, 0x94f)])).ranges = [(0, 0), (0x93c, 0x93c), (0x941, 0x944)] :=
  ⟨(sortedB_iff _).mp (by decide), ⟨rfl, trivial⟩, by decide⟩

/-- C54 does not hold, for any category: the last row never gets into the table, and U+0000 always does. -/
theorem C54_violated (rows : List (Nat × Nat)) (last : Nat × Nat) (hs : Sorted (rows ++ [last]))
    (h2 : ∀ p ∈ (rows ++ [last]).head?, 2 ≤ p.1) :
    Listed (table (rows ++ [last])).ranges 0 ∧ ∀ r : Nat, last.1 ≤ r → r ≤ last.2 → ¬ Listed (table (rows ++ [last])).ranges r := by
  have hc := cinv_fold (rows ++ [last]) hs fun p hp => by have := h2 p hp; omega
  unfold table
  rw [output_ranges]
  generalize (rows ++ [last]).foldl Collector.append Collector.new = c at hc
  obtain ⟨s1, s2, s3⟩ := sorted_append.mp hc.sorted
  have hlast : (rows ++ [last]).getLast? = some last := by simp
  have hlo := hc.lo last (by rw [hlast]; rfl)
  have hhi := hc.hi
  rw [hlast] at hhi
  have hpos := hc.pos (by simp) h2
  constructor
  · have h0 := (hc.listed 0).mpr (Or.inl rfl)
    unfold Collector.pending at h0
    rw [listed_last] at h0
    rcases h0 with h0 | h0
    · exact h0
    · dsimp only at h0; omega
  · rintro r hr1 hr2 ⟨p, hp, k1, k2⟩
    have := s3 p hp (c.lo, c.hi) (by simp)
    dsimp only at this
    omega

/-- The joiner U+200D is the only one of its category, so that it is lost. -/
theorem C54_joiner_violated : table [(0x200d, 0x200d)] = UISC_Joiner ∧ UISC_Joiner.is 0x200d = false ∧ UISC_Joiner.is 0 = true := by
  refine ⟨by decide +kernel, ?_, C53_violated ("UISC_Joiner", UISC_Joiner) (by decide +kernel)⟩
  rw [Bool.eq_false_iff]
  intro h
  exact absurd ((C53_lookup_exact "UISC_Joiner" UISC_Joiner (by decide +kernel) 0x200d (by decide)).mp h) (by decide +kernel)

theorem append_output (c : Collector) (a b : Nat × Nat) (ha : a.1 ≠ c.hi + 1) (hb : b.1 ≠ c.hi + 1) :
    (c.append a).output = (c.append b).output := by
  unfold Collector.append
  rw [if_neg ha, if_neg hb]
  rfl

/-- The published tables are such tables: each of them is what the generator makes of its ranges
without U+0000 and any last block. -/
theorem C54_published (name : String) (t : RangeTable) (ht : (name, t) ∈ shapingTables) (last : Nat × Nat)
    (hl : ∀ p ∈ t.ranges.getLast?, p.2 + 1 < last.1) : table (t.ranges.tail ++ [last]) = t := by
  have hall : shapingTables.all (fun u => decide (table (u.2.ranges.tail ++ [(0x200000, 0x200000)]) = u.2) &&
      decide ((u.2.ranges.getLast?.getD (0, 0)).2 < 0x110000) && u.2.ranges.tail.all fun p => decide (1 ≤ p.1)) = true := by
    decide +kernel
  have h := List.all_eq_true.mp hall _ ht
  simp only [Bool.and_eq_true, decide_eq_true_eq, List.all_eq_true] at h
  obtain ⟨⟨h1, h2⟩, h3⟩ := h
  obtain ⟨hn, hs⟩ := shaping_nul _ ht
  have hc := cinv_fold t.ranges.tail hs.tail fun p hp => h3 p (List.mem_of_mem_head? hp)
  have he : t.ranges.getLast? = some (t.ranges.tail.getLast?.getD (0, 0)) := by
    rw [show t.ranges = _ from hn]
    simp only [List.tail_cons]
    cases t.ranges.tail with
    | nil => rfl
    | cons a l => rw [List.getLast?_cons_cons]; cases e : (a :: l).getLast? with
      | none => simp at e
      | some b => rfl
  rw [he] at hl
  have hl' := hl _ rfl
  rw [he] at h2
  conv => rhs; rw [← h1]
  unfold table
  rw [List.foldl_append, List.foldl_append]
  simp only [List.foldl_cons, List.foldl_nil]
  rw [← hc.hi] at hl'
  simp only [Option.getD_some] at h2
  rw [← hc.hi] at h2
  exact append_output _ _ _ (by omega) (by show (0x200000 : Nat) ≠ _; omega)

example : ∀ p ∈ ARAB_D.ranges.getLast?, p.2 + 1 < (0x1e900, 0x1e943).1 := by decide +kernel

/-- The collector switches to large ranges at the right place. -/
structure SInv (c : Collector) : Prop where
  none : c.switch32 = 0 → ∀ p ∈ c.ranges, p.2 ≤ 0xffff
  some : c.switch32 ≠ 0 → c.switch32 < c.ranges.length ∧ (∀ p ∈ c.ranges.take c.switch32, p.2 ≤ 0xffff) ∧
    ∀ p ∈ c.ranges.drop c.switch32, 0x10000 ≤ p.1
  first : c.ranges = [] → c.lo = 0

theorem sinv_append {c : Collector} {done : List (Nat × Nat)} (h : CInv c done) (hs : SInv c) (h3 : ¬ Listed done 0x10000)
    (row : Nat × Nat) : SInv (c.append row) := by
  have hcur : c.hi ≤ 0xffff ∨ 0x10000 < c.lo := by
    have := h.listed 0x10000
    unfold Collector.pending at this
    rw [listed_last] at this
    dsimp only at this
    by_cases k : c.hi ≤ 0xffff
    · exact Or.inl k
    · by_cases k' : 0x10000 < c.lo
      · exact Or.inr k'
      · rcases this.mp (Or.inr ⟨by omega, by omega⟩) with e | e
        · omega
        · exact absurd e h3
  have hlh : c.lo ≤ c.hi := (sorted_append.mp h.sorted).2.1.1
  unfold Collector.append
  split
  · exact ⟨hs.none, hs.some, hs.first⟩
  · refine ⟨?_, ?_, by simp⟩
    · dsimp only
      intro h0 p hp
      by_cases k : c.switch32 = 0 ∧ (c.lo > 0x10000 ∨ c.hi > 0x10000)
      · rw [if_pos k, h.cnt] at h0
        have := hs.first (List.length_eq_zero_iff.mp h0)
        omega
      · rw [if_neg k] at h0
        rcases List.mem_append.mp hp with hp | hp
        · exact hs.none h0 p hp
        · simp only [List.mem_singleton] at hp
          subst hp
          show c.hi ≤ 0xffff
          omega
    · dsimp only
      intro h0
      by_cases k : c.switch32 = 0 ∧ (c.lo > 0x10000 ∨ c.hi > 0x10000)
      · rw [if_pos k, h.cnt]
        refine ⟨by simp, ?_, ?_⟩
        · rw [List.take_left]
          exact hs.none k.1
        · rw [List.drop_left]
          intro p hp
          simp only [List.mem_singleton] at hp
          subst hp
          show 0x10000 ≤ c.lo
          omega
      · rw [if_neg k] at h0 ⊢
        obtain ⟨k1, k2, k3⟩ := hs.some h0
        refine ⟨by simp; omega, ?_, ?_⟩
        · rw [List.take_append_of_le_length (by omega)]
          exact k2
        · rw [List.drop_append_of_le_length (by omega)]
          intro p hp
          rcases List.mem_append.mp hp with hp | hp
          · exact k3 p hp
          · simp only [List.mem_singleton] at hp
            subst hp
            show 0x10000 ≤ c.lo
            have hm : c.ranges[c.switch32] ∈ c.ranges.drop c.switch32 := by
              rw [List.drop_eq_getElem_cons k1]; exact List.mem_cons_self
            have h5 := k3 _ hm
            have h6 := (sorted_append.mp h.sorted).2.2 _ (List.getElem_mem k1) (c.lo, c.hi) (by simp)
            have h7 := (sorted_append.mp h.sorted).1.le _ (List.getElem_mem k1)
            dsimp only at h6
            omega

theorem sinv_foldl (rows : List (Nat × Nat)) : ∀ (c : Collector) (done : List (Nat × Nat)), CInv c done → SInv c →
    Sorted (done ++ rows) → (∀ p ∈ (done ++ rows).head?, 1 ≤ p.1) → ¬ Listed (done ++ rows) 0x10000 →
    SInv (rows.foldl Collector.append c) := by
  induction rows with
  | nil => intro c done _ h _ _ _; exact h
  | cons row rows ih =>
    intro c done h hsi hs h1 h3
    rw [List.foldl_cons]
    have hd : ¬ Listed done 0x10000 := fun k => h3 ((listed_append _ _ _).mpr (Or.inl k))
    rw [show done ++ row :: rows = (done ++ [row]) ++ rows by simp] at hs h1 h3
    have hc := cinv_foldl [row] c done h (sorted_append.mp hs).1 (by
      intro p hp; apply h1; rw [List.head?_append, hp]; rfl)
    exact ih _ _ hc (sinv_append h hsi hd row) hs h1 h3

/-- A generated table is well-formed, so that looking up runes works, as long as U+10000 is not among the rows. -/
theorem C54_wellformed_partial (rows : List (Nat × Nat)) (hs : Sorted rows) (h2 : ∀ p ∈ rows.head?, 1 ≤ p.1)
    (h3 : ¬ Listed rows 0x10000) : (table rows).WellFormed := by
  have hc := cinv_fold rows hs h2
  have hi := sinv_foldl rows Collector.new [] cinv_new ⟨fun _ p hp => (by cases hp), fun k => absurd rfl k, fun _ => rfl⟩ hs h2 h3
  unfold table Collector.output
  generalize rows.foldl Collector.append Collector.new = c at hc hi
  have hsr := (sorted_append.mp hc.sorted).1
  split
  · rename_i hpos
    obtain ⟨_, k2, k3⟩ := hi.some (by omega)
    have := hsr
    rw [← List.take_append_drop c.switch32 c.ranges] at this
    obtain ⟨s1, s2, _⟩ := sorted_append.mp this
    exact ⟨s1, s2, k2, k3⟩
  · exact ⟨hsr, trivial, hi.none (by omega), fun p hp => by cases hp⟩

example : Sorted [(0xa840, 0xa871), (0x10ac0, 0x10ac4), (0x10ad3, 0x10ad6)] ∧
    table [(0xa840, 0xa871), (0x10ac0, 0x10ac4), (0x10ad3, 0x10ad6)] = ⟨[(0, 0), (0xa840, 0xa871)], [(0x10ac0, 0x10ac4)], 1⟩ :=
  ⟨(sortedB_iff _).mp (by decide), by decide⟩

/-- U+10000 gets into the wrong half of the table. -/
theorem C54_wellformed_violated : ¬ (table [(0x10000, 0x10000), (0x10080, 0x10080)]).WellFormed := by
  intro h
  exact absurd (h.small (0x10000, 0x10000) (by decide)) (by decide)

/-- The collector counts the ranges in Latin-1, when it gets to the first one outside. -/
structure LInv (c : Collector) : Prop where
  none : c.latinOffset = 0 → ∀ p ∈ c.ranges, p.2 ≤ 0xff
  some : c.latinOffset ≠ 0 → c.latinOffset < c.ranges.length ∧ (∀ p ∈ c.ranges.take c.latinOffset, p.2 ≤ 0xff) ∧
    ∀ p ∈ c.ranges.drop c.latinOffset, 0xff < p.2
  first : c.ranges ≠ [] ∨ c.hi = 0

theorem linv_append {c : Collector} {done : List (Nat × Nat)} (h : CInv c done) (hl : LInv c)
    (row : Nat × Nat) (hr : done ≠ [] ∨ 2 ≤ row.1) (hd : done ≠ [] → c.ranges ≠ []) : LInv (c.append row) ∧ (c.append row).ranges ≠ [] := by
  have hlh : c.lo ≤ c.hi := (sorted_append.mp h.sorted).2.1.1
  unfold Collector.append
  split
  · rename_i hadj
    have hne : c.ranges ≠ [] := by
      rcases hr with hr | hr
      · exact hd hr
      · rcases hl.first with e | e
        · exact e
        · omega
    exact ⟨⟨hl.none, hl.some, Or.inl hne⟩, hne⟩
  · refine ⟨⟨?_, ?_, Or.inl (by simp)⟩, by simp⟩
    · dsimp only
      intro h0 p hp
      by_cases k : c.latinOffset = 0 ∧ c.hi > 0xff
      · rw [if_pos k, h.cnt] at h0
        rcases hl.first with e | e
        · exact absurd (List.length_eq_zero_iff.mp h0) e
        · omega
      · rw [if_neg k] at h0
        rcases List.mem_append.mp hp with hp | hp
        · exact hl.none h0 p hp
        · simp only [List.mem_singleton] at hp
          subst hp
          show c.hi ≤ 0xff
          omega
    · dsimp only
      intro h0
      by_cases k : c.latinOffset = 0 ∧ c.hi > 0xff
      · rw [if_pos k, h.cnt]
        refine ⟨by simp, ?_, ?_⟩
        · rw [List.take_left]
          exact hl.none k.1
        · rw [List.drop_left]
          intro p hp
          simp only [List.mem_singleton] at hp
          subst hp
          exact k.2
      · rw [if_neg k] at h0 ⊢
        obtain ⟨k1, k2, k3⟩ := hl.some h0
        refine ⟨by simp; omega, ?_, ?_⟩
        · rw [List.take_append_of_le_length (by omega)]
          exact k2
        · rw [List.drop_append_of_le_length (by omega)]
          intro p hp
          rcases List.mem_append.mp hp with hp | hp
          · exact k3 p hp
          · simp only [List.mem_singleton] at hp
            subst hp
            show 0xff < c.hi
            have hm : c.ranges[c.latinOffset] ∈ c.ranges.drop c.latinOffset := by
              rw [List.drop_eq_getElem_cons k1]; exact List.mem_cons_self
            have h5 := k3 _ hm
            have h6 := (sorted_append.mp h.sorted).2.2 _ (List.getElem_mem k1) (c.lo, c.hi) (by simp)
            dsimp only at h6
            omega

theorem linv_foldl (rows : List (Nat × Nat)) : ∀ (c : Collector) (done : List (Nat × Nat)), CInv c done → LInv c →
    (done ≠ [] → c.ranges ≠ []) → Sorted (done ++ rows) → (∀ p ∈ (done ++ rows).head?, 2 ≤ p.1) →
    LInv (rows.foldl Collector.append c) := by
  induction rows with
  | nil => intro c done _ h _ _ _; exact h
  | cons row rows ih =>
    intro c done h hl hd hs h2
    rw [List.foldl_cons]
    have hr : done ≠ [] ∨ 2 ≤ row.1 := by
      cases done with
      | nil => exact Or.inr (h2 row rfl)
      | cons a t => exact Or.inl (by simp)
    obtain ⟨l1, l2⟩ := linv_append h hl row hr hd
    rw [show done ++ row :: rows = (done ++ [row]) ++ rows by simp] at hs h2
    have hc := cinv_foldl [row] c done h (sorted_append.mp hs).1 (by
      intro p hp
      have := h2 p (by rw [List.head?_append, hp]; rfl)
      omega)
    exact ih _ _ hc l1 (fun _ => l2) hs h2

/-- LatinOffset of a generated table is the number of its ranges in Latin-1. Missing: tables which
have no other ranges, see `C54_latin_violated`. -/
theorem C54_latin_partial (rows : List (Nat × Nat)) (hs : Sorted rows) (h2 : ∀ p ∈ rows.head?, 2 ≤ p.1)
    (h3 : ∃ p ∈ (table rows).ranges, 0xff < p.2) :
    (table rows).latinOffset = ((table rows).ranges.filter fun p => decide (p.2 ≤ 0xff)).length := by
  have hl := linv_foldl rows Collector.new [] cinv_new ⟨fun _ p hp => (by cases hp), fun k => absurd rfl k, Or.inr rfl⟩ (fun h => absurd rfl h) hs h2
  unfold table at h3 ⊢
  rw [output_ranges] at h3 ⊢
  rw [show ∀ c : Collector, c.output.latinOffset = c.latinOffset from fun c => by unfold Collector.output; split <;> rfl]
  generalize rows.foldl Collector.append Collector.new = c at hl h3
  obtain ⟨p, hp, hgt⟩ := h3
  have h0 : c.latinOffset ≠ 0 := fun e => by have := hl.none e p hp; omega
  obtain ⟨k1, k2, k3⟩ := hl.some h0
  conv => rhs; rw [← List.take_append_drop c.latinOffset c.ranges]
  rw [List.filter_append, List.filter_eq_self.mpr (fun q hq => by simpa using k2 q hq),
    List.filter_eq_nil_iff.mpr (fun q hq => by have := k3 q hq; simp; omega), List.append_nil, List.length_take]
  omega

example : (∃ p ∈ (table [(0x20, 0x20), (0xa0, 0xa0), (0x1680, 0x1680), (0x2000, 0x200a)]).ranges, 0xff < p.2) ∧
    (table [(0x20, 0x20), (0xa0, 0xa0), (0x1680, 0x1680), (0x2000, 0x200a)]).latinOffset = 3 := ⟨⟨(0x1680, 0x1680), by decide, by decide⟩, by decide⟩

/-- In a table with ranges in Latin-1 only LatinOffset is 0. -/
theorem C54_latin_violated : (table [(0x20, 0x20), (0xa0, 0xa0), (0x1680, 0x1680)]).latinOffset = 0 ∧
    ∀ p ∈ (table [(0x20, 0x20), (0xa0, 0xa0), (0x1680, 0x1680)]).ranges, p.2 ≤ 0xff := by decide

end Uax
