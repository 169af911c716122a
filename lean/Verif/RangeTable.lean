/-
Tables of code points: a model of `unicode.RangeTable` and `unicode.Is` of Go's standard library
(unicode/letter.go, not part of /repo), as they are used in

* /repo/emoji/emoji.go:38, /repo/grapheme/grapheme.go:53,132, /repo/uax29/uax29.go:73,154
  (tables made by `rangetable.New`), and
* /repo/shaping/*tables.go (literals).

All ranges of /repo have stride 1, so the stride is left out.
-/

namespace Uax

/-- `unicode.RangeTable`: ranges (first, last) below 0x10000, the others, and the number of ranges
in Latin-1. -/
structure RangeTable where
  r16 : List (Nat × Nat)
  r32 : List (Nat × Nat)
  latinOffset : Nat
deriving DecidableEq, Repr

/-- The set of code points given by a list of ranges. -/
def Listed (rs : List (Nat × Nat)) (r : Int) : Prop := ∃ p ∈ rs, (p.1 : Int) ≤ r ∧ r ≤ (p.2 : Int)

/-- The same as a test. -/
def inRanges (rs : List (Nat × Nat)) (r : Int) : Bool := rs.any fun p => decide ((p.1 : Int) ≤ r ∧ r ≤ (p.2 : Int))

theorem inRanges_iff (rs : List (Nat × Nat)) (r : Int) : inRanges rs r = true ↔ Listed rs r := by
  unfold inRanges Listed
  simp only [List.any_eq_true, decide_eq_true_eq]

instance (rs : List (Nat × Nat)) (r : Int) : Decidable (Listed rs r) := decidable_of_iff _ (inRanges_iff rs r)

namespace RangeTable

/-- `is16`/`is32`, the linear search for short tables and for Latin-1. -/
def linear : List (Nat × Nat) → Nat → Bool
  | [], _ => false
  | p :: rs, r => if r < p.1 then false else if r ≤ p.2 then true else linear rs r

/-- `is16`/`is32`, the binary search in `ranges[lo:hi]`. An index out of range would be a panic; it
does not occur, and reads the empty range (1, 0) here. -/
def binary (rs : List (Nat × Nat)) (r : Nat) (lo hi : Nat) : Bool :=
  if h : lo < hi then
    let m := (lo + hi) / 2
    let p := rs[m]?.getD (1, 0)
    if p.1 ≤ r ∧ r ≤ p.2 then true
    else if r < p.1 then binary rs r lo m
    else binary rs r (m + 1) hi
  else false
termination_by hi - lo

/-- `linearMax` of unicode/letter.go. -/
def linearMax : Nat := 18

/-- `is16`. -/
def is16 (rs : List (Nat × Nat)) (r : Nat) : Bool :=
  if rs.length ≤ linearMax ∨ r ≤ 0xff then linear rs r else binary rs r 0 rs.length

/-- `is32`. -/
def is32 (rs : List (Nat × Nat)) (r : Nat) : Bool :=
  if rs.length ≤ linearMax then linear rs r else binary rs r 0 rs.length

/-- The conversion of a rune (32 bits, signed) to uint32. -/
def u32 (r : Int) : Nat := (if r < 0 then r + 0x100000000 else r).toNat

/-- `unicode.Is`. -/
def is (t : RangeTable) (r : Int) : Bool :=
  if t.r16 ≠ [] ∧ u32 r ≤ (t.r16.getLast?.getD (0, 0)).2 then is16 t.r16 (u32 r % 0x10000)
  else if t.r32 ≠ [] ∧ r ≥ ((t.r32.head?.getD (0, 0)).1 : Int) then is32 t.r32 (u32 r)
  else false

/-- All ranges of the table. -/
def ranges (t : RangeTable) : List (Nat × Nat) := t.r16 ++ t.r32

end RangeTable

/-- Ranges in ascending order which do not overlap, none of them empty. -/
def Sorted : List (Nat × Nat) → Prop
  | [] => True
  | p :: rs => p.1 ≤ p.2 ∧ (∀ q ∈ rs.head?, p.2 < q.1) ∧ Sorted rs

/-- The same as a test. -/
def sortedB : List (Nat × Nat) → Bool
  | [] => true
  | [p] => decide (p.1 ≤ p.2)
  | p :: q :: rs => decide (p.1 ≤ p.2) && decide (p.2 < q.1) && sortedB (q :: rs)

theorem sortedB_iff : ∀ rs, sortedB rs = true ↔ Sorted rs
  | [] => by simp [sortedB, Sorted]
  | [p] => by simp [sortedB, Sorted]
  | p :: q :: rs => by
    have := sortedB_iff (q :: rs)
    simp only [sortedB, Bool.and_eq_true, decide_eq_true_eq, this, Sorted, List.head?_cons, Option.mem_some_iff,
      forall_eq']
    constructor
    · rintro ⟨⟨a, b⟩, c⟩; exact ⟨a, b, c⟩
    · rintro ⟨a, b, c⟩; exact ⟨⟨a, b⟩, c⟩

/-- What the documentation of `unicode.RangeTable` asks for: both lists sorted, the first one with
values of 16 bits, the second one with greater ones. -/
structure RangeTable.WellFormed (t : RangeTable) : Prop where
  sorted16 : Sorted t.r16
  sorted32 : Sorted t.r32
  small : ∀ p ∈ t.r16, p.2 ≤ 0xffff
  large : ∀ p ∈ t.r32, 0x10000 ≤ p.1

/-- The same as a test. -/
def RangeTable.wellFormedB (t : RangeTable) : Bool :=
  sortedB t.r16 && sortedB t.r32 && t.r16.all (fun p => decide (p.2 ≤ 0xffff)) && t.r32.all (fun p => decide (0x10000 ≤ p.1))

theorem RangeTable.wellFormed_of {t : RangeTable} (h : t.wellFormedB = true) : t.WellFormed := by
  unfold wellFormedB at h
  simp only [Bool.and_eq_true, List.all_eq_true, decide_eq_true_eq] at h
  exact ⟨(sortedB_iff _).mp h.1.1.1, (sortedB_iff _).mp h.1.1.2, h.1.2, h.2⟩

theorem Sorted.le {rs : List (Nat × Nat)} (h : Sorted rs) : ∀ p ∈ rs, p.1 ≤ p.2 := by
  induction rs with
  | nil => intro p hp; cases hp
  | cons q rs ih =>
    intro p hp
    rcases List.mem_cons.mp hp with rfl | hp
    · exact h.1
    · exact ih h.2.2 p hp

theorem Sorted.after {q : Nat × Nat} {rs : List (Nat × Nat)} (h : Sorted (q :: rs)) : ∀ p ∈ rs, q.2 < p.1 := by
  induction rs generalizing q with
  | nil => intro p hp; cases hp
  | cons s rs ih =>
    intro p hp
    have h1 : q.2 < s.1 := h.2.1 s rfl
    rcases List.mem_cons.mp hp with rfl | hp
    · exact h1
    · have h2 := ih h.2.2 p hp
      have h3 : s.1 ≤ s.2 := h.2.2.1
      omega

theorem Sorted.lt {rs : List (Nat × Nat)} (h : Sorted rs) {i j : Nat} {p q : Nat × Nat} (hij : i < j)
    (hi : rs[i]? = some p) (hj : rs[j]? = some q) : p.2 < q.1 := by
  induction rs generalizing i j with
  | nil => simp at hi
  | cons s rs ih =>
    cases j with
    | zero => omega
    | succ j =>
      rw [List.getElem?_cons_succ] at hj
      cases i with
      | zero =>
        simp only [List.getElem?_cons_zero, Option.some.injEq] at hi
        subst hi
        exact h.after q (List.mem_of_getElem? hj)
      | succ i =>
        rw [List.getElem?_cons_succ] at hi
        exact ih h.2.2 (by omega) hi hj

/-- In sorted lists of ranges, a code point is in one range only. -/
theorem Sorted.unique {rs : List (Nat × Nat)} (h : Sorted rs) {i j : Nat} {p q : Nat × Nat} {r : Nat}
    (hi : rs[i]? = some p) (hj : rs[j]? = some q) (hp : p.1 ≤ r ∧ r ≤ p.2) (hq : q.1 ≤ r ∧ r ≤ q.2) : i = j := by
  rcases Nat.lt_trichotomy i j with e | e | e
  · have := h.lt e hi hj; omega
  · exact e
  · have := h.lt e hj hi; omega

namespace RangeTable

theorem linear_iff {rs : List (Nat × Nat)} (h : Sorted rs) (r : Nat) : linear rs r = true ↔ Listed rs r := by
  induction rs with
  | nil => simp [linear, Listed]
  | cons p rs ih =>
    unfold linear
    have hle := h.1
    split
    · rename_i hlt
      simp only [Bool.false_eq_true, false_iff]
      rintro ⟨q, hq, h1, h2⟩
      rcases List.mem_cons.mp hq with rfl | hq
      · omega
      · have := h.after q hq; omega
    · split
      · simp only [true_iff]
        exact ⟨p, List.mem_cons_self, by omega, by omega⟩
      · rename_i h1 h2
        rw [ih h.2.2]
        constructor
        · rintro ⟨q, hq, k⟩; exact ⟨q, List.mem_cons_of_mem _ hq, k⟩
        · rintro ⟨q, hq, k⟩
          rcases List.mem_cons.mp hq with rfl | hq
          · omega
          · exact ⟨q, hq, k⟩

theorem binary_iff {rs : List (Nat × Nat)} (h : Sorted rs) (r lo hi : Nat) (hhi : hi ≤ rs.length) :
    binary rs r lo hi = true ↔ ∃ i p, lo ≤ i ∧ i < hi ∧ rs[i]? = some p ∧ p.1 ≤ r ∧ r ≤ p.2 := by
  fun_induction binary rs r lo hi with
  | case1 lo hi hlt m p hp =>
    simp only [true_iff]
    have hm : m < rs.length := by omega
    refine ⟨m, rs[m], by omega, by omega, List.getElem?_eq_getElem hm, ?_⟩
    have : p = rs[m] := by show rs[m]?.getD _ = _; rw [List.getElem?_eq_getElem hm]; rfl
    rwa [this] at hp
  | case2 lo hi hlt m p hp hr ih =>
    rw [ih (by omega)]
    have hm : m < rs.length := by omega
    have hpm : rs[m]? = some p := by
      show _ = some (rs[m]?.getD _); rw [List.getElem?_eq_getElem hm]; rfl
    constructor
    · rintro ⟨i, q, a, b, k⟩; exact ⟨i, q, a, by omega, k⟩
    · rintro ⟨i, q, a, b, hi', k⟩
      refine ⟨i, q, a, ?_, hi', k⟩
      rcases Nat.lt_trichotomy i m with e | e | e
      · exact e
      · subst e; rw [hpm] at hi'; cases hi'; omega
      · have := h.lt e hpm hi'
        have := h.le p (List.mem_of_getElem? hpm)
        omega
  | case3 lo hi hlt m p hp hr ih =>
    rw [ih hhi]
    have hm : m < rs.length := by omega
    have hpm : rs[m]? = some p := by
      show _ = some (rs[m]?.getD _); rw [List.getElem?_eq_getElem hm]; rfl
    constructor
    · rintro ⟨i, q, a, b, k⟩; exact ⟨i, q, by omega, b, k⟩
    · rintro ⟨i, q, a, b, hi', k⟩
      refine ⟨i, q, ?_, b, hi', k⟩
      rcases Nat.lt_trichotomy i m with e | e | e
      · have := h.lt e hi' hpm
        have := h.le q (List.mem_of_getElem? hi')
        omega
      · subst e; rw [hpm] at hi'; cases hi'; omega
      · omega
  | case4 lo hi hlt =>
    simp only [Bool.false_eq_true, false_iff]
    rintro ⟨i, q, a, b, _⟩
    omega

theorem binary_all {rs : List (Nat × Nat)} (h : Sorted rs) (r : Nat) : binary rs r 0 rs.length = true ↔ Listed rs r := by
  rw [binary_iff h r 0 rs.length (Nat.le_refl _)]
  constructor
  · rintro ⟨i, p, _, _, hi, h1, h2⟩
    exact ⟨p, List.mem_of_getElem? hi, by omega, by omega⟩
  · rintro ⟨p, hp, h1, h2⟩
    obtain ⟨i, hi, e⟩ := List.getElem_of_mem hp
    exact ⟨i, p, Nat.zero_le _, hi, by rw [List.getElem?_eq_getElem hi, e], by omega, by omega⟩

theorem is16_iff {rs : List (Nat × Nat)} (h : Sorted rs) (r : Nat) : is16 rs r = true ↔ Listed rs r := by
  unfold is16; split
  · exact linear_iff h r
  · exact binary_all h r

theorem is32_iff {rs : List (Nat × Nat)} (h : Sorted rs) (r : Nat) : is32 rs r = true ↔ Listed rs r := by
  unfold is32; split
  · exact linear_iff h r
  · exact binary_all h r

/-- The last range has the greatest values. -/
theorem last_max {rs : List (Nat × Nat)} (h : Sorted rs) (p : Nat × Nat) (hp : p ∈ rs) : p.2 ≤ (rs.getLast?.getD (0, 0)).2 := by
  induction rs generalizing p with
  | nil => cases hp
  | cons q rs ih =>
    cases rs with
    | nil =>
      rcases List.mem_cons.mp hp with rfl | hp
      · simp
      · cases hp
    | cons s rs =>
      rw [List.getLast?_cons_cons]
      rcases List.mem_cons.mp hp with rfl | hp
      · have h1 := ih h.2.2 s List.mem_cons_self
        have h2 : p.2 < s.1 := h.2.1 s rfl
        have h3 : s.1 ≤ s.2 := h.2.2.1
        omega
      · exact ih h.2.2 p hp

/-- The first range has the least values. -/
theorem head_min {rs : List (Nat × Nat)} (h : Sorted rs) (p : Nat × Nat) (hp : p ∈ rs) : (rs.head?.getD (0, 0)).1 ≤ p.1 := by
  cases rs with
  | nil => cases hp
  | cons q rs =>
    rcases List.mem_cons.mp hp with rfl | hp
    · simp
    · have h1 := h.after p hp
      have h2 := h.1
      simp only [List.head?_cons, Option.getD_some]
      omega

/-- Looking up a rune in a well-formed table finds it exactly if it is in one of the ranges. -/
theorem is_iff {t : RangeTable} (h : t.WellFormed) (r : Int) (hr : -0x80000000 ≤ r) :
    t.is r = true ↔ Listed t.ranges r := by
  unfold is ranges
  by_cases h0 : r < 0
  · -- negative runes are in no table
    have hu : u32 r = (r + 0x100000000).toNat := by unfold u32; rw [if_pos h0]
    have hno : ¬ Listed (t.r16 ++ t.r32) r := by
      rintro ⟨p, _, h1, _⟩; omega
    have hlast : (t.r16.getLast?.getD (0, 0)).2 ≤ 0xffff := by
      cases e : t.r16.getLast? with
      | none => simp
      | some p => exact h.small p (List.mem_of_getLast? e)
    rw [if_neg (by rintro ⟨_, k⟩; omega), if_neg (by rintro ⟨_, k⟩; omega)]
    simp [hno]
  · have hu : u32 r = r.toNat := by unfold u32; rw [if_neg h0]
    have hrn : ((r.toNat : Nat) : Int) = r := by omega
    have split : Listed (t.r16 ++ t.r32) r ↔ Listed t.r16 r ∨ Listed t.r32 r := by
      unfold Listed
      constructor
      · rintro ⟨p, hp, k⟩
        rcases List.mem_append.mp hp with hp | hp
        · exact Or.inl ⟨p, hp, k⟩
        · exact Or.inr ⟨p, hp, k⟩
      · rintro (⟨p, hp, k⟩ | ⟨p, hp, k⟩)
        · exact ⟨p, List.mem_append_left _ hp, k⟩
        · exact ⟨p, List.mem_append_right _ hp, k⟩
    rw [split, hu]
    by_cases h1 : t.r16 ≠ [] ∧ r.toNat ≤ (t.r16.getLast?.getD (0, 0)).2
    · rw [if_pos h1]
      have hlast : (t.r16.getLast?.getD (0, 0)).2 ≤ 0xffff := by
        cases e : t.r16.getLast? with
        | none => simp
        | some p => exact h.small p (List.mem_of_getLast? e)
      rw [Nat.mod_eq_of_lt (by omega), is16_iff h.sorted16, hrn]
      constructor
      · exact Or.inl
      · rintro (k | ⟨p, hp, k, _⟩)
        · exact k
        · have := h.large p hp; omega
    · rw [if_neg h1]
      have hno : ¬ Listed t.r16 r := by
        rintro ⟨p, hp, k1, k2⟩
        apply h1
        refine ⟨(by rintro e; rw [e] at hp; cases hp), ?_⟩
        have := last_max h.sorted16 p hp
        omega
      by_cases h2 : t.r32 ≠ [] ∧ r ≥ ((t.r32.head?.getD (0, 0)).1 : Int)
      · rw [if_pos h2, is32_iff h.sorted32, hrn]
        exact ⟨Or.inr, fun k => k.resolve_left hno⟩
      · rw [if_neg h2]
        simp only [Bool.false_eq_true, hno, false_or, false_iff]
        rintro ⟨p, hp, k1, k2⟩
        apply h2
        refine ⟨(by rintro e; rw [e] at hp; cases hp), ?_⟩
        have := head_min h.sorted32 p hp
        omega

end RangeTable

/-! ### Lists of ranges without common code points -/

/-- A test for sorted lists. -/
def apart : Nat → List (Nat × Nat) → List (Nat × Nat) → Bool
  | _, [], _ => true
  | _, _, [] => true
  | 0, _, _ => false
  | n + 1, p :: rs, q :: ss =>
    if p.2 < q.1 then apart n rs (q :: ss) else if q.2 < p.1 then apart n (p :: rs) ss else false

theorem apart_disjoint (n : Nat) : ∀ (rs ss : List (Nat × Nat)), apart n rs ss = true → Sorted rs → Sorted ss →
    ∀ r, Listed rs r → ¬ Listed ss r := by
  induction n with
  | zero =>
    intro rs ss h _ _ r h1 h2
    cases rs with
    | nil => obtain ⟨p, hp, _⟩ := h1; cases hp
    | cons p rs =>
      cases ss with
      | nil => obtain ⟨p, hp, _⟩ := h2; cases hp
      | cons q ss => simp [apart] at h
  | succ n ih =>
    intro rs ss h hs1 hs2 r h1 h2
    cases rs with
    | nil => obtain ⟨p, hp, _⟩ := h1; cases hp
    | cons p rs =>
      cases ss with
      | nil => obtain ⟨p, hp, _⟩ := h2; cases hp
      | cons q ss =>
        unfold apart at h
        have hq := hs2.1
        have hp := hs1.1
        obtain ⟨a, ha, ka⟩ := h1
        obtain ⟨b, hb, kb⟩ := h2
        split at h
        · rename_i hlt
          refine ih rs (q :: ss) h hs1.2.2 hs2 r ?_ ⟨b, hb, kb⟩
          rcases List.mem_cons.mp ha with rfl | ha
          · rcases List.mem_cons.mp hb with rfl | hb
            · omega
            · have := hs2.after b hb; omega
          · exact ⟨a, ha, ka⟩
        · split at h
          · rename_i hlt
            refine ih (p :: rs) ss h hs1 hs2.2.2 r ⟨a, ha, ka⟩ ?_
            rcases List.mem_cons.mp hb with rfl | hb
            · rcases List.mem_cons.mp ha with rfl | ha
              · omega
              · have := hs1.after a ha; omega
            · exact ⟨b, hb, kb⟩
          · simp at h

theorem Sorted.tail {rs : List (Nat × Nat)} (h : Sorted rs) : Sorted rs.tail := by
  cases rs with
  | nil => exact h
  | cons p rs => exact h.2.2

theorem listed_append (rs ss : List (Nat × Nat)) (r : Int) : Listed (rs ++ ss) r ↔ Listed rs r ∨ Listed ss r := by
  unfold Listed
  constructor
  · rintro ⟨p, hp, k⟩
    rcases List.mem_append.mp hp with hp | hp
    · exact Or.inl ⟨p, hp, k⟩
    · exact Or.inr ⟨p, hp, k⟩
  · rintro (⟨p, hp, k⟩ | ⟨p, hp, k⟩)
    · exact ⟨p, List.mem_append_left _ hp, k⟩
    · exact ⟨p, List.mem_append_right _ hp, k⟩

theorem listed_cons (p : Nat × Nat) (rs : List (Nat × Nat)) (r : Int) :
    Listed (p :: rs) r ↔ ((p.1 : Int) ≤ r ∧ r ≤ (p.2 : Int)) ∨ Listed rs r := by
  rw [show p :: rs = [p] ++ rs from rfl, listed_append]
  have : Listed [p] r ↔ ((p.1 : Int) ≤ r ∧ r ≤ (p.2 : Int)) := by
    unfold Listed; simp
  rw [this]

theorem listed_nil (r : Int) : ¬ Listed [] r := by rintro ⟨p, hp, _⟩; cases hp

/-- Sorted lists one after the other. -/
theorem sorted_append {rs ss : List (Nat × Nat)} : Sorted (rs ++ ss) ↔ Sorted rs ∧ Sorted ss ∧ ∀ p ∈ rs, ∀ q ∈ ss, p.2 < q.1 := by
  constructor
  · intro h
    induction rs with
    | nil => exact ⟨trivial, h, fun p hp => by cases hp⟩
    | cons a rs ih =>
      obtain ⟨h1, h2, h3⟩ := ih h.2.2
      refine ⟨⟨h.1, ?_, h1⟩, h2, ?_⟩
      · intro q hq
        exact h.after q (List.mem_append_left _ (List.mem_of_mem_head? hq))
      · intro p hp q hq
        rcases List.mem_cons.mp hp with rfl | hp
        · exact h.after q (List.mem_append_right _ hq)
        · exact h3 p hp q hq
  · rintro ⟨h1, h2, h3⟩
    induction rs with
    | nil => exact h2
    | cons a rs ih =>
      refine ⟨h1.1, ?_, ih h1.2.2 fun p hp => h3 p (List.mem_cons_of_mem _ hp)⟩
      intro q hq
      rcases List.mem_append.mp (List.mem_of_mem_head? hq) with hq | hq
      · exact h1.after q hq
      · exact h3 a List.mem_cons_self q hq

/-! ### Common code points of two lists of ranges -/

/-- The intersection of two sorted lists of ranges (with enough steps). -/
def inter : Nat → List (Nat × Nat) → List (Nat × Nat) → List (Nat × Nat)
  | 0, _, _ => []
  | _, [], _ => []
  | _, _, [] => []
  | n + 1, p :: rs, q :: ss =>
    (if max p.1 q.1 ≤ min p.2 q.2 then [(max p.1 q.1, min p.2 q.2)] else []) ++
      (if p.2 < q.2 then inter n rs (q :: ss) else inter n (p :: rs) ss)

theorem inter_iff (n : Nat) : ∀ (rs ss : List (Nat × Nat)), rs.length + ss.length ≤ n → Sorted rs → Sorted ss →
    ∀ r, Listed (inter n rs ss) r ↔ Listed rs r ∧ Listed ss r := by
  induction n with
  | zero =>
    intro rs ss h _ _ r
    have : rs = [] := List.length_eq_zero_iff.mp (by omega)
    subst this
    simp [inter, listed_nil]
  | succ n ih =>
    intro rs ss h hs1 hs2 r
    cases rs with
    | nil => simp [inter, listed_nil]
    | cons p rs =>
      cases ss with
      | nil => simp [inter, listed_nil]
      | cons q ss =>
        unfold inter
        rw [listed_append]
        simp only [List.length_cons] at h
        have hhead : Listed (if max p.1 q.1 ≤ min p.2 q.2 then [(max p.1 q.1, min p.2 q.2)] else []) r ↔
            ((p.1 : Int) ≤ r ∧ r ≤ p.2) ∧ ((q.1 : Int) ≤ r ∧ r ≤ q.2) := by
          split
          · rw [listed_cons]; simp only [listed_nil, or_false]; omega
          · simp only [listed_nil, false_iff]; omega
        rw [hhead]
        have hp := hs1.1
        have hq := hs2.1
        split
        · rename_i hlt
          rw [ih rs (q :: ss) (by simp only [List.length_cons]; omega) hs1.2.2 hs2, listed_cons p]
          constructor
          · rintro (⟨k1, k2⟩ | ⟨k1, k2⟩)
            · exact ⟨Or.inl k1, (listed_cons q ss r).mpr (Or.inl k2)⟩
            · exact ⟨Or.inr k1, k2⟩
          · rintro ⟨k1 | k1, k2⟩
            · rcases (listed_cons q ss r).mp k2 with k3 | ⟨b, hb, k3⟩
              · exact Or.inl ⟨k1, k3⟩
              · have := hs2.after b hb; omega
            · exact Or.inr ⟨k1, k2⟩
        · rename_i hlt
          rw [ih (p :: rs) ss (by simp only [List.length_cons]; omega) hs1 hs2.2.2, listed_cons q]
          constructor
          · rintro (⟨k1, k2⟩ | ⟨k1, k2⟩)
            · exact ⟨(listed_cons p rs r).mpr (Or.inl k1), Or.inl k2⟩
            · exact ⟨k1, Or.inr k2⟩
          · rintro ⟨k1, k2 | k2⟩
            · rcases (listed_cons p rs r).mp k1 with k3 | ⟨b, hb, k3⟩
              · exact Or.inl ⟨k3, k2⟩
              · have := hs1.after b hb; omega
            · exact Or.inr ⟨k1, k2⟩

/-- The same for a fixed result. -/
theorem inter_eq {rs ss : List (Nat × Nat)} {n : Nat} {is : List (Nat × Nat)} (hn : rs.length + ss.length ≤ n)
    (h1 : sortedB rs = true) (h2 : sortedB ss = true) (h : inter n rs ss = is) (r : Int) :
    Listed is r ↔ Listed rs r ∧ Listed ss r := by
  rw [← h]
  exact inter_iff n rs ss hn ((sortedB_iff _).mp h1) ((sortedB_iff _).mp h2) r

end Uax
