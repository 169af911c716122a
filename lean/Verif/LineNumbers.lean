import Verif.LineTable

/-! The line breaker's rules for numbers, LB25. -/

namespace Uax
namespace Line

open SpecLine

/-- The states of the rules for numbers. -/
def evN : Rule → LClass → Option Rule
  | .step2, c => if c ∈ [LClass.OP, .HY] then some .step3 else if c ∈ [LClass.NU] then some .step4 else none
  | .step3, c => if c ∈ [LClass.NU] then some .step4 else none
  | .step4, c => if c ∈ [LClass.NU, .SY, .IS] then some .step4 else if c ∈ [LClass.CL, .CP] then some .step5 else none
  | _, _ => none

def acceptsN (R : Rule) (c : LClass) : Bool := R == .step5 || R == .step4 && !decide (c ∈ [LClass.NU, .SY, .IS, .CL, .CP])

def startN : LClass → List Rule
  | .PR => [.step2] | .PO => [.step2] | .OP => [.step3] | .HY => [.step3] | .NU => [.step4] | _ => []

theorem ev_step (g : Ctx) (R : Rule) (hR : R ∈ [Rule.step2, .step3, .step4, .step5]) (ml : Int) (hm : 1 ≤ ml) (c : LClass) :
    (evOf g ⟨R, ml⟩ c.num).1 = (evN R c).map fun R => ⟨R, ml + 1⟩ := by
  have h1 : ¬ ml < 1 := by omega
  simp only [List.mem_cons, List.not_mem_nil, or_false] at hR
  rcases hR with rfl | rfl | rfl | rfl <;>
    (simp only [ev_eq, run, isIn_num, evN, decide_eq_true_eq, accNum, h1, if_false]; (repeat' split) <;> simp_all [more, abort, acc, absOf, Rec.doAbort, Rec.doAccept])

theorem pens_step (g : Ctx) (R : Rule) (hR : R ∈ [Rule.step2, .step3, .step4, .step5]) (ml : Int) (hm : 1 ≤ ml) (c : LClass) :
    (evOf g ⟨R, ml⟩ c.num).2 = if acceptsN R c then ps 25 (if c ∈ [LClass.PR, .PO] then 4 else 0) ml.toNat else [] := by
  have h1 : ¬ ml < 1 := by omega
  have h2 : 0 < ml + 1 := by omega
  have v : p 25 = 4 := by decide +kernel
  simp only [List.mem_cons, List.not_mem_nil, or_false] at hR
  rcases hR with rfl | rfl | rfl | rfl <;>
    (simp only [ev_eq, run, isIn_num, acceptsN, decide_eq_true_eq, accNum, h1, if_false]; cases c <;> simp [more, abort, acc, Rec.doAbort, Rec.doAccept, h2, v])

theorem start_step (g : Ctx) (c : LClass) : ((startsNum c).filterMap fun k => (evOf g k c.num).1) = (startN c).map fun R => ⟨R, 1⟩ := by
  cases c <;> rfl

theorem start_pens (g : Ctx) (c : LClass) (k : LK) (hk : k ∈ startsNum c) : (evOf g k c.num).2 = [] := by
  revert hk
  cases c <;> simp [startsNum, rulesFor, isNum] <;> (rintro rfl; rfl)

theorem nums_cons (c : LC) (h : List LC) :
    nums (c :: h) = ((nums h).filterMap fun k => (evN k.fn c.1).map fun R => ⟨R, k.ml + 1⟩) ++ (startN c.1).map fun R => ⟨R, 1⟩ := by
  simp only [nums, List.filterMap_append, start_step]
  congr 1
  apply filterMap_congr'
  intro k hk
  obtain ⟨h1, h2⟩ := nums_are h k hk
  exact ev_step _ k.fn h2 k.ml h1 _

theorem mem_nums_cons {c : LC} {h : List LC} {k : LK} : k ∈ nums (c :: h) ↔
    (∃ k0 ∈ nums h, evN k0.fn c.1 = some k.fn ∧ k.ml = k0.ml + 1) ∨ (k.fn ∈ startN c.1 ∧ k.ml = 1) := by
  obtain ⟨R, ml⟩ := k
  simp only [nums_cons, List.mem_append, List.mem_filterMap, Option.map_eq_some_iff, LK.mk.injEq, List.mem_map]
  constructor
  · rintro (⟨k0, h1, R', h2, rfl, rfl⟩ | ⟨R', h2, rfl, rfl⟩)
    · exact Or.inl ⟨k0, h1, h2, rfl⟩
    · exact Or.inr ⟨h2, rfl⟩
  · rintro (⟨k0, h1, h2, rfl⟩ | ⟨h2, rfl⟩)
    · exact Or.inl ⟨k0, h1, R, h2, rfl, rfl⟩
    · exact Or.inr ⟨R, h2, rfl, rfl⟩

/-- Is there a recognizer in this state? -/
def has (R : Rule) (h : List LC) : Prop := ∃ k ∈ nums h, k.fn = R

theorem has_cons {R : Rule} {c : LC} {h : List LC} : has R (c :: h) ↔ (∃ R0, has R0 h ∧ evN R0 c.1 = some R) ∨ R ∈ startN c.1 := by
  unfold has
  constructor
  · rintro ⟨k, hk, rfl⟩
    rcases mem_nums_cons.mp hk with ⟨k0, h1, h2, _⟩ | ⟨h1, _⟩
    · exact Or.inl ⟨k0.fn, ⟨k0, h1, rfl⟩, h2⟩
    · exact Or.inr h1
  · rintro (⟨R0, ⟨k0, h1, rfl⟩, h2⟩ | h1)
    · exact ⟨⟨R, k0.ml + 1⟩, mem_nums_cons.mpr (Or.inl ⟨k0, h1, h2, rfl⟩), rfl⟩
    · exact ⟨⟨R, 1⟩, mem_nums_cons.mpr (Or.inr ⟨h1, rfl⟩), rfl⟩

/-- The classes. -/
abbrev cl (h : List LC) : List LClass := h.map Prod.fst

theorem number_cons (c : LClass) (h : List LClass) : number (c :: h) = true ↔ c = .NU ∨ (c ∈ [LClass.SY, .IS] ∧ number h = true) := by
  unfold number
  cases c <;> simp

theorem has_iff (h : List LC) :
    (has .step2 h ↔ (cl h).headD .sot ∈ [LClass.PR, .PO]) ∧ (has .step3 h ↔ (cl h).headD .sot ∈ [LClass.OP, .HY]) ∧
    (has .step4 h ↔ number (cl h) = true) ∧ (has .step5 h ↔ (cl h).headD .sot ∈ [LClass.CL, .CP] ∧ number (cl h).tail = true) ∧
    (∀ R, has R h → R ∈ [Rule.step2, .step3, .step4, .step5]) := by
  induction h with
  | nil => refine ⟨?_, ?_, ?_, ?_, ?_⟩ <;> simp [has, nums, number]
  | cons c h ih =>
    obtain ⟨i2, i3, i4, i5, i⟩ := ih
    obtain ⟨d, s⟩ := c
    have hc : cl ((d, s) :: h) = d :: cl h := rfl
    refine ⟨?_, ?_, ?_, ?_, ?_⟩
    · rw [has_cons, hc, List.headD_cons]
      constructor
      · rintro (⟨R, hR, e⟩ | e)
        · exfalso
          have := i R hR
          simp only [List.mem_cons, List.not_mem_nil, or_false] at this
          rcases this with rfl | rfl | rfl | rfl <;> simp only [evN] at e <;> (repeat' split at e) <;> cases e
        · revert e; cases d <;> simp [startN]
      · intro h; right; revert h; cases d <;> simp [startN]
    · rw [has_cons, hc, List.headD_cons]
      constructor
      · rintro (⟨R, hR, e⟩ | e)
        · have := i R hR
          simp only [List.mem_cons, List.not_mem_nil, or_false] at this
          rcases this with rfl | rfl | rfl | rfl <;> simp only [evN] at e
          · split at e
            · assumption
            · split at e <;> cases e
          · split at e <;> cases e
          · (repeat' split at e) <;> cases e
          · cases e
        · revert e; cases d <;> simp [startN]
      · intro h; right; revert h; cases d <;> simp [startN]
    · rw [has_cons, hc, number_cons, ← i4]
      constructor
      · rintro (⟨R, hR, e⟩ | e)
        · have := i R hR
          simp only [List.mem_cons, List.not_mem_nil, or_false] at this
          rcases this with rfl | rfl | rfl | rfl <;> simp only [evN] at e
          · left; revert e; cases d <;> simp
          · left; revert e; cases d <;> simp
          · revert e
            cases d <;> simp [hR]
          · cases e
        · left; revert e; cases d <;> simp [startN]
      · rintro (rfl | ⟨h1, h2⟩)
        · right; simp [startN]
        · left
          refine ⟨.step4, h2, ?_⟩
          simp only [List.mem_cons, List.not_mem_nil, or_false] at h1
          rcases h1 with rfl | rfl <;> rfl
    · rw [has_cons, hc, List.headD_cons, List.tail_cons, ← i4]
      constructor
      · rintro (⟨R, hR, e⟩ | e)
        · have := i R hR
          simp only [List.mem_cons, List.not_mem_nil, or_false] at this
          rcases this with rfl | rfl | rfl | rfl <;> simp only [evN] at e
          · exfalso; revert e; cases d <;> simp
          · exfalso; revert e; cases d <;> simp
          · revert e
            cases d <;> simp [hR]
          · cases e
        · exfalso; revert e; cases d <;> simp [startN]
      · rintro ⟨h1, h2⟩
        left
        refine ⟨.step4, h2, ?_⟩
        simp only [List.mem_cons, List.not_mem_nil, or_false] at h1
        rcases h1 with rfl | rfl <;> rfl
    · rintro R ⟨k, hk, rfl⟩
      exact (nums_are _ k hk).2

/-! ### Penalties -/

/-- What a recognizer says at an index. -/
def sayN (k : LK) (c : LClass) (j : Nat) : Int := if acceptsN k.fn c then (ps 25 (if c ∈ [LClass.PR, .PO] then 4 else 0) k.ml.toNat).getD j 0 else 0

theorem sum_map_congr {α : Type} {l : List α} {f g : α → Int} (h : ∀ a ∈ l, f a = g a) : (l.map f).sum = (l.map g).sum := by
  rw [List.map_congr_left h]

theorem n25_eq (h : List LC) (c : LC) (j : Nat) : n25 h c j = ((nums h).map fun k => sayN k c.1 j).sum := by
  unfold n25
  rw [List.map_append, List.sum_append]
  have h1 : ((startsNum c.1).map fun k => (evOf (gOf h c) k c.1.num).2.getD j 0).sum = ((startsNum c.1).map fun _ => (0 : Int)).sum := by
    apply sum_map_congr
    intro k hk
    rw [start_pens _ _ k hk]; rfl
  have h2 : ∀ l : List LK, (l.map fun _ => (0 : Int)).sum = 0 := by
    intro l; induction l with
    | nil => rfl
    | cons k l ih => rw [List.map_cons, List.sum_cons, ih]; rfl
  rw [h1, h2, Int.add_zero]
  apply sum_map_congr
  intro k hk
  obtain ⟨m1, m2⟩ := nums_are h k hk
  have := pens_step (gOf h c) k.fn m2 k.ml m1 c.1
  rw [this]
  unfold sayN
  split
  · rfl
  · simp

theorem ps_zero (w : Nat) (f : Int) (l : Nat) : (ps w f l).getD 0 0 = 0 := rfl
theorem ps_one (w : Nat) (f : Int) (l : Nat) : (ps w f l).getD 1 0 = f := rfl
theorem ps_late (f : Int) (l m : Nat) : (ps 25 f l).getD (m + 2) 0 = if m + 2 ≤ l then 4 else 0 := by
  have v : p 25 = 4 := by decide +kernel
  unfold ps
  rw [List.getD_cons_succ, List.getD_cons_succ, List.getD_eq_getElem?_getD, List.getElem?_replicate, v]
  by_cases h : m + 2 ≤ l
  · rw [if_pos h, if_pos (by omega)]; rfl
  · rw [if_neg h, if_neg (by omega)]; rfl

theorem sayN_zero (k : LK) (c : LClass) : sayN k c 0 = 0 := by unfold sayN; split <;> rfl
theorem sayN_one (k : LK) (c : LClass) : sayN k c 1 = if acceptsN k.fn c = true ∧ c ∈ [LClass.PR, .PO] then 4 else 0 := by
  unfold sayN
  by_cases h1 : acceptsN k.fn c = true
  · rw [if_pos h1, ps_one]
    by_cases h2 : c ∈ [LClass.PR, .PO]
    · rw [if_pos h2, if_pos ⟨h1, h2⟩]
    · rw [if_neg h2, if_neg fun h => h2 h.2]
  · rw [if_neg h1, if_neg fun h => h1 h.1]
theorem sayN_late (k : LK) (c : LClass) (m : Nat) : sayN k c (m + 2) = if acceptsN k.fn c = true ∧ m + 2 ≤ k.ml.toNat then 4 else 0 := by
  unfold sayN
  by_cases h1 : acceptsN k.fn c = true
  · rw [if_pos h1, ps_late]
    by_cases h2 : m + 2 ≤ k.ml.toNat
    · rw [if_pos h2, if_pos ⟨h1, h2⟩]
    · rw [if_neg h2, if_neg fun h => h2 h.2]
  · rw [if_neg h1, if_neg fun h => h1 h.1]

theorem sayN_pos (k : LK) (c : LClass) (j : Nat) : 0 ≤ sayN k c j := by
  match j with
  | 0 => rw [sayN_zero]; omega
  | 1 => rw [sayN_one]; split <;> omega
  | m + 2 => rw [sayN_late]; split <;> omega

theorem sum_nonneg {α : Type} (l : List α) (f : α → Int) (h : ∀ a ∈ l, 0 ≤ f a) : 0 ≤ (l.map f).sum ∧ (∀ a ∈ l, f a ≤ (l.map f).sum) := by
  induction l with
  | nil => exact ⟨by simp, by simp⟩
  | cons x l ih =>
    obtain ⟨i1, i2⟩ := ih fun a ha => h a (List.mem_cons_of_mem _ ha)
    have hx := h x List.mem_cons_self
    rw [List.map_cons, List.sum_cons]
    refine ⟨by omega, ?_⟩
    intro a ha
    rcases List.mem_cons.mp ha with rfl | ha
    · omega
    · have := i2 a ha; omega

theorem sum_zero {α : Type} (l : List α) (f : α → Int) (h : ∀ a ∈ l, f a = 0) : (l.map f).sum = 0 := by
  induction l with
  | nil => rfl
  | cons x l ih => rw [List.map_cons, List.sum_cons, ih fun a ha => h a (List.mem_cons_of_mem _ ha), h x List.mem_cons_self]; rfl

theorem n25_nonneg (h : List LC) (c : LC) (j : Nat) : 0 ≤ n25 h c j := by
  rw [n25_eq]
  exact (sum_nonneg _ _ fun k _ => sayN_pos k c.1 j).1

theorem n25_zero (h : List LC) (c : LC) : n25 h c 0 = 0 := by
  rw [n25_eq]
  exact sum_zero _ _ fun k _ => sayN_zero k c.1

/-- LB25 for a suffix: decided at once. -/
def join1 (h : List LC) (d : LClass) : Bool :=
  (number (cl h) || decide ((cl h).headD .sot ∈ [LClass.CL, .CP]) && number (cl h).tail) && decide (d ∈ [LClass.PO, .PR])

theorem join1_iff (h : List LC) (d : LClass) : join1 h d = true ↔ (has .step4 h ∨ has .step5 h) ∧ d ∈ [LClass.PR, .PO] := by
  obtain ⟨_, _, i4, i5, _⟩ := has_iff h
  unfold join1
  rw [i4, i5]
  simp only [Bool.and_eq_true, Bool.or_eq_true, decide_eq_true_eq]
  have : d ∈ [LClass.PO, .PR] ↔ d ∈ [LClass.PR, .PO] := by
    simp only [List.mem_cons, List.not_mem_nil, or_false]; exact Or.comm
  rw [this]

theorem n25_one_join {h : List LC} {c : LC} (hj : join1 h c.1 = true) : 4 ≤ n25 h c 1 := by
  obtain ⟨h1, h2⟩ := (join1_iff h c.1).mp hj
  rw [n25_eq]
  have h3 : ∃ k ∈ nums h, acceptsN k.fn c.1 = true := by
    rcases h1 with ⟨k, hk, e⟩ | ⟨k, hk, e⟩
    · refine ⟨k, hk, ?_⟩
      rw [e]
      simp only [List.mem_cons, List.not_mem_nil, or_false] at h2
      rcases h2 with h2 | h2 <;> rw [h2] <;> rfl
    · exact ⟨k, hk, by rw [e]; rfl⟩
  obtain ⟨k, hk, e⟩ := h3
  have h4 := (sum_nonneg (nums h) (fun k => sayN k c.1 1) fun k _ => sayN_pos k c.1 1).2 k hk
  have h5 : sayN k c.1 1 = 4 := by rw [sayN_one, if_pos ⟨e, h2⟩]
  simp only [h5] at h4
  exact h4

theorem n25_one_not {h : List LC} {c : LC} (hj : join1 h c.1 = false) : n25 h c 1 = 0 := by
  rw [n25_eq]
  apply sum_zero
  intro k hk
  rw [sayN_one, if_neg]
  rintro ⟨h1, h2⟩
  have : join1 h c.1 = true := by
    rw [join1_iff]
    refine ⟨?_, h2⟩
    unfold acceptsN at h1
    simp only [Bool.or_eq_true, beq_iff_eq, Bool.and_eq_true] at h1
    rcases h1 with h1 | ⟨h1, _⟩
    · exact Or.inr ⟨k, hk, h1⟩
    · exact Or.inl ⟨k, hk, h1⟩
  rw [hj] at this; cases this

/-! ### Late penalties -/

/-- LB25 without the suffix: decided later. -/
def join2 (h : List LC) (d : LClass) (next : Option LClass) : Bool :=
  decide ((cl h).headD .sot ∈ [LClass.PR, .PO]) && (d == .NU || decide (d ∈ [LClass.OP, .HY]) && next == some .NU)
  || decide ((cl h).headD .sot ∈ [LClass.OP, .HY]) && d == .NU
  || number (cl h) && decide (d ∈ [LClass.NU, .SY, .IS, .CL, .CP])

theorem lb25_eq (h : List LC) (d : LClass) (next : Option LClass) : lb25 (cl h) d next = (join2 h d next || join1 h d) := rfl

theorem num_head {h : List LC} (hn : number (cl h) = true) : (cl h).headD .sot ∈ [LClass.NU, .SY, .IS] := by
  cases h with
  | nil => cases hn
  | cons c h =>
    rcases (number_cons _ _).mp hn with h | ⟨h, _⟩
    · simp [cl, h]
    · simp only [cl, List.map_cons, List.headD_cons]
      exact List.mem_cons_of_mem _ h

theorem lb25_pair {h : List LC} {d : LClass} {next : Option LClass} (hq : lb25 (cl h) d next = true) : pair25 ((cl h).headD .sot) d = true := by
  unfold lb25 at hq
  unfold pair25
  simp only [Bool.or_eq_true, Bool.and_eq_true, decide_eq_true_eq, beq_iff_eq] at hq ⊢
  rcases hq with ((⟨h1, h2⟩ | h) | ⟨h1, h2⟩) | ⟨h1, h2⟩
  · refine Or.inl (Or.inl (Or.inl ⟨h1, ?_⟩))
    rcases h2 with h2 | ⟨h2, _⟩
    · rw [h2]; decide
    · exact List.mem_cons_of_mem _ h2
  · exact Or.inl (Or.inl (Or.inr h))
  · refine Or.inl (Or.inr ⟨num_head h1, ?_⟩)
    simp only [List.mem_cons, List.not_mem_nil, or_false] at h2 ⊢
    rcases h2 with h | h | h | h | h <;> simp [h]
  · rcases h1 with h1 | ⟨h1, _⟩
    · refine Or.inl (Or.inr ⟨num_head h1, ?_⟩)
      simp only [List.mem_cons, List.not_mem_nil, or_false] at h2 ⊢
      rcases h2 with h | h <;> simp [h]
    · exact Or.inr ⟨h1, h2⟩

/-- Old recognizers after one more class. -/
theorem old_step {h : List LC} {d : LC} {k : LK} (hk : k ∈ nums (d :: h)) (hm : 2 ≤ k.ml) :
    ∃ k0 ∈ nums h, evN k0.fn d.1 = some k.fn ∧ k.ml = k0.ml + 1 := by
  rcases mem_nums_cons.mp hk with h | ⟨_, h⟩
  · exact h
  · omega

/-- If LB25 does not apply, old recognizers get lost. -/
theorem old_lost {h : List LC} {d : LC} {rest : List LC} (hq : join2 h d.1 ((cl rest).head?) = false) :
    ∀ (m : Nat), m ≤ rest.length → ∀ k ∈ nums ((rest.take m).reverse ++ d :: h), (m : Int) + 2 ≤ k.ml → m = 0 ∧ k.fn = .step3 ∧ (cl rest).head? ≠ some .NU := by
  intro m
  induction m with
  | zero =>
    intro _ k hk hm
    obtain ⟨k0, h1, h2, h3⟩ := old_step (d := d) (h := h) (by simpa using hk) (by omega)
    refine ⟨rfl, ?_⟩
    obtain ⟨i2, i3, i4, i5, i⟩ := has_iff h
    have hh : has k0.fn h := ⟨k0, h1, rfl⟩
    have := i _ hh
    unfold join2 at hq
    simp only [Bool.or_eq_false_iff, Bool.and_eq_false_iff, decide_eq_false_iff_not, beq_eq_false_iff_ne, ne_eq] at hq
    obtain ⟨⟨q1, q2⟩, q3⟩ := hq
    simp only [List.mem_cons, List.not_mem_nil, or_false] at this
    rcases this with e | e | e | e <;> rw [e] at hh h2 <;> simp only [evN] at h2
    · have q1 := q1.resolve_left (fun h => h (i2.mp hh))
      split at h2
      · rename_i ho
        refine ⟨(Option.some.inj h2).symm, fun hn => ?_⟩
        exact (q1.2.resolve_left (fun h => h ho)) hn
      · split at h2
        · rename_i hn
          exact absurd (by simpa using hn) q1.1
        · cases h2
    · have q2 := q2.resolve_left (fun h => h (i3.mp hh))
      split at h2
      · rename_i hn
        exact absurd (by simpa using hn) q2
      · cases h2
    · have q3 := q3.resolve_left (fun h => by rw [i4.mp hh] at h; cases h)
      exfalso
      split at h2
      · rename_i hn
        apply q3
        simp only [List.mem_cons, List.not_mem_nil, or_false] at hn ⊢
        rcases hn with h | h | h <;> simp [h]
      · split at h2
        · rename_i hn
          apply q3
          simp only [List.mem_cons, List.not_mem_nil, or_false] at hn ⊢
          rcases hn with h | h <;> simp [h]
        · cases h2
    · cases h2
  | succ m ih =>
    intro hm k hk hml
    exfalso
    have hlt : m < rest.length := by omega
    rw [List.take_succ_eq_append_getElem hlt, List.reverse_append] at hk
    obtain ⟨k0, h1, h2, h3⟩ := old_step (d := rest[m]) (h := (rest.take m).reverse ++ d :: h) (by simpa using hk) (by omega)
    obtain ⟨rfl, e2, e3⟩ := ih (by omega) k0 h1 (by omega)
    rw [e2] at h2
    simp only [evN] at h2
    split at h2
    · rename_i hn
      apply e3
      cases rest with
      | nil => cases hlt
      | cons x rest => simpa using hn
    · cases h2

theorem late_none {h : List LC} {d : LC} {rest : List LC} (hq : join2 h d.1 ((cl rest).head?) = false) {m : Nat} {c : LC} (hc : rest[m]? = some c) :
    n25 ((rest.take m).reverse ++ d :: h) c (m + 2) = 0 := by
  have hm := (List.getElem?_eq_some_iff.mp hc).1
  rw [n25_eq]
  apply sum_zero
  intro k hk
  rw [sayN_late, if_neg]
  rintro ⟨h1, h2⟩
  obtain ⟨_, h3, _⟩ := old_lost hq m (by omega) k hk (by omega)
  rw [h3] at h1
  cases h1

/-- If LB25 applies, there is a recognizer until it says so. -/
theorem old_kept {h : List LC} {d : LC} {rest : List LC} (hq : join2 h d.1 ((cl rest).head?) = true) :
    ∀ (m : Nat), m ≤ rest.length →
      (∃ k ∈ nums ((rest.take m).reverse ++ d :: h), (m : Int) + 2 ≤ k.ml ∧
        (k.fn = .step4 ∨ k.fn = .step5 ∨ (m = 0 ∧ k.fn = .step3 ∧ (cl rest).head? = some .NU))) ∨
      ∃ m' c, m' < m ∧ rest[m']? = some c ∧ 4 ≤ n25 ((rest.take m').reverse ++ d :: h) c (m' + 2) := by
  intro m
  induction m with
  | zero =>
    intro _
    left
    obtain ⟨i2, i3, i4, i5, i⟩ := has_iff h
    have key : ∃ R0 R, has R0 h ∧ evN R0 d.1 = some R ∧ (R = .step4 ∨ R = .step5 ∨ R = .step3 ∧ (cl rest).head? = some .NU) := by
      unfold join2 at hq
      simp only [Bool.or_eq_true, Bool.and_eq_true, decide_eq_true_eq, beq_iff_eq] at hq
      rcases hq with (⟨h1, h2⟩ | ⟨h1, h2⟩) | ⟨h1, h2⟩
      · rcases h2 with h2 | ⟨h2, h3⟩
        · exact ⟨.step2, .step4, i2.mpr h1, by rw [h2]; rfl, Or.inl rfl⟩
        · exact ⟨.step2, .step3, i2.mpr h1, by simp only [evN]; rw [if_pos h2], Or.inr (Or.inr ⟨rfl, h3⟩)⟩
      · exact ⟨.step3, .step4, i3.mpr h1, by rw [h2]; rfl, Or.inl rfl⟩
      · simp only [List.mem_cons, List.not_mem_nil, or_false] at h2
        rcases h2 with h2 | h2 | h2 | h2 | h2
        · exact ⟨.step4, .step4, i4.mpr h1, by rw [h2]; rfl, Or.inl rfl⟩
        · exact ⟨.step4, .step4, i4.mpr h1, by rw [h2]; rfl, Or.inl rfl⟩
        · exact ⟨.step4, .step4, i4.mpr h1, by rw [h2]; rfl, Or.inl rfl⟩
        · exact ⟨.step4, .step5, i4.mpr h1, by rw [h2]; rfl, Or.inr (Or.inl rfl)⟩
        · exact ⟨.step4, .step5, i4.mpr h1, by rw [h2]; rfl, Or.inr (Or.inl rfl)⟩
    obtain ⟨R0, R, ⟨k0, hk0, rfl⟩, e1, e2⟩ := key
    refine ⟨⟨R, k0.ml + 1⟩, ?_, ?_, ?_⟩
    · simp only [List.take_zero, List.reverse_nil, List.nil_append]
      exact mem_nums_cons.mpr (Or.inl ⟨k0, hk0, e1, rfl⟩)
    · have := (nums_are h k0 hk0).1
      simp only
      omega
    · rcases e2 with e | e | ⟨e, e'⟩
      · exact Or.inl e
      · exact Or.inr (Or.inl e)
      · exact Or.inr (Or.inr ⟨rfl, e, e'⟩)
  | succ m ih =>
    intro hm
    have hlt : m < rest.length := by omega
    rcases ih (by omega) with ⟨k, hk, hml, hst⟩ | ⟨m', c, h1, h2, h3⟩
    · have hc : rest[m]? = some rest[m] := List.getElem?_eq_getElem hlt
      by_cases ha : acceptsN k.fn rest[m].1 = true
      · right
        refine ⟨m, rest[m], by omega, hc, ?_⟩
        rw [n25_eq]
        have h4 := (sum_nonneg (nums ((rest.take m).reverse ++ d :: h)) (fun k => sayN k rest[m].1 (m + 2)) fun k _ => sayN_pos k _ _).2 k hk
        have h5 : sayN k rest[m].1 (m + 2) = 4 := by rw [sayN_late, if_pos ⟨ha, by omega⟩]
        simp only [h5] at h4
        exact h4
      · left
        have key : ∃ R, evN k.fn rest[m].1 = some R ∧ (R = .step4 ∨ R = .step5) := by
          rcases hst with e | e | ⟨rfl, e, e'⟩
          · rw [e] at ha ⊢
            revert ha
            generalize rest[m].1 = x
            cases x <;> simp [acceptsN, evN]
          · rw [e] at ha; exact absurd rfl ha
          · rw [e]
            refine ⟨.step4, ?_, Or.inl rfl⟩
            have : rest[0].1 = .NU := by
              cases rest with
              | nil => cases hlt
              | cons x rest => simpa using e'
            rw [this]; rfl
        obtain ⟨R, e1, e2⟩ := key
        refine ⟨⟨R, k.ml + 1⟩, ?_, ?_, ?_⟩
        · rw [List.take_succ_eq_append_getElem hlt, List.reverse_append]
          exact mem_nums_cons.mpr (Or.inl ⟨k, hk, e1, rfl⟩)
        · simp only; omega
        · rcases e2 with e | e
          · exact Or.inl e
          · exact Or.inr (Or.inl e)
    · exact Or.inr ⟨m', c, by omega, h2, h3⟩

end Line
end Uax
