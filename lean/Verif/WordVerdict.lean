import Verif.WordTotals
import Verif.Decide
import Verif.SimpleWordProofs

/-! What the word breaker says about every position. -/

namespace Uax
open Seg

namespace Word

open Bank

variable (T : WTables)

theorem stepO_rep {h : List WClass} {b : WBrk} (hR : Rep h b) (r : Int) :
    ∃ b', stepO T b r = some b' ∧ Rep (classOf T r :: h) b' ∧ Longest V b'.longest (acts (classOf T r :: h)) ∧
      (∀ j, b'.penalties.getD j 0 = fixed (tot h (classOf T r)) j) ∧ b'.penalties.length = plen h (classOf T r) :=
  step_rep hR r (classOf T r)

theorem step_eq {h : List WClass} {b : WBrk} (hR : Rep h b) (r : Int) :
    Rep (classOf T r :: h) ((breaker T).step b r).1 ∧ Longest V ((breaker T).step b r).2.1 (acts (classOf T r :: h)) ∧
    (∀ j, ((breaker T).step b r).2.2.getD j 0 = fixed (tot h (classOf T r)) j) ∧
    ((breaker T).step b r).2.2.length = plen h (classOf T r) := by
  obtain ⟨b', e, h1, h2, h3⟩ := stepO_rep T hR r
  simp only [breaker, e]
  exact ⟨h1, h2, h3⟩

theorem run_rep : ∀ (rs : List Int) {h : List WClass} {b : WBrk}, Rep h b →
    Rep ((rs.map (classOf T)).reverse ++ h) ((breaker T).run b rs) := by
  intro rs
  induction rs with
  | nil => intro h b hR; exact hR
  | cons r rs ih =>
    intro h b hR
    have := ih (step_eq T hR r).1
    rw [List.map_cons, List.reverse_cons, List.append_assoc]
    exact this

theorem new_rep : Rep [] Word.new := ⟨empty_holds V, rfl, by decide⟩

/-- Classes read before index `i`, nearest first. -/
def H (cs : List WClass) (i : Nat) : List WClass := (cs.take i).reverse

theorem H_succ (cs : List WClass) (i : Nat) (c : WClass) (h : cs[i]? = some c) : H cs (i + 1) = c :: H cs i := by
  unfold H
  rw [List.take_add_one, h]
  simp

theorem verd {b : WBrk} (hR : Rep [] b) (rs : List Int) (i : Nat) (c : WClass) (hc : (rs.map (classOf T))[i]? = some c) :
    ∃ v, (verdicts (breaker T) [b] rs)[i]? = some v ∧ Longest V v.lam (acts (c :: H (rs.map (classOf T)) i)) ∧
      (∀ j, v.prim.getD j 0 = fixed (tot (H (rs.map (classOf T)) i) c) j) ∧ v.prim.length = plen (H (rs.map (classOf T)) i) c ∧ v.sec = [] := by
  rw [List.getElem?_map] at hc
  obtain ⟨r, hr, rfl⟩ := Option.map_eq_some_iff.mp hc
  have hrun := run_rep T (rs.take i) hR
  rw [List.append_nil, List.map_take] at hrun
  obtain ⟨h1, h2, h3, h4⟩ := step_eq T hrun r
  rw [verdicts_get, hr]
  refine ⟨_, rfl, ?_, ?_, ?_, ?_⟩
  · simp only [verdict, List.map_cons, List.map_nil, maxLam]
    rw [Int.max_eq_left h2.nonneg]
    exact h2
  · simpa [verdict, H] using h3
  · simpa [verdict, H] using h4
  · rfl

/-! ### One position -/

/-- A later character will forbid the break. -/
def fut (R : Rule) (h : List WClass) (d : WClass) (rest : List WClass) : Bool :=
  mid R d && hd (lft R) (skip h) && hd (rgt R) (if R = .WB7bc then rest else skip rest)

def triples : List Rule := [.WB6_7, .WB7bc, .WB11]

/-- There is a boundary between the classes `h` (nearest first) and `d :: rest`. -/
def wb (h : List WClass) (d : WClass) (rest : List WClass) : Bool :=
  if hd (· == .CR) h = true ∧ d = .LF then false
  else if (hd WClass.nl h || d.nl) = true then true
  else if (allRules.any fun R => joins R h d) = true then false
  else !(triples.any fun R => fut R h d rest)

theorem mid_not_ign {R : Rule} {c : WClass} (h : mid R c = true) : c.ign = false := by
  cases c <;> first | rfl | (cases R <;> cases h)

theorem rgt_not_ign {R : Rule} {c : WClass} (h : rgt R c = true) : c.ign = false := by
  cases hc : c.ign with
  | false => rfl
  | true => rw [rgt_ign hc] at h; cases h

theorem nl_not {c : WClass} (h : c.nl = true) (R : Rule) : c.ign = false ∧ lft R c = false ∧ rgt R c = false ∧ mid R c = false := by
  cases c <;> first | (cases h; done) | (cases R <;> exact ⟨rfl, rfl, rfl, rfl⟩)

theorem midRead_nl {R : Rule} {h : List WClass} (hn : hd WClass.nl h = true) : midRead R h = false := by
  cases h with
  | nil => cases hn
  | cons a h =>
    have := nl_not hn R
    unfold midRead
    rw [skip_not this.1, hd_cons, this.2.2.2]; rfl

theorem lft_nl {R : Rule} {h : List WClass} (hn : hd WClass.nl h = true) : hd (lft R) (skip h) = false := by
  cases h with
  | nil => cases hn
  | cons a h =>
    have := nl_not hn R
    rw [skip_not this.1, hd_cons, this.2.1]

theorem hd_imp {P Q : WClass → Bool} (h : ∀ c, P c = true → Q c = true) {l : List WClass} (hl : hd P l = true) : hd Q l = true := by
  cases l with
  | nil => cases hl
  | cons a l => exact h a hl

/-- No rule joins at a newline. -/
theorem joins_nl {R : Rule} (hR : R ∈ allRules) {h : List WClass} {d : WClass} (hn : (hd WClass.nl h || d.nl) = true) : joins R h d = false := by
  rcases Bool.or_eq_true _ _ |>.mp hn with hn | hn
  · have e1 := midRead_nl (R := R) hn
    have e2 := lft_nl (R := R) hn
    have e3 : odd h = false := by
      cases h with
      | nil => rfl
      | cons a h =>
        simp only [hd_cons] at hn
        cases a <;> first | (cases hn; done) | rfl
    have e4 : hd (· == .ZWJ) h = false ∧ hd (· == .WSegSpace) h = false := by
      cases h with
      | nil => exact ⟨rfl, rfl⟩
      | cons a h =>
        simp only [hd_cons] at hn
        cases a <;> first | (cases hn; done) | exact ⟨rfl, rfl⟩
    cases R <;> simp only [joins, e1, e2, e3, e4, hn, Bool.false_and, Bool.and_false, Bool.false_or, Bool.not_true]
  · have e1 := nl_not hn R
    have e2 : (d == .Pict) = false ∧ (d == .WSegSpace) = false ∧ (d == .RI) = false := by
      cases d <;> first | (cases hn; done) | exact ⟨rfl, rfl, rfl⟩
    cases R <;> simp only [joins, e1, e2, Bool.and_false, Bool.false_and]

theorem all_false {α : Type} {l : List α} {p : α → Bool} (h : ∀ a ∈ l, p a = false) : (l.map fun a => if p a then (1 : Int) else 0).sum = 0 :=
  (sum_pos l p).2.mpr h

theorem cnt_nl {h : List WClass} {d : WClass} (hn : (hd WClass.nl h || d.nl) = true) : cnt h d = 0 :=
  all_false fun _ hR => joins_nl hR hn

theorem nlc0 (h : List WClass) (c : WClass) : nlc h c 0 ≤ 0 ∧ -20000 ≤ nlc h c 0 ∧ (nlc h c 0 ≠ 0 → c = .LF ∨ c = .Newline) ∧
    (nlc h c 0 = 0 ∨ nlc h c 0 = -10000 ∨ nlc h c 0 = -20000) := by
  simp only [nlc, MustBreak]
  by_cases h1 : hd (· == .CR) h = true ∧ c = .LF
  · rw [if_pos h1, if_pos (Or.inl h1.2)]
    refine ⟨by omega, by omega, fun _ => Or.inl h1.2, by omega⟩
  · rw [if_neg h1]
    by_cases h2 : c = .LF ∨ c = .Newline
    · rw [if_pos h2]; exact ⟨by omega, by omega, fun _ => h2, by omega⟩
    · rw [if_neg h2]; exact ⟨by omega, by omega, fun h => absurd rfl h, by omega⟩

/-- Late penalties after reading `d` and the first `m` of `rest`. -/
theorem late_fut {R : Rule} {h : List WClass} {d : WClass} {rest : List WClass} {m : Nat} {c : WClass} (hc : rest[m]? = some c)
    (hl : late R ((rest.take m).reverse ++ d :: h) c (m + 2) = true) :
    R ∈ triples ∧ (fut R h d rest = true ∨ (d.ign = true ∧ m = 0 ∧ hd WClass.nl h = false)) := by
  unfold late at hl
  simp only [Bool.and_eq_true, decide_eq_true_eq] at hl
  obtain ⟨⟨⟨h1, h2⟩, h3⟩, h4⟩ := hl
  refine ⟨by rcases triple_cases h1 with rfl | rfl | rfl <;> decide, ?_⟩
  by_cases h7 : R = .WB7bc
  · subst h7
    simp only [if_true] at h4
    have hm : m = 0 := by omega
    subst hm
    simp only [List.take_zero, List.reverse_nil, List.nil_append] at h2
    cases hd' : d.ign with
    | true =>
      right
      refine ⟨rfl, rfl, ?_⟩
      cases hn : hd WClass.nl h with
      | false => rfl
      | true =>
        have := midRead_nl (R := .WB7bc) hn
        unfold midRead at h2 this
        rw [skip_ign hd', this] at h2; cases h2
    | false =>
      left
      unfold midRead at h2
      rw [skip_not hd', hd_cons, List.tail_cons, Bool.and_eq_true] at h2
      unfold fut
      simp only [h2.1, h2.2, if_true, Bool.true_and]
      cases rest with
      | nil => simp at hc
      | cons x rest => simp only [List.getElem?_cons_zero, Option.some.injEq] at hc; subst hc; exact h3
  · left
    rw [if_neg h7] at h4
    have hlen : (rest.take m).length = m := by
      have := (List.getElem?_eq_some_iff.mp hc).1
      rw [List.length_take]; omega
    have hni : ni ((rest.take m).reverse ++ d :: h) = m := by omega
    -- the first `m` of `rest` are ignorable, `d` is not
    have key : ∀ (w : List WClass), ni (w ++ d :: h) = w.length → (∀ x ∈ w, x.ign = true) ∧ d.ign = false := by
      intro w
      induction w with
      | nil =>
        intro hw
        refine ⟨by simp, ?_⟩
        cases hd' : d.ign with
        | false => rfl
        | true => rw [List.nil_append, ni_ign hd'] at hw; simp at hw
      | cons x w ih =>
        intro hw
        cases hx : x.ign with
        | false => rw [List.cons_append, ni_not hx] at hw; simp at hw
        | true =>
          rw [List.cons_append, ni_ign hx] at hw
          obtain ⟨i1, i2⟩ := ih (by simp at hw; omega)
          refine ⟨?_, i2⟩
          intro y hy
          rcases List.mem_cons.mp hy with rfl | hy
          · exact hx
          · exact i1 y hy
    obtain ⟨k1, k2⟩ := key _ (by rw [hni, List.length_reverse, hlen])
    have hskip : skip ((rest.take m).reverse ++ d :: h) = d :: h := by
      have : ∀ (w : List WClass), (∀ x ∈ w, x.ign = true) → skip (w ++ d :: h) = d :: h := by
        intro w
        induction w with
        | nil => intro _; exact skip_not k2 h
        | cons x w ih =>
          intro hw
          rw [List.cons_append, skip_ign (hw x List.mem_cons_self), ih fun y hy => hw y (List.mem_cons_of_mem _ hy)]
      exact this _ k1
    unfold midRead at h2
    rw [hskip, hd_cons, List.tail_cons, Bool.and_eq_true] at h2
    have hrest : skip rest = c :: rest.drop (m + 1) := by
      have e : rest = rest.take m ++ c :: rest.drop (m + 1) := by
        have hi := (List.getElem?_eq_some_iff.mp hc).1
        have hx := (List.getElem?_eq_some_iff.mp hc).2
        rw [← hx, List.getElem_cons_drop, List.take_append_drop]
      have k1' : ∀ x ∈ rest.take m, x.ign = true := fun x hx => k1 x (List.mem_reverse.mpr hx)
      rw [e]
      have : ∀ (w : List WClass) (t : List WClass), (∀ x ∈ w, x.ign = true) → skip (w ++ c :: t) = c :: t := by
        intro w t
        induction w with
        | nil => intro _; exact skip_not (rgt_not_ign h3) t
        | cons x w ih =>
          intro hw
          rw [List.cons_append, skip_ign (hw x List.mem_cons_self), ih fun y hy => hw y (List.mem_cons_of_mem _ hy)]
      rw [this _ _ k1', ← e]
    unfold fut
    rw [h2.1, h2.2, if_neg h7, hrest, hd_cons, h3]; rfl

theorem lcnt_pos (h : List WClass) (c : WClass) (j : Nat) : 0 ≤ lcnt h c j := (sum_pos allRules fun R => late R h c j).1

theorem cnt_pos (h : List WClass) (c : WClass) : 0 ≤ cnt h c := (sum_pos allRules fun R => joins R h c).1

theorem nlc_late (h : List WClass) (c : WClass) (m : Nat) : nlc h c (m + 2) = if m = 0 ∧ hd (· == .CR) h = true ∧ c ≠ .LF then -10000 else 0 := by
  cases m with
  | zero => simp only [nlc, MustBreak, true_and]
  | succ m => simp [nlc]

theorem term_late (h : List WClass) (d : WClass) (rest : List WClass) (m : Nat) (c : WClass) (hm : m ≤ rest.length) :
    fixed (tot ((rest.take m).reverse ++ d :: h) c) (m + 2) =
      (if m = 0 ∧ d = .CR ∧ c ≠ .LF then -10000 else 0) + 10000 * lcnt ((rest.take m).reverse ++ d :: h) c (m + 2) := by
  unfold fixed
  rw [if_neg (by omega), tot_parts, if_neg (show ¬ m + 2 = 1 by omega), if_pos (show 2 ≤ m + 2 by omega), nlc_late]
  have : (m = 0 ∧ hd (· == .CR) ((rest.take m).reverse ++ d :: h) = true ∧ c ≠ .LF) ↔ (m = 0 ∧ d = .CR ∧ c ≠ .LF) := by
    constructor
    · rintro ⟨rfl, h1, h2⟩
      simp only [List.take_zero, List.reverse_nil, List.nil_append, hd_cons, beq_iff_eq] at h1
      exact ⟨rfl, h1, h2⟩
    · rintro ⟨rfl, h1, h2⟩
      refine ⟨rfl, ?_, h2⟩
      simp only [List.take_zero, List.reverse_nil, List.nil_append, hd_cons, beq_iff_eq]
      exact h1
  rw [show (if m = 0 ∧ hd (· == .CR) ((rest.take m).reverse ++ d :: h) = true ∧ c ≠ .LF then (-10000 : Int) else 0) = if m = 0 ∧ d = .CR ∧ c ≠ .LF then -10000 else 0 from if_congr this rfl rfl]
  unfold Suppress
  omega

/-! ### Sums -/

variable {T}

/-- Position `i` of a text with classes `cs`. -/
structure At (vs : List Verdict) (cs : List WClass) (i : Nat) (h : List WClass) (d : WClass) (rest : List WClass) : Prop where
  len : vs.length = i + 2 + rest.length
  s0 : soFar0 vs i 0 = 0 ∨ (hd WClass.nl h = true ∧ (soFar0 vs i 0 = -10000 ∨ soFar0 vs i 0 = -20000))
  s0cr : hd (· == .CR) h = true → soFar0 vs i 0 = 0
  one : term vs i 1 = fixed (tot h d) 1
  late : ∀ m c, rest[m]? = some c → term vs i (m + 2) = (if m = 0 ∧ d = .CR ∧ c ≠ .LF then -10000 else 0) + 10000 * lcnt ((rest.take m).reverse ++ d :: h) c (m + 2)
  open' : ∀ m, m ≤ rest.length → ripe vs i (m + 1) = true → ∀ k ∈ acts ((rest.take m).reverse ++ d :: h), k.ml ≤ ((m + 1 : Nat) : Int)

theorem nl_of_cr {h : List WClass} (hc : hd (· == .CR) h = true) : hd WClass.nl h = true := hd_imp (fun c hc => by rw [beq_iff_eq] at hc; subst hc; rfl) hc

theorem tot_one (h : List WClass) (d : WClass) : tot h d 1 = nlc h d 1 + 10000 * cnt h d := by
  rw [tot_parts, if_pos rfl, if_neg (by omega)]
  unfold Suppress; omega

theorem nlc_one_calm {h : List WClass} {d : WClass} (hn : ¬ (hd WClass.nl h || d.nl) = true) : nlc h d 1 = 0 := by
  rw [Bool.or_eq_true, not_or] at hn
  have h1 : ¬ hd (· == .CR) h = true := fun hc => hn.1 (nl_of_cr hc)
  have h2 : ¬ (d = .LF ∨ d = .Newline) := by
    rintro (rfl | rfl) <;> exact hn.2 rfl
  simp only [nlc, if_neg h1, if_neg h2]
  rfl

theorem nlc_one_nl {h : List WClass} {d : WClass} (hn : ¬ (hd (· == .CR) h = true ∧ d = .LF)) : nlc h d 1 = 0 ∨ nlc h d 1 = -10000 ∨ nlc h d 1 = -20000 := by
  simp only [nlc, MustBreak]
  by_cases h1 : hd (· == .CR) h = true
  · have h2 : ¬ d = .LF := fun h => hn ⟨h1, h⟩
    rw [if_pos h1, if_neg h2]
    split <;> omega
  · rw [if_neg h1]
    split <;> omega

theorem lcnt_zero {h : List WClass} {d : WClass} {rest : List WClass} {m : Nat} {c : WClass} (hc : rest[m]? = some c)
    (h1 : ∀ R ∈ triples, fut R h d rest = false) (h2 : d.ign = true → hd WClass.nl h = true) :
    lcnt ((rest.take m).reverse ++ d :: h) c (m + 2) = 0 := by
  refine all_false fun R _ => ?_
  cases hl : late R ((rest.take m).reverse ++ d :: h) c (m + 2) with
  | false => rfl
  | true =>
    obtain ⟨h3, h4 | ⟨h4, _, h5⟩⟩ := late_fut hc hl
    · rw [h1 R h3] at h4; cases h4
    · rw [h2 h4] at h5; cases h5

theorem says_yes {vs : List Verdict} {cs : List WClass} {i : Nat} {h : List WClass} {d : WClass} {rest : List WClass}
    (A : At vs cs i h d rest) (hw : wb h d rest = true) : SaysYes vs i := by
  unfold wb at hw
  by_cases c1 : hd (· == .CR) h = true ∧ d = .LF
  · rw [if_pos c1] at hw; cases hw
  rw [if_neg c1] at hw
  -- no late joins
  have hfut : (∀ R ∈ triples, fut R h d rest = false) ∧ (d.ign = true → hd WClass.nl h = true) ∧ cnt h d = 0 ∧ ((hd WClass.nl h || d.nl) = true ∨ ¬ (hd WClass.nl h || d.nl) = true) := by
    by_cases c2 : (hd WClass.nl h || d.nl) = true
    · refine ⟨fun R _ => ?_, fun hi => ?_, cnt_nl c2, Or.inl c2⟩
      · unfold fut
        rcases Bool.or_eq_true _ _ |>.mp c2 with c | c
        · rw [lft_nl c, Bool.and_false, Bool.false_and]
        · rw [(nl_not c R).2.2.2, Bool.false_and, Bool.false_and]
      · rcases Bool.or_eq_true _ _ |>.mp c2 with c | c
        · exact c
        · rw [(nl_not c .WB4).1] at hi; cases hi
    · rw [if_neg c2] at hw
      by_cases c3 : (allRules.any fun R => joins R h d) = true
      · rw [if_pos c3] at hw; cases hw
      · rw [if_neg c3, Bool.not_eq_true'] at hw
        have hj : ∀ R ∈ allRules, joins R h d = false := by
          intro R hR
          cases hj : joins R h d with
          | false => rfl
          | true => exact absurd (List.any_eq_true.mpr ⟨R, hR, hj⟩) c3
        refine ⟨fun R hR => ?_, fun hi => ?_, all_false hj, Or.inr c2⟩
        · cases hf : fut R h d rest with
          | false => rfl
          | true => rw [List.any_eq_true.mpr ⟨R, hR, hf⟩] at hw; cases hw
        · have := hj .WB4 (by decide)
          simp only [joins, hi, Bool.true_and, Bool.not_eq_false'] at this
          exact this
  obtain ⟨f1, f2, f3, f4⟩ := hfut
  have key : ∀ n, 1 ≤ n → i + n < vs.length → soFar0 vs i n = soFar0 vs i 1 ∨ (d = .CR ∧ soFar0 vs i n = soFar0 vs i 1 - 10000) := by
    intro n
    induction n with
    | zero => intro h; omega
    | succ n ih =>
      intro _ hlt
      by_cases hn : n = 0
      · subst hn; exact Or.inl rfl
      · obtain ⟨m, rfl⟩ : ∃ m, n = m + 1 := ⟨n - 1, by omega⟩
        have hm : m < rest.length := by have := A.len; omega
        have hc : rest[m]? = some rest[m] := List.getElem?_eq_getElem hm
        have hprev := ih (by omega) (by omega)
        rw [soFar0_succ, A.late m _ hc, lcnt_zero hc f1 f2]
        by_cases hx : m = 0 ∧ d = .CR ∧ rest[m] ≠ .LF
        · rw [if_pos hx]
          obtain ⟨rfl, hx, _⟩ := hx
          right
          refine ⟨hx, ?_⟩
          have e : soFar0 vs i (0 + 1) = soFar0 vs i 1 := rfl
          rw [e]; omega
        · rw [if_neg hx]
          rcases hprev with h | ⟨h, h'⟩
          · left; omega
          · right; exact ⟨h, by omega⟩
  have hone : soFar0 vs i 1 = soFar0 vs i 0 + fixed (tot h d) 1 := by rw [soFar0_succ, A.one]
  have htot : tot h d 1 = nlc h d 1 := by rw [tot_one, f3]; omega
  have hfix : fixed (tot h d) 1 = 10 ∨ fixed (tot h d) 1 = -10000 ∨ fixed (tot h d) 1 = -20000 := by
    unfold fixed penalty999
    rw [htot]
    rcases nlc_one_nl c1 with h | h | h <;> rw [h] <;> simp
  constructor
  intro n h1 h2
  have hk := key n h1 h2
  rcases A.s0 with s | ⟨_, s | s⟩ <;> rcases hfix with f | f | f <;> rcases hk with k | ⟨_, k⟩ <;> omega

theorem ni_skip_get : ∀ {l : List WClass} {P : WClass → Bool}, hd P (skip l) = true →
    ∃ c, l[ni l]? = some c ∧ P c = true ∧ ∀ x ∈ l.take (ni l), x.ign = true := by
  intro l P h
  induction l with
  | nil => cases h
  | cons a l ih =>
    cases ha : a.ign with
    | false =>
      rw [skip_not ha] at h
      rw [ni_not ha]
      exact ⟨a, rfl, h, by simp⟩
    | true =>
      rw [skip_ign ha] at h
      obtain ⟨c, e1, e2, e3⟩ := ih h
      rw [ni_ign ha]
      refine ⟨c, by simpa using e1, e2, ?_⟩
      intro x hx
      rw [List.take_succ_cons] at hx
      rcases List.mem_cons.mp hx with rfl | hx
      · exact ha
      · exact e3 x hx

theorem skip_all {d : WClass} (hd' : d.ign = false) (h : List WClass) : ∀ (w : List WClass), (∀ x ∈ w, x.ign = true) → skip (w ++ d :: h) = d :: h ∧ ni (w ++ d :: h) = w.length := by
  intro w
  induction w with
  | nil => intro _; exact ⟨skip_not hd' h, ni_not hd' h⟩
  | cons x w ih =>
    intro hw
    have hx := hw x List.mem_cons_self
    obtain ⟨i1, i2⟩ := ih fun y hy => hw y (List.mem_cons_of_mem _ hy)
    rw [List.cons_append, skip_ign hx, ni_ign hx, i1, i2]
    exact ⟨rfl, rfl⟩

/-- How far a rule looks ahead. -/
def far (R : Rule) (rest : List WClass) : Nat := if R = .WB7bc then 0 else ni rest

theorem fut_parts {R : Rule} (hR : R ∈ triples) {h : List WClass} {d : WClass} {rest : List WClass} (hf : fut R h d rest = true) :
    d.ign = false ∧ mid R d = true ∧ hd (lft R) (skip h) = true ∧ ∃ c, rest[far R rest]? = some c ∧ rgt R c = true ∧
      ∀ x ∈ rest.take (far R rest), x.ign = true := by
  unfold fut at hf
  rw [Bool.and_eq_true, Bool.and_eq_true] at hf
  obtain ⟨⟨h1, h2⟩, h3⟩ := hf
  refine ⟨mid_not_ign h1, h1, h2, ?_⟩
  unfold far
  by_cases h7 : R = .WB7bc
  · rw [if_pos h7] at h3 ⊢
    cases rest with
    | nil => cases h3
    | cons a rest => exact ⟨a, rfl, h3, by simp⟩
  · rw [if_neg h7] at h3 ⊢
    exact ni_skip_get h3

theorem fut_state {R : Rule} (hR : R ∈ triples) {h : List WClass} {d : WClass} {rest : List WClass} (hf : fut R h d rest = true) {m : Nat} (hm : m ≤ far R rest) :
    midRead R ((rest.take m).reverse ++ d :: h) = true ∧ ni ((rest.take m).reverse ++ d :: h) = m ∧
    ∃ k ∈ acts ((rest.take m).reverse ++ d :: h), ((m + 1 : Nat) : Int) < k.ml := by
  obtain ⟨h1, h2, h3, c, h4, h5, h6⟩ := fut_parts hR hf
  have hlen : (rest.take m).length = m := by
    have := (List.getElem?_eq_some_iff.mp h4).1
    rw [List.length_take]; omega
  obtain ⟨s1, s2⟩ := skip_all h1 h ((rest.take m).reverse) (by
    intro x hx
    rw [List.mem_reverse] at hx
    exact h6 x (List.take_subset_take_left _ hm hx))
  rw [List.length_reverse, hlen] at s2
  have hmid : midRead R ((rest.take m).reverse ++ d :: h) = true := by
    unfold midRead
    rw [s1, hd_cons, List.tail_cons, h2, h3]; rfl
  refine ⟨hmid, s2, ?_⟩
  have hT : isTriple R = true := by revert hR; cases R <;> decide
  have hnl : hd (lft R) (d :: h) = false := by
    cases hl : lft R d with
    | false => exact hl
    | true => rw [lft_mid hl] at h2; cases h2
  refine ⟨mk (ends R) ((m : Int) + ni h + 2) (ni h + 2), ?_, ?_⟩
  · unfold acts
    rw [List.mem_flatMap]
    refine ⟨R, by revert hR; cases R <;> decide, ?_⟩
    rw [st_eq (by rw [hT, Bool.or_true]), s1, hnl, hmid, s2]
    simp
  · simp only [mk]; omega

theorem far_late {R : Rule} (hR : R ∈ triples) {h : List WClass} {d : WClass} {rest : List WClass} (hf : fut R h d rest = true) :
    ∃ c, rest[far R rest]? = some c ∧ 1 ≤ lcnt ((rest.take (far R rest)).reverse ++ d :: h) c (far R rest + 2) := by
  obtain ⟨h1, h2, h3, c, h4, h5, h6⟩ := fut_parts hR hf
  obtain ⟨s1, s2, _⟩ := fut_state hR hf (Nat.le_refl (far R rest))
  refine ⟨c, h4, ?_⟩
  have hT : isTriple R = true := by revert hR; cases R <;> decide
  have hl : late R ((rest.take (far R rest)).reverse ++ d :: h) c (far R rest + 2) = true := by
    unfold late
    rw [s1, s2, hT, h5]
    unfold far
    by_cases h7 : R = .WB7bc
    · simp [h7]
    · simp [h7]
  have hp := sum_pos allRules fun R' => late R' ((rest.take (far R rest)).reverse ++ d :: h) c (far R rest + 2)
  unfold lcnt
  have : ¬ (allRules.map fun R' => if late R' ((rest.take (far R rest)).reverse ++ d :: h) c (far R rest + 2) then (1 : Int) else 0).sum = 0 := by
    intro h0
    have := hp.2.mp h0 R (by revert hR; cases R <;> decide)
    rw [hl] at this; cases this
  have := hp.1
  omega

theorem says_no {vs : List Verdict} {cs : List WClass} {i : Nat} {h : List WClass} {d : WClass} {rest : List WClass}
    (A : At vs cs i h d rest) (hw : wb h d rest = false) : SaysNo false vs i := by
  unfold wb at hw
  -- what is known of the newline cases
  have hnl : (hd (· == .CR) h = true ∧ d = .LF) ∨ ¬ (hd WClass.nl h || d.nl) = true := by
    by_cases c1 : hd (· == .CR) h = true ∧ d = .LF
    · exact Or.inl c1
    · right
      intro c2
      rw [if_neg c1, if_pos c2] at hw; cases hw
  have hs0 : soFar0 vs i 0 = 0 := by
    rcases hnl with ⟨c, _⟩ | c
    · exact A.s0cr c
    · rcases A.s0 with s | ⟨s, _⟩
      · exact s
      · rw [s] at c; exact absurd rfl c
  have hcr : d ≠ .CR := by
    rintro rfl
    rcases hnl with ⟨_, c⟩ | c
    · cases c
    · exact c (by simp [WClass.nl])
  have hlate : ∀ m c, rest[m]? = some c → term vs i (m + 2) = 10000 * lcnt ((rest.take m).reverse ++ d :: h) c (m + 2) := by
    intro m c hc
    rw [A.late m c hc, if_neg (fun hx => hcr hx.2.1)]; omega
  have hmono : ∀ n m, 1 ≤ n → n ≤ m → i + m < vs.length → soFar0 vs i n ≤ soFar0 vs i m := by
    intro n m h1 h2
    induction m with
    | zero => omega
    | succ m ih =>
      intro h3
      by_cases he : n = m + 1
      · rw [he]; omega
      · have := ih (by omega) (by omega)
        obtain ⟨m', rfl⟩ : ∃ m', m = m' + 1 := ⟨m - 1, by omega⟩
        have hm : m' < rest.length := by have := A.len; omega
        rw [soFar0_succ, hlate m' _ (List.getElem?_eq_getElem hm)]
        have := lcnt_pos ((rest.take m').reverse ++ d :: h) rest[m'] (m' + 2)
        omega
  have hone : soFar0 vs i 1 = fixed (tot h d) 1 := by rw [soFar0_succ, A.one, hs0]; omega
  refine ⟨hmono, ?_, fun _ => ⟨rfl, hs0⟩⟩
  -- forbidden at once
  have now : 10000 ≤ soFar0 vs i 1 → ∀ n, 1 ≤ n → i + n < vs.length → ripe vs i n = true → 10000 ≤ soFar0 vs i n := by
    intro h1 n h2 h3 _
    have := hmono 1 n (by omega) h2 h3
    omega
  by_cases c1 : hd (· == .CR) h = true ∧ d = .LF
  · apply now
    have htot : tot h d 1 = 20000 + 10000 * cnt h d := by
      rw [tot_one]
      simp only [nlc, MustBreak, Suppress, if_pos c1.1, if_pos c1.2]
      rw [if_pos (Or.inl c1.2)]; omega
    have := cnt_pos h d
    rw [hone]; unfold fixed
    rw [if_neg (by omega)]; omega
  · rw [if_neg c1] at hw
    have c2 : ¬ (hd WClass.nl h || d.nl) = true := by
      rcases hnl with c | c
      · exact absurd c c1
      · exact c
    rw [if_neg c2] at hw
    have htot : tot h d 1 = 10000 * cnt h d := by rw [tot_one, nlc_one_calm c2]; omega
    by_cases c3 : (allRules.any fun R => joins R h d) = true
    · apply now
      have hp := cnt_pos h d
      have hz : ¬ cnt h d = 0 := by
        intro h0
        obtain ⟨R, hR, hj⟩ := List.any_eq_true.mp c3
        have := (sum_pos allRules fun R => joins R h d).2.mp h0 R hR
        rw [hj] at this; cases this
      rw [hone]; unfold fixed
      rw [if_neg (by omega)]; omega
    · rw [if_neg c3, Bool.not_eq_false'] at hw
      obtain ⟨R, hR, hf⟩ := List.any_eq_true.mp hw
      intro n h1 h2 h3
      have hpos : 0 ≤ soFar0 vs i 1 := by
        have := cnt_pos h d
        rw [hone]; unfold fixed penalty999
        split <;> omega
      by_cases hn : n < far R rest + 2
      · exfalso
        obtain ⟨m, rfl⟩ : ∃ m, n = m + 1 := ⟨n - 1, by omega⟩
        obtain ⟨_, _, k, hk, hml⟩ := fut_state hR hf (show m ≤ far R rest by omega)
        have hm : m ≤ rest.length := by have := A.len; omega
        have := A.open' m hm h3 k hk
        omega
      · obtain ⟨c, hc, hl⟩ := far_late hR hf
        have h4 := hmono 1 (far R rest + 1) (by omega) (by omega) (by omega)
        have h5 := hmono (far R rest + 2) n (by omega) (by omega) h2
        have h6 : soFar0 vs i (far R rest + 2) = soFar0 vs i (far R rest + 1) + term vs i (far R rest + 2) := soFar0_succ vs i (far R rest + 1)
        rw [hlate _ _ hc] at h6
        omega

/-! ### All positions -/

theorem at_of {b : WBrk} (hR : Rep [] b) (rs : List Int) (i : Nat) (hi : i + 1 < rs.length) :
    At (verdicts (breaker T) [b] rs) (rs.map (classOf T)) i (H (rs.map (classOf T)) (i + 1)) (classOf T rs[i + 1])
      ((rs.map (classOf T)).drop (i + 2)) := by
  have hget : ∀ j (hj : j < rs.length), (rs.map (classOf T))[j]? = some (classOf T rs[j]) := by
    intro j hj
    rw [List.getElem?_map, List.getElem?_eq_getElem hj]; rfl
  have hterm : ∀ n (hj : i + n < rs.length), term (verdicts (breaker T) [b] rs) i n = fixed (tot (H (rs.map (classOf T)) (i + n)) (classOf T rs[i + n])) n := by
    intro n hj
    obtain ⟨v, h1, _, h3, _⟩ := verd T hR rs (i + n) _ (hget _ hj)
    unfold term
    rw [h1]
    exact h3 n
  have hH : ∀ m, m ≤ (rs.map (classOf T)).length - (i + 2) → H (rs.map (classOf T)) (i + 2 + m) =
      (((rs.map (classOf T)).drop (i + 2)).take m).reverse ++ classOf T rs[i + 1] :: H (rs.map (classOf T)) (i + 1) := by
    intro m hm
    rw [← H_succ _ _ _ (hget (i + 1) hi)]
    unfold H
    rw [List.take_add, List.reverse_append]
  have hs0 : soFar0 (verdicts (breaker T) [b] rs) i 0 = nlc (H (rs.map (classOf T)) i) (classOf T rs[i]) 0 := by
    have := hterm 0 (by omega)
    simp only [Nat.add_zero] at this
    rw [soFar0_zero, this]
    unfold fixed
    rw [if_neg (by omega), tot_parts, if_neg (by omega), if_neg (by omega)]
    omega
  have hh : H (rs.map (classOf T)) (i + 1) = classOf T rs[i] :: H (rs.map (classOf T)) i := H_succ _ _ _ (hget i (by omega))
  obtain ⟨n1, n2, n3, n4⟩ := nlc0 (H (rs.map (classOf T)) i) (classOf T rs[i])
  refine ⟨?_, ?_, ?_, ?_, ?_, ?_⟩
  · rw [verdicts_length, List.length_drop, List.length_map]; omega
  · rw [hs0, hh, hd_cons]
    rcases n4 with h | h
    · exact Or.inl h
    · right
      refine ⟨?_, h⟩
      rcases n3 (by omega) with e | e <;> rw [e] <;> rfl
  · rw [hs0, hh, hd_cons, beq_iff_eq]
    intro e
    by_contra hne
    rcases n3 hne with e' | e' <;> rw [e] at e' <;> cases e'
  · exact hterm 1 hi
  · intro m c hc
    have hm : m < (rs.map (classOf T)).length - (i + 2) := by
      have := (List.getElem?_eq_some_iff.mp hc).1
      rw [List.length_drop] at this; exact this
    have hm' : i + (m + 2) < rs.length := by rw [List.length_map] at hm; omega
    rw [List.getElem?_drop, show i + 2 + m = i + (m + 2) by omega, hget _ hm'] at hc
    rw [Option.some.injEq] at hc
    rw [hterm (m + 2) hm', hc, show i + (m + 2) = i + 2 + m by omega, hH m (by omega)]
    exact term_late _ _ _ m c (by rw [List.length_drop]; omega)
  · intro m hm hripe
    rw [List.length_drop, List.length_map] at hm
    have hj : i + (m + 1) < rs.length := by omega
    obtain ⟨v, h1, h2, _⟩ := verd T hR rs (i + (m + 1)) _ (hget _ hj)
    unfold ripe at hripe
    rw [h1] at hripe
    simp only [Option.map_some, Option.getD_some, decide_eq_true_eq] at hripe
    rw [← H_succ _ _ _ (hget _ hj), show i + (m + 1) + 1 = i + 2 + m by omega, hH m (by rw [List.length_map]; omega)] at h2
    intro k hk
    have := h2.ge k hk
    exact Int.le_trans this hripe

theorem acts_eot (h : List WClass) : acts (.eot :: h) = [] := by
  unfold acts
  rw [List.flatMap_eq_nil_iff]
  intro R hR
  by_cases hreg : (isPair R || isTriple R) = true
  · rw [st_eq hreg]
    unfold midRead
    rw [skip_not rfl, hd_cons, hd_cons]
    have : lft R .eot = false ∧ mid R .eot = false := by cases R <;> exact ⟨rfl, rfl⟩
    rw [this.1, this.2]; rfl
  · rcases irregular hR hreg with rfl | rfl | rfl | rfl | rfl <;> simp [st, hd, odd, WClass.ign]

theorem rep_eot {h : List WClass} {b : WBrk} (hR : Rep (.eot :: h) b) : Rep [] b := by
  obtain ⟨h1, h2, h3⟩ := hR
  rw [acts_eot] at h1
  exact ⟨h1, h2, h3⟩

/-- Where the text is cut. -/
def cutW (T : WTables) (text : List Int) (i : Nat) : Bool :=
  wb (H ((text ++ [0]).map (classOf T)) (i + 1)) (((text ++ [0]).map (classOf T))[i + 1]?.getD .eot) (((text ++ [0]).map (classOf T)).drop (i + 2))

theorem classOf_zero : classOf T 0 = .eot := rfl

section
variable {b : WBrk} (hR : Rep [] b) (text : List Int) (z1 : Bool)

include hR

theorem cut_says (i : Nat) (hi : i < text.length) :
    (cutW T text i = true → SaysYes (verdicts (breaker T) [b] (text ++ [0])) i) ∧
    (cutW T text i = false → SaysNo false (verdicts (breaker T) [b] (text ++ [0])) i) := by
  have hlt : i + 1 < (text ++ [0]).length := by rw [List.length_append, List.length_singleton]; omega
  have A := at_of (T := T) hR (text ++ [0]) i hlt
  have e : ((text ++ [0]).map (classOf T))[i + 1]?.getD .eot = classOf T (text ++ [0])[i + 1] := by
    rw [List.getElem?_map, List.getElem?_eq_getElem hlt]; rfl
  unfold cutW
  rw [e]
  exact ⟨fun h => says_yes A h, fun h => says_no A h⟩

theorem verd_last : ∃ v, (verdicts (breaker T) [b] (text ++ [0]))[text.length]? = some v ∧ v.lam = 0 ∧ v.prim.getD 0 0 = 0 := by
  have hc : ((text ++ [0]).map (classOf T))[text.length]? = some .eot := by
    rw [List.getElem?_map, List.getElem?_append_right (Nat.le_refl _), Nat.sub_self]; rfl
  obtain ⟨v, h1, h2, h3, _⟩ := verd T hR (text ++ [0]) text.length _ hc
  refine ⟨v, h1, ?_, ?_⟩
  · rw [acts_eot] at h2
    rcases h2.eq with h | ⟨k, hk, _⟩
    · exact h
    · cases hk
  · rw [h3]
    unfold fixed
    rw [if_neg (by omega), tot_parts, if_neg (by omega), if_neg (by omega)]
    have := (nlc0 (H ((text ++ [0]).map (classOf T)) text.length) .eot).2.2.1
    by_contra hne
    rcases this (by omega) with h | h <;> cases h

theorem word_steady : Steady ⟨false, z1, false⟩ (verdicts (breaker T) [b] (text ++ [0])) text.length :=
  decide_steady false z1 _ _ (cutW T text) (by rw [verdicts_length, List.length_append, List.length_singleton])
    (fun i hi => (cut_says hR text i hi).1) (fun i hi => (cut_says hR text i hi).2)

theorem word_cut (i : Nat) (hi : i < text.length) :
    (cutTime ⟨false, z1, false⟩ (verdicts (breaker T) [b] (text ++ [0])) text.length i).isSome = cutW T text i := by
  refine decide_cut false z1 _ _ (cutW T text) (by rw [verdicts_length, List.length_append, List.length_singleton]) ?_
    (fun i hi => (cut_says hR text i hi).1) (fun i hi => (cut_says hR text i hi).2) i hi
  intro v hv
  obtain ⟨v', h1, h2, _⟩ := verd_last (T := T) hR text
  rw [h1, Option.some.injEq] at hv
  subst hv
  omega

theorem word_mark : cutTime ⟨false, z1, false⟩ (verdicts (breaker T) [b] (text ++ [0])) text.length text.length = none := by
  refine decide_mark false z1 _ _ (by rw [verdicts_length, List.length_append, List.length_singleton]) ?_
  intro _
  obtain ⟨v', h1, _, h3⟩ := verd_last (T := T) hR text
  rw [soFar0_zero]
  unfold term
  rw [Nat.add_zero, h1]
  simp only [Option.map_some, Option.getD_some, h3]
  omega

end

end Word
end Uax
