import Verif.SpecPublisher

/-! Helper lemmas about the publisher. -/

namespace Uax
namespace Pub

variable {γ σ : Type} (S : Sub γ σ)

/-- Queue order: active subscribers before the gap, done ones after it. -/
structure Ord (p : Pub σ) : Prop where
  gap : p.gap ≤ p.q.length
  lo : ∀ j s, p.q[j]? = some s → j < p.gap → S.done s = false
  hi : ∀ j s, p.q[j]? = some s → p.gap ≤ j → S.done s = true

/-- Queue order with a possible exception at index `i`. -/
structure OrdX (p : Pub σ) (i : Nat) : Prop where
  gap : p.gap ≤ p.q.length
  lo : ∀ j s, j ≠ i → p.q[j]? = some s → j < p.gap → S.done s = false
  hi : ∀ j s, j ≠ i → p.q[j]? = some s → p.gap ≤ j → S.done s = true

theorem set_perm (l : List σ) : ∀ (i : Nat) (x a : σ), l[i]? = some x → (x :: l.set i a).Perm (a :: l) := by
  induction l with
  | nil => intro i x a h; simp at h
  | cons b l ih =>
    intro i x a h
    cases i with
    | zero => simp at h; subst h; exact List.Perm.swap _ _ _
    | succ i =>
      simp at h
      have := ih i x a h
      exact (List.Perm.swap _ _ _).trans ((this.cons b).trans (List.Perm.swap _ _ _))

theorem swap_some {l : List σ} {i j : Nat} (hi : i < l.length) (hj : j < l.length) :
    swap l i j = some ((l.set i l[j]).set j l[i]) := by
  simp [swap, hi, hj]

theorem swap_perm {l l' : List σ} {i j : Nat} (h : swap l i j = some l') : l'.Perm l := by
  unfold swap at h
  split at h
  · next x y hx hy =>
    cases h
    by_cases hij : i = j
    · subst hij
      rw [hx] at hy; cases hy
      have hi := (List.getElem?_eq_some_iff.mp hx)
      obtain ⟨hlt, he⟩ := hi
      subst he
      simp
    · have h1 := set_perm l i x y hx
      have hy' : (l.set i y)[j]? = some y := by rw [List.getElem?_set_ne hij]; exact hy
      have h2 := set_perm (l.set i y) j y x hy'
      exact (h2.trans h1).cons_inv
  · cases h

theorem swap_len {l l' : List σ} {i j : Nat} (h : swap l i j = some l') : l'.length = l.length :=
  (swap_perm h).length_eq

theorem bubbleUp_eq {p : Pub σ} {i : Nat} (h : OrdX S p i) (hi : i < p.q.length)
    (hd : S.done p.q[i] = true) (hg : i < p.gap) :
    ∃ q', bubbleUp S p i = some ⟨q', p.gap - 1, p.total⟩ ∧ q'.Perm p.q ∧
      (∀ j, j < i → q'[j]? = p.q[j]?) ∧ Ord S ⟨q', p.gap - 1, p.total⟩ := by
  have hgl := h.gap
  have hlt : p.gap - 1 < p.q.length := by omega
  have hcond : upSwap p i = some ((p.q.set i p.q[p.gap - 1]).set (p.gap - 1) p.q[i]) := by
    unfold upSwap
    by_cases h1 : i + 1 < p.gap
    · rw [if_pos h1]
      by_cases h2 : p.gap < p.q.length
      · rw [if_pos h2, swap_some hi hlt]
      · rw [if_neg h2, if_pos (by omega)]
        have e : p.q.length - 1 = p.gap - 1 := by omega
        rw [e, swap_some hi hlt]
    · rw [if_neg h1]
      have e : p.gap - 1 = i := by omega
      simp [e]
  have hsw : swap p.q i (p.gap - 1) = some ((p.q.set i p.q[p.gap - 1]).set (p.gap - 1) p.q[i]) :=
    swap_some hi hlt
  refine ⟨_, ?_, swap_perm hsw, ?_, ?_⟩
  · unfold bubbleUp
    simp only [hcond, Option.bind_eq_bind, Option.bind_some]
    rw [if_pos (by omega), List.getElem?_set_self (by simpa using hlt)]
    simp [hd]
  · intro j hj
    rw [List.getElem?_set_ne (by omega), List.getElem?_set_ne (by omega)]
  · refine ⟨by simp; omega, ?_, ?_⟩
    · intro j s hs hj
      simp only at hs hj
      rw [List.getElem?_set_ne (by omega)] at hs
      by_cases hji : j = i
      · subst hji
        rw [List.getElem?_set_self hi] at hs
        cases hs
        exact h.lo (p.gap - 1) _ (by omega) (by simp) (by omega)
      · rw [List.getElem?_set_ne (by omega)] at hs
        exact h.lo j s hji hs (by omega)
    · intro j s hs hj
      simp only at hs hj
      by_cases hjg : j = p.gap - 1
      · subst hjg
        rw [List.getElem?_set_self (by simpa using hlt)] at hs
        cases hs; exact hd
      · rw [List.getElem?_set_ne (by omega), List.getElem?_set_ne (by omega)] at hs
        exact h.hi j s (by omega) hs (by omega)

theorem bubbleDown_eq {p : Pub σ} {i : Nat} (h : OrdX S p i) (hi : i < p.q.length)
    (hd : S.done p.q[i] = false) (hg : p.gap ≤ i) :
    ∃ q', bubbleDown S p i = some ⟨q', p.gap + 1, p.total⟩ ∧ q'.Perm p.q ∧
      Ord S ⟨q', p.gap + 1, p.total⟩ := by
  have hlt : p.gap < p.q.length := by omega
  have hcond : downSwap p i = some ((p.q.set i p.q[p.gap]).set p.gap p.q[i]) := by
    unfold downSwap
    rw [if_pos hg]
    by_cases h1 : p.gap < i
    · rw [if_pos h1, swap_some hi hlt]
    · have e : p.gap = i := by omega
      simp [e]
  have hsw := swap_some hi hlt
  refine ⟨_, ?_, swap_perm hsw, ?_⟩
  · unfold bubbleDown
    simp only [hcond, Option.bind_eq_bind, Option.bind_some]
    rw [if_pos (by simpa using hlt), List.getElem?_set_self (by simpa using hlt)]
    simp [hd]
  · refine ⟨by simp; omega, ?_, ?_⟩
    · intro j s hs hj
      simp only at hs hj
      by_cases hjg : j = p.gap
      · subst hjg
        rw [List.getElem?_set_self (by simpa using hlt)] at hs
        cases hs; exact hd
      · rw [List.getElem?_set_ne (by omega), List.getElem?_set_ne (by omega)] at hs
        exact h.lo j s (by omega) hs (by omega)
    · intro j s hs hj
      simp only at hs hj
      rw [List.getElem?_set_ne (by omega)] at hs
      by_cases hji : j = i
      · subst hji
        rw [List.getElem?_set_self hi] at hs
        cases hs
        exact h.hi p.gap _ (by omega) (by simp) (by omega)
      · rw [List.getElem?_set_ne (by omega)] at hs
        exact h.hi j s hji hs (by omega)

theorem no_done_below {p : Pub σ} (h : Ord S p) : (p.q.take p.gap).any S.done = false := by
  rw [List.any_eq_false]
  intro s hs
  obtain ⟨j, hj⟩ := List.mem_iff_getElem?.mp hs
  have hjg : j < p.gap := by
    have := (List.getElem?_eq_some_iff.mp hj).1
    simp at this; omega
  rw [List.getElem?_take_of_lt hjg] at hj
  simp [h.lo j s hj hjg]

/-- `Fix` never panics, keeps the subscribers, restores the order; and it leaves the
subscribers below `i` alone unless a done one has become active. -/
theorem fix_spec {p : Pub σ} {i : Nat} (h : OrdX S p i) (hi : i < p.q.length) :
    ∃ p', fix S p i = some p' ∧ p'.q.Perm p.q ∧ Ord S p' ∧ p'.total = p.total ∧
      ((i < p.gap ∨ S.done p.q[i] = true) → ∀ j, j < i → p'.q[j]? = p.q[j]?) := by
  have hgl := h.gap
  unfold fix
  rw [if_pos hi]
  simp only [List.getElem?_eq_getElem hi, Option.bind_eq_bind, Option.bind_some]
  by_cases hd : S.done p.q[i] = true
  · rw [if_pos hd]
    by_cases hg : i < p.gap
    · obtain ⟨q', e, hp, hj, ho⟩ := bubbleUp_eq S h hi hd hg
      refine ⟨_, ?_, hp, ho, rfl, fun _ => hj⟩
      simp only [e, Option.bind_some]
      rw [no_done_below S ho]; rfl
    · have ho : Ord S p := by
        refine ⟨hgl, fun j s hs hj => h.lo j s (by omega) hs hj, fun j s hs hj => ?_⟩
        by_cases hji : j = i
        · subst hji; rw [List.getElem?_eq_getElem hi] at hs; cases hs; exact hd
        · exact h.hi j s hji hs hj
      have e : bubbleUp S p i = some p := by
        unfold bubbleUp upSwap
        rw [if_neg (by omega)]
        simp only [Option.bind_eq_bind, Option.bind_some]
        split
        · rw [List.getElem?_eq_getElem (by omega)]
          simp only [Option.bind_some]
          rw [if_neg]
          rw [ho.lo (p.gap - 1) _ (List.getElem?_eq_getElem (by omega)) (by omega)]
          simp
        · rfl
      refine ⟨p, ?_, List.Perm.refl _, ho, rfl, fun _ _ _ => rfl⟩
      simp only [e, Option.bind_some]
      rw [no_done_below S ho]; rfl
  · rw [if_neg hd]
    have hd' : S.done p.q[i] = false := by simpa using hd
    by_cases hg : i < p.gap
    · have ho : Ord S p := by
        refine ⟨hgl, fun j s hs hj => ?_, fun j s hs hj => h.hi j s (by omega) hs hj⟩
        by_cases hji : j = i
        · subst hji; rw [List.getElem?_eq_getElem hi] at hs; cases hs; exact hd'
        · exact h.lo j s hji hs hj
      have e : bubbleDown S p i = some p := by
        unfold bubbleDown downSwap
        rw [if_neg (by omega)]
        simp only [Option.bind_eq_bind, Option.bind_some]
        split
        · next hgt =>
          rw [List.getElem?_eq_getElem hgt]
          simp only [Option.bind_some]
          rw [if_pos]
          exact ho.hi p.gap _ (List.getElem?_eq_getElem hgt) (by omega)
        · rfl
      refine ⟨p, ?_, List.Perm.refl _, ho, rfl, fun _ _ _ => rfl⟩
      simp only [e, Option.bind_some]
      rw [no_done_below S ho]; rfl
    · obtain ⟨q', e, hp, ho⟩ := bubbleDown_eq S h hi hd' (by omega)
      refine ⟨_, ?_, hp, ho, rfl, fun hc => ?_⟩
      · simp only [e, Option.bind_some]
        rw [no_done_below S ho]; rfl
      · rcases hc with hc | hc
        · exact absurd hc hg
        · exact absurd hc hd

theorem ord_set {p : Pub σ} (h : Ord S p) (i : Nat) (s : σ) (t : List Int) :
    OrdX S ⟨p.q.set i s, p.gap, t⟩ i := by
  refine ⟨by simpa using h.gap, ?_, ?_⟩
  · intro j s' hj hs hg
    simp only at hs hg
    rw [List.getElem?_set_ne (by omega)] at hs
    exact h.lo j s' hs hg
  · intro j s' hj hs hg
    simp only at hs hg
    rw [List.getElem?_set_ne (by omega)] at hs
    exact h.hi j s' hs hg

/-! ### The delivery loop -/

/-- Longest active match of delivered subscribers, starting from `m`. -/
def longestOf (m : Int) (outs : List (σ × List Int)) : Int :=
  outs.foldl (fun m o => if S.done o.1 then m else if S.matchLen o.1 > m then S.matchLen o.1 else m) m

theorem loop_spec (r cls : Int) : ∀ (i : Nat) (g : γ) (p : Pub σ) (longest : Int),
    i ≤ p.q.length → Ord S p →
    (∀ j s, j < i → p.q[j]? = some s → S.done s = true → ∀ g, S.done (S.event g s r cls).2.1 = true) →
    ∃ p', publishLoop S r cls i g p longest =
        some ((deliver S r cls g (p.q.take i).reverse).1, p',
          longestOf S longest (deliver S r cls g (p.q.take i).reverse).2) ∧
      Ord S p' ∧
      p'.q.Perm ((deliver S r cls g (p.q.take i).reverse).2.map (·.1) ++ p.q.drop i) ∧
      p'.total = (deliver S r cls g (p.q.take i).reverse).2.foldl (fun t o => addPens t o.2) p.total := by
  intro i
  induction i with
  | zero =>
    intro g p longest _ ho _
    exact ⟨p, by simp [publishLoop, deliver, longestOf], ho, by simp [deliver], by simp [deliver]⟩
  | succ i ih =>
    intro g p longest hl ho hm
    have hi : i < p.q.length := by omega
    have htake : (p.q.take (i + 1)).reverse = p.q[i] :: (p.q.take i).reverse := by
      rw [List.take_succ_eq_append_getElem hi]; simp
    rw [htake]
    unfold publishLoop
    simp only [List.getElem?_eq_getElem hi, Option.bind_eq_bind, Option.bind_some]
    generalize he : S.event g p.q[i] r cls = ev
    obtain ⟨g1, s', pens⟩ := ev
    simp only [deliver, he]
    have hox := ord_set S ho i s' (addPens p.total pens)
    obtain ⟨p1, hf, hperm, ho1, ht1, hlow⟩ := fix_spec S hox (by simpa using hi)
    have hcond : i < p.gap ∨ S.done ((p.q.set i s')[i]'(by simpa using hi)) = true := by
      by_cases hg : i < p.gap
      · exact Or.inl hg
      · right
        have hd := ho.hi i _ (List.getElem?_eq_getElem hi) (by omega)
        have := hm i _ (by omega) (List.getElem?_eq_getElem hi) hd g
        rw [he] at this
        simpa using this
    have hlow' := hlow hcond
    simp only [hf, Option.bind_some]
    have hlen1 : p1.q.length = p.q.length := by rw [hperm.length_eq]; simp
    have htk : p1.q.take i = p.q.take i := by
      apply List.ext_getElem?
      intro j
      by_cases hj : j < i
      · rw [List.getElem?_take_of_lt hj, List.getElem?_take_of_lt hj, hlow' j hj]
        simp only
        rw [List.getElem?_set_ne (by omega)]
      · rw [List.getElem?_eq_none (by simp; omega), List.getElem?_eq_none (by simp; omega)]
    obtain ⟨p2, hr, ho2, hperm2, ht2⟩ := ih g1 p1 _ (by omega) ho1 (by
      intro j s hj hs
      rw [hlow' j hj] at hs
      simp only at hs
      rw [List.getElem?_set_ne (by omega)] at hs
      exact hm j s (by omega) hs)
    rw [htk] at hr hperm2 ht2
    refine ⟨p2, ?_, ho2, ?_, ?_⟩
    · rw [hr]; rfl
    · refine hperm2.trans ?_
      have hdrop : (p1.q.drop i).Perm (s' :: p.q.drop (i + 1)) := by
        have h1 : (p1.q.take i ++ p1.q.drop i).Perm ((p.q.set i s').take i ++ (p.q.set i s').drop i) := by
          rw [List.take_append_drop, List.take_append_drop]; exact hperm
        have h2 : (p.q.set i s').take i = p1.q.take i := by
          rw [htk]
          apply List.ext_getElem?
          intro j
          by_cases hj : j < i
          · rw [List.getElem?_take_of_lt hj, List.getElem?_take_of_lt hj, List.getElem?_set_ne (by omega)]
          · rw [List.getElem?_eq_none (by simp; omega), List.getElem?_eq_none (by simp; omega)]
        rw [h2] at h1
        have h3 := (List.perm_append_left_iff _).mp h1
        have h4 : (p.q.set i s').drop i = s' :: p.q.drop (i + 1) := by
          rw [List.drop_eq_getElem_cons (by simpa using hi)]
          rw [List.getElem_set_self]
          congr 1
          rw [List.drop_set_of_lt (by omega)]
        rwa [h4] at h3
      refine (List.Perm.append_left _ hdrop).trans ?_
      simpa using List.perm_middle
    · rw [ht2, ht1]; rfl

/-! ### Unsubscribing -/

theorem top_none {p : Pub σ} : p.top = none ↔ p.q = [] := by
  unfold top
  rw [List.getElem?_eq_none_iff]
  cases p.q <;> simp

theorem top_eq {p : Pub σ} {t : σ} (h : p.top = some t) : p.q = p.q.take (p.q.length - 1) ++ [t] := by
  unfold top at h
  obtain ⟨hlt, he⟩ := List.getElem?_eq_some_iff.mp h
  have := List.take_succ_eq_append_getElem hlt
  rw [show p.q.length - 1 + 1 = p.q.length by omega, List.take_length, he] at this
  exact this

theorem pop_ord {p : Pub σ} (h : Ord S p) : Ord S p.pop.1 := by
  have hg := h.gap
  unfold pop
  split
  · exact h
  · next s hs =>
    have hlt := (List.getElem?_eq_some_iff.mp hs).1
    refine ⟨?_, ?_, ?_⟩
    · simp only [List.length_take]; split <;> omega
    · intro j x hx hj
      simp only at hx hj
      have hj' : j < p.q.length - 1 := by
        have := (List.getElem?_eq_some_iff.mp hx).1; simp at this; omega
      rw [List.getElem?_take_of_lt hj'] at hx
      exact h.lo j x hx (by split at hj <;> omega)
    · intro j x hx hj
      simp only [List.length_take] at hx hj
      have hj' : j < p.q.length - 1 := by
        have := (List.getElem?_eq_some_iff.mp hx).1; simp at this; omega
      rw [List.getElem?_take_of_lt hj'] at hx
      exact h.hi j x hx (by split at hj <;> omega)

theorem popDone_spec {p : Pub σ} (h : Ord S p) :
    ((popDone S p) = (p, none) ∧ (∀ s ∈ p.q, S.done s = false)) ∨
    (∃ s p', popDone S p = (p', some s) ∧ S.done s = true ∧ p.q = p'.q ++ [s] ∧ Ord S p' ∧
      p'.total = p.total) := by
  unfold popDone
  cases ht : p.top with
  | none =>
    left
    rw [top_none.mp ht]; simp
  | some t =>
    have he := top_eq ht
    have hne : p.q.length ≠ 0 := by rw [he]; simp
    simp only
    by_cases hd : S.done t = true
    · right
      rw [if_pos hd]
      have hpo := pop_ord S h
      have ht' : p.q[p.q.length - 1]? = some t := ht
      refine ⟨t, p.pop.1, ?_, hd, ?_, hpo, ?_⟩
      · unfold pop; rw [ht']
      · unfold pop; rw [ht']; exact he
      · unfold pop; rw [ht']
    · left
      rw [if_neg hd]
      refine ⟨rfl, ?_⟩
      intro s hs
      obtain ⟨j, hj⟩ := List.mem_iff_getElem?.mp hs
      have hjl := (List.getElem?_eq_some_iff.mp hj).1
      have htl : p.q[p.q.length - 1]? = some t := ht
      by_cases hg : p.q.length - 1 < p.gap
      · exact h.lo j s hj (by omega)
      · exact absurd (h.hi _ t htl (by omega)) hd

theorem popAllDone_spec : ∀ (n : Nat) (p : Pub σ), Ord S p → p.q.length < n →
    ((popAllDone S n p).1.q = p.q.filter (fun s => !S.done s)) ∧
    ((popAllDone S n p).2 = (p.q.filter S.done).reverse) ∧
    Ord S (popAllDone S n p).1 ∧ (popAllDone S n p).1.total = p.total := by
  intro n
  induction n with
  | zero => intro p _ hn; omega
  | succ n ih =>
    intro p ho hn
    rcases popDone_spec S ho with ⟨e, hall⟩ | ⟨s, p', e, hd, hq, ho', ht⟩
    · simp only [popAllDone, e]
      refine ⟨?_, ?_, ho, trivial⟩
      · exact (List.filter_eq_self.mpr (fun s hs => by simp [hall s hs])).symm
      · rw [List.filter_eq_nil_iff.mpr (fun s hs => by simp [hall s hs])]; rfl
    · simp only [popAllDone, e]
      have hl : p'.q.length < n := by rw [hq] at hn; simp at hn; omega
      obtain ⟨h1, h2, h3, h4⟩ := ih p' ho' hl
      refine ⟨?_, ?_, h3, by rw [h4, ht]⟩
      · rw [h1, hq]; simp [hd]
      · rw [h2, hq]; simp [hd]

/-! ### Penalty sums -/

theorem addPens_length : ∀ (a b : List Int), (addPens a b).length = max a.length b.length := by
  intro a
  induction a with
  | nil => intro b; cases b <;> simp [addPens]
  | cons x a ih =>
    intro b
    cases b with
    | nil => simp [addPens]
    | cons y b => simp [addPens, ih]

theorem addPens_getD : ∀ (a b : List Int) (j : Nat), (addPens a b).getD j 0 = a.getD j 0 + b.getD j 0 := by
  intro a
  induction a with
  | nil => intro b j; cases b <;> simp [addPens]
  | cons x a ih =>
    intro b j
    cases b with
    | nil => simp [addPens]
    | cons y b =>
      cases j with
      | zero => simp [addPens]
      | succ j => simpa [addPens] using ih b j

theorem foldl_addPens (outs : List (σ × List Int)) : ∀ (t : List Int),
    ((outs.foldl (fun t o => addPens t o.2) t).length
        = (outs.map (fun o => o.2.length)).foldl max t.length) ∧
    ∀ j, (outs.foldl (fun t o => addPens t o.2) t).getD j 0
        = t.getD j 0 + penaltyAt (outs.map (·.2)) j := by
  induction outs with
  | nil => intro t; simp [penaltyAt]
  | cons o outs ih =>
    intro t
    obtain ⟨h1, h2⟩ := ih (addPens t o.2)
    refine ⟨?_, ?_⟩
    · simp only [List.foldl_cons, List.map_cons]; rw [h1, addPens_length]
    · intro j
      simp only [List.foldl_cons, List.map_cons]
      rw [h2, addPens_getD]
      simp only [penaltyAt, List.map_cons, List.sum_cons]
      omega

theorem deliver_length (r cls : Int) : ∀ (l : List σ) (g : γ), (deliver S r cls g l).2.length = l.length := by
  intro l
  induction l with
  | nil => intro g; rfl
  | cons s l ih => intro g; simp [deliver, ih]

theorem publish_spec (g : γ) (p : Pub σ) (r cls : Int) (ho : Ord S p)
    (hm : ∀ s ∈ p.q, S.done s = true → ∀ g, S.done (S.event g s r cls).2.1 = true) :
    ∃ p' gone, publish S g p r cls = some ((deliver S r cls g p.q.reverse).1, p',
        longestOf S 0 (deliver S r cls g p.q.reverse).2, gone) ∧
      Ord S p' ∧
      p'.q.Perm (((deliver S r cls g p.q.reverse).2.map (·.1)).filter (fun s => !S.done s)) ∧
      gone.Perm (((deliver S r cls g p.q.reverse).2.map (·.1)).filter S.done) ∧
      p'.total = (deliver S r cls g p.q.reverse).2.foldl (fun t o => addPens t o.2) [] := by
  obtain ⟨p1, h1, ho1, hperm, ht⟩ := loop_spec S r cls p.q.length g { p with total := [] } 0
    (Nat.le_refl _) ⟨ho.gap, ho.lo, ho.hi⟩ (by
      intro j s _ hs hd
      exact hm s (List.mem_of_getElem? hs) hd)
  simp only [List.take_length, List.drop_length, List.append_nil] at h1 hperm ht
  obtain ⟨a1, a2, a3, a4⟩ := popAllDone_spec S (p1.q.length + 1) p1 ho1 (by omega)
  refine ⟨(popAllDone S (p1.q.length + 1) p1).1, (popAllDone S (p1.q.length + 1) p1).2, ?_, a3, ?_, ?_, ?_⟩
  · unfold publish
    simp only [h1, Option.bind_eq_bind, Option.bind_some]
  · rw [a1]; exact hperm.filter _
  · rw [a2]; exact (List.reverse_perm _).trans (hperm.filter _)
  · rw [a4, ht]

theorem ord_empty : Ord S (Pub.empty : Pub σ) :=
  ⟨by simp [Pub.empty], by intro j s h; simp [Pub.empty] at h, by intro j s h; simp [Pub.empty] at h⟩

theorem push_spec {p : Pub σ} (h : Ord S p) (s : σ) :
    ∃ p', push S p s = some p' ∧ p'.q.Perm (s :: p.q) ∧ Ord S p' ∧ p'.total = p.total := by
  have hox : OrdX S ⟨p.q ++ [s], p.gap, p.total⟩ p.q.length := by
    have := h.gap
    refine ⟨by simp; omega, ?_, ?_⟩
    · intro j x hj hx hg
      simp only at hx hg
      rw [List.getElem?_append_left (by omega)] at hx
      exact h.lo j x hx hg
    · intro j x hj hx hg
      simp only at hx hg
      have hlt := (List.getElem?_eq_some_iff.mp hx).1
      simp at hlt
      rw [List.getElem?_append_left (by omega)] at hx
      exact h.hi j x hx hg
  have htop : (⟨p.q ++ [s], p.gap, p.total⟩ : Pub σ).top = some s := by simp [top]
  have hperm : (p.q ++ [s]).Perm (s :: p.q) := List.perm_append_comm (l₁ := p.q) (l₂ := [s])
  unfold push
  simp only
  rw [htop]
  simp only
  by_cases hd : S.done s = true
  · rw [if_pos hd]
    refine ⟨_, rfl, hperm, ?_, rfl⟩
    refine ⟨hox.gap, fun j x hx hj => ?_, fun j x hx hj => ?_⟩
    · exact hox.lo j x (by have := h.gap; simp only at hj; omega) hx hj
    · by_cases hjl : j = p.q.length
      · subst hjl; simp at hx; rw [← hx]; exact hd
      · exact hox.hi j x hjl hx hj
  · rw [if_neg hd]
    obtain ⟨q', e, hp, ho⟩ := bubbleDown_eq S hox (by simp) (by simpa using hd) h.gap
    exact ⟨_, e, hp.trans hperm, ho, rfl⟩

end Pub
end Uax
