import Verif.DequeProofs

/-! Helper lemmas: capacity of the ring buffer along histories without `Clear`. -/

namespace Uax
namespace Deque

/-- The buffer is small or more than a quarter full. -/
def Tight (q : Deque) : Prop := q.buf.length ≤ 64 ∨ q.buf.length < 4 * q.count

theorem wr_len {buf b : List Atom} {i : Int} {a : Atom} (h : wr buf i a = some b) :
    b.length = buf.length := by
  unfold wr at h
  split at h
  · cases h; simp
  · cases h

theorem resize_len {q : Deque} : q.resize.buf.length = 2 * q.count := by
  unfold resize
  simp only
  split
  · rw [length_goCopy _ _ _ (by omega)]; simp [Nat.shiftLeft_eq]; omega
  · rw [length_goCopy]
    · rw [length_goCopy _ _ _ (by omega)]; simp [Nat.shiftLeft_eq]; omega
    · rw [length_goCopy _ _ _ (by omega)]; omega

theorem grow_tight {q : Deque} (h : q.Inv) (t : q.Tight) :
    q.growIfFull.Tight ∧ q.growIfFull.count = q.count := by
  unfold growIfFull
  split
  · exact ⟨t, rfl⟩
  · split
    · exact ⟨Or.inl (by simp [minCapacity]), rfl⟩
    · split
      · next h0 h1 =>
        refine ⟨Or.inr ?_, rfl⟩
        rw [resize_len]; show _ < 4 * q.count; omega
      · exact ⟨t, rfl⟩

theorem shrink_tight {q : Deque} (t : q.buf.length ≤ 64 ∨ q.buf.length ≤ 4 * q.count) :
    q.shrinkIfExcess.Tight := by
  unfold shrinkIfExcess
  have hmin : minCapacity = 64 := rfl
  split
  · next h =>
    rw [Nat.shiftLeft_eq] at h
    right; rw [resize_len]; show _ < 4 * q.count; omega
  · next h =>
    rw [Nat.shiftLeft_eq] at h
    unfold Tight; omega

theorem iter_len (f : Deque → Option Deque)
    (hf : ∀ q q', f q = some q' → q'.buf.length = q.buf.length ∧ q'.count = q.count) :
    ∀ (m : Nat) (q q' : Deque), iter f m q = some q' →
      q'.buf.length = q.buf.length ∧ q'.count = q.count := by
  intro m
  induction m with
  | zero => intro q q' h; cases h; exact ⟨rfl, rfl⟩
  | succ m ih =>
    intro q q' h
    simp only [iter] at h
    cases e : f q with
    | none => simp [e] at h
    | some q1 =>
      rw [e] at h
      have h1 := hf q q1 e
      have h2 := ih q1 q' h
      omega

theorem rotateBack1_len (q q' : Deque) (h : q.rotateBack1 = some q') :
    q'.buf.length = q.buf.length ∧ q'.count = q.count := by
  unfold rotateBack1 at h
  simp only [Option.bind_eq_bind, Option.bind_eq_some_iff] at h
  obtain ⟨a, _, b, hb, b', hb', h⟩ := h
  cases h
  exact ⟨by simp [wr_len hb', wr_len hb], rfl⟩

theorem rotateFront1_len (q q' : Deque) (h : q.rotateFront1 = some q') :
    q'.buf.length = q.buf.length ∧ q'.count = q.count := by
  unfold rotateFront1 at h
  simp only [Option.bind_eq_bind, Option.bind_eq_some_iff] at h
  obtain ⟨a, _, b, hb, b', hb', h⟩ := h
  cases h
  exact ⟨by simp [wr_len hb', wr_len hb], rfl⟩

theorem rotate_len (q q' : Deque) (n : Int) (h : q.rotate n = some q') :
    q'.buf.length = q.buf.length ∧ q'.count = q.count := by
  unfold rotate at h
  simp only at h
  split at h
  · cases h; exact ⟨rfl, rfl⟩
  · split at h
    · cases h; exact ⟨rfl, rfl⟩
    · split at h
      · cases h; exact ⟨rfl, rfl⟩
      · split at h
        · exact iter_len _ rotateBack1_len _ _ _ h
        · exact iter_len _ rotateFront1_len _ _ _ h

theorem step_tight {q q' : Deque} {op : DqOp} {o : DqOut} (h : q.Inv) (t : q.Tight)
    (hop : op ≠ .clear) (hs : q.step op = some (q', o)) : q'.Tight := by
  cases op with
  | clear => exact absurd rfl hop
  | pushBack a =>
    simp only [step, Option.map_eq_some_iff, Prod.mk.injEq] at hs
    obtain ⟨q1, h1, rfl, _⟩ := hs
    unfold pushBack at h1
    simp only [Option.bind_eq_bind, Option.bind_eq_some_iff] at h1
    obtain ⟨b, hb, h1⟩ := h1
    have hg : (if q.count ≥ q.buf.length then q.growIfFull else q).Tight := by
      split
      · exact (grow_tight h t).1
      · exact t
    generalize (if q.count ≥ q.buf.length then q.growIfFull else q) = q2 at *
    cases h1
    have := wr_len hb
    unfold Tight at *
    simp only
    omega
  | pushFront a =>
    simp only [step, Option.map_eq_some_iff, Prod.mk.injEq] at hs
    obtain ⟨q1, h1, rfl, _⟩ := hs
    unfold pushFront at h1
    simp only [Option.bind_eq_bind, Option.bind_eq_some_iff] at h1
    obtain ⟨b, hb, h1⟩ := h1
    have hg := (grow_tight h t).1
    generalize q.growIfFull = q2 at *
    cases h1
    have := wr_len hb
    unfold Tight at *
    simp only
    omega
  | popFront =>
    simp only [step, Option.map_eq_some_iff, Prod.mk.injEq] at hs
    obtain ⟨⟨q1, a⟩, h1, rfl, _⟩ := hs
    unfold popFront at h1
    split at h1
    · cases h1
    · simp only [Option.bind_eq_bind, Option.bind_eq_some_iff] at h1
      obtain ⟨_, _, b, hb, h1⟩ := h1
      cases h1
      have := wr_len hb
      apply shrink_tight
      unfold Tight at t
      simp only
      rcases h with rfl | g
      · simp [Deque.empty] at *
      · obtain ⟨k, hk⟩ := g.pow
        have h4 : 64 < q.buf.length → 4 ∣ q.buf.length := by
          intro h
          have hk2 : 2 ≤ k := by
            rcases Nat.lt_or_ge k 2 with hk' | hk'
            · have : 2 ^ k ≤ 2 ^ 1 := Nat.pow_le_pow_right (by omega) (by omega)
              omega
            · exact hk'
          obtain ⟨j, rfl⟩ : ∃ j, k = j + 2 := ⟨k - 2, by omega⟩
          rw [hk, Nat.pow_add]; exact ⟨2 ^ j, by omega⟩
        omega
  | popBack =>
    simp only [step, Option.map_eq_some_iff, Prod.mk.injEq] at hs
    obtain ⟨⟨q1, a⟩, h1, rfl, _⟩ := hs
    unfold popBack at h1
    split at h1
    · cases h1
    · simp only [Option.bind_eq_bind, Option.bind_eq_some_iff] at h1
      obtain ⟨_, _, b, hb, h1⟩ := h1
      cases h1
      have := wr_len hb
      apply shrink_tight
      unfold Tight at t
      simp only
      rcases h with rfl | g
      · simp [Deque.empty] at *
      · obtain ⟨k, hk⟩ := g.pow
        have h4 : 64 < q.buf.length → 4 ∣ q.buf.length := by
          intro h
          have hk2 : 2 ≤ k := by
            rcases Nat.lt_or_ge k 2 with hk' | hk'
            · have : 2 ^ k ≤ 2 ^ 1 := Nat.pow_le_pow_right (by omega) (by omega)
              omega
            · exact hk'
          obtain ⟨j, rfl⟩ : ∃ j, k = j + 2 := ⟨k - 2, by omega⟩
          rw [hk, Nat.pow_add]; exact ⟨2 ^ j, by omega⟩
        omega
  | front =>
    simp only [step, Option.map_eq_some_iff, Prod.mk.injEq] at hs
    obtain ⟨_, _, rfl, _⟩ := hs; exact t
  | back =>
    simp only [step, Option.map_eq_some_iff, Prod.mk.injEq] at hs
    obtain ⟨_, _, rfl, _⟩ := hs; exact t
  | at' i =>
    simp only [step, Option.map_eq_some_iff, Prod.mk.injEq] at hs
    obtain ⟨_, _, rfl, _⟩ := hs; exact t
  | setAt i a =>
    simp only [step, Option.map_eq_some_iff, Prod.mk.injEq] at hs
    obtain ⟨q1, h1, rfl, _⟩ := hs
    unfold setAt at h1
    split at h1
    · cases h1
    · simp only [Option.bind_eq_bind, Option.bind_eq_some_iff] at h1
      obtain ⟨b, hb, h1⟩ := h1
      cases h1
      have := wr_len hb
      unfold Tight at *
      simp only
      omega
  | rotate n =>
    simp only [step, Option.map_eq_some_iff, Prod.mk.injEq] at hs
    obtain ⟨q1, h1, rfl, _⟩ := hs
    have := rotate_len _ _ _ h1
    unfold Tight at *
    omega
  | len => simp only [step, Option.some.injEq, Prod.mk.injEq] at hs; obtain ⟨rfl, _⟩ := hs; exact t

theorem run_tight (ops : List DqOp) : ∀ (q : Deque), q.Inv → q.Tight → DqOp.clear ∉ ops →
    (q.run ops).1.Tight := by
  induction ops with
  | nil => intro q _ t _; exact t
  | cons op ops ih =>
    intro q h t hc
    have hm := step_match h op
    unfold Deque.run
    cases e1 : q.step op with
    | none => exact t
    | some p =>
      obtain ⟨q', o⟩ := p
      cases e2 : dqSpec q.abs op with
      | none => rw [e1, e2] at hm; exact hm.elim
      | some p' =>
        rw [e1, e2] at hm
        simp only
        apply ih q' hm.1 (step_tight h t (by intro e; simp [e] at hc) e1)
        intro hmem; exact hc (List.mem_cons_of_mem _ hmem)

end Deque
end Uax
