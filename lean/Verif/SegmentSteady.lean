import Verif.SegmentMore

/-! The closed form of the eager cutting of `SegmentBatch` for steady breakers. -/

namespace Uax
namespace Seg

variable {β : Type} (B : Breaker β) (ok : Atom → Bool)

/-- A segment as the user sees it. -/
def sg (seg : List Atom) : Segment :=
  ⟨seg.map (·.r), (seg.getLast?.map fun a => (a.p0, a.p1)).getD (0, 0)⟩

def bump1 (v : Verdict) (d : Nat) (a : Atom) : Atom := ⟨a.r, a.p0 + c0 v d, a.p1 + c1 v d⟩

/-- The atom at the time when it is cut, and whether it is cut at all. -/
def fate : List Verdict → Nat → Atom → Atom × Bool
  | [], _, a => (a, false)
  | v :: rem, d, a =>
    if (ok (bump1 v d a) && decide (v.lam ≤ (d : Int))) = true then (bump1 v d a, true) else fate rem (d + 1) (bump1 v d a)

/-- An atom that will never be feasible. -/
def Dead : List Verdict → Nat → Atom → Prop
  | [], _, _ => True
  | v :: rem, d, a => ok (bump1 v d a) = false ∧ Dead rem (d + 1) (bump1 v d a)

/-- An atom that stays infeasible if it is settled and infeasible. -/
def SteadyA : List Verdict → Nat → Atom → Prop
  | [], _, _ => True
  | v :: rem, d, a => (0 < d → v.lam ≤ (d : Int) → ok (bump1 v d a) = false → Dead ok rem (d + 1) (bump1 v d a)) ∧
      SteadyA rem (d + 1) (bump1 v d a)

theorem fate_r : ∀ (rem : List Verdict) (d : Nat) (a : Atom), (fate ok rem d a).1.r = a.r := by
  intro rem
  induction rem with
  | nil => intro d a; rfl
  | cons v rem ih =>
    intro d a
    simp only [fate]
    split
    · rfl
    · rw [ih]; rfl

theorem fate_dead : ∀ (rem : List Verdict) (d : Nat) (a : Atom), Dead ok rem d a → (fate ok rem d a).2 = false := by
  intro rem
  induction rem with
  | nil => intro d a _; rfl
  | cons v rem ih =>
    intro d a h
    obtain ⟨h1, h2⟩ := h
    simp only [fate]
    rw [h1]
    simp only [Bool.false_and, Bool.false_eq_true, if_false]
    exact ih _ _ h2

/-- Queued atoms with their fates. `P j`: settled now. -/
def qm (P : Nat → Bool) (rem : List Verdict) : List Atom → List (Atom × Bool)
  | [] => []
  | a :: q => (if (ok a && P q.length) = true then (a, true) else fate ok rem (q.length + 1) a) :: qm P rem q

/-- Incoming atoms with their fates. -/
def im : List Atom → List Verdict → List (Atom × Bool)
  | a :: inc, v :: rem => fate ok (v :: rem) 0 a :: im inc rem
  | _, _ => []

def QOK (P : Nat → Bool) (rem : List Verdict) : List Atom → Prop
  | [] => True
  | a :: q => (0 < q.length → P q.length = true → ok a = false → Dead ok rem (q.length + 1) a) ∧
      SteadyA ok rem (q.length + 1) a ∧ QOK P rem q

/-- Incoming atoms are steady. -/
def IOK : List Atom → List Verdict → Prop
  | a :: inc, v :: rem => SteadyA ok (v :: rem) 0 a ∧ IOK inc rem
  | _, _ => True

/-- Atoms which have been rejected for good; `L` atoms follow. -/
def AccD (rem : List Verdict) : List Atom → Nat → Prop
  | [], _ => True
  | a :: y, L => Dead ok rem (y.length + L + 1) a ∧ SteadyA ok rem (y.length + L + 1) a ∧ AccD rem y L

theorem accD_snoc (rem : List Verdict) (a : Atom) (L : Nat) : ∀ (x : List Atom),
    AccD ok rem x (L + 1) → Dead ok rem (L + 1) a → SteadyA ok rem (L + 1) a → AccD ok rem (x ++ [a]) L := by
  intro x
  induction x with
  | nil => intro _ h1 h2; exact ⟨by simpa using h1, by simpa using h2, trivial⟩
  | cons b x ih =>
    intro h h1 h2
    obtain ⟨a1, a2, a3⟩ := h
    have : (x ++ [a]).length + L + 1 = x.length + (L + 1) + 1 := by simp; omega
    refine ⟨this ▸ a1, this ▸ a2, ih a3 h1 h2⟩

theorem sg_snoc (x : List Atom) (a : Atom) : sg (x ++ [a]) = ⟨x.map (·.r) ++ [a.r], (a.p0, a.p1)⟩ := by
  simp [sg]

theorem pf_sg : ∀ (l : List (Atom × Bool)) (acc acc' : List Atom), acc.map (·.r) = acc'.map (·.r) →
    (pf acc l).map sg = (pf acc' l).map sg := by
  intro l
  induction l with
  | nil => intro acc acc' _; rfl
  | cons x l ih =>
    intro acc acc' h
    obtain ⟨a, m⟩ := x
    simp only [pf]
    cases m with
    | true => simp [sg_snoc, h]
    | false => exact ih _ _ (by simp [h])

theorem pf_accD (rem : List Verdict) (Z : List (Atom × Bool)) : ∀ (acc acc0 q : List Atom),
    AccD ok rem acc q.length →
    (pf acc0 (qm ok (fun _ => false) rem (acc ++ q) ++ Z)).map sg =
      (pf (acc0 ++ acc) (qm ok (fun _ => false) rem q ++ Z)).map sg := by
  intro acc
  induction acc with
  | nil => intro acc0 q _; simp
  | cons a acc ih =>
    intro acc0 q h
    obtain ⟨h1, h2, h3⟩ := h
    simp only [List.cons_append, qm, List.length_append, Bool.and_false, Bool.false_eq_true, if_false]
    have hd := fate_dead ok _ _ _ h1
    have hr := fate_r ok rem (acc.length + q.length + 1) a
    rcases hf : fate ok rem (acc.length + q.length + 1) a with ⟨a', m⟩
    rw [hf] at hd hr
    simp only at hd hr
    subst hd
    simp only [pf, Bool.false_eq_true, if_false]
    rw [ih _ _ h3, pf_sg _ (acc0 ++ [a'] ++ acc) (acc0 ++ a :: acc) (by simp [hr])]

theorem qm_congr (P P' : Nat → Bool) (rem : List Verdict) : ∀ (q : List Atom),
    (∀ j, j < q.length → P j = P' j) → qm ok P rem q = qm ok P' rem q := by
  intro q
  induction q with
  | nil => intro _; rfl
  | cons a q ih =>
    intro h
    simp only [qm]
    rw [h q.length (by simp), ih (fun j hj => h j (by simp; omega))]

theorem qok_false {P : Nat → Bool} {rem : List Verdict} : ∀ {q : List Atom}, QOK ok P rem q → QOK ok (fun _ => false) rem q := by
  intro q
  induction q with
  | nil => intro h; exact h
  | cons a q ih => intro h; exact ⟨fun _ h => absurd h (by simp), h.2.1, ih h.2.2⟩

theorem qok_acc {rem : List Verdict} : ∀ {acc q : List Atom}, AccD ok rem acc q.length → QOK ok (fun _ => false) rem q →
    QOK ok (fun _ => false) rem (acc ++ q) := by
  intro acc
  induction acc with
  | nil => intro q _ h; exact h
  | cons a acc ih =>
    intro q h hq
    obtain ⟨h1, h2, h3⟩ := h
    refine ⟨fun _ h => absurd h (by simp), ?_, ih h3 hq⟩
    show SteadyA ok rem ((acc ++ q).length + 1) a
    rw [List.length_append]
    exact h2

theorem drain_sg (rem : List Verdict) (lam : Int) (Z : List (Atom × Bool)) : ∀ (q acc : List Atom),
    QOK ok (fun j => decide (lam ≤ (j : Int))) rem q → AccD ok rem acc q.length →
    ((pf acc (qm ok (fun j => decide (lam ≤ (j : Int))) rem q ++ Z)).map sg =
      ((drain ok ((q.length : Int) - lam).toNat acc q).1).map sg ++
        (pf [] (qm ok (fun _ => false) rem (drain ok ((q.length : Int) - lam).toNat acc q).2 ++ Z)).map sg) ∧
    QOK ok (fun _ => false) rem (drain ok ((q.length : Int) - lam).toNat acc q).2 := by
  intro q
  induction q with
  | nil =>
    intro acc _ hA
    have : drain ok (((([] : List Atom).length : Int) - lam).toNat) acc [] = ([], acc) := by
      cases ((([] : List Atom).length : Int) - lam).toNat <;> simp [drain]
    rw [this]
    have := pf_accD ok rem Z acc [] [] hA
    simp only [List.append_nil, List.nil_append] at this
    refine ⟨?_, by have := qok_acc ok (q := []) hA trivial; simpa using this⟩
    simp only [List.map_nil, List.nil_append]
    rw [this]
    rfl
  | cons a q ih =>
    intro acc hq hA
    obtain ⟨hq1, hq2, hq3⟩ := hq
    by_cases hD : lam ≤ (q.length : Int)
    · rw [show (((a :: q).length : Int) - lam).toNat = ((q.length : Int) - lam).toNat + 1 by
        simp only [List.length_cons]; omega]
      simp only [List.cons_append, qm, drain, hD, decide_true, Bool.and_true]
      by_cases ho : ok a = true
      · rw [if_pos ho, if_pos ho]
        simp only [pf, if_true, List.map_cons]
        obtain ⟨i1, i2⟩ := ih [] hq3 trivial
        exact ⟨by rw [i1]; simp, i2⟩
      · rw [if_neg ho, if_neg ho]
        by_cases hlen : q = []
        · subst hlen
          have hdr : drain ok ((([] : List Atom).length : Int) - lam).toNat (acc ++ [a]) [] = ([], acc ++ [a]) := by
            cases ((([] : List Atom).length : Int) - lam).toNat <;> simp [drain]
          rw [hdr]
          have hp := pf_accD ok rem Z acc [] [a] (by simpa using hA)
          simp only [List.map_nil, List.nil_append]
          refine ⟨?_, qok_acc ok (q := [a]) (by simpa using hA) ⟨fun _ h => absurd h (by simp), hq2, trivial⟩⟩
          rw [hp]
          simp [qm]
        have hdead := hq1 (List.length_pos_iff.mpr hlen) (by simpa using hD) (by simpa using ho)
        have hd := fate_dead ok _ _ _ hdead
        have hr := fate_r ok rem (q.length + 1) a
        rcases hf : fate ok rem (q.length + 1) a with ⟨a', m⟩
        rw [hf] at hd hr
        simp only at hd hr
        subst hd
        simp only [pf, Bool.false_eq_true, if_false]
        rw [pf_sg _ (acc ++ [a']) (acc ++ [a]) (by simp [hr])]
        exact ih (acc ++ [a]) hq3 (accD_snoc ok rem a q.length acc (by simpa using hA) hdead hq2)
    · rw [show (((a :: q).length : Int) - lam).toNat = 0 by simp only [List.length_cons]; omega]
      simp only [drain, List.map_nil, List.nil_append]
      refine ⟨?_, qok_acc ok hA (qok_false ok (P := fun j => decide (lam ≤ (j : Int))) ⟨hq1, hq2, hq3⟩)⟩
      rw [pf_accD ok rem Z acc [] (a :: q) hA, List.nil_append]
      rw [qm_congr ok _ (fun _ => false) rem (a :: q)]
      intro j hj
      simp only [List.length_cons] at hj
      simp only [decide_eq_false_iff_not]
      omega

theorem qm_bump (v : Verdict) (rem : List Verdict) (a : Atom) : ∀ (x : List Atom),
    qm ok (fun j => decide (v.lam ≤ (j : Int))) rem (bump (c0 v) (c1 v) (x ++ [a])) =
      qm ok (fun _ => false) (v :: rem) x ++ [fate ok (v :: rem) 0 a] := by
  intro x
  induction x with
  | nil => simp [bump, qm, fate, bump1]
  | cons b x ih =>
    simp only [List.cons_append, bump, qm, ih, bump_length, List.length_append, List.length_cons, List.length_nil,
      Bool.and_false, Bool.false_eq_true, if_false, fate, bump1, Nat.zero_add]
    rfl

theorem qok_bump (v : Verdict) (rem : List Verdict) (a : Atom) : ∀ (x : List Atom),
    QOK ok (fun _ => false) (v :: rem) x → SteadyA ok (v :: rem) 0 a →
    QOK ok (fun j => decide (v.lam ≤ (j : Int))) rem (bump (c0 v) (c1 v) (x ++ [a])) := by
  intro x
  induction x with
  | nil =>
    intro _ h
    simp only [List.nil_append, bump, QOK, List.length_nil, decide_eq_true_eq]
    exact ⟨fun h => absurd h (by simp), h.2, trivial⟩
  | cons b x ih =>
    intro hx h
    obtain ⟨h1, h2, h3⟩ := hx
    simp only [List.cons_append, bump, QOK, bump_length, List.length_append, List.length_cons, List.length_nil, decide_eq_true_eq, Nat.zero_add]
    exact ⟨fun _ => h2.1 (by omega), h2.2, ih h3 h⟩

/-- The closed form. -/
theorem batch_sg : ∀ (inc : List Atom) (brk : List β) (q : List Atom) (lam : Int),
    QOK ok (fun j => decide (lam ≤ (j : Int))) (verdicts B brk (inc.map (·.r))) q →
    IOK ok inc (verdicts B brk (inc.map (·.r))) →
    (batch B ok inc brk q lam).map sg =
      (pf [] (qm ok (fun j => decide (lam ≤ (j : Int))) (verdicts B brk (inc.map (·.r))) q ++
        im ok inc (verdicts B brk (inc.map (·.r))))).map sg := by
  intro inc
  induction inc with
  | nil =>
    intro brk q lam hq _
    simp only [batch, List.map_nil, verdicts, im] at hq ⊢
    obtain ⟨d1, d2⟩ := drain_sg ok [] lam [] q [] hq trivial
    rw [d1]
    have : ∀ (l acc : List Atom), pf acc (qm ok (fun _ => false) [] l ++ []) = [] := by
      intro l
      induction l with
      | nil => intro acc; rfl
      | cons a l ih => intro acc; simp only [qm, fate, Bool.and_false, Bool.false_eq_true, if_false, List.cons_append, pf]; rw [ih]
    rw [this]
    simp
  | cons a inc ih =>
    intro brk q lam hq hi
    simp only [batch, feed_eq]
    simp only [List.map_cons, verdicts_cons] at hq hi ⊢
    generalize hv : verdict B brk a.r = v at *
    obtain ⟨i1, i2⟩ := hi
    obtain ⟨d1, d2⟩ := drain_sg ok (v :: verdicts B (brk.map fun b => (B.step b a.r).1) (inc.map (·.r))) lam
      (im ok (a :: inc) (v :: verdicts B (brk.map fun b => (B.step b a.r).1) (inc.map (·.r)))) q [] hq trivial
    rw [d1, List.map_append]
    congr 1
    rw [ih _ _ _ (qok_bump ok v _ a _ d2 i1) i2, qm_bump]
    simp only [im, List.append_assoc, List.cons_append, List.nil_append]

end Seg
end Uax
