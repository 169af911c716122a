import Verif.SegmentBatch

/-! For honest breakers the eager cutting of `SegmentBatch` has a closed form: cut at every
place whose final penalties are feasible. -/

namespace Uax
namespace Seg

variable {β : Type} (B : Breaker β)

/-! ### Feeding a rune adds the verdict to the queue -/

def c0 (v : Verdict) (j : Nat) : Int := v.prim.getD j 0
def c1 (v : Verdict) (j : Nat) : Int := (v.sec.map fun p => p.getD j 0).sum

/-- Add penalties to the atoms, from the back. -/
def bump (f0 f1 : Nat → Int) : List Atom → List Atom
  | [] => []
  | a :: q => ⟨a.r, a.p0 + f0 q.length, a.p1 + f1 q.length⟩ :: bump f0 f1 q

@[simp] theorem bump_length (f0 f1 : Nat → Int) (q : List Atom) : (bump f0 f1 q).length = q.length := by
  induction q with
  | nil => rfl
  | cons a q ih => simp [bump, ih]

theorem bump_bump (f0 f1 g0 g1 : Nat → Int) (q : List Atom) :
    bump g0 g1 (bump f0 f1 q) = bump (fun j => f0 j + g0 j) (fun j => f1 j + g1 j) q := by
  induction q with
  | nil => rfl
  | cons a q ih => simp [bump, ih, Int.add_assoc]

theorem bump_zero (q : List Atom) : bump (fun _ => 0) (fun _ => 0) q = q := by
  induction q with
  | nil => rfl
  | cons a q ih => simp [bump, ih]

theorem bump_append (f0 f1 : Nat → Int) (x y : List Atom) :
    bump f0 f1 (x ++ y) = bump (fun j => f0 (j + y.length)) (fun j => f1 (j + y.length)) x ++ bump f0 f1 y := by
  induction x with
  | nil => rfl
  | cons a x ih => simp [bump, ih]

theorem addRev_bump_true : ∀ (q : List Atom) (ps : List Int),
    addRev true q ps = (bump (fun j => ps.getD j 0) (fun _ => 0) q.reverse).reverse := by
  intro q
  induction q with
  | nil => intro ps; cases ps <;> rfl
  | cons a q ih =>
    intro ps
    cases ps with
    | nil =>
      simp only [addRev, List.getD_nil, bump_zero, List.reverse_reverse]
    | cons p ps =>
      simp only [addRev, if_true, List.reverse_cons, bump_append, List.reverse_append, ih]
      simp [bump]

theorem addRev_bump_false : ∀ (q : List Atom) (ps : List Int),
    addRev false q ps = (bump (fun _ => 0) (fun j => ps.getD j 0) q.reverse).reverse := by
  intro q
  induction q with
  | nil => intro ps; cases ps <;> rfl
  | cons a q ih =>
    intro ps
    cases ps with
    | nil =>
      simp only [addRev, List.getD_nil, bump_zero, List.reverse_reverse]
    | cons p ps =>
      simp only [addRev, Bool.false_eq_true, if_false, List.reverse_cons, bump_append, List.reverse_append, ih]
      simp [bump]

theorem insert_true (q : List Atom) (ps : List Int) :
    insertPenalties true q ps = bump (fun j => ps.getD j 0) (fun _ => 0) q := by
  unfold insertPenalties; rw [addRev_bump_true]; simp

theorem insert_false (q : List Atom) (ps : List Int) :
    insertPenalties false q ps = bump (fun _ => 0) (fun j => ps.getD j 0) q := by
  unfold insertPenalties; rw [addRev_bump_false]; simp

theorem feed_cons (r : Int) (pr : Bool) (b : β) (bs : List β) (q : List Atom) (lam : Int) :
    feed B r pr (b :: bs) q lam =
      ((B.step b r).1 :: (feed B r false bs (insertPenalties pr q (B.step b r).2.2)
          (if (B.step b r).2.1 > lam then (B.step b r).2.1 else lam)).1,
        (feed B r false bs (insertPenalties pr q (B.step b r).2.2)
          (if (B.step b r).2.1 > lam then (B.step b r).2.1 else lam)).2) := rfl

theorem feed_false (r : Int) : ∀ (bs : List β) (q : List Atom) (lam : Int), 0 ≤ lam →
    feed B r false bs q lam = (bs.map fun b => (B.step b r).1,
      bump (fun _ => 0) (fun j => ((bs.map fun b => (B.step b r).2.2).map fun p => p.getD j 0).sum) q,
      max lam (maxLam (bs.map fun b => (B.step b r).2.1))) := by
  intro bs
  induction bs with
  | nil => intro q lam h; simp [feed, maxLam, bump_zero]; omega
  | cons b bs ih =>
    intro q lam h
    rw [feed_cons, ih _ _ (by split <;> omega), insert_false, bump_bump]
    simp only [List.map_cons, List.sum_cons, maxLam, Int.add_zero, Prod.mk.injEq, true_and]
    split <;> omega

/-- The verdict on one rune. -/
def verdict (bs : List β) (r : Int) : Verdict :=
  ⟨maxLam (bs.map fun b => (B.step b r).2.1), (bs.head?.map fun b => (B.step b r).2.2).getD [],
    bs.tail.map fun b => (B.step b r).2.2⟩

theorem verdicts_cons (bs : List β) (r : Int) (rs : List Int) :
    verdicts B bs (r :: rs) = verdict B bs r :: verdicts B (bs.map fun b => (B.step b r).1) rs := by
  cases bs <;> simp [verdicts, verdict, List.map_map, Function.comp_def]

theorem maxLam_nonneg : ∀ l : List Int, 0 ≤ maxLam l
  | [] => by simp [maxLam]
  | a :: l => by have := maxLam_nonneg l; simp only [maxLam]; omega

theorem feed_eq (bs : List β) (r : Int) (q : List Atom) :
    feed B r true bs q 0 = (bs.map fun b => (B.step b r).1,
      bump (c0 (verdict B bs r)) (c1 (verdict B bs r)) q, (verdict B bs r).lam) := by
  cases bs with
  | nil =>
    have h0 : c0 (verdict B [] r) = fun _ => 0 := by funext j; simp [c0, verdict]
    have h1 : c1 (verdict B [] r) = fun _ => 0 := by funext j; simp [c1, verdict]
    rw [h0, h1, bump_zero]
    rfl
  | cons b bs =>
    rw [feed_cons, feed_false B r bs _ _ (by split <;> omega), insert_true, bump_bump]
    have h0 : (fun j => (B.step b r).2.2.getD j 0 + 0) = c0 (verdict B (b :: bs) r) := by
      funext j; simp [c0, verdict]
    have h1 : (fun j => 0 + ((bs.map fun b => (B.step b r).2.2).map fun p => p.getD j 0).sum) =
        c1 (verdict B (b :: bs) r) := by
      funext j; simp [c1, verdict]
    rw [h0, h1]
    simp only [List.map_cons, Prod.mk.injEq, true_and, verdict, maxLam]
    have := maxLam_nonneg (bs.map fun b => (B.step b r).2.1)
    split <;> omega

/-! ### Final penalties and marks -/

/-- What will still be added to a position `d` runes before the next rune to be read. -/
def fut0 (rem : List Verdict) (d : Nat) : Int := (rem.mapIdx fun m v => c0 v (d + m)).sum
def fut1 (rem : List Verdict) (d : Nat) : Int := (rem.mapIdx fun m v => c1 v (d + m)).sum
def sett (rem : List Verdict) (d : Nat) : Bool := (rem.mapIdx fun m v => decide (v.lam ≤ ((d + m : Nat) : Int))).any id

theorem fut0_cons (v : Verdict) (rem : List Verdict) (d : Nat) :
    fut0 (v :: rem) d = c0 v d + fut0 rem (d + 1) := by
  simp only [fut0, List.mapIdx_cons, List.sum_cons, Nat.add_zero]
  congr 3
  funext m v
  congr 1
  omega

theorem fut1_cons (v : Verdict) (rem : List Verdict) (d : Nat) :
    fut1 (v :: rem) d = c1 v d + fut1 rem (d + 1) := by
  simp only [fut1, List.mapIdx_cons, List.sum_cons, Nat.add_zero]
  congr 3
  funext m v
  congr 1
  omega

theorem sett_cons (v : Verdict) (rem : List Verdict) (d : Nat) :
    sett (v :: rem) d = (decide (v.lam ≤ (d : Int)) || sett rem (d + 1)) := by
  simp only [sett, List.mapIdx_cons, List.any_cons, id, Nat.add_zero]
  congr 3
  funext m v
  rw [show d + 1 + m = d + (m + 1) by omega]

variable (ok : Atom → Bool)

/-- The final atom of a queued atom, `j` runes before the last one. -/
def fin (rem : List Verdict) (j : Nat) (a : Atom) : Atom :=
  ⟨a.r, a.p0 + fut0 rem (j + 1), a.p1 + fut1 rem (j + 1)⟩

/-- Queued atoms with their final penalties and marks. `P j`: settled already. -/
def qmarks (P : Nat → Bool) (rem : List Verdict) : List Atom → List (Atom × Bool)
  | [] => []
  | a :: q => (fin rem q.length a, ok (fin rem q.length a) && (P q.length || sett rem (q.length + 1))) :: qmarks P rem q

/-- Incoming atoms with their final penalties and marks. -/
def imarks : List Atom → List Verdict → List (Atom × Bool)
  | a :: inc, v :: rem =>
    let f : Atom := ⟨a.r, a.p0 + fut0 (v :: rem) 0, a.p1 + fut1 (v :: rem) 0⟩
    (f, ok f && sett (v :: rem) 0) :: imarks inc rem
  | _, _ => []

/-- Cut after marked atoms. -/
def pf (acc : List Atom) : List (Atom × Bool) → List (List Atom)
  | [] => []
  | (a, m) :: l => if m then (acc ++ [a]) :: pf [] l else pf (acc ++ [a]) l

/-- Nothing is added any more to a position `j` runes before the last one. -/
def Quiet (rem : List Verdict) (j : Nat) : Prop :=
  ∀ (m : Nat) (v : Verdict), rem[m]? = some v → c0 v (j + 1 + m) = 0 ∧ c1 v (j + 1 + m) = 0

theorem quiet_fut : ∀ (rem : List Verdict) (j : Nat), Quiet rem j → fut0 rem (j + 1) = 0 ∧ fut1 rem (j + 1) = 0 := by
  intro rem
  induction rem with
  | nil => intro j _; simp [fut0, fut1]
  | cons v rem ih =>
    intro j h
    have h0 := h 0 v rfl
    have h1 := ih (j + 1) (fun m w hw => by
      have := h (m + 1) w (by simpa using hw)
      rw [show j + 1 + (m + 1) = j + 1 + 1 + m by omega] at this
      exact this)
    rw [Nat.add_zero] at h0
    rw [fut0_cons, fut1_cons, h0.1, h0.2, h1.1, h1.2]
    simp

theorem fin_quiet {rem : List Verdict} {j : Nat} (h : Quiet rem j) (a : Atom) : fin rem j a = a := by
  unfold fin
  obtain ⟨h0, h1⟩ := quiet_fut rem j h
  simp [h0, h1]

/-- Atoms which have been rejected for good. -/
def AccOK (rem : List Verdict) : List Atom → Nat → Prop
  | [], _ => True
  | a :: y, L => ok a = false ∧ Quiet rem (y.length + L) ∧ AccOK rem y L

theorem accOK_snoc (rem : List Verdict) (a : Atom) (L : Nat) : ∀ (x : List Atom),
    AccOK ok rem x (L + 1) → ok a = false → Quiet rem L → AccOK ok rem (x ++ [a]) L := by
  intro x
  induction x with
  | nil => intro _ h1 h2; exact ⟨h1, by simpa using h2, trivial⟩
  | cons b x ih =>
    intro h h1 h2
    obtain ⟨a1, a2, a3⟩ := h
    refine ⟨a1, ?_, ih a3 h1 h2⟩
    have : (x ++ [a]).length + L = x.length + (L + 1) := by simp; omega
    exact this ▸ a2

theorem pf_acc (P : Nat → Bool) (rem : List Verdict) (Z : List (Atom × Bool)) : ∀ (acc acc0 q : List Atom),
    AccOK ok rem acc q.length → (∀ j, P j = false) →
    pf acc0 (qmarks ok P rem (acc ++ q) ++ Z) = pf (acc0 ++ acc) (qmarks ok P rem q ++ Z) := by
  intro acc
  induction acc with
  | nil => intro acc0 q _ _; simp
  | cons a acc ih =>
    intro acc0 q h hP
    obtain ⟨h1, h2, h3⟩ := h
    simp only [List.cons_append, qmarks, List.length_append, fin_quiet h2, h1, Bool.false_and, pf]
    rw [if_neg (by simp), ih _ _ h3 hP]
    simp

theorem qmarks_congr (P P' : Nat → Bool) (rem : List Verdict) : ∀ (q : List Atom),
    (∀ j, j < q.length → P j = P' j) → qmarks ok P rem q = qmarks ok P' rem q := by
  intro q
  induction q with
  | nil => intro _; rfl
  | cons a q ih =>
    intro h
    simp only [qmarks]
    rw [h q.length (by simp), ih (fun j hj => h j (by simp; omega))]

theorem drain_pf (rem : List Verdict) (lam : Int) (Z : List (Atom × Bool)) : ∀ (q acc : List Atom),
    (∀ j : Nat, j < q.length → lam ≤ (j : Int) → Quiet rem j) → AccOK ok rem acc q.length →
    pf acc (qmarks ok (fun j => decide (lam ≤ (j : Int))) rem q ++ Z) =
      (drain ok ((q.length : Int) - lam).toNat acc q).1 ++
        pf [] (qmarks ok (fun _ => false) rem (drain ok ((q.length : Int) - lam).toNat acc q).2 ++ Z) := by
  intro q
  induction q with
  | nil =>
    intro acc _ hA
    have : drain ok (((([] : List Atom).length : Int) - lam).toNat) acc [] = ([], acc) := by
      cases ((([] : List Atom).length : Int) - lam).toNat <;> simp [drain]
    rw [this]
    have := pf_acc ok (fun _ => false) rem Z acc [] [] hA (fun _ => rfl)
    simp only [List.append_nil, List.nil_append] at this
    simp only [List.nil_append]
    rw [this]
    rfl
  | cons a q ih =>
    intro acc hq hA
    by_cases hD : lam ≤ (q.length : Int)
    · have hquiet := hq q.length (by simp) hD
      rw [show (((a :: q).length : Int) - lam).toNat = ((q.length : Int) - lam).toNat + 1 by
        simp only [List.length_cons]; omega]
      simp only [List.cons_append, qmarks, fin_quiet hquiet, drain, hD, decide_true, Bool.true_or, Bool.and_true, pf]
      by_cases ho : ok a = true
      · rw [if_pos ho, if_pos ho, ih [] (fun j hj => hq j (by simp; omega)) trivial]
        simp
      · rw [if_neg ho, if_neg ho]
        exact ih (acc ++ [a]) (fun j hj => hq j (by simp; omega))
          (accOK_snoc ok rem a q.length acc (by simpa using hA) (by simpa using ho) hquiet)
    · rw [show (((a :: q).length : Int) - lam).toNat = 0 by simp only [List.length_cons]; omega]
      simp only [drain, List.nil_append]
      rw [pf_acc ok (fun _ => false) rem Z acc [] (a :: q) hA (fun _ => rfl), List.nil_append]
      rw [qmarks_congr ok _ (fun _ => false) rem (a :: q)]
      intro j hj
      simp only [List.length_cons] at hj
      simp only [decide_eq_false_iff_not]
      omega

theorem qmarks_bump (v : Verdict) (rem : List Verdict) (a : Atom) : ∀ (x : List Atom),
    qmarks ok (fun j => decide (v.lam ≤ (j : Int))) rem (bump (c0 v) (c1 v) (x ++ [a])) =
      qmarks ok (fun _ => false) (v :: rem) x ++
        [(⟨a.r, a.p0 + fut0 (v :: rem) 0, a.p1 + fut1 (v :: rem) 0⟩,
          ok ⟨a.r, a.p0 + fut0 (v :: rem) 0, a.p1 + fut1 (v :: rem) 0⟩ && sett (v :: rem) 0)] := by
  intro x
  induction x with
  | nil => simp [bump, qmarks, fin, fut0_cons, fut1_cons, sett_cons, Int.add_assoc]
  | cons b x ih =>
    simp only [List.cons_append, bump, qmarks, ih, bump_length, List.length_append, List.length_cons, List.length_nil, fin,
      fut0_cons v rem (x.length + 1), fut1_cons v rem (x.length + 1), sett_cons v rem (x.length + 1), Int.add_assoc,
      Bool.false_or, Nat.zero_add]

/-- The closed form. -/
theorem batch_closed (vs : List Verdict) (hh : Honest vs) : ∀ (inc : List Atom) (brk : List β) (q : List Atom)
    (lam : Int) (done : List Verdict),
    vs = done ++ verdicts B brk (inc.map (·.r)) → q.length ≤ done.length →
    (q ≠ [] → ∃ v, done.getLast? = some v ∧ v.lam = lam) →
    batch B ok inc brk q lam =
      pf [] (qmarks ok (fun j => decide (lam ≤ (j : Int))) (verdicts B brk (inc.map (·.r))) q ++
        imarks ok inc (verdicts B brk (inc.map (·.r)))) := by
  intro inc
  induction inc with
  | nil =>
    intro brk q lam done hvs hlen hlast
    simp only [batch, List.map_nil, verdicts, imarks]
    rw [drain_pf ok [] lam [] q [] (fun j _ _ m v h => by simp at h) trivial]
    have : ∀ (l acc : List Atom), pf acc (qmarks ok (fun _ => false) [] l ++ []) = [] := by
      intro l
      induction l with
      | nil => intro acc; rfl
      | cons a l ih => intro acc; simp only [qmarks, sett, List.mapIdx_nil, List.any_nil, Bool.or_self, Bool.and_false, List.cons_append, pf]; rw [if_neg (by simp), ih]
    rw [this]
    simp
  | cons a inc ih =>
    intro brk q lam done hvs hlen hlast
    simp only [batch, feed_eq]
    simp only [List.map_cons, verdicts_cons] at hvs ⊢
    generalize hv : verdict B brk a.r = v at *
    rw [drain_pf ok (v :: verdicts B (brk.map fun b => (B.step b a.r).1) (inc.map (·.r))) lam _ q [] ?_ trivial]
    · rw [ih _ _ _ (done ++ [v]) (by simpa using hvs) ?_ ?_, qmarks_bump]
      · simp only [imarks, List.append_assoc, List.cons_append, List.nil_append]
      · have : ∀ (n : Nat) (acc q : List Atom), (drain ok n acc q).2.length ≤ acc.length + q.length := by
          intro n
          induction n with
          | zero => intro acc q; simp [drain]
          | succ n ihn =>
            intro acc q
            cases q with
            | nil => simp [drain]
            | cons b q =>
              simp only [drain]
              split
              · have := ihn [] q; simp at this ⊢; omega
              · have := ihn (acc ++ [b]) q; simp at this ⊢; omega
        have := this ((q.length : Int) - lam).toNat [] q
        simp at this ⊢
        omega
      · intro _; exact ⟨v, by simp, rfl⟩
    · intro j hj hlam m w hw
      obtain ⟨u, hu, hul⟩ := hlast (by intro h; rw [h] at hj; simp at hj)
      have hd : done ≠ [] := by intro h; rw [h] at hu; cases hu
      have hpos : 0 < done.length := List.length_pos_iff.mpr hd
      have e1 : (vs.drop (done.length - 1 - j))[j]? = some u := by
        rw [hvs, List.getElem?_drop, List.getElem?_append_left (by omega)]
        rw [List.getLast?_eq_getElem?] at hu
        rw [← hu]; congr 1; omega
      have e2 : (vs.drop (done.length - 1 - j))[j + 1 + m]? = some w := by
        rw [hvs, List.getElem?_drop, List.getElem?_append_right (by omega)]
        rw [← hw]; congr 1; omega
      obtain ⟨r0, r1⟩ := hh _ j u (j + 1 + m) w e1 (by omega) (by omega) e2
      refine ⟨r0, ?_⟩
      unfold c1
      have : ∀ l : List (List Int), (∀ p ∈ l, p.getD (j + 1 + m) 0 = 0) → (l.map fun p => p.getD (j + 1 + m) 0).sum = 0 := by
        intro l
        induction l with
        | nil => intro _; rfl
        | cons p l ihl =>
          intro h
          simp only [List.map_cons, List.sum_cons]
          rw [h p (by simp), ihl (fun p hp => h p (by simp [hp]))]
          rfl
      exact this _ r1

end Seg
end Uax
