import Verif.SegmentMore

/-! Tracking, for arbitrary breakers and arbitrary histories of calls, what has been read,
what has been handed out, and the penalties collected so far. -/

namespace Uax
namespace Seg

variable {β : Type} (B : Breaker β)

/-- Feed atoms to the breakers without ever cutting. -/
def runA : List β → List Atom → List Atom → List β × List Atom
  | bs, A, [] => (bs, A)
  | bs, A, a :: inc =>
    runA (bs.map fun b => (B.step b a.r).1) (bump (c0 (verdict B bs a.r)) (c1 (verdict B bs a.r)) (A ++ [a])) inc

theorem runA_snoc (x : List Atom) (a : Atom) : ∀ (bs : List β) (A : List Atom),
    runA B bs A (x ++ [a]) = ((runA B bs A x).1.map fun b => (B.step b a.r).1,
      bump (c0 (verdict B (runA B bs A x).1 a.r)) (c1 (verdict B (runA B bs A x).1 a.r)) ((runA B bs A x).2 ++ [a])) := by
  induction x with
  | nil => intro bs A; rfl
  | cons b x ih => intro bs A; simp only [List.cons_append, runA, ih]

theorem runA_length : ∀ (x : List Atom) (bs : List β) (A : List Atom),
    (runA B bs A x).2.length = A.length + x.length := by
  intro x
  induction x with
  | nil => intro bs A; rfl
  | cons a x ih => intro bs A; simp only [runA, ih, bump_length]; simp; omega

theorem bump_drop (f0 f1 : Nat → Int) : ∀ (q : List Atom) (n : Nat), bump f0 f1 (q.drop n) = (bump f0 f1 q).drop n := by
  intro q
  induction q with
  | nil => intro n; simp [bump]
  | cons a q ih =>
    intro n
    cases n with
    | zero => rfl
    | succ n => simp [bump, ih]

theorem bump_runes (f0 f1 : Nat → Int) (q : List Atom) : (bump f0 f1 q).map (·.r) = q.map (·.r) := by
  induction q with
  | nil => rfl
  | cons a q ih => simp [bump, ih]

theorem runA_runes : ∀ (x : List Atom) (bs : List β) (A : List Atom),
    (runA B bs A x).2.map (·.r) = A.map (·.r) ++ x.map (·.r) := by
  intro x
  induction x with
  | nil => intro bs A; simp [runA]
  | cons a x ih => intro bs A; simp only [runA, ih, bump_runes]; simp

/-- `o` atoms have been handed out. -/
structure Trk (bs : List β) (all : List Atom) (o : Nat) (s : Seg β) : Prop where
  ex : ∃ fed, fed ++ s.incoming = all ∧ s.brk = (runA B bs [] fed).1 ∧
    s.q = (runA B bs [] fed).2.drop o ∧ o ≤ fed.length

theorem trk_digest_cons {bs : List β} {all : List Atom} {o : Nat} {s : Seg β} {x : Int × Nat} {rest : List (Int × Nat)}
    (hE : s.atEOF = false) (bound : Option Int)
    (h : Trk B bs all o ({ s with src := x :: rest } : Seg β)) :
    Trk B bs all o ({ digest B { s with pos := s.pos + x.2 } bound ⟨x.1, 0, 0⟩ with src := rest } : Seg β) := by
  obtain ⟨fed, h1, h2, h3, h4⟩ := h.ex
  simp only [incoming, hE, Bool.false_eq_true, if_false, List.map_cons, List.cons_append] at h1
  refine ⟨fed ++ [⟨x.1, 0, 0⟩], ?_, ?_, ?_, by simp; omega⟩
  · unfold digest
    simp only [incoming, hE, Bool.false_eq_true, if_false, List.append_assoc, List.cons_append, List.nil_append]
    exact h1
  · unfold digest
    simp only [feed_eq, runA_snoc, ← h2]
  · unfold digest
    simp only [feed_eq, runA_snoc, ← h2]
    simp only at h3 h2
    rw [h3, ← bump_drop, List.drop_append_of_le_length (by rw [runA_length]; simpa using h4)]

theorem trk_digest_eot {bs : List β} {all : List Atom} {o : Nat} {s : Seg β}
    (hE : s.atEOF = false) (he : s.srcEnd = none) (bound : Option Int)
    (h : Trk B bs all o ({ s with src := [] } : Seg β)) :
    Trk B bs all o (digest B { s with src := [], atEOF := true } bound eotAtom) := by
  obtain ⟨fed, h1, h2, h3, h4⟩ := h.ex
  simp only [incoming, hE, he, Bool.false_eq_true, if_false, List.map_nil, List.nil_append, if_true] at h1
  refine ⟨fed ++ [eotAtom], ?_, ?_, ?_, by simp; omega⟩
  · unfold digest
    simp only [incoming, if_true, List.append_nil]
    exact h1
  · unfold digest
    simp only [feed_eq, runA_snoc, ← h2]
  · unfold digest
    simp only [feed_eq, runA_snoc, ← h2]
    simp only at h3 h2
    rw [h3, ← bump_drop, List.drop_append_of_le_length (by rw [runA_length]; simpa using h4)]

theorem trk_readEnough {bs : List β} {all : List Atom} {o : Nat} (bound : Option Int) :
    ∀ (src : List (Int × Nat)) (s : Seg β), Trk B bs all o ({ s with src := src } : Seg β) →
    Trk B bs all o (readEnough B bound src s).1 := by
  intro src
  induction src with
  | nil =>
    intro s h
    unfold readEnough
    split
    · exact h
    · split
      · exact h
      · split
        · exact h
        · next hE =>
          have hE' : s.atEOF = false := by simpa using hE
          simp only
          split
          · next e he =>
            obtain ⟨fed, h1, h2, h3, h4⟩ := h.ex
            refine ⟨fed, ?_, h2, h3, h4⟩
            simp only [incoming, hE', he, Bool.false_eq_true, if_false, List.map_nil, List.nil_append] at h1
            simp only [incoming, if_true]
            simpa using h1
          · next he =>
            have := trk_digest_eot B hE' he bound h
            split
            · exact this
            · split <;> exact this
  | cons x rest ih =>
    intro s h
    obtain ⟨r, sz⟩ := x
    unfold readEnough
    split
    · exact h
    · split
      · exact h
      · split
        · exact h
        · next hE =>
          exact ih _ (trk_digest_cons B (by simpa using hE) bound h)

/-- One call of a ready segmenter: what is handed out. -/
theorem nextB_trk {bs : List β} {all : List Atom} {o : Nat} {s : Seg β} (hw : WF s) (ht : Trk B bs all o s)
    (bound : Option Int) : ∃ s' ok, s.nextB B bound = some (s', ok) ∧ WF s' ∧ s'.ready = true ∧
      s'.zero0 = s.zero0 ∧ s'.zero1 = s.zero1 ∧ s'.brk.length = s.brk.length ∧
      (ok = false → Trk B bs all o s') ∧
      (ok = true → ∃ m, Trk B bs all (o + m) s' ∧ (bound = none → m ≠ 0) ∧
        s'.buf = writeAll s.buf.setMark (((all.drop o).take m).map (·.r)) ∧
        (m ≠ 0 → ∃ k a, o + m ≤ k ∧ k + s'.incoming.length = all.length ∧ (runA B bs [] (all.take k)).2[o + m - 1]? = some a ∧
          s'.lastP = (a.p0, a.p1))) := by
  -- a state with the same queue
  have same : ∀ (t t' : Seg β), t'.q = t.q → t'.brk = t.brk → t'.incoming = t.incoming →
      Trk B bs all o t → Trk B bs all o t' := by
    intro t t' e1 e2 e3 h
    obtain ⟨fed, h1, h2, h3, h4⟩ := h.ex
    exact ⟨fed, by rw [e3]; exact h1, by rw [e2]; exact h2, by rw [e1]; exact h3, h4⟩
  -- cutting the front
  have front : ∀ (t : Seg β), WF t → Trk B bs all o t → 0 ≤ t.bo → ∃ s', t.getFront bound = some s' ∧ WF s' ∧ s'.ready = true ∧
      s'.zero0 = t.zero0 ∧ s'.zero1 = t.zero1 ∧ s'.brk.length = t.brk.length ∧
      (∃ m, Trk B bs all (o + m) s' ∧ (bound = none → m ≠ 0) ∧
        s'.buf = writeAll t.buf.setMark (((all.drop o).take m).map (·.r)) ∧
        (m ≠ 0 → ∃ k a, o + m ≤ k ∧ k + s'.incoming.length = all.length ∧ (runA B bs [] (all.take k)).2[o + m - 1]? = some a ∧
          s'.lastP = (a.p0, a.p1))) := by
    intro t hwt htt hbo
    obtain ⟨s', e, hw', hq, hc, hbuf, hlp, h1, h2, h3, h4, h5, h6, h7, h8, h9, h10, _, _⟩ := getFront_spec hwt hbo bound
    obtain ⟨fed, f1, f2, f3, f4⟩ := htt.ex
    have hlen : t.q.length + o = fed.length := by
      rw [f3, List.length_drop, runA_length]; simp; omega
    have hfed : all.take fed.length = fed := by rw [← f1]; simp
    refine ⟨s', e, hw', by rw [h1]; exact hwt.ready, h6, h7, by rw [h4], cutLen t bound, ?_, ?_, ?_, ?_⟩
    · refine ⟨fed, ?_, by rw [h4]; exact f2, ?_, by omega⟩
      · rw [show s'.incoming = t.incoming by unfold incoming; rw [h2, h3, h9]]; exact f1
      · rw [hq, f3, List.drop_drop]
    · rintro rfl
      simp only [cutLen]; omega
    · rw [hbuf]
      congr 1
      have : (t.q.take (cutLen t bound)).map (·.r) = ((t.q).map (·.r)).take (cutLen t bound) := by rw [List.map_take]
      rw [this, f3, List.map_drop, runA_runes]
      simp only [List.map_nil, List.nil_append]
      have e2 : all.map (·.r) = fed.map (·.r) ++ t.incoming.map (·.r) := by rw [← f1]; simp
      rw [List.map_take, List.map_drop, e2, List.drop_append_of_le_length (by simpa using f4),
        List.take_append_of_le_length (by simp; omega)]
    · intro hm
      have hlt : cutLen t bound - 1 < t.q.length := by omega
      refine ⟨fed.length, t.q[cutLen t bound - 1], by omega, ?_, ?_, ?_⟩
      · rw [show s'.incoming = t.incoming by unfold incoming; rw [h2, h3, h9], ← f1]; simp
      · rw [hfed]
        have hg : t.q[cutLen t bound - 1]? = some t.q[cutLen t bound - 1] := List.getElem?_eq_getElem hlt
        rw [← hg, f3, List.getElem?_drop]
        congr 1
        omega
      · exact hlp hm _ (List.getElem?_eq_getElem hlt)
  unfold nextB
  rw [if_neg (by simp [hw.ready])]
  simp only
  by_cases hE : s.atEOF = true
  · rw [if_pos hE]
    by_cases hb : s.bo < 0
    · rw [if_pos hb]
      exact ⟨_, false, rfl, ⟨hw.ready, hw.lo, hw.hi, hw.lam⟩, hw.ready, rfl, rfl, rfl, fun _ => same s _ rfl rfl rfl ht, fun h => by cases h⟩
    · rw [if_neg hb]
      obtain ⟨s', e, a1, a2, a3, a4, a5, a6⟩ := front { s with inUse := true } ⟨hw.ready, hw.lo, hw.hi, hw.lam⟩
        (same s _ rfl rfl rfl ht) (by simp only; omega)
      rw [e]
      exact ⟨s', true, rfl, a1, a2, a3, a4, a5, (fun h => by cases h), fun _ => a6⟩
  · rw [if_neg hE]
    have hr := readEnough_spec B bound s.src { s with inUse := true } ⟨hw.ready, hw.lo, hw.hi, hw.lam⟩
    have htr := trk_readEnough B (bs := bs) (all := all) (o := o) bound s.src { s with inUse := true } (same s _ rfl rfl rfl ht)
    rcases hre : readEnough B bound s.src { s with inUse := true } with ⟨t, er⟩
    rw [hre] at hr htr
    obtain ⟨hwt, hp, hs, hbo⟩ := hr
    simp only at hwt hp hs hbo htr
    have hse : ∀ e, (t.setErr e).brk = t.brk ∧ (t.setErr e).zero0 = t.zero0 ∧
        (t.setErr e).zero1 = t.zero1 ∧ (t.setErr e).ready = t.ready ∧ (t.setErr e).bo = t.bo ∧
        (t.setErr e).q = t.q ∧ (t.setErr e).lam = t.lam ∧ (t.setErr e).incoming = t.incoming := by
      intro e; unfold setErr; split <;> simp [incoming]
    have fail : ∀ e, WF ({ (t.setErr e) with buf := t.buf.reset none } : Seg β) ∧
        Trk B bs all o ({ (t.setErr e) with buf := t.buf.reset none } : Seg β) := by
      intro e
      obtain ⟨e2, e3, e4, e5, e6, e7, e8, e9⟩ := hse e
      exact ⟨⟨by simp only [e5]; exact hwt.ready, by simp only [e6]; exact hwt.lo,
          by simp only [e6, e7]; exact hwt.hi, by simp only [e8]; exact hwt.lam⟩, same t _ e7 e2 e9 htr⟩
    have done : ∃ s' ok, (if t.past bound = true then some (t, false)
        else if t.bo < 0 then some ({ t with buf := t.buf.reset none }, false)
        else (t.getFront bound).map (·, true)) = some (s', ok) ∧ WF s' ∧ s'.ready = true ∧
      s'.zero0 = s.zero0 ∧ s'.zero1 = s.zero1 ∧ s'.brk.length = s.brk.length ∧
      (ok = false → Trk B bs all o s') ∧
      (ok = true → ∃ m, Trk B bs all (o + m) s' ∧ (bound = none → m ≠ 0) ∧
        s'.buf = writeAll s.buf.setMark (((all.drop o).take m).map (·.r)) ∧
        (m ≠ 0 → ∃ k a, o + m ≤ k ∧ k + s'.incoming.length = all.length ∧ (runA B bs [] (all.take k)).2[o + m - 1]? = some a ∧
          s'.lastP = (a.p0, a.p1))) := by
      split
      · exact ⟨t, false, rfl, hwt, hwt.ready, hs.zero0, hs.zero1, hs.nbrk, fun _ => htr, fun h => by cases h⟩
      · split
        · exact ⟨_, false, rfl, ⟨hwt.ready, hwt.lo, hwt.hi, hwt.lam⟩, hwt.ready, hs.zero0, hs.zero1, hs.nbrk,
            fun _ => same t _ rfl rfl rfl htr, fun h => by cases h⟩
        · next hnb =>
          obtain ⟨s', e, a1, a2, a3, a4, a5, a6⟩ := front t hwt htr (by omega)
          rw [e]
          refine ⟨s', true, rfl, a1, a2, by rw [a3]; exact hs.zero0, by rw [a4]; exact hs.zero1, by rw [a5]; exact hs.nbrk,
            (fun h => by cases h), fun _ => ?_⟩
          rw [hs.buf] at a6
          exact a6
    cases er with
    | none => exact done
    | some er =>
      cases er with
      | boundReached =>
        obtain ⟨e2, e3, e4, e5, e6, e7, e8, e9⟩ := hse .boundReached
        exact ⟨_, false, rfl, (fail _).1, by simp only [e5]; exact hwt.ready, by simp only [e3]; exact hs.zero0,
          by simp only [e4]; exact hs.zero1, by simp only [e2]; exact hs.nbrk, fun _ => (fail _).2, fun h => by cases h⟩
      | reader e =>
        obtain ⟨e2, e3, e4, e5, e6, e7, e8, e9⟩ := hse (.reader e)
        exact ⟨_, false, rfl, (fail _).1, by simp only [e5]; exact hwt.ready, by simp only [e3]; exact hs.zero0,
          by simp only [e4]; exact hs.zero1, by simp only [e2]; exact hs.nbrk, fun _ => (fail _).2, fun h => by cases h⟩
      | eof => exact done
      | tooLong => exact done
      | notInitialized => exact done

/-! ### Penalties as sums of verdicts -/

theorem runA_get : ∀ (inc : List Atom) (bs : List β) (A : List Atom) (i : Nat) (a : Atom), 
    (runA B bs A inc).2[i]? = some a →
    (∃ b, A[i]? = some b ∧ a = ⟨b.r, b.p0 + fut0 (verdicts B bs (inc.map (·.r))) (A.length - i),
        b.p1 + fut1 (verdicts B bs (inc.map (·.r))) (A.length - i)⟩) ∨
    (A.length ≤ i ∧ ∃ b, inc[i - A.length]? = some b ∧
      a = ⟨b.r, b.p0 + total0 (verdicts B bs (inc.map (·.r))) (i - A.length),
        b.p1 + total1 (verdicts B bs (inc.map (·.r))) (i - A.length)⟩) := by
  intro inc
  induction inc with
  | nil =>
    intro bs A i a h
    refine Or.inl ⟨a, h, ?_⟩
    simp [verdicts, fut0, fut1]
  | cons x inc ih =>
    intro bs A i a h
    simp only [runA] at h
    simp only [List.map_cons, verdicts_cons]
    generalize hv : verdict B bs x.r = v at *
    have bget : ∀ (f0 f1 : Nat → Int) (q : List Atom) (i : Nat), (bump f0 f1 q)[i]? =
        q[i]?.map fun b => ⟨b.r, b.p0 + f0 (q.length - 1 - i), b.p1 + f1 (q.length - 1 - i)⟩ := by
      intro f0 f1 q
      induction q with
      | nil => intro i; simp [bump]
      | cons b q ihq =>
        intro i
        cases i with
        | zero => simp [bump]
        | succ i =>
          simp only [bump, List.getElem?_cons_succ, ihq, List.length_cons]
          rw [show q.length + 1 - 1 - (i + 1) = q.length - 1 - i by omega]
    rcases ih _ _ i a h with ⟨b, hb, rfl⟩ | ⟨hle, b, hb, rfl⟩
    · rw [bget] at hb
      rcases Nat.lt_or_ge i A.length with hi | hi
      · rw [List.getElem?_append_left hi] at hb
        cases hA : A[i]? with
        | none => rw [hA] at hb; cases hb
        | some d =>
          rw [hA] at hb
          simp only [Option.map_some, Option.some.injEq] at hb
          subst hb
          refine Or.inl ⟨d, rfl, ?_⟩
          simp only [bump_length, List.length_append, List.length_cons, List.length_nil, Nat.zero_add, fut0_cons,
            fut1_cons, Int.add_assoc, Nat.add_sub_cancel]
          rw [show A.length + 1 - i = A.length - i + 1 by omega]
      · rcases Nat.lt_or_ge A.length i with hi2 | hi2
        · rw [List.getElem?_eq_none (by simp; omega)] at hb; cases hb
        · have : i = A.length := by omega
          subst this
          rw [List.getElem?_append_right (by omega)] at hb
          simp only [Nat.sub_self, List.getElem?_cons_zero, Option.map_some, Option.some.injEq] at hb
          subst hb
          refine Or.inr ⟨Nat.le_refl _, x, by simp, ?_⟩
          simp only [total0_eq, total1_eq, Nat.sub_self, List.drop_zero, fut0_cons, fut1_cons, bump_length,
            List.length_append, List.length_cons, List.length_nil, Int.add_assoc, Nat.zero_add, Nat.add_sub_cancel,
            Nat.add_sub_cancel_left]
    · simp only [bump_length, List.length_append, List.length_cons, List.length_nil, Nat.zero_add] at hle hb ⊢
      refine Or.inr ⟨by omega, b, ?_, ?_⟩
      · rw [show i - A.length = (i - (A.length + 1)) + 1 by omega, List.getElem?_cons_succ]; exact hb
      · simp only [total0_eq, total1_eq]
        rw [show i - A.length = (i - (A.length + 1)) + 1 by omega, List.drop_succ_cons]

end Seg
end Uax
