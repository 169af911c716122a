import Verif.SegmentHist
import Verif.SegmentCalls

/-! What `Next()` calls deliver after bounded calls, if the end of the text has not been read. -/

namespace Uax
namespace Seg

variable {β : Type} (B : Breaker β)

theorem verdicts_snoc (a : Atom) : ∀ (x : List Atom) (bs : List β) (A : List Atom),
    verdicts B bs ((x ++ [a]).map (·.r)) = verdicts B bs (x.map (·.r)) ++ [verdict B (runA B bs A x).1 a.r] := by
  intro x
  induction x with
  | nil => intro bs A; simp [verdicts_cons, runA, verdicts]
  | cons b x ih => intro bs A; simp only [List.cons_append, List.map_cons, verdicts_cons, runA]; rw [ih]

/-- The number of runes that the breakers still look back at is the one stated with the rune read
last, once more than `k` runes have been read. -/
def LamT (bs : List β) (all : List Atom) (k : Nat) (s : Seg β) : Prop :=
  ∃ fed, fed ++ s.incoming = all ∧ s.brk = (runA B bs [] fed).1 ∧
    (k < fed.length → (verdicts B bs (fed.map (·.r))).getLast?.map (·.lam) = some s.lam)

theorem lamT_same {bs : List β} {all : List Atom} {k : Nat} {t t' : Seg β} (e1 : t'.lam = t.lam) (e2 : t'.brk = t.brk)
    (e3 : t'.incoming = t.incoming) (h : LamT B bs all k t) : LamT B bs all k t' := by
  obtain ⟨fed, h1, h2, h3⟩ := h
  exact ⟨fed, by rw [e3]; exact h1, by rw [e2]; exact h2, by rw [e1]; exact h3⟩

theorem lamT_digest {bs : List β} {all : List Atom} {k : Nat} {s u : Seg β} (a : Atom) (bound : Option Int)
    (e : s.brk = u.brk) (hi : s.incoming = a :: (digest B u bound a).incoming) (h : LamT B bs all k s) :
    LamT B bs all k (digest B u bound a) := by
  obtain ⟨fed, h1, h2, _⟩ := h
  refine ⟨fed ++ [a], by rw [List.append_assoc]; simpa [hi] using h1, ?_, fun _ => ?_⟩
  · unfold digest
    simp only [feed_eq, runA_snoc, ← h2, e]
  · rw [verdicts_snoc B a fed bs [], ← h2, e]
    unfold digest
    simp [feed_eq]

theorem lamT_readEnough {bs : List β} {all : List Atom} {k : Nat} (bound : Option Int) :
    ∀ (src : List (Int × Nat)) (s : Seg β), s.srcEnd = none → LamT B bs all k ({ s with src := src } : Seg β) →
    LamT B bs all k (readEnough B bound src s).1 := by
  intro src
  induction src with
  | nil =>
    intro s he h
    unfold readEnough
    split
    · exact h
    · split
      · exact h
      · split
        · exact h
        · next hE =>
          have hE' : s.atEOF = false := by simpa using hE
          simp only [he]
          have : LamT B bs all k (digest B { s with src := [], atEOF := true } bound eotAtom) :=
            lamT_digest B (s := { s with src := [] }) eotAtom bound rfl (by simp [incoming, digest, hE', he]) h
          rw [he] at this
          split
          · exact this
          · split <;> exact this
  | cons x rest ih =>
    intro s he h
    obtain ⟨r, sz⟩ := x
    unfold readEnough
    split
    · exact h
    · split
      · exact h
      · split
        · exact h
        · next hE =>
          have hE' : s.atEOF = false := by simpa using hE
          refine ih _ he ?_
          have := lamT_digest B (s := { s with src := (r, sz) :: rest }) (u := { s with src := rest, pos := s.pos + sz })
            ⟨r, 0, 0⟩ bound rfl (by simp [incoming, digest, hE']) h
          exact this

/-- One call. -/
theorem nextB_lamT {bs : List β} {all : List Atom} {k : Nat} {s s' : Seg β} {ok : Bool} (hw : WF s) (he : s.srcEnd = none)
    (h : LamT B bs all k s) (bound : Option Int) (hn : s.nextB B bound = some (s', ok)) : LamT B bs all k s' := by
  have front : ∀ (t : Seg β), WF t → 0 ≤ t.bo → LamT B bs all k t → (t.getFront bound).map (·, true) = some (s', ok) →
      LamT B bs all k s' := by
    intro t hwt hbo ht e0
    obtain ⟨u, e, _, _, _, _, _, h1, h2, h3, h4, h5, h6, h7, h8, h9, h10, _, _⟩ := getFront_spec hwt hbo bound
    rw [e] at e0
    simp only [Option.map_some, Option.some.injEq, Prod.mk.injEq] at e0
    obtain ⟨rfl, _⟩ := e0
    exact lamT_same B h8 h4 (by unfold incoming; rw [h2, h3, h9]) ht
  unfold nextB at hn
  rw [if_neg (by simp [hw.ready])] at hn
  simp only at hn
  by_cases hE : s.atEOF = true
  · rw [if_pos hE] at hn
    by_cases hb : s.bo < 0
    · rw [if_pos hb] at hn
      cases hn
      exact lamT_same B rfl rfl rfl h
    · rw [if_neg hb] at hn
      exact front { s with inUse := true } ⟨hw.ready, hw.lo, hw.hi, hw.lam⟩ (by simp only; omega) (lamT_same B rfl rfl rfl h) hn
  · rw [if_neg hE] at hn
    have hr := readEnough_spec B bound s.src { s with inUse := true } ⟨hw.ready, hw.lo, hw.hi, hw.lam⟩
    have htr := lamT_readEnough B (bs := bs) (all := all) (k := k) bound s.src { s with inUse := true } he
      (lamT_same B rfl rfl rfl h)
    rcases hre : readEnough B bound s.src { s with inUse := true } with ⟨t, er⟩
    rw [hre] at hr htr hn
    obtain ⟨hwt, hp, hs, hbo⟩ := hr
    simp only at hwt hp hs hbo htr
    have hse : ∀ e, (t.setErr e).brk = t.brk ∧ (t.setErr e).lam = t.lam ∧ (t.setErr e).incoming = t.incoming := by
      intro e; unfold setErr; split <;> simp [incoming]
    have done : (if t.past bound = true then some (t, false)
        else if t.bo < 0 then some ({ t with buf := t.buf.reset none }, false)
        else (t.getFront bound).map (·, true)) = some (s', ok) → LamT B bs all k s' := by
      intro h0
      split at h0
      · cases h0; exact htr
      · split at h0
        · cases h0; exact lamT_same B rfl rfl rfl htr
        · exact front t hwt (by omega) htr h0
    have fail : ∀ e, LamT B bs all k ({ (t.setErr e) with buf := t.buf.reset none } : Seg β) := fun e =>
      lamT_same B (t := t) (hse e).2.1 (hse e).1 (hse e).2.2 htr
    cases er with
    | none => exact done hn
    | some er =>
      cases er with
      | boundReached => cases hn; exact fail _
      | reader e => cases hn; exact fail _
      | eof => exact done hn
      | tooLong => exact done hn
      | notInitialized => exact done hn

theorem after_lamT {bs : List β} {all : List Atom} {k : Nat} : ∀ (cs : List SegCall) (s s' : Seg β), WF s → s.srcEnd = none →
    LamT B bs all k s → s.after B cs = some s' → LamT B bs all k s' := by
  intro cs
  induction cs with
  | nil => intro s s' _ _ h e; cases e; exact h
  | cons c cs ih =>
    intro s s' hw he h e
    have hcall : ∃ bound, s.call B c = s.nextB B bound := by cases c <;> exact ⟨_, rfl⟩
    obtain ⟨bd, hcall⟩ := hcall
    obtain ⟨x', ok, e1, hx', z, _⟩ := nextB_spec B hw bd
    simp only [after, hcall, e1, Option.bind_some] at e
    exact ih x' s' hx' (by rw [z]; exact he) (nextB_lamT B hw he h bd e1) e

/-- The first `Next()` after bounded calls brings the break opportunity up to date, if the end of
the text has not been read, or if it returns a segment. -/
theorem next_refresh {s : Seg β} (hw : WF s) (hE : s.atEOF = false ∨ ∃ s', s.next B = some (s', true)) (he : s.srcEnd = none) :
    ∃ s' ok, s.next B = some (s', ok) ∧ WF s' ∧ Fresh s' := by
  by_cases hb : s.bo < 0
  · have hE : s.atEOF = false := by
      rcases hE with h | ⟨s', h⟩
      · exact h
      · cases hA : s.atEOF with
        | false => rfl
        | true => simp [next, nextB, hw.ready, hA, hb] at h
    rw [next_read B hw hb hE fun _ => he]
    have hw1 := readOne_wf B hw
    have hf1 := readOne_fresh B s
    obtain ⟨b1, b2⟩ := next_big B _ _ (Nat.le_refl _) hw1 hf1
    cases ht : (readOne B s).todo B with
    | nil => obtain ⟨s', h1, h2, h3, _⟩ := b2 ht; exact ⟨s', _, h1, h2, h3⟩
    | cons seg rest => obtain ⟨s', h1, h2, h3, _⟩ := b1 seg rest ht; exact ⟨s', _, h1, h2, h3⟩
  · have hb : 0 ≤ s.bo := by omega
    rw [next_front B hw hb]
    obtain ⟨u, e, hw', _, _, _, _, _, _, _, _, _, _, _, _, _, _, _, hf⟩ :=
      getFront_spec (s := { s with inUse := true }) ⟨hw.ready, hw.lo, hw.hi, hw.lam⟩ hb none
    rw [e]
    refine ⟨u, true, rfl, hw', hf ?_⟩
    simp only [cutLen]
    omega

/-- Enough `Next()` calls: nothing feasible is left in the queue, and everything has been read. -/
theorem nexts_exhaust {s : Seg β} (hw : WF s) (hE : s.atEOF = false ∨ ∃ s', s.next B = some (s', true)) (he : s.srcEnd = none) (n : Nat)
    (hn : s.pending.length < n) : ∃ s', s.after B (List.replicate (n + 1) .next) = some s' ∧ WF s' ∧
      s'.atEOF = true ∧ firstOk s'.test ((s'.q.length : Int) - s'.lam).toNat s'.q = none ∧
      s'.zero0 = s.zero0 ∧ s'.zero1 = s.zero1 ∧ s'.brk.length = s.brk.length := by
  obtain ⟨t, ok, e, hwt, hft⟩ := next_refresh B hw hE he
  obtain ⟨t', ok', e', _, q1, q2, q3, q4, q5, q6⟩ := nextB_spec B hw none
  have e'' : s.next B = some (t', ok') := e'
  rw [e] at e''
  simp only [Option.some.injEq, Prod.mk.injEq] at e''
  obtain ⟨rfl, rfl⟩ := e''
  have hpl : t.pending.length ≤ s.pending.length := by
    cases ok with
    | true => obtain ⟨p, hp, _⟩ := q5 rfl; rw [hp]; simp
    | false => rw [(q6 rfl).1]; exact Nat.le_refl _
  obtain ⟨l1, _⟩ := todo_length B _ t hwt hft (Nat.le_refl _)
  obtain ⟨u, a1, a2, a3, a4, a5, a6, a7⟩ := nexts B (n - 1) t hwt hft
  have hu : u.todo B = [] := by rw [a4]; exact List.drop_eq_nil_of_le (by omega)
  obtain ⟨v, h1, h2, h3, h4, _, h6, _⟩ := (next_big B _ u (Nat.le_refl _) a2 a3).2 hu
  obtain ⟨v', ok'', e2, _, r1, r2, r3, r4, _⟩ := nextB_spec B a2 none
  have e3 : u.next B = some (v', ok'') := e2
  rw [h1] at e3
  simp only [Option.some.injEq, Prod.mk.injEq] at e3
  obtain ⟨rfl, rfl⟩ := e3
  refine ⟨v, ?_, h2, h6, ?_, by rw [r3, a5, q3], by rw [r4, a6, q4], by rw [r2, a7, q2]⟩
  · have happ : ∀ (l1 l2 : List SegCall) (x y : Seg β), x.after B l1 = some y → x.after B (l1 ++ l2) = y.after B l2 := by
      intro l1
      induction l1 with
      | nil => intro l2 x y h; cases h; rfl
      | cons c l1 ih =>
        intro l2 x y h
        simp only [after, List.cons_append] at h ⊢
        cases hc : x.call B c with
        | none => rw [hc] at h; cases h
        | some p => rw [hc] at h; simp only [Option.bind_some] at h ⊢; exact ih _ _ _ h
    have e1 : List.replicate (n + 1) SegCall.next = .next :: (List.replicate (n - 1) .next ++ [.next]) := by
      rw [← List.replicate_succ', ← List.replicate_succ]
      congr 1
      omega
    rw [e1]
    simp only [after, call, e, Option.bind_some]
    rw [happ _ _ _ _ a1]
    simp only [after, call, h1, Option.bind_some]
  · cases hfo : firstOk v.test ((v.q.length : Int) - v.lam).toNat v.q with
    | none => rfl
    | some i =>
      unfold todo at h4
      rw [batch_first B v.test v.incoming v.brk v.q v.lam i hfo] at h4
      cases h4

end Seg
end Uax
