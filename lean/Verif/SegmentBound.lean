import Verif.SegmentCalls

/-! Positions: how far `BoundedNext` can get. -/

namespace Uax
namespace Seg

variable {β : Type} (B : Breaker β)

/-- The state in which `next` looks for the front segment. -/
def ahead (s : Seg β) (bound : Option Int) : Seg β :=
  if s.atEOF then { s with inUse := true } else (readEnough B bound s.src { s with inUse := true }).1

/-- `s'` differs from `t` in error, buffer, penalties and use flag only. -/
structure Core (t s' : Seg β) : Prop where
  ready : s'.ready = t.ready
  q : s'.q = t.q
  src : s'.src = t.src
  srcEnd : s'.srcEnd = t.srcEnd
  brk : s'.brk = t.brk
  pos : s'.pos = t.pos
  zero0 : s'.zero0 = t.zero0
  zero1 : s'.zero1 = t.zero1
  lam : s'.lam = t.lam
  bo : s'.bo = t.bo
  atEOF : s'.atEOF = t.atEOF

theorem core_setErr (t : Seg β) (e : SegErr) (w : RuneWrite) : Core t { (t.setErr e) with buf := w } := by
  unfold setErr; split <;> exact ⟨rfl, rfl, rfl, rfl, rfl, rfl, rfl, rfl, rfl, rfl, rfl⟩

theorem nextB_cases {s : Seg β} (hr : s.ready = true) (bound : Option Int) :
    (∃ s', s.nextB B bound = some (s', false) ∧ Core (s.ahead B bound) s') ∨
    (0 ≤ (s.ahead B bound).bo ∧ s.nextB B bound = ((s.ahead B bound).getFront bound).map (·, true)) := by
  unfold nextB ahead
  rw [if_neg (by simp [hr])]
  simp only
  by_cases hE : s.atEOF = true
  · rw [if_pos hE, if_pos hE]
    by_cases hb : s.bo < 0
    · rw [if_pos hb]
      exact Or.inl ⟨_, rfl, ⟨rfl, rfl, rfl, rfl, rfl, rfl, rfl, rfl, rfl, rfl, rfl⟩⟩
    · rw [if_neg hb]
      exact Or.inr ⟨by simp only; omega, rfl⟩
  · rw [if_neg hE, if_neg hE]
    rcases hre : readEnough B bound s.src { s with inUse := true } with ⟨t, er⟩
    have done : (∃ s', (if t.past bound = true then some (t, false)
        else if t.bo < 0 then some ({ t with buf := t.buf.reset none }, false)
        else (t.getFront bound).map (·, true)) = some (s', false) ∧ Core t s') ∨ (0 ≤ t.bo ∧ (if t.past bound = true then some (t, false)
        else if t.bo < 0 then some ({ t with buf := t.buf.reset none }, false)
        else (t.getFront bound).map (·, true)) = (t.getFront bound).map (·, true)) := by
      split
      · exact Or.inl ⟨t, rfl, ⟨rfl, rfl, rfl, rfl, rfl, rfl, rfl, rfl, rfl, rfl, rfl⟩⟩
      · split
        · exact Or.inl ⟨_, rfl, ⟨rfl, rfl, rfl, rfl, rfl, rfl, rfl, rfl, rfl, rfl, rfl⟩⟩
        · exact Or.inr ⟨by omega, rfl⟩
    cases er with
    | none => exact done
    | some er =>
      cases er with
      | boundReached => exact Or.inl ⟨_, rfl, core_setErr _ _ _⟩
      | reader e => exact Or.inl ⟨_, rfl, core_setErr _ _ _⟩
      | eof => exact done
      | tooLong => exact done
      | notInitialized => exact done

/-- 1 if the end-of-text mark has been read. -/
def markRead (s : Seg β) : Nat := if s.atEOF = true ∧ s.srcEnd = none then 1 else 0

/-- `o` runes have been handed out; every rune has at least one byte. -/
def PosInv (o : Nat) (s : Seg β) : Prop :=
  (∀ x ∈ s.src, 1 ≤ x.2) ∧ (o : Int) + s.q.length ≤ s.pos + s.markRead

theorem digest_qlen (s : Seg β) (bound : Option Int) (a : Atom) : (digest B s bound a).q.length = s.q.length + 1 := by
  have := congrArg List.length (digest_q B s bound a)
  simpa using this

theorem readEnough_pos (o : Nat) (bound : Option Int) : ∀ (src : List (Int × Nat)) (s : Seg β),
    PosInv o ({ s with src := src } : Seg β) → PosInv o (readEnough B bound src s).1 := by
  intro src
  induction src with
  | nil =>
    intro s h
    unfold readEnough
    split
    · exact h
    · split
      · exact h
      · split
        · exact h
        · next hE =>
          have hE' : s.atEOF = false := by simpa using hE
          simp only
          split
          · next e he =>
            refine ⟨h.1, ?_⟩
            have := h.2
            simp only [markRead, hE', he] at this ⊢
            simpa using this
          · next he =>
            have : PosInv o (digest B { s with src := [], atEOF := true } bound eotAtom) := by
              refine ⟨h.1, ?_⟩
              have h2 := h.2
              rw [digest_qlen]
              have e1 : (digest B { s with src := [], atEOF := true } bound eotAtom).markRead = 1 := by
                unfold markRead; rw [if_pos]; exact ⟨rfl, he⟩
              have e2 : (digest B { s with src := [], atEOF := true } bound eotAtom).pos = s.pos := rfl
              rw [e1, e2]
              simp only [markRead, hE', Bool.false_eq_true, false_and, if_false] at h2
              simp only
              omega
            split
            · exact this
            · split <;> exact this
  | cons x rest ih =>
    intro s h
    obtain ⟨r, sz⟩ := x
    unfold readEnough
    split
    · exact h
    · split
      · exact h
      · split
        · exact h
        · next hE =>
          have hE' : s.atEOF = false := by simpa using hE
          refine ih _ ⟨fun x hx => h.1 x (List.mem_cons_of_mem _ hx), ?_⟩
          have h2 := h.2
          have h3 := h.1 (r, sz) (List.mem_cons_self ..)
          simp only at h3
          have e0 := digest_qlen B { s with pos := s.pos + sz } bound ⟨r, 0, 0⟩
          have e1 : (digest B { s with pos := s.pos + sz } bound ⟨r, 0, 0⟩).markRead = 0 := by
            unfold markRead; rw [if_neg]; intro hh; have := hh.1; rw [show (digest B { s with pos := s.pos + sz } bound ⟨r, 0, 0⟩).atEOF = s.atEOF from rfl, hE'] at this; cases this
          have e2 : (digest B { s with pos := s.pos + sz } bound ⟨r, 0, 0⟩).pos = s.pos + sz := rfl
          simp only [markRead, hE', Bool.false_eq_true, false_and, if_false] at h2
          show (o : Int) + (digest B { s with pos := s.pos + sz } bound ⟨r, 0, 0⟩).q.length ≤
            (digest B { s with pos := s.pos + sz } bound ⟨r, 0, 0⟩).pos + (digest B { s with pos := s.pos + sz } bound ⟨r, 0, 0⟩).markRead
          rw [e0, e1, e2]
          simp only
          omega

/-- One call, with positions. -/
theorem nextB_pos {o : Nat} {s : Seg β} (hw : WF s) (hp : PosInv o s) (bound : Option Int) :
    ∃ s' ok, s.nextB B bound = some (s', ok) ∧ WF s' ∧ (ok = false → PosInv o s' ∧ s'.pending = s.pending ∧ (s'.buf = s.buf ∨ s'.buf = s.buf.reset none)) ∧
      (ok = true → ∃ popped, PosInv (o + popped.length) s' ∧ s.pending = popped ++ s'.pending ∧
        s'.buf = writeAll s.buf.setMark popped ∧
        (∀ b, bound = some b → popped = [] ∨ (o : Int) + popped.length ≤ b + 1 + s'.markRead)) := by
  obtain ⟨s', ok, e, hw', _, _, _, _, h1, h2⟩ := nextB_spec B hw bound
  have hpa : PosInv o (s.ahead B bound) := by
    unfold ahead
    split
    · exact hp
    · exact readEnough_pos B o bound s.src _ hp
  have hwa : WF (s.ahead B bound) := by
    unfold ahead
    split
    · exact ⟨hw.ready, hw.lo, hw.hi, hw.lam⟩
    · exact (readEnough_spec B bound s.src { s with inUse := true } ⟨hw.ready, hw.lo, hw.hi, hw.lam⟩).1
  have hpe : (s.ahead B bound).pending = s.pending := by
    unfold ahead
    split
    · rfl
    · exact (readEnough_spec B bound s.src { s with inUse := true } ⟨hw.ready, hw.lo, hw.hi, hw.lam⟩).2.1
  have hbu : (s.ahead B bound).buf = s.buf := by
    unfold ahead
    split
    · rfl
    · exact (readEnough_spec B bound s.src { s with inUse := true } ⟨hw.ready, hw.lo, hw.hi, hw.lam⟩).2.2.1.buf
  refine ⟨s', ok, e, hw', ?_, ?_⟩
  · intro hok
    subst hok
    refine ⟨?_, h2 rfl⟩
    rcases nextB_cases B hw.ready bound with ⟨t, e2, hc⟩ | ⟨_, e2⟩
    · rw [e] at e2
      simp only [Option.some.injEq, Prod.mk.injEq, and_true] at e2
      subst e2
      unfold PosInv markRead at *
      rw [hc.src, hc.q, hc.pos, hc.atEOF, hc.srcEnd]
      exact hpa
    · rw [e] at e2
      cases hg : (s.ahead B bound).getFront bound <;> rw [hg] at e2 <;> simp at e2
  · intro hok
    subst hok
    rcases nextB_cases B hw.ready bound with ⟨t, e2, hc⟩ | ⟨hbo, e2⟩
    · rw [e] at e2; simp at e2
    · obtain ⟨u, g1, _, hq, hc, hbuf, _, g2, g3, g4, g5, g6, g7, g8, g9, g10, _⟩ := getFront_spec hwa hbo bound
      rw [e, g1] at e2
      simp only [Option.map_some, Option.some.injEq, Prod.mk.injEq, and_true] at e2
      subst e2
      have hm : s'.markRead = (s.ahead B bound).markRead := by unfold markRead; rw [g10, g4]
      have hlen : (((s.ahead B bound).q.take (cutLen (s.ahead B bound) bound)).map (·.r)).length = cutLen (s.ahead B bound) bound := by
        simp; omega
      have hp2 := hpa.2
      refine ⟨((s.ahead B bound).q.take (cutLen (s.ahead B bound) bound)).map (·.r), ⟨by rw [g3]; exact hpa.1, ?_⟩, ?_, by rw [hbuf, hbu], ?_⟩
      · rw [hlen, hq, List.length_drop, g6, hm]
        omega
      · rw [← hpe]
        simp only [pending, hq, g3, g10, g4]
        rw [← List.append_assoc (((s.ahead B bound).q.take _).map _), ← List.map_append, List.take_append_drop]
      · rintro b rfl
        rw [hlen, hm]
        by_cases h0 : cutLen (s.ahead B (some b)) (some b) = 0
        · left; rw [h0]; simp
        · right
          unfold cutLen at h0 ⊢
          simp only at h0 ⊢
          split at h0
          · next hh => rw [if_pos hh]; omega
          · next hh => rw [if_neg hh]; omega

/-- Histories with positions. -/
theorem hist_pos : ∀ (cs : List SegCall) (s : Seg β) (o : Nat), WF s → BufOK s.buf → s.buf.isBacked = false →
    s.buf.out.isSome → PosInv o s → s.pending.length ≤ s.room →
    ∃ s' segs, s.after B cs = some s' ∧ s.history B cs = some segs ∧ PosInv (o + segs.flatten.length) s' ∧
      WF s' ∧ BufOK s'.buf ∧ s'.buf.isBacked = false ∧ s'.buf.out.isSome ∧ s'.pending.length ≤ s'.room := by
  intro cs
  induction cs with
  | nil => intro s o hw hb hk ho hp hr; exact ⟨s, [], rfl, rfl, hp, hw, hb, hk, ho, hr⟩
  | cons c cs ih =>
    intro s o hw hb hk ho hp hr
    have hcall : ∃ bound, s.call B c = s.nextB B bound := by cases c <;> exact ⟨_, rfl⟩
    obtain ⟨bound, hcall⟩ := hcall
    obtain ⟨t, ok, e, hw', hF, hT⟩ := nextB_pos B hw hp bound
    have hinv : Inv s := ⟨hb, fun _ _ => ho, fun _ => hw, fun h => by rw [hw.ready] at h; cases h⟩
    obtain ⟨hinv', hroom', _⟩ := nextB_inv B hinv bound e
    cases ok with
    | false =>
      obtain ⟨f1, f2, f3⟩ := hF rfl
      have hk' : t.buf.isBacked = false := by
        rcases f3 with h | h
        · rw [h]; exact hk
        · rw [h]; exact (reset_none_spec hb).1
      obtain ⟨s', segs, a1, a2, a3⟩ := ih t o hw' hinv'.buf hk' (hinv'.some hw'.ready hk') f1 (by rw [f2, hroom']; exact hr)
      refine ⟨s', segs, ?_, ?_, a3⟩
      · simp only [after, hcall, e, Option.bind_some]; exact a1
      · simp only [history, hcall, e, Option.bind_some, Bool.false_eq_true, if_false]; exact a2
    | true =>
      obtain ⟨popped, p1, p2, p3, _⟩ := hT rfl
      obtain ⟨w1, w2, w3, w4, _⟩ := write_spec hb (fun _ => ho) popped
      obtain ⟨w5, w6⟩ := w4 hk
      rw [← p3] at w1 w2 w3 w5 w6
      have hl := congrArg List.length p2
      simp only [List.length_append] at hl
      obtain ⟨s', segs, a1, a2, a3, a4⟩ := ih t (o + popped.length) hw' w1 (by rw [w3, hk]) w5 p1 (by rw [hroom']; omega)
      have hrs : t.runes = some popped := by
        unfold runes
        rw [w6, List.take_of_length_le]
        rw [room_eq] at hr
        omega
      refine ⟨s', popped :: segs, ?_, ?_, ?_, a4⟩
      · simp only [after, hcall, e, Option.bind_some]; exact a1
      · simp only [history, hcall, e, Option.bind_some, if_true, hrs, a2, Option.map_some]
      · rw [List.flatten_cons, List.length_append, ← Nat.add_assoc]; exact a3

end Seg
end Uax
