import Verif.SegmentHist

/-! Helpers about sequences of `Next()` calls. -/

namespace Uax
namespace Seg

variable {β : Type} (B : Breaker β)

theorem readEnough_none : ∀ (src : List (Int × Nat)) (s : Seg β),
    (readEnough B none src s).2 = none ∧ 0 ≤ (readEnough B none src s).1.bo ∨
    ((readEnough B none src s).2 = some .eof ∨ ∃ e, (readEnough B none src s).2 = some (.reader e)) ∧
      (readEnough B none src s).1.bo < 0 ∧ (readEnough B none src s).1.atEOF = true := by
  intro src
  induction src with
  | nil =>
    intro s
    unfold readEnough
    split
    · next h => exact Or.inl ⟨rfl, h⟩
    · next h =>
      simp only [beyond, Bool.false_eq_true, if_false]
      split
      · next hE => exact Or.inr ⟨Or.inl rfl, by simpa using h, hE⟩
      · split
        · next e he => exact Or.inr ⟨Or.inr ⟨e, rfl⟩, by simpa using h, rfl⟩
        · split
          · next hb => exact Or.inl ⟨rfl, hb⟩
          · next hb => exact Or.inr ⟨Or.inl rfl, by simpa using hb, rfl⟩
  | cons x rest ih =>
    intro s
    obtain ⟨r, sz⟩ := x
    unfold readEnough
    split
    · next h => exact Or.inl ⟨rfl, h⟩
    · next h =>
      simp only [beyond, Bool.false_eq_true, if_false]
      split
      · next hE => exact Or.inr ⟨Or.inl rfl, by simpa using h, hE⟩
      · exact ih _

/-- A `Next()` that returns false leaves the segmenter at the end of its input. -/
theorem next_false {s s' : Seg β} (hi : Inv s) (h : s.next B = some (s', false)) :
    s'.ready = true ∧ s'.atEOF = true ∧ s'.bo < 0 := by
  unfold next nextB at h
  split at h
  · simp only [beyond, Bool.false_eq_true, if_false] at h; cases h
  · next hr =>
    have hr : s.ready = true := by simpa using hr
    simp only at h
    split at h
    · next hE =>
      split at h
      · next hb =>
        simp only [Option.some.injEq, Prod.mk.injEq, and_true] at h
        subst h
        exact ⟨hr, hE, hb⟩
      · cases hg : ({ s with inUse := true } : Seg β).getFront none <;> rw [hg] at h <;> simp at h
    · have hn := readEnough_none B s.src { s with inUse := true }
      have hready : (readEnough B none s.src { s with inUse := true }).1.ready = true := by
        have hw := hi.wf hr
        rw [(readEnough_spec B none s.src { s with inUse := true } ⟨hw.ready, hw.lo, hw.hi, hw.lam⟩).2.2.1.ready]; exact hr
      rcases hre : readEnough B none s.src { s with inUse := true } with ⟨t, er⟩
      rw [hre] at h hn hready
      simp only at hn hready
      rcases hn with ⟨rfl, hbo⟩ | ⟨he, hbo, hE⟩
      · simp only [past, Bool.false_eq_true, if_false] at h
        rw [if_neg (by omega)] at h
        cases hg : t.getFront none <;> rw [hg] at h <;> simp at h
      · rcases he with rfl | ⟨e, rfl⟩
        · simp only [past, Bool.false_eq_true, if_false] at h
          rw [if_pos hbo] at h
          simp only [Option.some.injEq, Prod.mk.injEq, and_true] at h
          subst h
          exact ⟨hready, hE, hbo⟩
        · simp only [Option.some.injEq, Prod.mk.injEq, and_true] at h
          subst h
          unfold setErr
          split <;> exact ⟨hready, hE, hbo⟩

/-- At the end of its input a segmenter returns false for ever. -/
theorem final (cs : List SegCall) : ∀ (s : Seg β), s.ready = true → s.atEOF = true → s.bo < 0 →
    s.history B cs = some [] ∧ ∃ s', s.after B cs = some s' ∧ s'.err = s.err := by
  induction cs with
  | nil => intro s _ _ _; exact ⟨rfl, s, rfl, rfl⟩
  | cons c cs ih =>
    intro s hr hE hb
    have : s.call B c = some ({ s with inUse := true, buf := s.buf.reset none }, false) := by
      cases c <;> simp [call, next, boundedNext, nextB, hr, hE, hb]
    obtain ⟨h1, s', h2, h3⟩ := ih { s with inUse := true, buf := s.buf.reset none } hr hE hb
    refine ⟨?_, s', ?_, h3⟩
    · simp only [history, this, Option.bind_some, Bool.false_eq_true, if_false]; exact h1
    · simp only [after, this, Option.bind_some]; exact h2

theorem trk_pending {bs : List β} {all : List Atom} {o : Nat} {s : Seg β} (h : Trk B bs all o s) :
    s.q.map (·.r) ++ s.incoming.map (·.r) = (all.drop o).map (·.r) := by
  obtain ⟨fed, f1, f2, f3, f4⟩ := h.ex
  rw [f3, List.map_drop, runA_runes, ← f1]
  simp only [List.map_nil, List.nil_append]
  rw [List.drop_append_of_le_length f4, List.map_append, List.map_drop]

theorem todo_length : ∀ (n : Nat) (s : Seg β), WF s → Fresh s → s.pending.length ≤ n →
    (s.todo B).length ≤ n ∧ ∀ seg ∈ s.todo B, seg ≠ [] := by
  intro n
  induction n with
  | zero =>
    intro s hw hf hl
    obtain ⟨b1, _⟩ := next_big B _ s (Nat.le_refl _) hw hf
    cases ht : s.todo B with
    | nil => simp
    | cons seg rest =>
      obtain ⟨s', _, _, _, _, _, _, _, ⟨a, la, _⟩, _, hp⟩ := b1 seg rest ht
      have hne : seg ≠ [] := by rintro rfl; simp at la
      have := congrArg List.length hp
      simp only [List.length_append, List.length_map] at this
      have := List.length_pos_iff.mpr hne
      omega
  | succ n ih =>
    intro s hw hf hl
    obtain ⟨b1, _⟩ := next_big B _ s (Nat.le_refl _) hw hf
    cases ht : s.todo B with
    | nil => simp
    | cons seg rest =>
      obtain ⟨s', _, hw', hf', ht', _, _, _, ⟨a, la, _⟩, _, hp⟩ := b1 seg rest ht
      have hne : seg ≠ [] := by rintro rfl; simp at la
      have := congrArg List.length hp
      simp only [List.length_append, List.length_map] at this
      have := List.length_pos_iff.mpr hne
      obtain ⟨i1, i2⟩ := ih s' hw' hf' (by omega)
      rw [ht'] at i1 i2
      refine ⟨by simp; omega, ?_⟩
      intro x hx
      rcases List.mem_cons.mp hx with rfl | hx
      · exact hne
      · exact i2 x hx

/-- What remains when all segments have been delivered. -/
theorem todo_rest : ∀ (l : List (List Atom)) (s : Seg β), s.todo B = l → WF s → Fresh s →
    ∃ s', WF s' ∧ Fresh s' ∧ s'.todo B = [] ∧ s.pending = l.flatten.map (·.r) ++ s'.pending ∧
      (∀ bs text o, Polite B bs text → Trk B bs (atomsOf text none) o s → o ≤ text.length →
        ∃ o', o' ≤ text.length ∧ Trk B bs (atomsOf text none) o' s') := by
  intro l
  induction l with
  | nil => intro s h hw hf; exact ⟨s, hw, hf, h, rfl, fun bs text o _ ht ho => ⟨o, ho, ht⟩⟩
  | cons seg rest ih =>
    intro s htodo hw hf
    obtain ⟨b1, _⟩ := next_big B _ s (Nat.le_refl _) hw hf
    obtain ⟨s', e, hw', hf', ht', _, _, _, _, _, hpend⟩ := b1 seg rest htodo
    obtain ⟨t, i1, i2, i3, i4, i5⟩ := ih s' ht' hw' hf'
    refine ⟨t, i1, i2, i3, ?_, ?_⟩
    · rw [hpend, i4]; simp
    · intro bs text o hp ht ho
      obtain ⟨o', ho', htk, hlt⟩ := next_polite B hp hw hf ht e
      exact i5 bs text o' hp htk ho'

/-- Polite breakers: the segments to come are pieces of the text. -/
theorem todo_polite {bs : List β} {text : List Int} (hp : Polite B bs text) {s : Seg β} (hw : WF s) (hf : Fresh s)
    (ht : Trk B bs (atomsOf text none) 0 s) (hpe : s.pending = text ++ [0]) :
    ∃ y, text = (s.todo B).flatten.map (·.r) ++ y := by
  obtain ⟨t, h1, h2, h3, h4, h5⟩ := todo_rest B _ s rfl hw hf
  obtain ⟨o', ho', htk⟩ := h5 bs text 0 hp ht (Nat.zero_le _)
  have hl := congrArg List.length (trk_pending B htk)
  have hal : (atomsOf text none).length = text.length + 1 := by simp [atomsOf]
  simp only [List.length_append, List.length_map, List.length_drop, hal] at hl
  have hne : t.pending ≠ [] := by
    intro h0
    unfold pending at h0
    simp only [List.append_eq_nil_iff, List.map_eq_nil_iff] at h0
    obtain ⟨z1, z2, z3⟩ := h0
    have : t.incoming = [] := by
      unfold incoming
      cases hE : t.atEOF with
      | true => rfl
      | false =>
        rw [hE] at z3
        simp only [Bool.false_eq_true, if_false] at z3 ⊢
        rw [z2]
        split at z3
        · cases z3
        · next hn => simp [hn]
    rw [z1, this] at hl
    simp at hl
    omega
  rw [hpe] at h4
  rw [← List.dropLast_concat_getLast hne, ← List.append_assoc] at h4
  exact ⟨t.pending.dropLast, (List.append_inj' h4 rfl).1⟩

theorem initReader_pending {s : Seg β} (hi : Inv s) (src : List (Int × Nat)) (fin : Option Nat) :
    (s.initReader src fin).pending = src.map (·.1) ++ (if fin = none then [0] else []) := by
  have hbuf := reset_none_spec hi.buf
  have hinv : Inv ({ s with src := src, srcEnd := fin, buf := s.buf.reset none } : Seg β) :=
    ⟨hbuf.2.2.2.1, fun _ _ => hbuf.2.2.1, fun h => let w := hi.wf h; ⟨w.ready, w.lo, w.hi, w.lam⟩,
      fun h => by obtain ⟨i1, i2, i3, i4, i5, i6⟩ := hi.idle h; exact ⟨i1, i2, i3, i4, i5, hbuf.1⟩⟩
  obtain ⟨_, _, h1, h2, h3, _, _, h4, h5, _⟩ := init_wf hinv
  unfold initReader pending
  simp only [h1, h3, h4, h5]
  simp

theorem initSlice_pending {s : Seg β} (hi : Inv s) (text : List Int) :
    (s.initSlice text).pending = text ++ [0] := by
  by_cases hr : s.ready = true
  · unfold initSlice init pending
    simp [hr, List.map_map, Function.comp_def]
  · obtain ⟨i1, i2, i3, i4, i5, i6⟩ := hi.idle (by simpa using hr)
    have hr' : s.ready = false := by simpa using hr
    unfold initSlice init pending
    simp [hr', i1, i3, List.map_map, Function.comp_def]

/-- States reached by `Next()` calls only. -/
theorem nexts (n : Nat) : ∀ (s : Seg β), WF s → Fresh s → ∃ s', s.after B (List.replicate n .next) = some s' ∧
    WF s' ∧ Fresh s' ∧ s'.todo B = (s.todo B).drop n ∧
    s'.zero0 = s.zero0 ∧ s'.zero1 = s.zero1 ∧ s'.brk.length = s.brk.length := by
  induction n with
  | zero => intro s hw hf; exact ⟨s, rfl, hw, hf, rfl, rfl, rfl, rfl⟩
  | succ n ih =>
    intro s hw hf
    obtain ⟨b1, b2⟩ := next_big B _ s (Nat.le_refl _) hw hf
    obtain ⟨t, ok, e, _, _, z1, z2, z3, _, _⟩ := nextB_spec B hw none
    have e : s.next B = some (t, ok) := e
    have key : WF t ∧ Fresh t ∧ t.todo B = (s.todo B).drop 1 := by
      cases ht : s.todo B with
      | nil =>
        obtain ⟨s', h1, h2, h3, h4, _⟩ := b2 ht
        rw [e] at h1
        simp only [Option.some.injEq, Prod.mk.injEq] at h1
        obtain ⟨rfl, _⟩ := h1
        exact ⟨h2, h3, by rw [h4]; rfl⟩
      | cons seg rest =>
        obtain ⟨s', h1, h2, h3, h4, _⟩ := b1 seg rest ht
        rw [e] at h1
        simp only [Option.some.injEq, Prod.mk.injEq] at h1
        obtain ⟨rfl, _⟩ := h1
        exact ⟨h2, h3, by rw [h4]; rfl⟩
    obtain ⟨k1, k2, k3⟩ := key
    obtain ⟨s', a1, a2, a3, a4, a5, a6, a7⟩ := ih t k1 k2
    refine ⟨s', ?_, a2, a3, ?_, by rw [a5, z2], by rw [a6, z3], by rw [a7, z1]⟩
    · simp only [List.replicate_succ, after, call, e, Option.bind_some]; exact a1
    · rw [a4, k3, List.drop_drop, Nat.add_comm]

theorem readEnough_eof {e : Nat} : ∀ (src : List (Int × Nat)) (s : Seg β), s.srcEnd = some e →
    (readEnough B none src s).2 ≠ some .eof ∧
    ((readEnough B none src s).2 = none → (readEnough B none src s).1.atEOF = s.atEOF) ∧
    (∀ e', (readEnough B none src s).2 = some (.reader e') → e' = e) ∨ s.atEOF = true := by
  intro src
  induction src with
  | nil =>
    intro s he
    cases hE : s.atEOF with
    | true => exact Or.inr rfl
    | false =>
      refine Or.inl ?_
      unfold readEnough
      simp only [beyond, Bool.false_eq_true, if_false, hE]
      split
      · simp
      · split
        · next e' he' =>
          rw [he] at he'
          simp only [Option.some.injEq] at he'
          subst he'
          simp
        · next he' => rw [he] at he'; cases he'
  | cons x rest ih =>
    intro s he
    obtain ⟨r, sz⟩ := x
    cases hE : s.atEOF with
    | true => exact Or.inr rfl
    | false =>
      refine Or.inl ?_
      unfold readEnough
      by_cases hb : s.bo ≥ 0
      · rw [if_pos hb]; simp [hE]
      · rw [if_neg hb]
        simp only [beyond, Bool.false_eq_true, if_false]
        rw [if_neg (by simp [hE])]
        rw [← hE]
        rcases ih (digest B { s with pos := s.pos + sz } none ⟨r, 0, 0⟩) he with h | h
        · obtain ⟨h1, h2, h3⟩ := h
          refine ⟨h1, fun hh => ?_, h3⟩
          rw [h2 hh]; rfl
        · have : (digest B { s with pos := s.pos + sz } none ⟨r, 0, 0⟩).atEOF = s.atEOF := rfl
          rw [this, hE] at h; cases h

/-- Before and after a read error. -/
def ErrInv (e : Nat) (s : Seg β) : Prop :=
  WF s ∧ s.srcEnd = some e ∧ ((s.errValue = none ∧ s.atEOF = false) ∨ (s.errValue = some (.reader e) ∧ s.atEOF = true ∧ s.bo < 0))

theorem next_err {e : Nat} {s : Seg β} (h : ErrInv e s) :
    ∃ s' ok, s.next B = some (s', ok) ∧ ErrInv e s' ∧ s'.errValue = if ok then none else some (.reader e) := by
  obtain ⟨hw, he, hc⟩ := h
  obtain ⟨s', ok, hn, hw', z1, _⟩ := nextB_spec B hw none
  have hse : s'.srcEnd = some e := by rw [z1, he]
  refine ⟨s', ok, hn, ?_⟩
  rcases hc with ⟨c1, c2⟩ | ⟨c1, c2, c3⟩
  · unfold nextB at hn
    rw [if_neg (by simp [hw.ready])] at hn
    simp only [c2, Bool.false_eq_true, if_false] at hn
    have hr := readEnough_eof B s.src { s with inUse := true } he
    have hn0 := readEnough_none B s.src { s with inUse := true }
    have hsp := readEnough_spec B none s.src { s with inUse := true } ⟨hw.ready, hw.lo, hw.hi, hw.lam⟩
    rcases hr with hr | hr
    · rw [show ({ s with inUse := true } : Seg β) = ⟨s.ready, s.q, s.src, s.srcEnd, s.brk, s.buf, s.lastP, s.pos, s.zero0, s.zero1,
        s.lam, s.bo, false, true, s.err⟩ by rw [← c2]] at hr hn0 hsp
      rcases hre : readEnough B none s.src ⟨s.ready, s.q, s.src, s.srcEnd, s.brk, s.buf, s.lastP, s.pos, s.zero0, s.zero1,
        s.lam, s.bo, false, true, s.err⟩ with ⟨t, er⟩
      rw [hre] at hn hr hn0 hsp
      simp only at hr hn0 hsp
      obtain ⟨q1, q2, q3⟩ := hr
      obtain ⟨p1, _, p3, _⟩ := hsp
      have herr : t.err = s.err := p3.err
      rcases hn0 with ⟨rfl, hbo⟩ | ⟨hx, hbo, hE⟩
      · simp only [past, Bool.false_eq_true, if_false] at hn
        rw [if_neg (by omega)] at hn
        obtain ⟨u, g1, _, _, _, _, _, _, _, _, _, _, _, _, _, g2, g3, _⟩ := getFront_spec p1 hbo none
        rw [g1] at hn
        simp only [Option.map_some, Option.some.injEq, Prod.mk.injEq] at hn
        obtain ⟨rfl, rfl⟩ := hn
        have e1 : u.errValue = none := by unfold errValue at *; rw [g3, herr]; exact c1
        exact ⟨⟨hw', hse, Or.inl ⟨e1, by rw [g2]; exact q2 rfl⟩⟩, by simpa using e1⟩
      · rcases hx with rfl | ⟨e', rfl⟩
        · exact absurd rfl q1
        · have := q3 e' rfl
          subst this
          simp only [Option.some.injEq, Prod.mk.injEq] at hn
          obtain ⟨rfl, rfl⟩ := hn
          have e1 : ({ (t.setErr (.reader e')) with buf := t.buf.reset none } : Seg β).errValue = some (.reader e') := by
            unfold errValue at *
            rw [← herr] at c1
            unfold setErr
            cases hte : t.err with
            | none => simp
            | some x =>
              rw [hte] at c1
              cases x <;> simp at c1
              simp
          refine ⟨⟨hw', hse, Or.inr ⟨e1, ?_, ?_⟩⟩, by simpa using e1⟩
          · unfold setErr; split <;> exact hE
          · unfold setErr; split <;> exact hbo
    · simp only [c2] at hr; cases hr
  · have : s.nextB B none = some ({ s with inUse := true, buf := s.buf.reset none }, false) := by
      simp [nextB, hw.ready, c2, c3]
    rw [this] at hn
    simp only [Option.some.injEq, Prod.mk.injEq] at hn
    obtain ⟨rfl, rfl⟩ := hn
    exact ⟨⟨hw', hse, Or.inr ⟨c1, c2, c3⟩⟩, c1⟩

theorem nexts_err {e : Nat} (n : Nat) : ∀ (s : Seg β), ErrInv e s →
    ∃ s', s.after B (List.replicate n .next) = some s' ∧ ErrInv e s' := by
  induction n with
  | zero => intro s h; exact ⟨s, rfl, h⟩
  | succ n ih =>
    intro s h
    obtain ⟨t, ok, e1, h1, _⟩ := next_err B h
    obtain ⟨s', a1, a2⟩ := ih t h1
    exact ⟨s', by simp only [List.replicate_succ, after, call, e1, Option.bind_some]; exact a1, a2⟩

end Seg
end Uax
