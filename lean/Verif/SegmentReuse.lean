import Verif.Props.SegmentCalls

/-! What `Next()` leaves behind: the breakers' states after the whole text, and `Err()`. -/

namespace Uax

namespace Seg

variable {β : Type} (B : Breaker β)

theorem runA_brk : ∀ (x : List Atom) (bs : List β) (A : List Atom),
    (runA B bs A x).1 = bs.map fun b => B.run b (x.map (·.r)) := by
  intro x
  induction x with
  | nil => intro bs A; simp [runA, Breaker.run]
  | cons a x ih =>
    intro bs A
    rw [runA, ih, List.map_map]
    rfl

theorem hist_trk (bs : List β) (all : List Atom) : ∀ (cs : List SegCall) (s : Seg β) (o : Nat),
    WF s → Trk B bs all o s → ∃ s' o', s.after B cs = some s' ∧ Trk B bs all o' s' ∧ WF s' := by
  intro cs
  induction cs with
  | nil => intro s o hw ht; exact ⟨s, o, rfl, ht, hw⟩
  | cons c cs ih =>
    intro s o hw ht
    have hcall : ∃ bound, s.call B c = s.nextB B bound := by cases c <;> exact ⟨_, rfl⟩
    obtain ⟨bound, hcall⟩ := hcall
    obtain ⟨t, ok, e, hw', _, _, _, _, hF, hT⟩ := nextB_trk B hw ht bound
    have : ∃ o', Trk B bs all o' t := by
      cases ok with
      | false => exact ⟨o, hF rfl⟩
      | true => obtain ⟨m, ht', _⟩ := hT rfl; exact ⟨_, ht'⟩
    obtain ⟨o', ht'⟩ := this
    obtain ⟨s', o'', a1, a2, a3⟩ := ih t o' hw' ht'
    exact ⟨s', o'', by simp only [after, hcall, e, Option.bind_some]; exact a1, a2, a3⟩

theorem after_reachable : ∀ (cs : List SegCall) {s s' : Seg β}, Reachable B s → s.after B cs = some s' → Reachable B s' := by
  intro cs
  induction cs with
  | nil => intro s s' h e; simp only [after, Option.some.injEq] at e; exact e ▸ h
  | cons c cs ih =>
    intro s s' h e
    simp only [after] at e
    cases hc : s.call B c with
    | none => rw [hc] at e; cases e
    | some x =>
      obtain ⟨t, ok⟩ := x
      rw [hc] at e
      exact ih (Reachable.call c ok h hc) e

/-- Settings survive any calls. -/
theorem kept : ∀ (cs : List SegCall) (s s' : Seg β), WF s → Inv s → s.after B cs = some s' →
    s'.zero0 = s.zero0 ∧ s'.zero1 = s.zero1 ∧ s'.room = s.room := by
  intro cs
  induction cs with
  | nil => intro s s' _ _ h; simp only [after, Option.some.injEq] at h; subst h; exact ⟨rfl, rfl, rfl⟩
  | cons c cs ih =>
    intro s s' hw hi h
    have hcall : ∃ bound, s.call B c = s.nextB B bound := by cases c <;> exact ⟨_, rfl⟩
    obtain ⟨bound, hcall⟩ := hcall
    obtain ⟨t, ok, e, hw', _, z1, z2, z3, _, _⟩ := nextB_spec B hw bound
    obtain ⟨i1, i2, _⟩ := nextB_inv B hi bound e
    simp only [after, hcall, e, Option.bind_some] at h
    obtain ⟨a, b, c⟩ := ih t s' hw' i1 h
    exact ⟨by rw [a, z2], by rw [b, z3], by rw [c, i2]⟩

/-- A history of calls in which the text has been read to its end. -/
theorem exhausted_brk {s s' : Seg β} (hr : Reachable B s) (src : List (Int × Nat)) (cs : List SegCall)
    (h : (s.initReader src none).after B cs = some s') (hE : s'.atEOF = true) :
    s'.brk = s.brk.map fun b => B.run b (src.map (·.1) ++ [0]) := by
  have hi := reachable_inv B hr
  obtain ⟨w, f, b1, b2, b3, b4, b5, _⟩ := initReader_facts B hi src none
  obtain ⟨t, o', a1, a2, a3⟩ := hist_trk B s.brk _ cs _ 0 w b5
  rw [h] at a1
  cases a1
  obtain ⟨fed, f1, f2, f3, f4⟩ := a2.ex
  have hinc : s'.incoming = [] := by unfold incoming; rw [hE]; rfl
  rw [hinc, List.append_nil] at f1
  rw [f2, runA_brk, f1]
  congr 1
  funext b
  simp [atomsOf, List.map_map, Function.comp_def, eotAtom]

/-- The flag `collect` returns tells that a call returned false. -/
theorem collect_end : ∀ (n : Nat) (s : Seg β) (segs : List Segment), Inv s → s.collect B n = some (segs, true) →
    ∃ s', s.after B (List.replicate (segs.length + 1) .next) = some s' ∧ s'.atEOF = true := by
  intro n
  induction n with
  | zero => intro s segs _ h; simp [collect] at h
  | succ n ih =>
    intro s segs hi h
    rw [collect] at h
    cases hn : s.next B with
    | none => rw [hn] at h; cases h
    | some x =>
      obtain ⟨t, ok⟩ := x
      rw [hn] at h
      simp only [Option.bind_some] at h
      cases ok with
      | false =>
        simp only [Bool.false_eq_true, if_false, Option.some.injEq, Prod.mk.injEq, and_true] at h
        subst h
        exact ⟨t, by simp [after, call, hn], (next_false B hi hn).2.1⟩
      | true =>
        simp only [if_true] at h
        cases hr : t.runes with
        | none => rw [hr] at h; cases h
        | some rs =>
          rw [hr] at h
          simp only [Option.bind_some, Option.map_eq_some_iff, Prod.mk.injEq] at h
          obtain ⟨⟨segs', fl⟩, h1, h2, h3⟩ := h
          simp only at h2 h3
          subst h3 h2
          obtain ⟨s', a1, a2⟩ := ih t segs' (nextB_inv B hi none hn).1 h1
          refine ⟨s', ?_, a2⟩
          rw [List.length_cons, List.replicate_succ]
          simp only [after, call, hn, Option.bind_some]
          exact a1

/-! ### Err -/

theorem readEnough_noerr : ∀ (src : List (Int × Nat)) (s : Seg β), s.srcEnd = none →
    (readEnough B none src s).1.err = s.err ∧ (readEnough B none src s).1.srcEnd = none ∧
    ((readEnough B none src s).2 = none ∨ (readEnough B none src s).2 = some .eof) := by
  intro src
  induction src with
  | nil =>
    intro s he
    unfold readEnough
    simp only [beyond, Bool.false_eq_true, if_false]
    split
    · exact ⟨rfl, he, Or.inl rfl⟩
    · split
      · exact ⟨rfl, he, Or.inr rfl⟩
      · split
        · next e h => rw [he] at h; cases h
        · split
          · exact ⟨rfl, he, Or.inl rfl⟩
          · exact ⟨rfl, he, Or.inr rfl⟩
  | cons x rest ih =>
    intro s he
    obtain ⟨r, sz⟩ := x
    unfold readEnough
    simp only [beyond, Bool.false_eq_true, if_false]
    split
    · exact ⟨rfl, he, Or.inl rfl⟩
    · split
      · exact ⟨rfl, he, Or.inr rfl⟩
      · exact ih (digest B { s with pos := s.pos + sz } none ⟨r, 0, 0⟩) he

theorem popWrite_err : ∀ (n : Nat) (s t : Seg β), popWrite n s = some t → t.err = s.err ∧ t.srcEnd = s.srcEnd := by
  intro n
  induction n with
  | zero => intro s t h; simp only [popWrite, Option.some.injEq] at h; subst h; exact ⟨rfl, rfl⟩
  | succ n ih =>
    intro s t h
    rw [popWrite] at h
    split at h
    · cases h
    · have := ih _ t h
      exact this

theorem getFront_err {s t : Seg β} (h : s.getFront none = some t) : t.err = s.err ∧ t.srcEnd = s.srcEnd := by
  unfold getFront at h
  simp only at h
  split at h
  · cases h
  · split at h
    · cases h
    · next u hu =>
      simp only [Option.some.injEq] at h
      subst h
      have := popWrite_err _ _ _ hu
      exact this

/-- `Next()` with a reader that does not fail leaves `Err()` alone. -/
theorem next_noerr {s t : Seg β} {ok : Bool} (he : s.srcEnd = none) (h : s.next B = some (t, ok)) :
    t.err = s.err ∧ t.srcEnd = none := by
  unfold next nextB at h
  split at h
  · simp only [beyond, Bool.false_eq_true, if_false] at h; cases h
  · simp only at h
    split at h
    · split at h
      · simp only [Option.some.injEq, Prod.mk.injEq] at h
        obtain ⟨rfl, _⟩ := h
        exact ⟨rfl, he⟩
      · obtain ⟨u, hu, e⟩ := Option.map_eq_some_iff.mp h
        simp only [Prod.mk.injEq] at e
        obtain ⟨rfl, _⟩ := e
        obtain ⟨a, b⟩ := getFront_err hu
        exact ⟨a, by rw [b]; exact he⟩
    · have hn := readEnough_noerr B s.src { s with inUse := true } he
      rcases hre : readEnough B none s.src { s with inUse := true } with ⟨u, er⟩
      rw [hre] at h hn
      obtain ⟨n1, n2, n3⟩ := hn
      simp only at n1 n2 n3
      have key : (if u.bo < 0 then some (({ u with buf := u.buf.reset none } : Seg β), false) else (u.getFront none).map (·, true)) = some (t, ok) := by
        rcases n3 with rfl | rfl <;> simpa [past] using h
      split at key
      · simp only [Option.some.injEq, Prod.mk.injEq] at key
        obtain ⟨rfl, _⟩ := key
        exact ⟨n1, n2⟩
      · obtain ⟨v, hv, e⟩ := Option.map_eq_some_iff.mp key
        simp only [Prod.mk.injEq] at e
        obtain ⟨rfl, _⟩ := e
        obtain ⟨a, b⟩ := getFront_err hv
        exact ⟨by rw [a, n1], by rw [b, n2]⟩

theorem nexts_noerr : ∀ (n : Nat) (s s' : Seg β), s.srcEnd = none → s.after B (List.replicate n .next) = some s' → s'.err = s.err := by
  intro n
  induction n with
  | zero => intro s s' _ h; simp only [List.replicate_zero, after, Option.some.injEq] at h; rw [h]
  | succ n ih =>
    intro s s' he h
    simp only [List.replicate_succ, after, call] at h
    cases hn : s.next B with
    | none => rw [hn] at h; cases h
    | some x =>
      obtain ⟨t, ok⟩ := x
      rw [hn] at h
      obtain ⟨a, b⟩ := next_noerr B he hn
      rw [ih t s' b h, a]

/-- The general form of C02, without a limit to the length of the text. -/
theorem collect_reader {s : Seg β} (hr : Reachable B s) (src : List (Int × Nat)) (n : Nat)
    (hh : Honest (verdicts B s.brk (src.map (·.1) ++ [0]))) (hn : src.length + 1 < n) :
    (s.initReader src none).collect B n =
      some ((segmentsOf (places B s.brk s.zero0 s.zero1 (src.map (·.1)))).map fun seg => ⟨seg.runes.take s.room, seg.pens⟩, true) := by
  have hi := reachable_inv B hr
  obtain ⟨w, f, b1, b2, b3, b4, _, _, _⟩ := initReader_facts B hi src none
  rw [collect_out B n _ w f b1 b2 b3, initReader_todo B hi, b4]
  have := batch_places B s.brk s.zero0 s.zero1 (src.map (·.1)) hh
  rw [show s.test = feasible s.zero0 s.zero1 (decide (s.brk.length > 1)) from rfl, this]
  obtain ⟨rest, h1, h2, h3, h4⟩ := pieces_split Place.cut (places B s.brk s.zero0 s.zero1 (src.map (·.1))) [] (by simp)
  rw [places_length, List.length_map] at h4
  simp only [List.length_map]
  rw [decide_eq_true (by omega), List.take_of_length_le (by simp; omega)]
  unfold segmentsOf
  rw [← ofPlace_show, List.map_map, List.map_map, List.map_map]
  rfl

end Seg
end Uax
