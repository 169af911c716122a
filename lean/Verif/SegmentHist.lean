import Verif.SegmentTrack

/-! Histories of calls. -/

namespace Uax
namespace Seg

variable {β : Type} (B : Breaker β)

/-- A segmenter after `Init` with a reader. -/
theorem initReader_facts {s : Seg β} (hi : Inv s) (src : List (Int × Nat)) (fin : Option Nat) :
    WF (s.initReader src fin) ∧ Fresh (s.initReader src fin) ∧ BufOK (s.initReader src fin).buf ∧
    (s.initReader src fin).buf.isBacked = false ∧ (s.initReader src fin).buf.out.isSome ∧
    (s.initReader src fin).room = s.room ∧
    Trk B s.brk (atomsOf (src.map (·.1)) fin) 0 (s.initReader src fin) ∧ (s.initReader src fin).srcEnd = fin ∧
    (s.initReader src fin).atEOF = false ∧ (s.initReader src fin).err = s.err ∧ (s.initReader src fin).test = s.test := by
  have hbuf := reset_none_spec hi.buf
  have hinv : Inv ({ s with src := src, srcEnd := fin, buf := s.buf.reset none } : Seg β) :=
    ⟨hbuf.2.2.2.1, fun _ _ => hbuf.2.2.1, fun h => let w := hi.wf h; ⟨w.ready, w.lo, w.hi, w.lam⟩,
      fun h => by obtain ⟨i1, i2, i3, i4, i5, i6⟩ := hi.idle h; exact ⟨i1, i2, i3, i4, i5, hbuf.1⟩⟩
  obtain ⟨w, f, h1, h2, h3, h10, h11, h4, h5, h6, h12, h7, h8, h13, h14⟩ := init_wf hinv
  refine ⟨w, f, ?_, ?_, ?_, ?_, ?_, ?_, ?_, ?_, ?_⟩
  · unfold initReader; rw [h12]; exact hbuf.2.2.2.1
  · unfold initReader; rw [h12]; exact hbuf.1
  · unfold initReader; rw [h12]; exact hbuf.2.2.1
  · unfold initReader; rw [room_eq, h12, room_eq]; exact hbuf.2.2.2.2
  · refine ⟨[], ?_, ?_, ?_, by simp⟩
    · unfold initReader incoming
      simp only [h3, h4, h5, atomsOf, Bool.false_eq_true, if_false, List.map_map, List.nil_append]
      rfl
    · unfold initReader; rw [h6]; rfl
    · unfold initReader; rw [h1]; rfl
  · unfold initReader; rw [h5]
  · unfold initReader; rw [h3]
  · unfold initReader; rw [h13]
  · unfold initReader test; rw [h6, h7, h8]

/-- A segmenter after `InitFromSlice`. -/
theorem initSlice_facts {s : Seg β} (hi : Inv s) (text : List Int) :
    WF (s.initSlice text) ∧ Fresh (s.initSlice text) ∧ BufOK (s.initSlice text).buf ∧
    (s.initSlice text).buf.isBacked = true ∧ (s.initSlice text).buf.backing = text ∧ (s.initSlice text).buf.stop = 0 ∧
    (s.initSlice text).buf.start = 0 ∧
    (s.initSlice text).room = s.room ∧
    Trk B s.brk (atomsOf text none) 0 (s.initSlice text) ∧ (s.initSlice text).srcEnd = none ∧
    (s.initSlice text).atEOF = false ∧ (s.initSlice text).err = s.err ∧ (s.initSlice text).pos = 0 := by
  obtain ⟨b1, b2, b3, b4, b5, b6⟩ := reset_some_spec hi.buf text
  by_cases hr : s.ready = true
  · have e : s.initSlice text = ⟨true, [], text.map (fun r => (r, 1)), none, s.brk, s.buf.reset (some text), (0, 0), 0,
        s.zero0, s.zero1, 0, -1, false, false, s.err⟩ := by
      unfold initSlice init; simp only [hr, if_true]
    rw [e]
    refine ⟨⟨rfl, by simp, by simp, by simp⟩, ?_, b5, b1, b2, b4, b3, b6, ?_, rfl, rfl, rfl, rfl⟩
    · unfold Fresh; rw [find_none]; simp [firstOk]
    · exact ⟨[], by simp [incoming, atomsOf, List.map_map, Function.comp_def], rfl, rfl, by simp⟩
  · obtain ⟨i1, i2, i3, i4, i5, i6⟩ := hi.idle (by simpa using hr)
    have hr' : s.ready = false := by simpa using hr
    have e : s.initSlice text = ⟨true, [], text.map (fun r => (r, 1)), none, s.brk, s.buf.reset (some text), s.lastP, s.pos,
        s.zero0, s.zero1, 0, -1, false, s.inUse, s.err⟩ := by
      unfold initSlice init; simp only [hr', Bool.false_eq_true, if_false, i1, i2, i3]
    rw [e]
    refine ⟨⟨rfl, by simp, by simp, by simp⟩, ?_, b5, b1, b2, b4, b3, b6, ?_, rfl, rfl, rfl, i4⟩
    · unfold Fresh; rw [find_none]; simp [firstOk]
    · exact ⟨[], by simp [incoming, atomsOf, List.map_map, Function.comp_def], rfl, rfl, by simp⟩

/-- A history of calls with reader input. -/
theorem hist_out (bs : List β) (all : List Atom) : ∀ (cs : List SegCall) (s : Seg β) (o : Nat),
    WF s → BufOK s.buf → s.buf.isBacked = false → s.buf.out.isSome → Trk B bs all o s → all.length ≤ s.room →
    ∃ s' segs o', s.after B cs = some s' ∧ s.history B cs = some segs ∧ Trk B bs all o' s' ∧ o ≤ o' ∧
      segs.flatten = ((all.drop o).take (o' - o)).map (·.r) ∧
      WF s' ∧ BufOK s'.buf ∧ s'.buf.isBacked = false ∧ s'.buf.out.isSome ∧ s'.room = s.room := by
  intro cs
  induction cs with
  | nil => intro s o hw hb hk ho ht _; exact ⟨s, [], o, rfl, rfl, ht, Nat.le_refl _, by simp, hw, hb, hk, ho, rfl⟩
  | cons c cs ih =>
    intro s o hw hb hk ho ht hroom
    have hcall : ∃ bound, s.call B c = s.nextB B bound := by cases c <;> exact ⟨_, rfl⟩
    obtain ⟨bound, hcall⟩ := hcall
    obtain ⟨t, ok, e, hw', _, _, _, _, hF, hT⟩ := nextB_trk B hw ht bound
    have hinv : Inv s := ⟨hb, fun _ _ => ho, fun _ => hw, fun h => by rw [hw.ready] at h; cases h⟩
    obtain ⟨hinv', hroom', _⟩ := nextB_inv B hinv bound e
    cases ok with
    | false =>
      obtain ⟨_, _, e2, _, _, _, _, _, _, h2⟩ := nextB_spec B hw bound
      rw [e] at e2
      simp only [Option.some.injEq, Prod.mk.injEq] at e2
      obtain ⟨rfl, rfl⟩ := e2
      have hk' : t.buf.isBacked = false := by
        rcases (h2 rfl).2 with h | h
        · rw [h]; exact hk
        · rw [h]; exact (reset_none_spec hb).1
      obtain ⟨s', segs, o', a1, a2, a3, a4, a5, a6, a7, a8, a9, a10⟩ := ih t o hw' hinv'.buf hk' (hinv'.some hw'.ready hk') (hF rfl)
        (by rw [hroom']; exact hroom)
      refine ⟨s', segs, o', ?_, ?_, a3, a4, a5, a6, a7, a8, a9, by rw [a10, hroom']⟩
      · simp only [after, hcall, e, Option.bind_some]; exact a1
      · simp only [history, hcall, e, Option.bind_some, Bool.false_eq_true, if_false]; exact a2
    | true =>
      obtain ⟨m, ht', _, hbuf, _⟩ := hT rfl
      obtain ⟨w1, w2, w3, w4, _⟩ := write_spec hb (fun _ => ho) (((all.drop o).take m).map (·.r))
      obtain ⟨w5, w6⟩ := w4 hk
      rw [← hbuf] at w1 w2 w3 w5 w6
      obtain ⟨s', segs, o', a1, a2, a3, a4, a5, a6, a7, a8, a9, a10⟩ := ih t (o + m) hw' w1 (by rw [w3, hk]) w5 ht'
        (by rw [hroom']; exact hroom)
      have hr : t.runes = some (((all.drop o).take m).map (·.r)) := by
        unfold runes
        rw [w6, List.take_of_length_le]
        simp only [List.length_map, List.length_take, List.length_drop]
        rw [room_eq] at hroom
        omega
      refine ⟨s', (((all.drop o).take m).map (·.r)) :: segs, o', ?_, ?_, a3, by omega, ?_, a6, a7, a8, a9, by rw [a10, hroom']⟩
      · simp only [after, hcall, e, Option.bind_some]; exact a1
      · simp only [history, hcall, e, Option.bind_some, if_true, hr, a2, Option.map_some]
      · rw [List.flatten_cons, a5, ← List.map_append, ← List.drop_drop]
        rw [show o' - o = m + (o' - (o + m)) by omega, List.take_add]

/-- `Next()` never hands out the end-of-text mark of polite breakers. -/
theorem next_polite {bs : List β} {text : List Int} (hp : Polite B bs text) {o : Nat} {s s' : Seg β} (hw : WF s) (hf : Fresh s)
    (ht : Trk B bs (atomsOf text none) o s) (h : s.next B = some (s', true)) :
    ∃ o', o' ≤ text.length ∧ Trk B bs (atomsOf text none) o' s' ∧ o < o' := by
  obtain ⟨t, ok, e, hw', _, _, _, _, _, hT⟩ := nextB_trk B hw ht none
  have h' : s.nextB B none = some (s', true) := h
  rw [h'] at e
  simp only [Option.some.injEq, Prod.mk.injEq] at e
  obtain ⟨rfl, rfl⟩ := e
  obtain ⟨m, ht', hm, _, hl⟩ := hT rfl
  have hm := hm rfl
  refine ⟨o + m, ?_, ht', by omega⟩
  obtain ⟨k, a, hk1, hk2, ha, hlp⟩ := hl hm
  obtain ⟨b1, b2⟩ := next_big B _ s (Nat.le_refl _) hw hf
  have htest : Feasible a.p0 s.zero0 ∨ (1 < s.brk.length ∧ Feasible a.p1 s.zero1) := by
    cases hto : s.todo B with
    | nil =>
      obtain ⟨x, hx, _⟩ := b2 hto
      rw [h] at hx; simp at hx
    | cons seg rest =>
      obtain ⟨x, hx, _, _, _, _, _, _, ⟨a', _, hlp', hta⟩, _⟩ := b1 seg rest hto
      rw [h] at hx
      simp only [Option.some.injEq, Prod.mk.injEq, and_true] at hx
      subst hx
      rw [hlp] at hlp'
      simp only [Prod.mk.injEq] at hlp'
      rw [hlp'.1, hlp'.2]
      exact (test_iff s a').mp hta
  have hlen : (atomsOf text none).length = text.length + 1 := by simp [atomsOf]
  rw [hlen] at hk2
  have hk2 : k ≤ text.length + 1 := by omega
  refine Classical.byContradiction fun hgt => ?_
  have hk : k = text.length + 1 := by omega
  have hoi : o + m - 1 = text.length := by omega
  rw [hoi, hk, List.take_of_length_le (by rw [hlen]; exact Nat.le_refl _)] at ha
  rcases runA_get B (atomsOf text none) bs [] text.length a ha with ⟨b, hb, _⟩ | ⟨_, b, hb, rfl⟩
  · simp at hb
  · simp only [List.length_nil, Nat.sub_zero] at hb htest
    have hmap : (atomsOf text none).map (·.r) = text ++ [0] := by
      simp [atomsOf, List.map_map, Function.comp_def, eotAtom]
    have hb' : b = eotAtom := by
      unfold atomsOf at hb
      rw [List.getElem?_append_right (by simp)] at hb
      simp at hb; exact hb.symm
    subst hb'
    rw [hmap] at htest
    -- the verdict on the mark itself
    have hv : ∀ (rs : List Int) (bs : List β), (verdicts B bs (rs ++ [0])).drop rs.length = [verdict B (bs.map fun b => B.run b rs) 0] := by
      intro rs
      induction rs with
      | nil => intro bs; rw [List.nil_append, verdicts_cons]; simp [Breaker.run, verdicts]
      | cons r rs ih =>
        intro bs
        have h := ih (bs.map fun b => (B.step b r).1)
        rw [List.map_map] at h
        rw [List.cons_append, verdicts_cons]; exact h
    have hv := hv text bs
    have hp' : ∀ b ∈ bs.map fun b => B.run b text, 0 ≤ (B.step b 0).2.2.getD 0 0 := by
      intro b hb
      obtain ⟨c, hc, rfl⟩ := List.mem_map.mp hb
      exact hp c hc
    generalize (bs.map fun b => B.run b text) = bs' at hv hp'
    have h0 : 0 ≤ total0 (verdicts B bs (text ++ [0])) text.length := by
      rw [total0_eq, hv]
      simp only [fut0, List.mapIdx_cons, List.mapIdx_nil, List.sum_cons, List.sum_nil, Nat.add_zero, Int.add_zero, c0, verdict]
      cases bs' with
      | nil => simp
      | cons b bs' => simpa using hp' b (by simp)
    have h1 : 0 ≤ total1 (verdicts B bs (text ++ [0])) text.length := by
      rw [total1_eq, hv]
      simp only [fut1, List.mapIdx_cons, List.mapIdx_nil, List.sum_cons, List.sum_nil, Nat.add_zero, Int.add_zero, c1, verdict]
      have : ∀ l : List β, (∀ b ∈ l, 0 ≤ (B.step b 0).2.2.getD 0 0) → 0 ≤ ((l.map fun b => (B.step b 0).2.2).map fun p => p.getD 0 0).sum := by
        intro l hl
        induction l with
        | nil => simp
        | cons b l ih =>
          simp only [List.map_cons, List.sum_cons]
          have := hl b (by simp)
          have := ih (fun b hb => hl b (by simp [hb]))
          omega
      have := this bs'.tail (fun b hb => hp' b (List.mem_of_mem_tail hb))
      simpa [List.map_tail] using this
    simp only [eotAtom, Feasible] at htest
    omega

end Seg
end Uax
