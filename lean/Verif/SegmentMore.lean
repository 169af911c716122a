import Verif.SegmentClosed

/-! Reachable segmenters, output buffers, collected results. -/

namespace Uax
namespace Seg

variable {β : Type} (B : Breaker β)

/-! ### Buffers -/

def BufOK (w : RuneWrite) : Prop := w.outLen ≤ w.outCap

def roomOf (w : RuneWrite) : Nat :=
  match w.out with
  | none => max 4096 w.maxSegLen
  | some (_, c) => max c w.maxSegLen

theorem room_eq (s : Seg β) : s.room = roomOf s.buf := rfl

theorem limit_some {w : RuneWrite} (h : w.out.isSome) : limit w = roomOf w := by
  unfold limit roomOf RuneWrite.outCap
  cases ho : w.out with
  | none => rw [ho] at h; cases h
  | some x => rfl

theorem reset_none_spec {w : RuneWrite} (h : BufOK w) :
    (w.reset none).isBacked = false ∧ (w.reset none).outVal = [] ∧ (w.reset none).out.isSome ∧
    BufOK (w.reset none) ∧ roomOf (w.reset none) = roomOf w := by
  unfold BufOK RuneWrite.outLen RuneWrite.outCap at *
  unfold RuneWrite.reset RuneWrite.outVal roomOf
  cases ho : w.out with
  | none => simp [startBufSize]
  | some x =>
    obtain ⟨l, c⟩ := x
    rw [ho] at h
    simp only at h
    by_cases hc : c > 0
    · simp [hc]
    · have : l = [] := List.length_eq_zero_iff.mp (by omega)
      simp [hc, this]

theorem reset_some_spec {w : RuneWrite} (h : BufOK w) (b : List Int) :
    (w.reset (some b)).isBacked = true ∧ (w.reset (some b)).backing = b ∧ (w.reset (some b)).start = 0 ∧
    (w.reset (some b)).stop = 0 ∧ BufOK (w.reset (some b)) ∧ roomOf (w.reset (some b)) = roomOf w := by
  unfold BufOK RuneWrite.outLen RuneWrite.outCap at *
  unfold RuneWrite.reset roomOf
  cases ho : w.out with
  | none => simp
  | some x =>
    obtain ⟨l, c⟩ := x
    rw [ho] at h
    simp only at h
    by_cases hc : c > 0
    · simp [hc]
    · have : l = [] := List.length_eq_zero_iff.mp (by omega)
      simp [hc, this]

theorem setMark_spec {w : RuneWrite} (h : BufOK w) :
    (w.setMark).isBacked = w.isBacked ∧ BufOK w.setMark ∧ roomOf w.setMark = roomOf w ∧
    (w.isBacked = false → w.setMark.outVal = [] ∧ (w.out.isSome → w.setMark.out.isSome)) ∧
    (w.isBacked = true → w.setMark = { w with start := w.stop }) := by
  unfold BufOK RuneWrite.outLen RuneWrite.outCap at *
  unfold RuneWrite.setMark RuneWrite.outVal roomOf
  cases hb : w.isBacked with
  | true => simp [h]
  | false =>
    cases ho : w.out with
    | none => simp
    | some x => simp

/-- Writing a segment to a buffer. -/
theorem write_spec {w : RuneWrite} (h : BufOK w) (hsome : w.isBacked = false → w.out.isSome) (rs : List Int) :
    BufOK (writeAll w.setMark rs) ∧ roomOf (writeAll w.setMark rs) = roomOf w ∧
    (writeAll w.setMark rs).isBacked = w.isBacked ∧
    (w.isBacked = false →
      (writeAll w.setMark rs).out.isSome ∧ (writeAll w.setMark rs).runes = some (rs.take (roomOf w))) ∧
    (w.isBacked = true → writeAll w.setMark rs = { w with start := w.stop, stop := w.stop + rs.length }) := by
  obtain ⟨s1, s2, s3, s4, s5⟩ := setMark_spec h
  by_cases hb : w.isBacked = true
  · have hx := s5 hb
    rw [hb] at s1
    have hy := writeAll_backed rs w.setMark s1
    rw [hy, hx]
    exact ⟨h, rfl, rfl, (fun h => by rw [hb] at h; cases h), fun _ => rfl⟩
  · have hb : w.isBacked = false := by simpa using hb
    rw [hb] at s1
    obtain ⟨a0, a1, a2, a3, a4⟩ := writeAll_out rs w.setMark s1 s2
    obtain ⟨t1, t2⟩ := s4 hb
    have h1 : w.setMark.out.isSome := t2 (hsome hb)
    refine ⟨a0, ?_, by rw [a1, hb], ?_, fun h => by rw [hb] at h; cases h⟩
    · rw [← limit_some (a4 h1), a3, limit_some h1, s3]
    · intro _
      refine ⟨a4 h1, ?_⟩
      unfold RuneWrite.runes
      rw [a1]
      simp only [Bool.false_eq_true, if_false]
      rw [a2, t1, limit_some h1, s3]
      rfl

/-! ### Reachable segmenters -/

structure Inv (s : Seg β) : Prop where
  buf : BufOK s.buf
  some : s.ready = true → s.buf.isBacked = false → s.buf.out.isSome
  wf : s.ready = true → WF s
  idle : s.ready = false → s.q = [] ∧ s.lam = 0 ∧ s.atEOF = false ∧ s.pos = 0 ∧ s.lastP = (0, 0) ∧ s.buf.isBacked = false

theorem init_wf {s : Seg β} (hi : Inv s) : WF s.init ∧ Fresh s.init ∧ s.init.q = [] ∧ s.init.lam = 0 ∧
    s.init.atEOF = false ∧ s.init.pos = 0 ∧ s.init.lastP = (0, 0) ∧ s.init.src = s.src ∧ s.init.srcEnd = s.srcEnd ∧
    s.init.brk = s.brk ∧ s.init.buf = s.buf ∧ s.init.zero0 = s.zero0 ∧ s.init.zero1 = s.zero1 ∧ s.init.err = s.err ∧
    s.init.bo = -1 := by
  unfold init
  split
  · refine ⟨⟨by assumption, by simp, by simp, by simp⟩, ?_, rfl, rfl, rfl, rfl, rfl, rfl, rfl, rfl, rfl, rfl, rfl, rfl, rfl⟩
    unfold Fresh; rw [find_none]; simp [firstOk]
  · next h =>
    obtain ⟨h1, h2, h3, h4, h5, h6⟩ := hi.idle (by simpa using h)
    refine ⟨⟨rfl, by simp, by simp [h1], by simp [h2]⟩, ?_, h1, h2, h3, h4, h5, rfl, rfl, rfl, rfl, rfl, rfl, rfl, rfl⟩
    unfold Fresh; rw [find_none]; simp [firstOk, h1]

theorem inv_of_buf {s : Seg β} (hi : Inv s) (src : List (Int × Nat)) (fin : Option Nat) (w : RuneWrite) (hw : BufOK w)
    (hsome : w.isBacked = false → w.out.isSome) :
    Inv ({ s with src := src, srcEnd := fin, buf := w } : Seg β).init := by
  unfold init
  split
  · next h => exact ⟨hw, fun _ => hsome, fun _ => ⟨h, by simp, by simp, by simp⟩, fun h' => by simp only at h' h; rw [h] at h'; cases h'⟩
  · next h =>
    obtain ⟨h1, h2, h3, h4, h5, h6⟩ := hi.idle (by simpa using h)
    exact ⟨hw, fun _ => hsome, fun _ => ⟨rfl, by simp, by simp [h1], by simp [h2]⟩, fun h' => by simp at h'⟩

theorem initReader_inv {s : Seg β} (hi : Inv s) (src : List (Int × Nat)) (fin : Option Nat) : Inv (s.initReader src fin) := by
  obtain ⟨h1, h2, h3, h4, h5⟩ := reset_none_spec hi.buf
  exact inv_of_buf hi src fin _ h4 (fun _ => h3)

theorem initSlice_inv {s : Seg β} (hi : Inv s) (b : List Int) : Inv (s.initSlice b) := by
  obtain ⟨h1, h2, h3, h4, h5, h6⟩ := reset_some_spec hi.buf b
  exact inv_of_buf hi _ none _ h5 (fun h => by rw [h1] at h; cases h)

/-- One call preserves the invariant, and does not change the buffer's room. -/
theorem nextB_inv {s s' : Seg β} {ok : Bool} (hi : Inv s) (bound : Option Int) (h : s.nextB B bound = some (s', ok)) :
    Inv s' ∧ s'.room = s.room ∧ s'.ready = s.ready := by
  by_cases hr : s.ready = true
  · obtain ⟨t, o, e, hw, _, _, _, _, h1, h2⟩ := nextB_spec B (hi.wf hr) bound
    rw [e] at h
    simp only [Option.some.injEq, Prod.mk.injEq] at h
    obtain ⟨rfl, rfl⟩ := h
    have key : BufOK t.buf ∧ (t.buf.isBacked = false → t.buf.out.isSome) ∧ roomOf t.buf = roomOf s.buf := by
      cases o with
      | true =>
        obtain ⟨popped, _, hb, _⟩ := h1 rfl
        obtain ⟨w1, w2, w3, w4, w5⟩ := write_spec hi.buf (hi.some hr) popped
        rw [hb]
        exact ⟨w1, fun hh => (w4 (by rw [← w3]; exact hh)).1, w2⟩
      | false =>
        obtain ⟨_, hb⟩ := h2 rfl
        rcases hb with hb | hb
        · rw [hb]; exact ⟨hi.buf, hi.some hr, rfl⟩
        · obtain ⟨r1, r2, r3, r4, r5⟩ := reset_none_spec hi.buf
          rw [hb]; exact ⟨r4, fun _ => r3, r5⟩
    exact ⟨⟨key.1, fun _ => key.2.1, fun _ => hw, fun hh => by rw [hw.ready] at hh; cases hh⟩, key.2.2, by rw [hw.ready, hr]⟩
  · have hr' : s.ready = false := by simpa using hr
    obtain ⟨i1, i2, i3, i4, i5, i6⟩ := hi.idle hr'
    unfold nextB at h
    rw [if_pos (by simp [hr'])] at h
    simp only at h
    split at h
    · simp only [Option.some.injEq, Prod.mk.injEq] at h
      obtain ⟨rfl, _⟩ := h
      have : ∀ (e : SegErr) (t : Seg β), (t.setErr e).ready = t.ready ∧ (t.setErr e).q = t.q ∧ (t.setErr e).lam = t.lam ∧
          (t.setErr e).atEOF = t.atEOF ∧ (t.setErr e).pos = t.pos ∧ (t.setErr e).lastP = t.lastP ∧
          (t.setErr e).buf = t.buf := by
        intro e t; unfold setErr; split <;> simp
      obtain ⟨a1, a2, a3, a4, a5, a6, a7⟩ := this .boundReached (s.setErr .notInitialized)
      obtain ⟨b1, b2, b3, b4, b5, b6, b7⟩ := this .notInitialized s
      obtain ⟨r1, r2, r3, r4, r5⟩ := reset_none_spec (w := (s.setErr .notInitialized).buf) (by rw [b7]; exact hi.buf)
      refine ⟨⟨r4, fun _ _ => r3, ?_, ?_⟩, ?_, ?_⟩
      · intro hh; simp only [a1, b1, hr'] at hh; cases hh
      · intro _; simp only [a2, a3, a4, a5, a6, b2, b3, b4, b5, b6]; exact ⟨i1, i2, i3, i4, i5, r1⟩
      · rw [room_eq, room_eq]; simp only; rw [r5, b7]
      · simp only [a1, b1]
    · cases h

theorem reachable_inv {s : Seg β} (h : Reachable B s) : Inv s := by
  induction h with
  | new bs => exact ⟨Nat.le_refl 0, (fun h => by cases h), (fun h => by cases h), fun _ => ⟨rfl, rfl, rfl, rfl, rfl, rfl⟩⟩
  | onZero z0 z1 _ ih =>
    exact ⟨ih.buf, ih.some, fun h => let w := ih.wf h; ⟨w.ready, w.lo, w.hi, w.lam⟩, ih.idle⟩
  | reader src fin _ ih => exact initReader_inv ih src fin
  | slice b _ ih => exact initSlice_inv ih b
  | @buffer s s' b cap mx _ hc h ih =>
    unfold runeBuffer at h
    split at h
    · cases h
    · split at h
      · cases h
        exact ⟨hc, fun _ _ => rfl, fun h => let w := ih.wf h; ⟨w.ready, w.lo, w.hi, w.lam⟩, fun h => by
          obtain ⟨i1, i2, i3, i4, i5, i6⟩ := ih.idle h; exact ⟨i1, i2, i3, i4, i5, i6⟩⟩
      · cases h; exact ih
  | @call s s' c ok _ h ih =>
    cases c with
    | next => exact (nextB_inv B ih none h).1
    | bounded b => exact (nextB_inv B ih _ h).1

/-! ### What an initialised segmenter will deliver -/

/-- Atoms of a text. -/
def atomsOf (text : List Int) (fin : Option Nat) : List Atom :=
  text.map (fun r => ⟨r, 0, 0⟩) ++ (if fin = none then [eotAtom] else [])

theorem initReader_todo {s : Seg β} (hi : Inv s) (src : List (Int × Nat)) (fin : Option Nat) :
    (s.initReader src fin).todo B = batch B s.test (atomsOf (src.map (·.1)) fin) s.brk [] 0 := by
  have hbuf := reset_none_spec hi.buf
  have hinv : Inv ({ s with src := src, srcEnd := fin, buf := s.buf.reset none } : Seg β) :=
    ⟨hbuf.2.2.2.1, fun _ _ => hbuf.2.2.1, fun h => let w := hi.wf h; ⟨w.ready, w.lo, w.hi, w.lam⟩,
      fun h => by obtain ⟨i1, i2, i3, i4, i5, i6⟩ := hi.idle h; exact ⟨i1, i2, i3, i4, i5, hbuf.1⟩⟩
  obtain ⟨_, _, h1, h2, h3, _, _, h4, h5, h6, _, h7, h8, _⟩ := init_wf hinv
  unfold initReader todo incoming test
  simp only [h1, h2, h3, h4, h5, h6, h7, h8, atomsOf, Bool.false_eq_true, if_false, List.map_map]
  rfl

theorem initSlice_todo {s : Seg β} (hi : Inv s) (text : List Int) :
    (s.initSlice text).todo B = batch B s.test (atomsOf text none) s.brk [] 0 := by
  have hbuf := reset_some_spec hi.buf text
  by_cases hr : s.ready = true
  · unfold initSlice init
    simp only [hr, if_true]
    simp [todo, incoming, test, atomsOf, List.map_map, Function.comp_def]
  · obtain ⟨i1, i2, i3, i4, i5, i6⟩ := hi.idle (by simpa using hr)
    have hr' : s.ready = false := by simpa using hr
    unfold initSlice init
    simp only [hr', Bool.false_eq_true, if_false]
    simp [todo, incoming, test, atomsOf, List.map_map, Function.comp_def, i1, i2, i3]

/-- The observable segment of a list of atoms, cut to the room of the buffer. -/
def show1 (L : Nat) (seg : List Atom) : Segment :=
  ⟨(seg.map (·.r)).take L, (seg.getLast?.map fun a => (a.p0, a.p1)).getD (0, 0)⟩

/-- Collecting with an output buffer. -/
theorem collect_out : ∀ (n : Nat) (s : Seg β), WF s → Fresh s → BufOK s.buf → s.buf.isBacked = false →
    s.buf.out.isSome →
    s.collect B n = some (((s.todo B).take n).map (show1 s.room), decide ((s.todo B).length < n)) := by
  intro n
  induction n with
  | zero => intro s _ _ _ _ _; simp [collect]
  | succ n ih =>
    intro s hw hf hb hbk hs
    obtain ⟨b1, b2⟩ := next_big B _ s (Nat.le_refl _) hw hf
    cases ht : s.todo B with
    | nil =>
      obtain ⟨s', e, _⟩ := b2 ht
      simp [collect, e]
    | cons seg rest =>
      obtain ⟨s', e, w', f', t', buf', _, _, ⟨a, la, lp, _⟩, _, _⟩ := b1 seg rest ht
      obtain ⟨w1, w2, w3, w4, _⟩ := write_spec hb (fun _ => hs) (seg.map (·.r))
      obtain ⟨w5, w6⟩ := w4 hbk
      rw [← buf'] at w1 w2 w3 w5 w6
      rw [collect, e]
      simp only [Option.bind_some, if_true]
      have hr : s'.runes = some ((seg.map (·.r)).take s.room) := w6
      rw [hr, Option.bind_some, ih s' w' f' w1 (by rw [w3, hbk]) w5]
      simp only [t', Option.map_some, List.take_succ_cons, List.map_cons, List.length_cons, Nat.add_lt_add_iff_right]
      rw [show s'.room = s.room from w2]
      simp only [show1, la, lp, Option.map_some, Option.getD_some]

/-- Collecting with a slice as input: no limit, as long as the end-of-text mark is not cut off. -/
theorem collect_backed : ∀ (n : Nat) (s : Seg β), WF s → Fresh s → BufOK s.buf → s.buf.isBacked = true →
    s.buf.stop ≤ s.buf.backing.length →
    (∃ y, s.buf.backing.drop s.buf.stop = ((s.todo B).flatten.map (·.r)) ++ y) →
    s.collect B n = some (((s.todo B).take n).map fun seg =>
      ⟨seg.map (·.r), (seg.getLast?.map fun a => (a.p0, a.p1)).getD (0, 0)⟩, decide ((s.todo B).length < n)) := by
  intro n
  induction n with
  | zero => intro s _ _ _ _ _ _; simp [collect]
  | succ n ih =>
    intro s hw hf hb hbk hst hy
    obtain ⟨b1, b2⟩ := next_big B _ s (Nat.le_refl _) hw hf
    cases ht : s.todo B with
    | nil =>
      obtain ⟨s', e, _⟩ := b2 ht
      simp [collect, e]
    | cons seg rest =>
      obtain ⟨s', e, w', f', t', buf', _, _, ⟨a, la, lp, _⟩, _, _⟩ := b1 seg rest ht
      obtain ⟨w1, w2, w3, _, w4⟩ := write_spec hb (fun h => by rw [hbk] at h; cases h) (seg.map (·.r))
      have w5 := w4 hbk
      rw [← buf'] at w1 w2 w3 w5
      rw [collect, e]
      simp only [Option.bind_some, if_true]
      obtain ⟨y, hy⟩ := hy
      rw [ht] at hy
      simp only [List.flatten_cons, List.map_append, List.append_assoc] at hy
      have hlen := congrArg List.length hy
      simp only [List.length_drop, List.length_append, List.length_map] at hlen
      have hr : s'.runes = some (seg.map (·.r)) := by
        unfold runes RuneWrite.runes
        rw [w3, hbk, w5]
        simp only [if_true]
        rw [if_pos ⟨by omega, by simp only [List.length_map]; omega⟩, hy, Nat.add_sub_cancel_left]
        rw [List.take_left']
        rfl
      rw [hr, Option.bind_some, ih s' w' f' w1 (by rw [w3, hbk]) (by rw [w5]; simp only [List.length_map]; omega)
        ⟨y, ?_⟩]
      · simp only [t', Option.map_some, List.take_succ_cons, List.map_cons, List.length_cons, Nat.add_lt_add_iff_right,
          la, lp, Option.getD_some]
      · rw [w5, t']
        simp only
        rw [← List.drop_drop, hy, List.drop_left']
        rfl

/-! ### Places -/

theorem possible_iff (p : Int) (z : Bool) : isPossibleBreak p z = true ↔ Feasible p z := by
  unfold isPossibleBreak Feasible
  by_cases h : p ≥ 10000
  · rw [if_pos h]
    constructor
    · intro h; cases h
    · intro hh; omega
  · rw [if_neg h]
    by_cases h0 : p = 0
    · subst h0; cases z <;> simp
    · simp [h0]; omega

theorem test_iff (s : Seg β) (a : Atom) :
    s.test a = true ↔ (Feasible a.p0 s.zero0 ∨ (1 < s.brk.length ∧ Feasible a.p1 s.zero1)) := by
  unfold test feasible
  simp only [Bool.or_eq_true, Bool.and_eq_true, possible_iff, decide_eq_true_eq, gt_iff_lt]

/-- A place as a marked atom. -/
def ofPlace (p : Place) : Atom × Bool := (⟨p.r, p.p0, p.p1⟩, p.cut)

theorem pf_pieces : ∀ (l : List Place) (acc : List Place),
    pf (acc.map fun p => (ofPlace p).1) (l.map ofPlace) =
      (pieces Place.cut acc l).map fun seg => seg.map fun p => (ofPlace p).1 := by
  intro l
  induction l with
  | nil => intro acc; rfl
  | cons p l ih =>
    intro acc
    simp only [List.map_cons, ofPlace, pf, pieces]
    by_cases hc : p.cut = true
    · rw [if_pos hc, if_pos hc, List.map_cons]
      have := ih []
      simp only [List.map_nil] at this
      rw [this]
      simp [ofPlace]
    · rw [if_neg hc, if_neg hc]
      have := ih (acc ++ [p])
      simp only [List.map_append, List.map_cons, List.map_nil] at this
      exact this

theorem imarks_get (ok : Atom → Bool) : ∀ (inc : List Atom) (rem : List Verdict) (i : Nat),
    inc.length = rem.length →
    (imarks ok inc rem)[i]? = inc[i]?.map fun a =>
      ((⟨a.r, a.p0 + fut0 (rem.drop i) 0, a.p1 + fut1 (rem.drop i) 0⟩ : Atom),
        ok ⟨a.r, a.p0 + fut0 (rem.drop i) 0, a.p1 + fut1 (rem.drop i) 0⟩ && sett (rem.drop i) 0) := by
  intro inc
  induction inc with
  | nil => intro rem i _; simp [imarks]
  | cons a inc ih =>
    intro rem i h
    cases rem with
    | nil => simp at h
    | cons v rem =>
      cases i with
      | zero => simp [imarks]
      | succ i =>
        simp only [imarks, List.getElem?_cons_succ, List.drop_succ_cons]
        exact ih rem i (by simpa using h)

theorem verdicts_length : ∀ (rs : List Int) (bs : List β), (verdicts B bs rs).length = rs.length := by
  intro rs
  induction rs with
  | nil => intro bs; rfl
  | cons r rs ih => intro bs; rw [verdicts_cons]; simp [ih]

theorem total0_eq (vs : List Verdict) (i : Nat) : total0 vs i = fut0 (vs.drop i) 0 := by
  unfold total0 fut0 c0; simp only [Nat.zero_add]

theorem total1_eq (vs : List Verdict) (i : Nat) : total1 vs i = fut1 (vs.drop i) 0 := by
  unfold total1 fut1 c1; simp only [Nat.zero_add]

theorem settled_eq (vs : List Verdict) (i : Nat) : settled vs i = sett (vs.drop i) 0 := by
  unfold settled sett; simp only [Nat.zero_add]

theorem places_imarks (bs : List β) (z0 z1 : Bool) (text : List Int) :
    (places B bs z0 z1 text).map ofPlace =
      imarks (feasible z0 z1 (decide (bs.length > 1))) (atomsOf text none) (verdicts B bs (text ++ [0])) := by
  apply List.ext_getElem?
  intro i
  rw [imarks_get _ _ _ _ (by simp [atomsOf, verdicts_length])]
  simp only [places, List.getElem?_map, List.getElem?_mapIdx, Option.map_map]
  have hget : (atomsOf text none)[i]? = (text ++ [0])[i]?.map fun r =>
      (⟨r, if i = text.length then 10000 else 0, if i = text.length then 10000 else 0⟩ : Atom) := by
    unfold atomsOf
    rcases Nat.lt_trichotomy i text.length with h | h | h
    · rw [List.getElem?_append_left (by simpa using h), List.getElem?_append_left h, if_neg (by omega)]
      simp
    · subst h
      rw [List.getElem?_append_right (by simp), List.getElem?_append_right (by simp)]
      simp [eotAtom]
    · rw [List.getElem?_eq_none (by simp; omega), List.getElem?_eq_none (by simp; omega)]
      rfl
  rw [hget, Option.map_map]
  congr 1
  funext r
  simp only [Function.comp, ofPlace, total0_eq, total1_eq, settled_eq, Prod.mk.injEq, true_and]
  rw [Bool.eq_iff_iff]
  simp only [decide_eq_true_eq, Bool.and_eq_true, feasible, Bool.or_eq_true, possible_iff, gt_iff_lt]
  exact And.comm

/-- The closed form of the segments to come. -/
theorem batch_places (bs : List β) (z0 z1 : Bool) (text : List Int) (hh : Honest (verdicts B bs (text ++ [0]))) :
    (batch B (feasible z0 z1 (decide (bs.length > 1))) (atomsOf text none) bs [] 0) =
      (pieces Place.cut [] (places B bs z0 z1 text)).map fun seg => seg.map fun p => (ofPlace p).1 := by
  have hm : (atomsOf text none).map (·.r) = text ++ [0] := by
    simp [atomsOf, List.map_map, Function.comp_def, eotAtom]
  have := batch_closed B (feasible z0 z1 (decide (bs.length > 1))) _ hh (atomsOf text none) bs [] 0 []
    (by rw [hm]; rfl) (by simp) (fun h => absurd rfl h)
  rw [this, hm]
  simp only [qmarks, List.nil_append]
  rw [← places_imarks]
  exact pf_pieces (places B bs z0 z1 text) []

end Seg
end Uax
