import Verif.Segmenter

/-! Helper lemmas about the segmenter: invariants for arbitrary call histories. -/

namespace Uax
namespace Seg

variable {β : Type} (B : Breaker β)

/-! ### Feeding runes to breakers -/

theorem addRev_runes (pr : Bool) : ∀ (q : List Atom) (ps : List Int),
    (addRev pr q ps).map (·.r) = q.map (·.r) := by
  intro q
  induction q with
  | nil => intro ps; cases ps <;> rfl
  | cons a q ih =>
    intro ps
    cases ps with
    | nil => rfl
    | cons p ps => simp only [addRev, List.map_cons, ih]; cases pr <;> rfl

theorem insert_runes (pr : Bool) (q : List Atom) (ps : List Int) :
    (insertPenalties pr q ps).map (·.r) = q.map (·.r) := by
  unfold insertPenalties
  rw [List.map_reverse, addRev_runes, List.map_reverse, List.reverse_reverse]

theorem feed_runes (r : Int) : ∀ (bs : List β) (pr : Bool) (q : List Atom) (lam : Int),
    (feed B r pr bs q lam).2.1.map (·.r) = q.map (·.r) := by
  intro bs
  induction bs with
  | nil => intros; rfl
  | cons b bs ih => intro pr q lam; simp only [feed]; rw [ih, insert_runes]

theorem feed_length (r : Int) (bs : List β) (pr : Bool) (q : List Atom) (lam : Int) :
    (feed B r pr bs q lam).2.1.length = q.length := by
  have := congrArg List.length (feed_runes B r bs pr q lam)
  simpa using this

theorem feed_brk (r : Int) : ∀ (bs : List β) (pr : Bool) (q : List Atom) (lam : Int),
    (feed B r pr bs q lam).1.length = bs.length := by
  intro bs
  induction bs with
  | nil => intros; rfl
  | cons b bs ih => intro pr q lam; simp only [feed, List.length_cons]; rw [ih]

theorem feed_lam (r : Int) : ∀ (bs : List β) (pr : Bool) (q : List Atom) (lam : Int),
    lam ≤ (feed B r pr bs q lam).2.2 := by
  intro bs
  induction bs with
  | nil => intros; exact Int.le_refl _
  | cons b bs ih =>
    intro pr q lam
    simp only [feed]
    refine Int.le_trans ?_ (ih _ _ _)
    split <;> omega

/-! ### Finding a break -/

theorem findLoop_spec (ok : Atom → Bool) (to : Int) (bd : Option Int) : ∀ (q : List Atom) (i : Int),
    to ≤ i + q.length →
    (∀ j, (findLoop ok to bd i q).1 = some j → i ≤ j ∧ j < to ∧ within j bd = true) ∧
    ((findLoop ok to bd i q).1 = none →
      i ≤ (findLoop ok to bd i q).2 ∧ ((findLoop ok to bd i q).2 = i ∨ (findLoop ok to bd i q).2 ≤ to)) := by
  intro q
  induction q with
  | nil => intro i _; simp [findLoop]
  | cons a q ih =>
    intro i hl
    simp only [findLoop]
    split
    · next h =>
      split
      · refine ⟨?_, ?_⟩
        · intro j hj; cases hj; exact ⟨Int.le_refl _, h.1, h.2⟩
        · intro h; cases h
      · obtain ⟨h1, h2⟩ := ih (i + 1) (by simp at hl; omega)
        refine ⟨?_, ?_⟩
        · intro j hj; obtain ⟨a, b, c⟩ := h1 j hj; exact ⟨by omega, b, c⟩
        · intro hn; obtain ⟨a, b⟩ := h2 hn; exact ⟨by omega, by omega⟩
    · simp

theorem findBreak_range (ok : Atom → Bool) (q : List Atom) (to : Int) (bd : Option Int)
    (h : to ≤ q.length) :
    -1 ≤ findBreak ok q to bd ∧ findBreak ok q to bd < q.length := by
  unfold findBreak
  split
  · omega
  · next hc =>
    have := findLoop_spec ok to bd q 0 (by omega)
    rcases hf : findLoop ok to bd 0 q with ⟨j, i⟩
    rw [hf] at this
    obtain ⟨h1, h2⟩ := this
    cases j with
    | some j => have := h1 j rfl; simp only; omega
    | none =>
      have := h2 rfl
      simp only at this ⊢
      split
      · omega
      · omega

/-- What always holds of an initialised segmenter. -/
structure WF (s : Seg β) : Prop where
  ready : s.ready = true
  lo : -1 ≤ s.bo
  hi : s.bo < s.q.length
  lam : 0 ≤ s.lam

/-- Runes not yet handed out: queued, unread, and the end-of-text marker if it is still to come. -/
def pending (s : Seg β) : List Int :=
  s.q.map (·.r) ++ (s.src.map (·.1) ++ (if s.atEOF then [] else if s.srcEnd = none then [0] else []))

theorem find_range (s : Seg β) (bound : Option Int) (h : 0 ≤ s.lam) :
    -1 ≤ s.find bound ∧ s.find bound < s.q.length :=
  findBreak_range _ _ _ _ (by omega)

theorem digest_q (s : Seg β) (bound : Option Int) (a : Atom) :
    (digest B s bound a).q.map (·.r) = s.q.map (·.r) ++ [a.r] := by
  unfold digest
  simp only [feed_runes, List.map_append, List.map_cons, List.map_nil]

theorem digest_wf {s : Seg β} (h : s.ready = true) (bound : Option Int) (a : Atom) :
    WF (digest B s bound a) := by
  have hl := feed_lam B a.r s.brk true (s.q ++ [a]) 0
  have hr := find_range { s with brk := (feed B a.r true s.brk (s.q ++ [a]) 0).1,
                                 q := (feed B a.r true s.brk (s.q ++ [a]) 0).2.1,
                                 lam := (feed B a.r true s.brk (s.q ++ [a]) 0).2.2 } bound hl
  exact ⟨h, hr.1, hr.2, hl⟩

/-- Fields a read does not touch. -/
structure Same (s s' : Seg β) : Prop where
  ready : s'.ready = s.ready
  srcEnd : s'.srcEnd = s.srcEnd
  buf : s'.buf = s.buf
  zero0 : s'.zero0 = s.zero0
  zero1 : s'.zero1 = s.zero1
  err : s'.err = s.err
  nbrk : s'.brk.length = s.brk.length
  inUse : s'.inUse = s.inUse

theorem Same.trans {a b c : Seg β} (h : Same a b) (h' : Same b c) : Same a c :=
  ⟨h'.ready.trans h.ready, h'.srcEnd.trans h.srcEnd, h'.buf.trans h.buf, h'.zero0.trans h.zero0,
    h'.zero1.trans h.zero1, h'.err.trans h.err, h'.nbrk.trans h.nbrk, h'.inUse.trans h.inUse⟩

theorem digest_same (s : Seg β) (bound : Option Int) (a : Atom) : Same s (digest B s bound a) :=
  ⟨rfl, rfl, rfl, rfl, rfl, rfl, feed_brk B a.r s.brk true (s.q ++ [a]) 0, rfl⟩

theorem readEnough_spec (bound : Option Int) : ∀ (src : List (Int × Nat)) (s : Seg β), WF s →
    WF (readEnough B bound src s).1 ∧
    (readEnough B bound src s).1.pending = ({ s with src := src } : Seg β).pending ∧
    Same s (readEnough B bound src s).1 ∧
    ((readEnough B bound src s).1.bo < 0 → (readEnough B bound src s).2 ≠ none) := by
  intro src
  induction src with
  | nil =>
    intro s h
    unfold readEnough
    split
    · next hb => exact ⟨⟨h.ready, h.lo, h.hi, h.lam⟩, rfl, ⟨rfl, rfl, rfl, rfl, rfl, rfl, rfl, rfl⟩,
        fun hh => by simp only at hh; omega⟩
    · split
      · exact ⟨⟨h.ready, h.lo, h.hi, h.lam⟩, rfl, ⟨rfl, rfl, rfl, rfl, rfl, rfl, rfl, rfl⟩, fun _ => by simp⟩
      · split
        · exact ⟨⟨h.ready, h.lo, h.hi, h.lam⟩, rfl, ⟨rfl, rfl, rfl, rfl, rfl, rfl, rfl, rfl⟩, fun _ => by simp⟩
        · next hE =>
          simp only
          split
          · next e he =>
            refine ⟨⟨h.ready, h.lo, h.hi, h.lam⟩, ?_, ⟨rfl, rfl, rfl, rfl, rfl, rfl, rfl, rfl⟩, fun _ => by simp⟩
            simp [pending, he]
          · next he =>
            have hw := digest_wf B (s := { s with src := [], atEOF := true }) h.ready bound eotAtom
            have hs := digest_same B { s with src := [], atEOF := true } bound eotAtom
            have hq := digest_q B { s with src := [], atEOF := true } bound eotAtom
            have hsrc : (digest B { s with src := [], atEOF := true } bound eotAtom).src = [] := rfl
            have hat : (digest B { s with src := [], atEOF := true } bound eotAtom).atEOF = true := rfl
            generalize digest B { s with src := [], atEOF := true } bound eotAtom = d at *
            have hp : d.pending = ({ s with src := [] } : Seg β).pending := by
              simp only [pending, hq, hsrc, hat]
              simp [he, hE, eotAtom]
            have hsame : Same s d := ⟨hs.1, hs.2, hs.3, hs.4, hs.5, hs.6, hs.7, hs.8⟩
            split
            · next hb => exact ⟨hw, hp, hsame, fun hh => by simp only at hh; omega⟩
            · split
              · exact ⟨hw, hp, hsame, fun _ => by simp⟩
              · exact ⟨hw, hp, hsame, fun _ => by simp⟩
  | cons x rest ih =>
    intro s h
    obtain ⟨r, sz⟩ := x
    unfold readEnough
    split
    · next hb => exact ⟨⟨h.ready, h.lo, h.hi, h.lam⟩, rfl, ⟨rfl, rfl, rfl, rfl, rfl, rfl, rfl, rfl⟩,
        fun hh => by simp only at hh; omega⟩
    · split
      · exact ⟨⟨h.ready, h.lo, h.hi, h.lam⟩, rfl, ⟨rfl, rfl, rfl, rfl, rfl, rfl, rfl, rfl⟩, fun _ => by simp⟩
      · split
        · exact ⟨⟨h.ready, h.lo, h.hi, h.lam⟩, rfl, ⟨rfl, rfl, rfl, rfl, rfl, rfl, rfl, rfl⟩, fun _ => by simp⟩
        · next hE =>
          have hw := digest_wf B (s := { s with pos := s.pos + sz }) h.ready bound ⟨r, 0, 0⟩
          have hs := digest_same B { s with pos := s.pos + sz } bound ⟨r, 0, 0⟩
          have hq := digest_q B { s with pos := s.pos + sz } bound ⟨r, 0, 0⟩
          have hat : (digest B { s with pos := s.pos + sz } bound ⟨r, 0, 0⟩).atEOF = s.atEOF := rfl
          simp only
          generalize digest B { s with pos := s.pos + sz } bound ⟨r, 0, 0⟩ = d at *
          obtain ⟨a1, a2, a3, a4⟩ := ih d hw
          refine ⟨a1, ?_, Same.trans ⟨hs.1, hs.2, hs.3, hs.4, hs.5, hs.6, hs.7, hs.8⟩ a3, a4⟩
          rw [a2]
          simp only [pending, hq, hat, hs.srcEnd]
          simp

/-! ### Popping a segment -/

/-- The effect of writing a list of runes. -/
def writeAll (w : RuneWrite) : List Int → RuneWrite
  | [] => w
  | r :: rs => writeAll (w.writeRune r).1 rs

theorem popWrite_spec : ∀ (n : Nat) (s : Seg β), n ≤ s.q.length →
    ∃ lp, popWrite n s = some { s with q := s.q.drop n, buf := writeAll s.buf ((s.q.take n).map (·.r)), lastP := lp } ∧
      (∀ a, n ≠ 0 → s.q[n - 1]? = some a → lp = (a.p0, a.p1)) := by
  intro n
  induction n with
  | zero => intro s _; exact ⟨s.lastP, by simp [popWrite, writeAll], fun _ h => absurd rfl h⟩
  | succ n ih =>
    intro s h
    cases hq : s.q with
    | nil => rw [hq] at h; simp at h
    | cons a q =>
      rw [hq] at h
      obtain ⟨lp, e, hl⟩ := ih { s with q := q, buf := (s.buf.writeRune a.r).1, lastP := (a.p0, a.p1) }
        (by simpa using h)
      cases n with
      | zero =>
        refine ⟨(a.p0, a.p1), ?_, ?_⟩
        · simp [popWrite, hq, writeAll]
        · intro b _ hb; simp at hb; rw [hb]
      | succ n =>
        refine ⟨lp, ?_, ?_⟩
        · rw [popWrite, hq]; simp only; rw [e]; simp [writeAll]
        · intro b _ hb
          apply hl b (by omega)
          simpa using hb

/-- The number of atoms `getFrontSegment` cuts off. -/
def cutLen (s : Seg β) (bound : Option Int) : Nat :=
  match bound with
  | none => (s.bo + 1).toNat
  | some b => if s.pos - s.q.length + s.bo ≥ b then (b - s.pos + s.q.length + 1).toNat else (s.bo + 1).toNat

theorem getFront_spec {s : Seg β} (h : WF s) (h0 : 0 ≤ s.bo) (bound : Option Int) :
    ∃ s', s.getFront bound = some s' ∧ WF s' ∧
      s'.q = s.q.drop (cutLen s bound) ∧ cutLen s bound ≤ s.q.length ∧
      s'.buf = writeAll s.buf.setMark ((s.q.take (cutLen s bound)).map (·.r)) ∧
      (cutLen s bound ≠ 0 → ∀ a, s.q[cutLen s bound - 1]? = some a → s'.lastP = (a.p0, a.p1)) ∧
      s'.ready = s.ready ∧ s'.src = s.src ∧ s'.srcEnd = s.srcEnd ∧ s'.brk = s.brk ∧ s'.pos = s.pos ∧
      s'.zero0 = s.zero0 ∧ s'.zero1 = s.zero1 ∧ s'.lam = s.lam ∧ s'.atEOF = s.atEOF ∧ s'.err = s.err ∧
      s'.inUse = s.inUse ∧ (cutLen s bound ≠ 0 → s'.bo = s'.find bound) := by
  have hhi := h.hi
  unfold getFront
  simp only
  have hmin : min ((s.q.length : Int) - 1) s.bo = s.bo := by omega
  rw [hmin, if_neg (by omega)]
  -- the effective length
  have key : ∀ (l : Int), -1 ≤ l + 0 ∨ True → l ≤ s.bo → cutLen s bound = (l + 1).toNat →
      ∃ s', (if l < 0 then some { s with lastP := (0, 0), buf := s.buf.setMark }
        else match popWrite (l.toNat + 1) { s with lastP := (0, 0), buf := s.buf.setMark } with
          | none => none
          | some s => some { s with bo := s.find bound }) = some s' ∧ WF s' ∧
      s'.q = s.q.drop (cutLen s bound) ∧ cutLen s bound ≤ s.q.length ∧
      s'.buf = writeAll s.buf.setMark ((s.q.take (cutLen s bound)).map (·.r)) ∧
      (cutLen s bound ≠ 0 → ∀ a, s.q[cutLen s bound - 1]? = some a → s'.lastP = (a.p0, a.p1)) ∧
      s'.ready = s.ready ∧ s'.src = s.src ∧ s'.srcEnd = s.srcEnd ∧ s'.brk = s.brk ∧ s'.pos = s.pos ∧
      s'.zero0 = s.zero0 ∧ s'.zero1 = s.zero1 ∧ s'.lam = s.lam ∧ s'.atEOF = s.atEOF ∧ s'.err = s.err ∧
      s'.inUse = s.inUse ∧ (cutLen s bound ≠ 0 → s'.bo = s'.find bound) := by
    intro l _ hl hc
    by_cases hneg : l < 0
    · have hc0 : cutLen s bound = 0 := by rw [hc]; omega
      rw [if_pos hneg, hc0]
      refine ⟨_, rfl, ⟨h.ready, h.lo, h.hi, h.lam⟩, by simp, by omega, by simp [writeAll], by simp, rfl, rfl, rfl,
        rfl, rfl, rfl, rfl, rfl, rfl, rfl, rfl, by simp⟩
    · rw [if_neg hneg]
      have hc1 : cutLen s bound = l.toNat + 1 := by rw [hc]; omega
      rw [hc1]
      obtain ⟨lp, e, hlp⟩ := popWrite_spec (l.toNat + 1) { s with lastP := (0, 0), buf := s.buf.setMark }
        (by simp only; omega)
      rw [e]
      refine ⟨_, rfl, ?_, rfl, by omega, rfl, fun _ a ha => hlp a (by omega) ha, rfl, rfl, rfl,
        rfl, rfl, rfl, rfl, rfl, rfl, rfl, rfl, fun _ => rfl⟩
      have hr := find_range ({ s with q := s.q.drop (l.toNat + 1), lastP := lp } : Seg β) bound h.lam
      exact ⟨h.ready, hr.1, hr.2, h.lam⟩
  cases bound with
  | none => exact key s.bo (Or.inr trivial) (Int.le_refl _) rfl
  | some b =>
    simp only
    by_cases hcut : s.pos - (s.q.length : Int) + s.bo ≥ b
    · rw [if_pos hcut]
      exact key _ (Or.inr trivial) (by omega) (by simp only [cutLen, if_pos hcut])
    · rw [if_neg hcut]
      exact key _ (Or.inr trivial) (Int.le_refl _) (by simp only [cutLen, if_neg hcut])

/-! ### One call -/

/-- What one call of `next(bound)` does: no panic; a successful call hands out runes from
the front of the pending ones (writing them to the output), a failing call none. -/
theorem nextB_spec {s : Seg β} (h : WF s) (bound : Option Int) :
    ∃ s' ok, nextB B s bound = some (s', ok) ∧ WF s' ∧ s'.srcEnd = s.srcEnd ∧
      s'.brk.length = s.brk.length ∧ s'.zero0 = s.zero0 ∧ s'.zero1 = s.zero1 ∧
      (ok = true → ∃ popped, s.pending = popped ++ s'.pending ∧
        s'.buf = writeAll s.buf.setMark popped ∧ (bound = none → popped ≠ [])) ∧
      (ok = false → s'.pending = s.pending ∧ (s'.buf = s.buf ∨ s'.buf = s.buf.reset none)) := by
  have pend_drop : ∀ (t t' : Seg β) (n : Nat), t'.q = t.q.drop n → t'.src = t.src → t'.atEOF = t.atEOF →
      t'.srcEnd = t.srcEnd → t.pending = (t.q.take n).map (·.r) ++ t'.pending := by
    intro t t' n h1 h2 h3 h4
    simp only [pending, h1, h2, h3, h4]
    rw [← List.append_assoc ((t.q.take n).map _), ← List.map_append, List.take_append_drop]
  unfold nextB
  rw [if_neg (by simp [h.ready])]
  simp only
  by_cases hE : s.atEOF = true
  · rw [if_pos hE]
    by_cases hb : s.bo < 0
    · rw [if_pos hb]
      exact ⟨_, false, rfl, ⟨h.ready, h.lo, h.hi, h.lam⟩, rfl, rfl, rfl, rfl, (fun h => by cases h),
        fun _ => ⟨rfl, Or.inr rfl⟩⟩
    · rw [if_neg hb]
      obtain ⟨s', e, hw, hq, hc, hbuf, _, h1, h2, h3, h4, h5, h6, h7, h8, h9, h10, _, _⟩ :=
        getFront_spec (s := { s with inUse := true }) ⟨h.ready, h.lo, h.hi, h.lam⟩ (by simp only; omega) bound
      rw [e]
      refine ⟨s', true, rfl, hw, h3, by rw [h4], h6, h7, fun _ => ?_, (fun h => by cases h)⟩
      refine ⟨_, pend_drop _ s' _ hq h2 h9 h3, hbuf, ?_⟩
      rintro rfl
      have hne : s.q ≠ [] := by intro e; have := h.hi; rw [e] at this; simp at this; omega
      simp only [cutLen]
      cases hqq : s.q with
      | nil => exact absurd hqq hne
      | cons a q =>
        rw [show (s.bo + 1).toNat = s.bo.toNat + 1 by omega]
        simp
  · rw [if_neg hE]
    have hr := readEnough_spec B bound s.src { s with inUse := true } ⟨h.ready, h.lo, h.hi, h.lam⟩
    rcases hre : readEnough B bound s.src { s with inUse := true } with ⟨t, er⟩
    rw [hre] at hr
    obtain ⟨hw, hp, hs, hbo⟩ := hr
    simp only at hw hp hs hbo
    have hp' : t.pending = s.pending := hp
    have done : ∃ s' ok, (if t.past bound = true then
          some (t, false)
        else if t.bo < 0 then some ({ t with buf := t.buf.reset none }, false)
        else (t.getFront bound).map (·, true)) = some (s', ok) ∧ WF s' ∧ s'.srcEnd = s.srcEnd ∧
      s'.brk.length = s.brk.length ∧ s'.zero0 = s.zero0 ∧ s'.zero1 = s.zero1 ∧
      (ok = true → ∃ popped, s.pending = popped ++ s'.pending ∧
        s'.buf = writeAll s.buf.setMark popped ∧ (bound = none → popped ≠ [])) ∧
      (ok = false → s'.pending = s.pending ∧ (s'.buf = s.buf ∨ s'.buf = s.buf.reset none)) := by
      split
      · exact ⟨t, false, rfl, hw, hs.srcEnd, hs.nbrk, hs.zero0, hs.zero1, (fun h => by cases h),
          fun _ => ⟨hp', Or.inl hs.buf⟩⟩
      · split
        · exact ⟨_, false, rfl, ⟨hw.ready, hw.lo, hw.hi, hw.lam⟩, hs.srcEnd, hs.nbrk, hs.zero0, hs.zero1,
            (fun h => by cases h), fun _ => ⟨hp', Or.inr (by rw [hs.buf])⟩⟩
        · next hnb =>
          obtain ⟨s', e, hw', hq, hc, hbuf, _, h1, h2, h3, h4, h5, h6, h7, h8, h9, h10, _, _⟩ :=
            getFront_spec hw (by omega) bound
          rw [e]
          refine ⟨s', true, rfl, hw', by rw [h3, hs.srcEnd], by rw [h4, hs.nbrk], by rw [h6, hs.zero0],
            by rw [h7, hs.zero1], fun _ => ?_, (fun h => by cases h)⟩
          refine ⟨_, ?_, by rw [hbuf, hs.buf], ?_⟩
          · rw [← hp']; exact pend_drop _ s' _ hq h2 h9 h3
          · rintro rfl
            have hne : t.q ≠ [] := by intro e; have := hw.hi; rw [e] at this; simp at this; omega
            simp only [cutLen]
            cases hqq : t.q with
            | nil => exact absurd hqq hne
            | cons a q =>
              rw [show (t.bo + 1).toNat = t.bo.toNat + 1 by omega]
              simp
    cases er with
    | none => exact done
    | some er =>
      cases er with
      | boundReached =>
        refine ⟨_, false, rfl, ?_⟩
        have : ∀ e, (t.setErr e).srcEnd = t.srcEnd ∧ (t.setErr e).brk = t.brk ∧ (t.setErr e).zero0 = t.zero0 ∧
            (t.setErr e).zero1 = t.zero1 ∧ (t.setErr e).ready = t.ready ∧ (t.setErr e).bo = t.bo ∧
            (t.setErr e).q = t.q ∧ (t.setErr e).lam = t.lam ∧ (t.setErr e).src = t.src ∧ (t.setErr e).atEOF = t.atEOF := by
          intro e; unfold setErr; split <;> simp
        obtain ⟨e1, e2, e3, e4, e5, e6, e7, e8, e9, e10⟩ := this .boundReached
        refine ⟨⟨by simp only [e5]; exact hw.ready, by simp only [e6]; exact hw.lo,
          by simp only [e6, e7]; exact hw.hi, by simp only [e8]; exact hw.lam⟩,
          by simp only [e1]; exact hs.srcEnd, by simp only [e2]; exact hs.nbrk, by simp only [e3]; exact hs.zero0,
          by simp only [e4]; exact hs.zero1, (fun h => by cases h), fun _ => ⟨?_, Or.inr (by simp only; rw [hs.buf])⟩⟩
        rw [← hp']
        simp only [pending, e7, e9, e10, e1]
      | reader e =>
        refine ⟨_, false, rfl, ?_⟩
        have : ∀ e, (t.setErr e).srcEnd = t.srcEnd ∧ (t.setErr e).brk = t.brk ∧ (t.setErr e).zero0 = t.zero0 ∧
            (t.setErr e).zero1 = t.zero1 ∧ (t.setErr e).ready = t.ready ∧ (t.setErr e).bo = t.bo ∧
            (t.setErr e).q = t.q ∧ (t.setErr e).lam = t.lam ∧ (t.setErr e).src = t.src ∧ (t.setErr e).atEOF = t.atEOF := by
          intro e; unfold setErr; split <;> simp
        obtain ⟨e1, e2, e3, e4, e5, e6, e7, e8, e9, e10⟩ := this (.reader e)
        refine ⟨⟨by simp only [e5]; exact hw.ready, by simp only [e6]; exact hw.lo,
          by simp only [e6, e7]; exact hw.hi, by simp only [e8]; exact hw.lam⟩,
          by simp only [e1]; exact hs.srcEnd, by simp only [e2]; exact hs.nbrk, by simp only [e3]; exact hs.zero0,
          by simp only [e4]; exact hs.zero1, (fun h => by cases h), fun _ => ⟨?_, Or.inr (by simp only; rw [hs.buf])⟩⟩
        rw [← hp']
        simp only [pending, e7, e9, e10, e1]
      | eof => exact done
      | tooLong => exact done
      | notInitialized => exact done

end Seg
end Uax
