import Verif.SegmentProofs
import Verif.SpecSegment

/-! `Next()` calls, one after the other, do the same as cutting the queue eagerly after every
rune read (`todo`). -/

namespace Uax
namespace Seg

variable {β : Type} (B : Breaker β)

/-! ### The first feasible atom -/

/-- Index of the first feasible atom among the first `n`. -/
def firstOk (ok : Atom → Bool) (n : Nat) (q : List Atom) : Option Nat := (q.take n).findIdx? ok

theorem findLoop_none (ok : Atom → Bool) (to : Int) : ∀ (q : List Atom) (i : Int),
    (findLoop ok to none i q).1 = ((q.take (to - i).toNat).findIdx? ok).map fun (j : Nat) => i + (j : Int) := by
  intro q
  induction q with
  | nil => intro i; simp [findLoop]
  | cons a q ih =>
    intro i
    simp only [findLoop, within, and_true]
    by_cases h : i < to
    · rw [if_pos h, show (to - i).toNat = (to - (i + 1)).toNat + 1 by omega]
      simp only [List.take_succ_cons, List.findIdx?_cons]
      by_cases ho : ok a = true
      · simp [ho]
      · rw [if_neg ho, ih, if_neg ho]
        simp only [Option.map_map]
        congr 1
        funext j
        simp only [Function.comp]
        omega
    · rw [if_neg h, show (to - i).toNat = 0 by omega]
      simp

theorem findBreak_none (ok : Atom → Bool) (q : List Atom) (to : Int) :
    findBreak ok q to none = ((firstOk ok to.toNat q).map fun (j : Nat) => (j : Int)).getD (-1) := by
  unfold findBreak firstOk
  by_cases h : to - 1 < 0
  · rw [if_pos (Or.inl h), show to.toNat = 0 by omega]; simp
  · rw [if_neg (by simp [within]; omega)]
    have := findLoop_none ok to q 0
    rcases hf : findLoop ok to none 0 q with ⟨j, i⟩
    rw [hf] at this
    simp only [Int.sub_zero] at this
    cases j with
    | some j =>
      simp only
      cases hx : (q.take to.toNat).findIdx? ok with
      | none => rw [hx] at this; cases this
      | some x => rw [hx] at this; simp only [Option.map_some, Option.some.injEq] at this; simp [this]
    | none =>
      cases hx : (q.take to.toNat).findIdx? ok with
      | none => simp
      | some x => rw [hx] at this; cases this

/-! ### Eager cutting -/

/-- Cut the queue after all feasible atoms among the first `n`. -/
def drain (ok : Atom → Bool) : Nat → List Atom → List Atom → List (List Atom) × List Atom
  | 0, acc, q => ([], acc ++ q)
  | _ + 1, acc, [] => ([], acc)
  | n + 1, acc, a :: q =>
    if ok a then ((acc ++ [a]) :: (drain ok n [] q).1, (drain ok n [] q).2)
    else drain ok n (acc ++ [a]) q

/-- Feed the incoming atoms one after the other; before each, cut what can be cut. -/
def batch (ok : Atom → Bool) : List Atom → List β → List Atom → Int → List (List Atom)
  | [], _, q, lam => (drain ok ((q.length : Int) - lam).toNat [] q).1
  | a :: as, brk, q, lam =>
    let d := drain ok ((q.length : Int) - lam).toNat [] q
    let f := feed B a.r true brk (d.2 ++ [a]) 0
    d.1 ++ batch ok as f.1 f.2.1 f.2.2

theorem drain_first (ok : Atom → Bool) : ∀ (n : Nat) (acc q : List Atom) (i : Nat),
    firstOk ok n q = some i →
    drain ok n acc q = ((acc ++ q.take (i + 1)) :: (drain ok (n - (i + 1)) [] (q.drop (i + 1))).1,
      (drain ok (n - (i + 1)) [] (q.drop (i + 1))).2) := by
  intro n
  induction n with
  | zero => intro acc q i h; simp [firstOk] at h
  | succ n ih =>
    intro acc q i h
    cases q with
    | nil => simp [firstOk] at h
    | cons a q =>
      simp only [firstOk, List.take_succ_cons, List.findIdx?_cons] at h
      rw [drain]
      by_cases ho : ok a = true
      · rw [if_pos ho] at h
        cases h
        rw [if_pos ho]
        simp
      · rw [if_neg ho] at h
        rw [if_neg ho]
        cases hf : (q.take n).findIdx? ok with
        | none => rw [hf] at h; cases h
        | some j =>
          rw [hf] at h
          simp only [Option.map_some, Option.some.injEq] at h
          subst h
          rw [ih (acc ++ [a]) q j hf]
          simp [Nat.add_sub_add_right]

theorem drain_none (ok : Atom → Bool) : ∀ (n : Nat) (acc q : List Atom),
    firstOk ok n q = none → drain ok n acc q = ([], acc ++ q) := by
  intro n
  induction n with
  | zero => intro acc q _; rfl
  | succ n ih =>
    intro acc q h
    cases q with
    | nil => simp [drain]
    | cons a q =>
      simp only [firstOk, List.take_succ_cons, List.findIdx?_cons] at h
      by_cases ho : ok a = true
      · rw [if_pos ho] at h; cases h
      · rw [if_neg ho] at h
        unfold drain
        rw [if_neg ho, ih (acc ++ [a]) q (by
          unfold firstOk
          cases hf : (q.take n).findIdx? ok with
          | none => rfl
          | some j => rw [hf] at h; cases h)]
        simp

theorem firstOk_lt {ok : Atom → Bool} {n : Nat} {q : List Atom} {i : Nat} (h : firstOk ok n q = some i) :
    i < n ∧ i < q.length := by
  unfold firstOk at h
  have := (List.findIdx?_eq_some_iff_getElem.mp h).1
  simp at this
  omega

theorem batch_first (ok : Atom → Bool) (inc : List Atom) (brk : List β) (q : List Atom) (lam : Int) (i : Nat)
    (h : firstOk ok ((q.length : Int) - lam).toNat q = some i) :
    batch B ok inc brk q lam = q.take (i + 1) :: batch B ok inc brk (q.drop (i + 1)) lam := by
  have hi := firstOk_lt h
  have e : (((q.drop (i + 1)).length : Int) - lam).toNat = ((q.length : Int) - lam).toNat - (i + 1) := by
    rw [List.length_drop]; omega
  cases inc with
  | nil => simp only [batch, e]; rw [drain_first ok _ _ _ _ h]; simp
  | cons a inc => simp only [batch, e]; rw [drain_first ok _ _ _ _ h]; simp

theorem batch_feed (ok : Atom → Bool) (a : Atom) (inc : List Atom) (brk : List β) (q : List Atom) (lam : Int)
    (h : firstOk ok ((q.length : Int) - lam).toNat q = none) :
    batch B ok (a :: inc) brk q lam =
      batch B ok inc (feed B a.r true brk (q ++ [a]) 0).1 (feed B a.r true brk (q ++ [a]) 0).2.1
        (feed B a.r true brk (q ++ [a]) 0).2.2 := by
  simp only [batch]; rw [drain_none ok _ _ _ h]; simp

theorem batch_nil (ok : Atom → Bool) (brk : List β) (q : List Atom) (lam : Int)
    (h : firstOk ok ((q.length : Int) - lam).toNat q = none) : batch B ok [] brk q lam = [] := by
  simp only [batch]; rw [drain_none ok _ _ _ h]

/-! ### What is still to come -/

/-- The segmenter's test for feasible atoms. -/
def test (s : Seg β) : Atom → Bool := feasible s.zero0 s.zero1 (decide (s.brk.length > 1))

/-- Atoms still to be read. -/
def incoming (s : Seg β) : List Atom :=
  if s.atEOF then []
  else s.src.map (fun x => ⟨x.1, 0, 0⟩) ++ (if s.srcEnd = none then [eotAtom] else [])

/-- The segments still to be handed out by `Next()`. -/
def todo (s : Seg β) : List (List Atom) := batch B s.test s.incoming s.brk s.q s.lam

/-- The break opportunity is up to date (always true if only `Next()` is used). -/
def Fresh (s : Seg β) : Prop := s.bo = s.find none

theorem find_none (s : Seg β) :
    s.find none = ((firstOk s.test ((s.q.length : Int) - s.lam).toNat s.q).map fun (j : Nat) => (j : Int)).getD (-1) :=
  findBreak_none _ _ _

/-- `Next()` with a break opportunity at hand. -/
theorem next_front {s : Seg β} (hw : WF s) (h : 0 ≤ s.bo) :
    s.next B = (({ s with inUse := true } : Seg β).getFront none).map (·, true) := by
  unfold next nextB
  rw [if_neg (by simp [hw.ready])]
  simp only
  by_cases hE : s.atEOF = true
  · rw [if_pos hE, if_neg (by omega)]
  · rw [if_neg hE]
    have : readEnough B none s.src { s with inUse := true } = ({ s with inUse := true }, none) := by
      unfold readEnough
      simp only
      rw [if_pos h]
    rw [this]
    simp only [past]
    rw [if_neg (by simp), if_neg (by omega)]

/-- A state with one more rune read. -/
def readOne (s : Seg β) : Seg β :=
  match s.src with
  | (r, sz) :: rest => digest B { s with src := rest, pos := s.pos + sz } none ⟨r, 0, 0⟩
  | [] => digest B { s with src := [], atEOF := true } none eotAtom

theorem readEnough_src (bound : Option Int) : ∀ (l l' : List (Int × Nat)) (s : Seg β),
    readEnough B bound l { s with src := l' } = readEnough B bound l s := by
  intro l
  induction l with
  | nil =>
    intro l' s
    unfold readEnough
    rfl
  | cons x l ih =>
    intro l' s
    obtain ⟨r, sz⟩ := x
    unfold readEnough
    have : digest B { s with src := l', pos := s.pos + sz } bound ⟨r, 0, 0⟩ =
        { digest B { s with pos := s.pos + sz } bound ⟨r, 0, 0⟩ with src := l' } := rfl
    simp only
    have h2 : beyond ({ s with src := l' } : Seg β) bound = s.beyond bound := rfl
    rw [h2, this, ih]

/-- `Next()` without a break opportunity reads one more rune and tries again. -/
theorem next_read {s : Seg β} (hw : WF s) (h : s.bo < 0) (hE : s.atEOF = false)
    (hs : s.src = [] → s.srcEnd = none) : s.next B = (readOne B s).next B := by
  have hb : ∀ t : Seg β, t.beyond none = false := fun _ => rfl
  have hp : ∀ t : Seg β, t.past none = false := fun _ => rfl
  have hr := hw.ready
  obtain ⟨ready, q, src, srcEnd, brk, buf, lastP, pos, z0, z1, lam, bo, atEOF, inUse, err⟩ := s
  simp only at h hE hs hr
  subst hE hr
  cases src with
  | cons x rest =>
    obtain ⟨r, sz⟩ := x
    have e : readEnough B none ((r, sz) :: rest)
        (⟨true, q, (r, sz) :: rest, srcEnd, brk, buf, lastP, pos, z0, z1, lam, bo, false, true, err⟩ : Seg β) =
        readEnough B none rest { (readOne B
          ⟨true, q, (r, sz) :: rest, srcEnd, brk, buf, lastP, pos, z0, z1, lam, bo, false, inUse, err⟩) with
            inUse := true } := by
      conv => lhs; unfold readEnough
      simp only
      rw [if_neg (by omega), hb, if_neg (by simp), if_neg (by simp)]
      exact (readEnough_src B none rest rest _).symm
    unfold next nextB
    simp only [Bool.not_true, Bool.false_eq_true, if_false]
    rw [e]
    rfl
  | nil =>
    have hEnd := hs rfl
    subst hEnd
    have e : readEnough B none []
        (⟨true, q, [], none, brk, buf, lastP, pos, z0, z1, lam, bo, false, true, err⟩ : Seg β) =
        (let d : Seg β := { (readOne B ⟨true, q, [], none, brk, buf, lastP, pos, z0, z1, lam, bo, false, inUse, err⟩) with
            inUse := true }
         (d, if d.bo ≥ 0 then none else some .eof)) := by
      unfold readEnough
      simp only
      rw [if_neg (by omega), hb, hb, if_neg (by simp), if_neg (by simp)]
      simp only [Bool.false_eq_true, if_false]
      split
      · next hge => exact Prod.ext rfl (if_pos hge).symm
      · next hge => exact Prod.ext rfl (if_neg hge).symm
    unfold next nextB
    simp only [Bool.not_true, Bool.false_eq_true, if_false]
    rw [e]
    have hd : (readOne B ⟨true, q, [], none, brk, buf, lastP, pos, z0, z1, lam, bo, false, inUse, err⟩).ready = true := rfl
    have hat : (readOne B ⟨true, q, [], none, brk, buf, lastP, pos, z0, z1, lam, bo, false, inUse, err⟩).atEOF = true := rfl
    generalize readOne B ⟨true, q, [], none, brk, buf, lastP, pos, z0, z1, lam, bo, false, inUse, err⟩ = d at *
    simp only [hd, hat, Bool.not_true, Bool.false_eq_true, if_false, if_true]
    split
    · next heq =>
      simp only [Prod.mk.injEq] at heq
      split at heq <;> simp at heq
    · next heq =>
      simp only [Prod.mk.injEq] at heq
      split at heq <;> simp at heq
    · next t er _ _ heq =>
      simp only [Prod.mk.injEq] at heq
      obtain ⟨rfl, _⟩ := heq
      simp only [hp, Bool.false_eq_true, if_false]

theorem next_end {s : Seg β} (hw : WF s) (h : s.bo < 0) (hi : s.incoming = []) :
    ∃ s', s.next B = some (s', false) ∧ WF s' ∧ s'.todo B = s.todo B ∧ s'.incoming = [] ∧ s'.bo = s.bo ∧
      s'.q = s.q ∧ s'.atEOF = true ∧ s'.buf = s.buf.reset none ∧
      s'.err = (if s.atEOF then s.err else match s.srcEnd with
        | none => s.err
        | some e => (s.setErr (.reader e)).err) ∧ s'.pending = s.pending ∧ s'.srcEnd = s.srcEnd ∧
      s'.find none = s.find none := by
  have hr := hw.ready
  by_cases hE : s.atEOF = true
  · refine ⟨{ s with inUse := true, buf := s.buf.reset none }, ?_, ⟨hw.ready, hw.lo, hw.hi, hw.lam⟩, rfl, hi, rfl, rfl,
      hE, rfl, by rw [if_pos hE], rfl, rfl, rfl⟩
    unfold next nextB
    rw [if_neg (by simp [hr])]
    simp only
    rw [if_pos hE, if_pos h]
  · have hE' : s.atEOF = false := by simpa using hE
    obtain ⟨ready, q, src, srcEnd, brk, buf, lastP, pos, z0, z1, lam, bo, atEOF, inUse, err⟩ := s
    simp only at h hE' hr
    subst hE' hr
    have hsrc : src = [] := by
      simp only [incoming] at hi
      simpa using (List.append_eq_nil_iff.mp hi).1
    have hend : ∃ e, srcEnd = some e := by
      cases srcEnd with
      | some e => exact ⟨e, rfl⟩
      | none => simp [incoming] at hi
    obtain ⟨e, rfl⟩ := hend
    subst hsrc
    have hb : ∀ t : Seg β, t.beyond none = false := fun _ => rfl
    have : readEnough B none []
        (⟨true, q, [], some e, brk, buf, lastP, pos, z0, z1, lam, bo, false, true, err⟩ : Seg β) =
        (⟨true, q, [], some e, brk, buf, lastP, pos, z0, z1, lam, bo, true, true, err⟩, some (.reader e)) := by
      unfold readEnough
      simp only
      rw [if_neg (by omega), hb, if_neg (by simp), if_neg (by simp)]
    unfold next nextB
    simp only [Bool.not_true, Bool.false_eq_true, if_false]
    rw [this]
    simp only
    have key : ∀ e', (setErr (⟨true, q, [], some e, brk, buf, lastP, pos, z0, z1, lam, bo, true, true, err⟩ : Seg β) e') =
        ⟨true, q, [], some e, brk, buf, lastP, pos, z0, z1, lam, bo, true, true,
          (setErr (⟨true, q, [], some e, brk, buf, lastP, pos, z0, z1, lam, bo, false, inUse, err⟩ : Seg β) e').err⟩ := by
      intro e'
      unfold setErr
      simp only
      split <;> rfl
    rw [key]
    exact ⟨_, rfl, ⟨rfl, hw.lo, hw.hi, hw.lam⟩, rfl, rfl, rfl, rfl, rfl, rfl, rfl,
      by simp [pending], rfl, rfl⟩

theorem readOne_wf {s : Seg β} (hw : WF s) : WF (readOne B s) := by
  unfold readOne
  cases s.src with
  | nil => exact digest_wf B (s := { s with src := [], atEOF := true }) hw.ready none eotAtom
  | cons x rest => exact digest_wf B (s := { s with src := rest, pos := s.pos + x.2 }) hw.ready none ⟨x.1, 0, 0⟩

theorem readOne_fresh (s : Seg β) : Fresh (readOne B s) := by
  unfold readOne
  cases s.src with
  | nil => rfl
  | cons x rest => rfl

theorem readOne_test (s : Seg β) : (readOne B s).test = s.test := by
  unfold readOne test
  cases s.src with
  | nil =>
    have := (digest_same B { s with src := [], atEOF := true } none eotAtom).nbrk
    show feasible _ _ (decide ((digest B { s with src := [], atEOF := true } none eotAtom).brk.length > 1)) = _
    rw [this]; rfl
  | cons x rest =>
    have := (digest_same B { s with src := rest, pos := s.pos + x.2 } none ⟨x.1, 0, 0⟩).nbrk
    show feasible _ _ (decide ((digest B { s with src := rest, pos := s.pos + x.2 } none ⟨x.1, 0, 0⟩).brk.length > 1)) = _
    rw [this]; rfl

theorem readOne_todo {s : Seg β} (hf : firstOk s.test ((s.q.length : Int) - s.lam).toNat s.q = none)
    (hE : s.atEOF = false) (hs : s.src = [] → s.srcEnd = none) :
    (readOne B s).todo B = s.todo B ∧ (readOne B s).incoming.length < s.incoming.length := by
  have ht := readOne_test B s
  unfold todo
  rw [ht]
  cases hsrc : s.src with
  | nil =>
    have hend := hs hsrc
    have hi : s.incoming = [eotAtom] := by simp [incoming, hE, hsrc, hend]
    have hi' : (readOne B s).incoming = [] := by
      unfold readOne; rw [hsrc]; rfl
    rw [hi, hi', batch_feed B _ _ _ _ _ _ hf]
    refine ⟨?_, by simp⟩
    unfold readOne; rw [hsrc]; rfl
  | cons x rest =>
    have hi : s.incoming = ⟨x.1, 0, 0⟩ :: (rest.map (fun x => ⟨x.1, 0, 0⟩) ++ (if s.srcEnd = none then [eotAtom] else [])) := by
      simp [incoming, hE, hsrc]
    have hi' : (readOne B s).incoming = rest.map (fun x => ⟨x.1, 0, 0⟩) ++ (if s.srcEnd = none then [eotAtom] else []) := by
      have e1 : (readOne B s).atEOF = false := by unfold readOne; rw [hsrc]; exact hE
      have e2 : (readOne B s).src = rest := by unfold readOne; rw [hsrc]; rfl
      have e3 : (readOne B s).srcEnd = s.srcEnd := by unfold readOne; rw [hsrc]; rfl
      simp [incoming, e1, e2, e3]
    rw [hi, hi', batch_feed B _ _ _ _ _ _ hf]
    refine ⟨?_, by simp⟩
    unfold readOne; rw [hsrc]; rfl

theorem next_big_front {s : Seg β} {i : Nat} (hw : WF s) (hf : Fresh s)
    (h : firstOk s.test ((s.q.length : Int) - s.lam).toNat s.q = some i) :
    (∀ seg rest, s.todo B = seg :: rest →
      ∃ s', s.next B = some (s', true) ∧ WF s' ∧ Fresh s' ∧ s'.todo B = rest ∧
        s'.buf = writeAll s.buf.setMark (seg.map (·.r)) ∧ s'.err = s.err ∧ s'.srcEnd = s.srcEnd ∧
        (∃ a, seg.getLast? = some a ∧ s'.lastP = (a.p0, a.p1) ∧ s.test a = true) ∧ s'.test = s.test ∧
        s.pending = seg.map (·.r) ++ s'.pending) ∧
    (s.todo B = [] →
      ∃ s', s.next B = some (s', false) ∧ WF s' ∧ Fresh s' ∧ s'.todo B = [] ∧
        s'.buf = s.buf.reset none ∧ s'.atEOF = true ∧ s'.pending = s.pending ∧ s'.srcEnd = s.srcEnd ∧
        s'.err = (if s.atEOF then s.err else match s.srcEnd with
          | none => s.err
          | some e => (s.setErr (.reader e)).err)) := by
  have hb := batch_first B s.test s.incoming s.brk s.q s.lam i h
  have hbo : s.bo = i := by rw [hf, find_none, h]; rfl
  have hlt := firstOk_lt h
  refine ⟨?_, fun h0 => by unfold todo at h0; rw [hb] at h0; cases h0⟩
  intro seg rest hs
  unfold todo at hs
  rw [hb] at hs
  simp only [List.cons.injEq] at hs
  obtain ⟨hs1, hs2⟩ := hs
  obtain ⟨s', e, hw', hq, hc, hbuf, hlp, h1, h2, h3, h4, h5, h6, h7, h8, h9, h10, _, hfr⟩ :=
    getFront_spec (s := { s with inUse := true }) ⟨hw.ready, hw.lo, hw.hi, hw.lam⟩ (by simp only; omega) none
  have hcl : cutLen ({ s with inUse := true } : Seg β) none = i + 1 := by
    simp only [cutLen]; omega
  rw [hcl] at hq hc hbuf hlp hfr
  have htest : s'.test = s.test := by unfold test; rw [h6, h7, h4]
  have hinc : s'.incoming = s.incoming := by unfold incoming; rw [h2, h3, h9]
  refine ⟨s', ?_, hw', hfr (by omega), ?_, ?_, h10, h3, ?_, htest, ?_⟩
  · rw [next_front B hw (by omega), e]; rfl
  · unfold todo
    rw [htest, hinc, h4, h8, hq]
    exact hs2
  · rw [hbuf, ← hs1]
  · have hi : i < s.q.length := hlt.2
    refine ⟨s.q[i], ?_, hlp (by omega) _ (by simp only [Nat.add_sub_cancel]; exact List.getElem?_eq_getElem hi), ?_⟩
    · rw [← hs1, List.take_succ_eq_append_getElem hi, List.getLast?_concat]
    · have := (List.findIdx?_eq_some_iff_getElem.mp h)
      obtain ⟨h1, h2, _⟩ := this
      simpa using h2
  · rw [← hs1]
    simp only [pending, hq, h2, h3, h9]
    rw [← List.append_assoc ((s.q.take _).map _), ← List.map_append, List.take_append_drop]

theorem next_big_end {s : Seg β} (hw : WF s) (hf : Fresh s)
    (h : firstOk s.test ((s.q.length : Int) - s.lam).toNat s.q = none) (hi : s.incoming = []) :
    (∀ seg rest, s.todo B = seg :: rest →
      ∃ s', s.next B = some (s', true) ∧ WF s' ∧ Fresh s' ∧ s'.todo B = rest ∧
        s'.buf = writeAll s.buf.setMark (seg.map (·.r)) ∧ s'.err = s.err ∧ s'.srcEnd = s.srcEnd ∧
        (∃ a, seg.getLast? = some a ∧ s'.lastP = (a.p0, a.p1) ∧ s.test a = true) ∧ s'.test = s.test ∧
        s.pending = seg.map (·.r) ++ s'.pending) ∧
    (s.todo B = [] →
      ∃ s', s.next B = some (s', false) ∧ WF s' ∧ Fresh s' ∧ s'.todo B = [] ∧
        s'.buf = s.buf.reset none ∧ s'.atEOF = true ∧ s'.pending = s.pending ∧ s'.srcEnd = s.srcEnd ∧
        s'.err = (if s.atEOF then s.err else match s.srcEnd with
          | none => s.err
          | some e => (s.setErr (.reader e)).err)) := by
  have hb := batch_nil B s.test s.brk s.q s.lam h
  have ht : s.todo B = [] := by unfold todo; rw [hi, hb]
  refine ⟨fun seg rest h0 => (by rw [ht] at h0; cases h0), fun _ => ?_⟩
  have hbo : s.bo < 0 := by rw [hf, find_none, h]; decide
  obtain ⟨s', e, a1, a2, a3, a4, a5, a6, a7, a8, a9, a10, a11⟩ := next_end B hw hbo hi
  refine ⟨s', e, a1, ?_, by rw [a2, ht], a7, a6, a9, a10, a8⟩
  show s'.bo = _
  rw [a4, a11, hf]

/-- One `Next()`: it delivers the first of the segments to come, or returns false if there is
none. -/
theorem next_big : ∀ (n : Nat) (s : Seg β), s.incoming.length ≤ n → WF s → Fresh s →
    (∀ seg rest, s.todo B = seg :: rest →
      ∃ s', s.next B = some (s', true) ∧ WF s' ∧ Fresh s' ∧ s'.todo B = rest ∧
        s'.buf = writeAll s.buf.setMark (seg.map (·.r)) ∧ s'.err = s.err ∧ s'.srcEnd = s.srcEnd ∧
        (∃ a, seg.getLast? = some a ∧ s'.lastP = (a.p0, a.p1) ∧ s.test a = true) ∧ s'.test = s.test ∧
        s.pending = seg.map (·.r) ++ s'.pending) ∧
    (s.todo B = [] →
      ∃ s', s.next B = some (s', false) ∧ WF s' ∧ Fresh s' ∧ s'.todo B = [] ∧
        s'.buf = s.buf.reset none ∧ s'.atEOF = true ∧ s'.pending = s.pending ∧ s'.srcEnd = s.srcEnd ∧
        s'.err = (if s.atEOF then s.err else match s.srcEnd with
          | none => s.err
          | some e => (s.setErr (.reader e)).err)) := by
  intro n
  induction n with
  | zero =>
    intro s hn hw hf
    have hi : s.incoming = [] := List.length_eq_zero_iff.mp (by omega)
    cases hfo : firstOk s.test ((s.q.length : Int) - s.lam).toNat s.q with
    | some i => exact next_big_front B hw hf hfo
    | none => exact next_big_end B hw hf hfo hi
  | succ n ih =>
    intro s hn hw hf
    cases hfo : firstOk s.test ((s.q.length : Int) - s.lam).toNat s.q with
    | some i => exact next_big_front B hw hf hfo
    | none =>
      cases hi : s.incoming with
      | nil => exact next_big_end B hw hf hfo hi
      | cons a inc =>
        have hE : s.atEOF = false := by
          cases h : s.atEOF with
          | false => rfl
          | true => simp [incoming, h] at hi
        have hs : s.src = [] → s.srcEnd = none := by
          intro h0
          cases h : s.srcEnd with
          | none => rfl
          | some e => simp [incoming, hE, h0, h] at hi
        have hbo : s.bo < 0 := by rw [hf, find_none, hfo]; decide
        obtain ⟨ht, hlt⟩ := readOne_todo B hfo hE hs
        have hnext := next_read B hw hbo hE hs
        have hpend : (readOne B s).pending = s.pending := by
          unfold readOne
          cases hsrc : s.src with
          | nil =>
            have := digest_q B { s with src := [], atEOF := true } none eotAtom
            unfold pending
            simp only
            rw [this]
            show _ ++ (List.map _ [] ++ if true = true then [] else _) = _
            simp [hsrc, hE, hs hsrc, eotAtom]
          | cons x rest =>
            have := digest_q B { s with src := rest, pos := s.pos + x.2 } none ⟨x.1, 0, 0⟩
            unfold pending
            simp only
            rw [this]
            show _ ++ (List.map _ rest ++ if s.atEOF = true then [] else if s.srcEnd = none then [0] else []) = _
            simp [hsrc]
        have hbuf : (readOne B s).buf = s.buf := by
          unfold readOne; cases s.src <;> rfl
        have herr : (readOne B s).err = s.err := by
          unfold readOne; cases s.src <;> rfl
        have hend : (readOne B s).srcEnd = s.srcEnd := by
          unfold readOne; cases s.src <;> rfl
        have htest := readOne_test B s
        obtain ⟨i1, i2⟩ := ih (readOne B s) (by omega) (readOne_wf B hw) (readOne_fresh B s)
        rw [ht, hpend, hbuf, herr, hend, htest, ← hnext] at i1
        rw [ht, hpend, hbuf, herr, hend, ← hnext] at i2
        refine ⟨i1, fun h => ?_⟩
        obtain ⟨s', a1, a2, a3, a4, a5, a6, a7, a8, a9⟩ := i2 h
        refine ⟨s', a1, a2, a3, a4, a5, a6, a7, a8, ?_⟩
        rw [a9, hE]
        simp only [Bool.false_eq_true, if_false]
        cases hsE : s.srcEnd with
        | none => simp
        | some e =>
          have hatE : (readOne B s).atEOF = false := by
            unfold readOne
            cases hsrc : s.src with
            | nil => rw [hs hsrc] at hsE; cases hsE
            | cons x rest => exact hE
          rw [hatE]
          simp only [Bool.false_eq_true, if_false]
          unfold setErr
          rw [herr]
          cases s.err with
          | none => rfl
          | some e => cases e <;> simp [herr]

/-! ### Buffers -/

theorem writeAll_backed : ∀ (rs : List Int) (w : RuneWrite), w.isBacked = true →
    writeAll w rs = { w with stop := w.stop + rs.length } := by
  intro rs
  induction rs with
  | nil => intro w _; rfl
  | cons r rs ih =>
    intro w h
    have : (w.writeRune r).1 = { w with stop := w.stop + 1 } := by
      unfold RuneWrite.writeRune; rw [if_pos h]
    rw [writeAll, this, ih { w with stop := w.stop + 1 } h]
    simp only [List.length_cons]
    congr 1
    omega

/-- The longest segment an output buffer can take. -/
def limit (w : RuneWrite) : Nat := max w.outCap w.maxSegLen

theorem writeAll_out : ∀ (rs : List Int) (w : RuneWrite), w.isBacked = false → w.outLen ≤ w.outCap →
    (writeAll w rs).outLen ≤ (writeAll w rs).outCap ∧
    (writeAll w rs).isBacked = false ∧ (writeAll w rs).outVal = (w.outVal ++ rs).take (limit w) ∧
    limit (writeAll w rs) = limit w ∧ (w.out.isSome → (writeAll w rs).out.isSome) := by
  intro rs
  induction rs with
  | nil =>
    intro w h hl
    refine ⟨hl, h, ?_, rfl, id⟩
    have hlen : w.outLen = w.outVal.length := by
      unfold RuneWrite.outVal RuneWrite.outLen; cases w.out <;> rfl
    rw [List.append_nil, writeAll, List.take_of_length_le]
    unfold limit
    omega
  | cons r rs ih =>
    intro w h hl
    rw [writeAll]
    have hlen : w.outLen = w.outVal.length := by
      unfold RuneWrite.outVal RuneWrite.outLen; cases w.out <;> rfl
    by_cases hc : w.outCap = w.outLen
    · by_cases hm : w.outCap ≥ w.maxSegLen
      · have hw : (w.writeRune r).1 = w := by
          unfold RuneWrite.writeRune
          simp only [h, Bool.false_eq_true, if_false]
          rw [if_pos hc, if_pos hm]
        rw [hw]
        obtain ⟨a0, a1, a2, a3, a4⟩ := ih w h hl
        refine ⟨a0, a1, ?_, a3, a4⟩
        rw [a2]
        have : limit w = w.outVal.length := by unfold limit; omega
        rw [this, List.take_left', List.take_left'] <;> rfl
      · generalize hN : (if max (w.outCap + startBufSize) (w.outLen + 1) > w.maxSegLen then w.maxSegLen
          else max (w.outCap + startBufSize) (w.outLen + 1)) = N
        have hw : (w.writeRune r).1 = { w with out := some (w.outVal ++ [r], N) } := by
          unfold RuneWrite.writeRune
          simp only [h, Bool.false_eq_true, if_false]
          rw [if_pos hc, if_neg hm, hN]
        have hN1 : N ≤ w.maxSegLen := by rw [← hN]; split <;> omega
        have hN2 : w.outLen + 1 ≤ N := by rw [← hN]; split <;> omega
        have hlim : limit ({ w with out := some (w.outVal ++ [r], N) }) = limit w := by
          unfold limit RuneWrite.outCap; simp only
          unfold RuneWrite.outCap at hm
          omega
        rw [hw]
        obtain ⟨a0, a1, a2, a3, a4⟩ := ih { w with out := some (w.outVal ++ [r], N) } h (by
          show (w.outVal ++ [r]).length ≤ N
          simp; omega)
        refine ⟨a0, a1, ?_, by rw [a3, hlim], fun _ => a4 rfl⟩
        rw [a2, hlim]
        show ((w.outVal ++ [r]) ++ rs).take _ = _
        simp
    · have hw : (w.writeRune r).1 = { w with out := some (w.outVal ++ [r], w.outCap) } := by
        unfold RuneWrite.writeRune
        simp only [h, Bool.false_eq_true, if_false]
        rw [if_neg hc]
      have hlim : limit ({ w with out := some (w.outVal ++ [r], w.outCap) }) = limit w := by
        unfold limit; rfl
      rw [hw]
      obtain ⟨a0, a1, a2, a3, a4⟩ := ih { w with out := some (w.outVal ++ [r], w.outCap) } h (by
        show (w.outVal ++ [r]).length ≤ w.outCap
        simp; omega)
      refine ⟨a0, a1, ?_, by rw [a3, hlim], fun _ => a4 rfl⟩
      rw [a2, hlim]
      show ((w.outVal ++ [r]) ++ rs).take _ = _
      simp

end Seg
end Uax
