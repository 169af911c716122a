import Verif.SegmentReuse
import Verif.SegmentFrame
import Verif.Props.SimpleWord

/-! Property C65: RuneBuffer sets the largest size of segments. -/

namespace Uax
open Seg

variable {β : Type} (B : Breaker β)

theorem runeBuffer_eq {s s' : Seg β} {buf : List Int} {cap mx : Nat} (hb : buf ≠ []) (h : s.runeBuffer buf cap mx = some s') :
    s' = { s with buf := { s.buf with out := some (buf, cap), maxSegLen := mx } } := by
  unfold runeBuffer at h
  split at h
  · cases h
  · rw [if_pos (List.length_pos_iff.mpr hb), Option.some.injEq] at h
    exact h.symm

/-- What will be delivered, with segments cut off at any size. -/
theorem todo_shown {s : Seg β} (hr : Reachable B s) (src : List (Int × Nat)) (n L : Nat)
    (hh : Honest (verdicts B s.brk (src.map (·.1) ++ [0]))) (hn : src.length + 1 < n) :
    some (List.map (show1 L) (List.take n ((s.initReader src none).todo B)), decide (((s.initReader src none).todo B).length < n)) =
      some ((segmentsOf (places B s.brk s.zero0 s.zero1 (src.map (·.1)))).map fun seg => (⟨seg.runes.take L, seg.pens⟩ : Segment), true) := by
  rw [initReader_todo B (reachable_inv B hr)]
  have := batch_places B s.brk s.zero0 s.zero1 (src.map (·.1)) hh
  rw [show s.test = feasible s.zero0 s.zero1 (decide (s.brk.length > 1)) from rfl, this]
  obtain ⟨rest, h1, h2, h3, h4⟩ := pieces_split Place.cut (places B s.brk s.zero0 s.zero1 (src.map (·.1))) [] (by simp)
  rw [places_length, List.length_map] at h4
  simp only [List.length_map]
  rw [decide_eq_true (by omega), List.take_of_length_le (by simp; omega)]
  unfold segmentsOf
  rw [← ofPlace_show, List.map_map, List.map_map, List.map_map]
  rfl

/-- "The maximum segment size is the larger of max and cap(buf)": after RuneBuffer with a buffer that is not empty, and Init in
either order, every segment has its first max(max, cap(buf)) runes, whatever the buffer contained and whatever happened to the
segmenter before; so segments which are not longer are complete. -/
theorem C65_largest_segment {s s₁ s₂ : Seg β} (hr : Reachable B s) (buf : List Int) (cap mx : Nat) (hb : buf ≠ []) (hc : buf.length ≤ cap)
    (src : List (Int × Nat)) (n : Nat) (hh : Honest (verdicts B s.brk (src.map (·.1) ++ [0]))) (hn : src.length + 1 < n)
    (h1 : s.runeBuffer buf cap mx = some s₁) (h2 : (s.initReader src none).runeBuffer buf cap mx = some s₂) :
    (s₁.initReader src none).collect B n =
      some ((segmentsOf (places B s.brk s.zero0 s.zero1 (src.map (·.1)))).map fun seg => ⟨seg.runes.take (max mx cap), seg.pens⟩, true) ∧
    s₂.collect B n =
      some ((segmentsOf (places B s.brk s.zero0 s.zero1 (src.map (·.1)))).map fun seg => ⟨seg.runes.take (max mx cap), seg.pens⟩, true) := by
  have hr1 : Reachable B s₁ := Reachable.buffer buf cap mx hr hc h1
  have e1 := runeBuffer_eq hb h1
  have e2 := runeBuffer_eq hb h2
  have hm : max mx cap = max cap mx := Nat.max_comm ..
  rw [hm]
  constructor
  · have := collect_reader B hr1 src n (by rw [e1]; exact hh) hn
    rw [this, e1]
    rfl
  · have hi := reachable_inv B hr
    obtain ⟨w, f, b1, b2, b3, b4, _, _, _⟩ := initReader_facts B hi src none
    have hc2 := collect_out B n s₂ (by rw [e2]; exact ⟨w.ready, w.lo, w.hi, w.lam⟩) (by rw [e2]; exact f) (by rw [e2]; exact hc) (by rw [e2]; exact b2) (by rw [e2]; rfl)
    have ht : s₂.todo B = (s.initReader src none).todo B := by rw [e2]; rfl
    have hro : s₂.room = max cap mx := by rw [e2]; rfl
    rw [hc2, ht, hro, todo_shown B hr src n (max cap mx) hh hn]

theorem write_frugal {cap : Nat} {w : RuneWrite} (r : Int) (h : w.outCap = cap ∧ w.maxSegLen ≤ cap ∧ w.out.isSome) :
    (w.writeRune r).1.outCap = cap ∧ (w.writeRune r).1.maxSegLen ≤ cap ∧ (w.writeRune r).1.out.isSome := by
  obtain ⟨h1, h2, h3⟩ := h
  unfold RuneWrite.writeRune
  split
  · exact ⟨h1, h2, h3⟩
  · dsimp only
    split
    · rw [if_pos (by omega)]
      exact ⟨h1, h2, h3⟩
    · exact ⟨h1, h2, rfl⟩

theorem reset_frugal {cap : Nat} {w : RuneWrite} (h : w.outCap = cap ∧ w.maxSegLen ≤ cap ∧ w.out.isSome) :
    (w.reset none).outCap = cap ∧ (w.reset none).maxSegLen ≤ cap ∧ (w.reset none).out.isSome := by
  obtain ⟨h1, h2, h3⟩ := h
  obtain ⟨⟨l, c⟩, ho⟩ := Option.isSome_iff_exists.mp h3
  unfold RuneWrite.outCap at h1
  rw [ho] at h1
  dsimp only at h1
  subst h1
  unfold RuneWrite.reset RuneWrite.outCap
  dsimp only
  rw [ho]
  dsimp only [Option.map_some, Option.getD_some]
  refine ⟨?_, h2, rfl⟩
  split <;> rfl

theorem mark_frugal {cap : Nat} {w : RuneWrite} (h : w.outCap = cap ∧ w.maxSegLen ≤ cap ∧ w.out.isSome) :
    w.setMark.outCap = cap ∧ w.setMark.maxSegLen ≤ cap ∧ w.setMark.out.isSome := by
  obtain ⟨h1, h2, h3⟩ := h
  unfold RuneWrite.setMark
  split
  · exact ⟨h1, h2, h3⟩
  · obtain ⟨⟨l, c⟩, ho⟩ := Option.isSome_iff_exists.mp h3
    unfold RuneWrite.outCap at h1 ⊢
    rw [ho] at h1 ⊢
    exact ⟨h1, h2, rfl⟩

theorem readEnough_frame (bound : Option Int) : ∀ (src : List (Int × Nat)) (x : Seg β), (readEnough B bound src x).1.buf = x.buf ∧
    (readEnough B bound src x).1.inUse = x.inUse ∧ (readEnough B bound src x).1.ready = x.ready := by
  intro src
  induction src with
  | nil =>
    intro x
    rw [readEnough]
    split
    · exact ⟨rfl, rfl, rfl⟩
    · split
      · exact ⟨rfl, rfl, rfl⟩
      · split
        · exact ⟨rfl, rfl, rfl⟩
        · simp only
          split
          · exact ⟨rfl, rfl, rfl⟩
          · split
            · exact ⟨rfl, rfl, rfl⟩
            · split <;> exact ⟨rfl, rfl, rfl⟩
  | cons y rest ih =>
    intro x
    rw [readEnough]
    split
    · exact ⟨rfl, rfl, rfl⟩
    · split
      · exact ⟨rfl, rfl, rfl⟩
      · split
        · exact ⟨rfl, rfl, rfl⟩
        · exact ih _

/-- What getFront does to the parts of a segmenter. -/
theorem front_frame {s s' : Seg β} {bound : Option Int} (hg : s.getFront bound = some s') :
    s'.inUse = s.inUse ∧ s'.ready = s.ready ∧ ∃ rs : List Int, s'.buf = rs.foldl (fun w r => (w.writeRune r).1) s.buf.setMark := by
  have hp : ∀ (n : Nat) (x y : Seg β), popWrite n x = some y → y.inUse = x.inUse ∧ y.ready = x.ready ∧
      ∃ rs : List Int, y.buf = rs.foldl (fun w r => (w.writeRune r).1) x.buf := by
    intro n
    induction n with
    | zero => intro x y hx; rw [popWrite, Option.some.injEq] at hx; rw [← hx]; exact ⟨rfl, rfl, [], rfl⟩
    | succ n ih =>
      intro x y hx
      rw [popWrite] at hx
      split at hx
      · cases hx
      · rename_i a q _
        obtain ⟨h1, h2, rs, h3⟩ := ih _ _ hx
        exact ⟨h1, h2, a.r :: rs, h3⟩
  unfold getFront at hg
  dsimp only at hg
  split at hg
  · cases hg
  · cases bound with
    | none =>
      dsimp only at hg
      split at hg
      · rw [Option.some.injEq] at hg
        rw [← hg]
        exact ⟨rfl, rfl, [], rfl⟩
      · split at hg
        · cases hg
        · rename_i y hy
          rw [Option.some.injEq] at hg
          rw [← hg]
          exact hp _ _ _ hy
    | some b =>
      dsimp only at hg
      by_cases hb : s.pos - (s.q.length : Int) + min ((s.q.length : Int) - 1) s.bo ≥ b
      · simp only [if_pos hb] at hg
        split at hg
        · rw [Option.some.injEq] at hg
          rw [← hg]
          exact ⟨rfl, rfl, [], rfl⟩
        · split at hg
          · cases hg
          · rename_i y hy
            rw [Option.some.injEq] at hg
            rw [← hg]
            exact hp _ _ _ hy
      · simp only [if_neg hb] at hg
        split at hg
        · rw [Option.some.injEq] at hg
          rw [← hg]
          exact ⟨rfl, rfl, [], rfl⟩
        · split at hg
          · cases hg
          · rename_i y hy
            rw [Option.some.injEq] at hg
            rw [← hg]
            exact hp _ _ _ hy

theorem front_frugal {cap : Nat} {s s' : Seg β} {bound : Option Int} (h : s.buf.outCap = cap ∧ s.buf.maxSegLen ≤ cap ∧ s.buf.out.isSome)
    (hg : s.getFront bound = some s') : s'.buf.outCap = cap ∧ s'.buf.maxSegLen ≤ cap ∧ s'.buf.out.isSome := by
  obtain ⟨-, -, rs, e⟩ := front_frame hg
  rw [e]
  have : ∀ (rs : List Int) (w : RuneWrite), (w.outCap = cap ∧ w.maxSegLen ≤ cap ∧ w.out.isSome) →
      ((rs.foldl (fun w r => (w.writeRune r).1) w).outCap = cap ∧ (rs.foldl (fun w r => (w.writeRune r).1) w).maxSegLen ≤ cap ∧
        (rs.foldl (fun w r => (w.writeRune r).1) w).out.isSome) := by
    intro rs
    induction rs with
    | nil => intro w h; exact h
    | cons r rs ih => intro w h; exact ih _ (write_frugal r h)
  exact this rs _ (mark_frugal h)

theorem next_frugal {cap : Nat} {s s' : Seg β} {bound : Option Int} {ok : Bool} (h : s.buf.outCap = cap ∧ s.buf.maxSegLen ≤ cap ∧ s.buf.out.isSome)
    (hn : s.nextB B bound = some (s', ok)) : s'.buf.outCap = cap ∧ s'.buf.maxSegLen ≤ cap ∧ s'.buf.out.isSome := by
  have he : ∀ (x : Seg β) (e : SegErr), (x.setErr e).buf = x.buf := by
    intro x e
    unfold setErr
    split <;> rfl
  have hf : ∀ x : Seg β, x.buf = s.buf → (x.getFront bound).map (·, true) = some (s', ok) → s'.buf.outCap = cap ∧ s'.buf.maxSegLen ≤ cap ∧ s'.buf.out.isSome := by
    intro x hx hm
    rw [Option.map_eq_some_iff] at hm
    obtain ⟨y, y1, y2⟩ := hm
    injection y2 with y2
    rw [← y2]
    exact front_frugal (by rw [hx]; exact h) y1
  unfold nextB at hn
  split at hn
  · dsimp only at hn
    split at hn
    · injection hn with hn
      injection hn with hn
      rw [← hn]
      dsimp only
      rw [he]
      exact reset_frugal h
    · cases hn
  · dsimp only at hn
    split at hn
    · split at hn
      · injection hn with hn
        injection hn with hn
        rw [← hn]
        exact reset_frugal h
      · exact hf { s with inUse := true } rfl hn
    · have hb := (readEnough_frame B bound s.src { s with inUse := true }).1
      generalize readEnough B bound s.src { s with inUse := true } = re at hn hb
      obtain ⟨x, e⟩ := re
      have hb : x.buf = s.buf := hb
      split at hn
      · rename_i heq
        injection heq with h1 h2
        injection hn with hn
        injection hn with hn
        rw [← hn]
        dsimp only
        rw [← h1, hb]
        exact reset_frugal h
      · rename_i heq
        injection heq with h1 h2
        injection hn with hn
        injection hn with hn
        rw [← hn]
        dsimp only
        rw [← h1, hb]
        exact reset_frugal h
      · rename_i heq
        injection heq with h1 h2
        subst h1
        split at hn
        · injection hn with hn
          injection hn with hn
          rw [← hn, hb]
          exact h
        · split at hn
          · injection hn with hn
            injection hn with hn
            rw [← hn]
            dsimp only
            rw [hb]
            exact reset_frugal h
          · exact hf _ hb hn

/-- "If max <= cap(buf), Next() will use this buffer only and do no allocation": whatever is called afterwards, the output buffer has the
capacity of the given one, which it would not have after an allocation. (Allocation makes room for 4096 more runes, or for max.) -/
theorem C65_no_allocation {s s₁ s' : Seg β} (buf : List Int) (cap mx : Nat) (hb : buf ≠ []) (hm : mx ≤ cap)
    (h1 : s.runeBuffer buf cap mx = some s₁) (src : List (Int × Nat)) (fin : Option Nat) (calls : List SegCall)
    (h : s₁.after B calls = some s' ∨ (s₁.initReader src fin).after B calls = some s') : s'.buf.outCap = cap := by
  have e1 := runeBuffer_eq hb h1
  have hs1 : s₁.buf.outCap = cap ∧ s₁.buf.maxSegLen ≤ cap ∧ s₁.buf.out.isSome := by rw [e1]; exact ⟨rfl, hm, rfl⟩
  have key : ∀ (calls : List SegCall) (x : Seg β), (x.buf.outCap = cap ∧ x.buf.maxSegLen ≤ cap ∧ x.buf.out.isSome) → x.after B calls = some s' →
      s'.buf.outCap = cap := by
    intro calls
    induction calls with
    | nil => intro x hx he; rw [Seg.after, Option.some.injEq] at he; rw [← he]; exact hx.1
    | cons c cs ih =>
      intro x hx he
      rw [Seg.after, Option.bind_eq_some_iff] at he
      obtain ⟨⟨y, ok⟩, y1, y2⟩ := he
      refine ih y ?_ y2
      cases c with
      | next => exact next_frugal B hx y1
      | bounded b => exact next_frugal B hx y1
  rcases h with h | h
  · exact key calls s₁ hs1 h
  · refine key calls _ ?_ h
    have : (s₁.initReader src fin).buf = s₁.buf.reset none := by
      unfold initReader init
      split <;> rfl
    rw [this]
    exact reset_frugal hs1

theorem next_used {s s' : Seg β} {bound : Option Int} {ok : Bool} (hr : s.ready = true) (hn : s.nextB B bound = some (s', ok)) :
    s'.inUse = true ∧ s'.ready = true := by
  have he : ∀ (x : Seg β) (e : SegErr), (x.setErr e).inUse = x.inUse ∧ (x.setErr e).ready = x.ready := by
    intro x e
    unfold setErr
    split <;> exact ⟨rfl, rfl⟩
  have hf : ∀ x : Seg β, x.inUse = true ∧ x.ready = true → (x.getFront bound).map (·, true) = some (s', ok) → s'.inUse = true ∧ s'.ready = true := by
    intro x hx hm
    rw [Option.map_eq_some_iff] at hm
    obtain ⟨y, y1, y2⟩ := hm
    injection y2 with y2
    obtain ⟨f1, f2, -⟩ := front_frame y1
    rw [← y2, f1, f2]
    exact hx
  unfold nextB at hn
  rw [hr] at hn
  simp only [Bool.not_true, Bool.false_eq_true, if_false] at hn
  split at hn
  · split at hn
    · injection hn with hn
      injection hn with hn
      rw [← hn]
      exact ⟨rfl, rfl⟩
    · exact hf { s with inUse := true, ready := true } ⟨rfl, rfl⟩ hn
  · have hb := (readEnough_frame B bound s.src { s with inUse := true }).2
    generalize hre : readEnough B bound s.src { s with inUse := true } = re at hb
    obtain ⟨x, e⟩ := re
    have hb : x.inUse = true ∧ x.ready = true := ⟨hb.1, hb.2.trans hr⟩
    have hre' : readEnough B bound s.src { s with inUse := true, ready := true } = (x, e) := by rw [← hre, ← hr]
    rw [hre'] at hn
    split at hn
    · rename_i heq
      injection heq with h1 h2
      injection hn with hn
      injection hn with hn
      rw [← hn]
      dsimp only
      rw [← h1, (he x _).1, (he x _).2]
      exact hb
    · rename_i heq
      injection heq with h1 h2
      injection hn with hn
      injection hn with hn
      rw [← hn]
      dsimp only
      rw [← h1, (he x _).1, (he x _).2]
      exact hb
    · rename_i heq
      injection heq with h1 h2
      subst h1
      split at hn
      · injection hn with hn
        injection hn with hn
        rw [← hn]
        exact hb
      · split at hn
        · injection hn with hn
          injection hn with hn
          rw [← hn]
          exact hb
        · exact hf _ hb hn

/-- "Buffer panics if it is called after scanning has started. Clients will have to call Init(...) again to permit re-setting the buffer":
for every segmenter that has been initialised, after a call of Next or BoundedNext. -/
theorem C65_panics {s s' : Seg β} (src : List (Int × Nat)) (fin : Option Nat) (calls : List SegCall) (hc : calls ≠ [])
    (hs : (s.initReader src fin).after B calls = some s') (buf : List Int) (cap mx : Nat) :
    s'.runeBuffer buf cap mx = none ∧ ∀ src fin, ((s'.initReader src fin).runeBuffer buf cap mx).isSome := by
  have key : ∀ (calls : List SegCall) (x : Seg β), x.ready = true → (calls = [] → x.inUse = true) → x.after B calls = some s' → s'.inUse = true ∧ s'.ready = true := by
    intro calls
    induction calls with
    | nil => intro x h1 h2 he; rw [Seg.after, Option.some.injEq] at he; rw [← he]; exact ⟨h2 rfl, h1⟩
    | cons c cs ih =>
      intro x hx _ he
      rw [Seg.after, Option.bind_eq_some_iff] at he
      obtain ⟨⟨y, ok⟩, y1, y2⟩ := he
      have : y.inUse = true ∧ y.ready = true := by
        cases c with
        | next => exact next_used B hx y1
        | bounded b => exact next_used B hx y1
      exact ih y this.2 (fun _ => this.1) y2
  obtain ⟨h1, h2⟩ := key calls _ (by unfold initReader init; split <;> first | assumption | rfl) (fun h => absurd h hc) hs
  constructor
  · unfold runeBuffer
    rw [if_pos h1]
  · intro src fin
    have : (s'.initReader src fin).inUse = false := by
      unfold initReader init
      rw [if_pos h2]
    unfold runeBuffer
    rw [this]
    simp only [Bool.false_eq_true, if_false]
    split <;> rfl

/-- "By default, Segmenter ... sets the maximum token size to MaxSegmentSize" (64 K): not so, a word of 4097 letters loses the last. -/
theorem C65_default_violated (isSpace : Int → Bool) (hz : isSpace 0 = false) (ha : isSpace 97 = false) :
    ((Seg.new [SWB.new]).initReader (List.replicate 4097 (97, 1)) none).collect (SWB.breaker isSpace) 4099 =
      some ([⟨List.replicate 4096 97, (100, 0)⟩], true) ∧ 4097 ≤ 64 * 1024 :=
  ⟨(C09_violated isSpace hz ha).1, by decide⟩

/-- A buffer of length zero is ignored, and so is the maximum given with it: whatever they are, a word of 4097 letters loses its last letter. -/
theorem C65_empty_violated (isSpace : Int → Bool) (hz : isSpace 0 = false) (ha : isSpace 97 = false) :
    ∃ s', (Seg.new [SWB.new]).runeBuffer [] 10000 20000 = some s' ∧
      (s'.initReader (List.replicate 4097 (97, 1)) none).collect (SWB.breaker isSpace) 4099 = some ([⟨List.replicate 4096 97, (100, 0)⟩], true) :=
  ⟨_, rfl, (C09_violated isSpace hz ha).1⟩

/-- A buffer of 3 runes, which may grow to 5: a word of 7 letters is cut off after the fifth. -/
example : ∃ s₁ s₂, (Seg.new [SWB.new]).runeBuffer [1, 2] 3 5 = some s₁ ∧
    ((Seg.new [SWB.new]).initReader (List.replicate 7 (97, 1)) none).runeBuffer [1, 2] 3 5 = some s₂ ∧
    (s₁.initReader (List.replicate 7 (97, 1)) none).collect spaceB 9 = some ([⟨List.replicate 5 97, (100, 0)⟩], true) ∧
    s₂.collect spaceB 9 = some ([⟨List.replicate 5 97, (100, 0)⟩], true) := by
  refine ⟨_, _, rfl, rfl, ?_, ?_⟩ <;> decide +kernel

/-! ### C13: the settings of BreakOnZero -/

theorem readEnough_zero (bound : Option Int) : ∀ (src : List (Int × Nat)) (x : Seg β), (readEnough B bound src x).1.zero0 = x.zero0 ∧
    (readEnough B bound src x).1.zero1 = x.zero1 := by
  intro src
  induction src with
  | nil =>
    intro x
    rw [readEnough]
    split
    · exact ⟨rfl, rfl⟩
    · split
      · exact ⟨rfl, rfl⟩
      · split
        · exact ⟨rfl, rfl⟩
        · simp only
          split
          · exact ⟨rfl, rfl⟩
          · split
            · exact ⟨rfl, rfl⟩
            · split <;> exact ⟨rfl, rfl⟩
  | cons y rest ih =>
    intro x
    rw [readEnough]
    split
    · exact ⟨rfl, rfl⟩
    · split
      · exact ⟨rfl, rfl⟩
      · split
        · exact ⟨rfl, rfl⟩
        · exact ih _

theorem front_zero {s s' : Seg β} {bound : Option Int} (hg : s.getFront bound = some s') : s'.zero0 = s.zero0 ∧ s'.zero1 = s.zero1 := by
  have hp : ∀ (n : Nat) (x y : Seg β), popWrite n x = some y → y.zero0 = x.zero0 ∧ y.zero1 = x.zero1 := by
    intro n
    induction n with
    | zero => intro x y hx; rw [popWrite, Option.some.injEq] at hx; rw [← hx]; exact ⟨rfl, rfl⟩
    | succ n ih =>
      intro x y hx
      rw [popWrite] at hx
      split at hx
      · cases hx
      · have := ih _ _ hx
        exact this
  unfold getFront at hg
  dsimp only at hg
  split at hg
  · cases hg
  · cases bound with
    | none =>
      dsimp only at hg
      split at hg
      · rw [Option.some.injEq] at hg
        rw [← hg]
        exact ⟨rfl, rfl⟩
      · split at hg
        · cases hg
        · rename_i y hy
          rw [Option.some.injEq] at hg
          rw [← hg]
          have := hp _ _ _ hy
          exact this
    | some b =>
      dsimp only at hg
      by_cases hb : s.pos - (s.q.length : Int) + min ((s.q.length : Int) - 1) s.bo ≥ b
      all_goals
        simp only [hb, if_true, if_false] at hg
        split at hg
        · rw [Option.some.injEq] at hg
          rw [← hg]
          exact ⟨rfl, rfl⟩
        · split at hg
          · cases hg
          · rename_i y hy
            rw [Option.some.injEq] at hg
            rw [← hg]
            have := hp _ _ _ hy
            exact this

theorem next_zero {s s' : Seg β} {bound : Option Int} {ok : Bool} (hn : s.nextB B bound = some (s', ok)) :
    s'.zero0 = s.zero0 ∧ s'.zero1 = s.zero1 := by
  have he : ∀ (x : Seg β) (e : SegErr), (x.setErr e).zero0 = x.zero0 ∧ (x.setErr e).zero1 = x.zero1 := by
    intro x e
    unfold setErr
    split <;> exact ⟨rfl, rfl⟩
  have hf : ∀ x : Seg β, x.zero0 = s.zero0 ∧ x.zero1 = s.zero1 → (x.getFront bound).map (·, true) = some (s', ok) → s'.zero0 = s.zero0 ∧ s'.zero1 = s.zero1 := by
    intro x hx hm
    rw [Option.map_eq_some_iff] at hm
    obtain ⟨y, y1, y2⟩ := hm
    injection y2 with y2
    obtain ⟨f1, f2⟩ := front_zero y1
    rw [← y2, f1, f2]
    exact hx
  unfold nextB at hn
  split at hn
  · dsimp only at hn
    split at hn
    · injection hn with hn
      injection hn with hn
      rw [← hn]
      dsimp only
      rw [(he _ _).1, (he _ _).2, (he _ _).1, (he _ _).2]
      exact ⟨rfl, rfl⟩
    · cases hn
  · dsimp only at hn
    split at hn
    · split at hn
      · injection hn with hn
        injection hn with hn
        rw [← hn]
        exact ⟨rfl, rfl⟩
      · exact hf { s with inUse := true } ⟨rfl, rfl⟩ hn
    · have hb := readEnough_zero B bound s.src { s with inUse := true }
      generalize readEnough B bound s.src { s with inUse := true } = re at hn hb
      obtain ⟨x, e⟩ := re
      have hb : x.zero0 = s.zero0 ∧ x.zero1 = s.zero1 := hb
      split at hn
      · rename_i heq
        injection heq with h1 h2
        injection hn with hn
        injection hn with hn
        rw [← hn]
        dsimp only
        rw [← h1, (he x _).1, (he x _).2]
        exact hb
      · rename_i heq
        injection heq with h1 h2
        injection hn with hn
        injection hn with hn
        rw [← hn]
        dsimp only
        rw [← h1, (he x _).1, (he x _).2]
        exact hb
      · rename_i heq
        injection heq with h1 h2
        subst h1
        split at hn
        · injection hn with hn
          injection hn with hn
          rw [← hn]
          exact hb
        · split at hn
          · injection hn with hn
            injection hn with hn
            rw [← hn]
            exact hb
          · exact hf _ hb hn

/-- Segmenters for which BreakOnZero was last called with `z0` and `z1`; false for both is the default. -/
inductive LastSet {β : Type} (B : Breaker β) (z0 z1 : Bool) : Seg β → Prop
  | new (bs : List β) : z0 = false → z1 = false → LastSet B z0 z1 (Seg.new bs)
  | set {s : Seg β} : Reachable B s → LastSet B z0 z1 (s.breakOnZero z0 z1)
  | reader {s : Seg β} (src : List (Int × Nat)) (fin : Option Nat) : LastSet B z0 z1 s → LastSet B z0 z1 (s.initReader src fin)
  | slice {s : Seg β} (buf : List Int) : LastSet B z0 z1 s → LastSet B z0 z1 (s.initSlice buf)
  | buffer {s s' : Seg β} (buf : List Int) (cap max : Nat) : LastSet B z0 z1 s → buf.length ≤ cap →
      s.runeBuffer buf cap max = some s' → LastSet B z0 z1 s'
  | call {s s' : Seg β} (c : SegCall) (ok : Bool) : LastSet B z0 z1 s → s.call B c = some (s', ok) → LastSet B z0 z1 s'

theorem lastSet_facts {z0 z1 : Bool} {s : Seg β} (h : LastSet B z0 z1 s) : Reachable B s ∧ s.zero0 = z0 ∧ s.zero1 = z1 := by
  induction h with
  | new bs h0 h1 => exact ⟨Reachable.new bs, h0.symm, h1.symm⟩
  | set hr => exact ⟨Reachable.onZero z0 z1 hr, rfl, rfl⟩
  | reader src fin _ ih =>
    refine ⟨Reachable.reader src fin ih.1, ?_⟩
    unfold initReader init
    split <;> exact ih.2
  | slice buf _ ih =>
    refine ⟨Reachable.slice buf ih.1, ?_⟩
    unfold initSlice init
    split <;> exact ih.2
  | buffer buf cap mx _ hc he ih =>
    refine ⟨Reachable.buffer buf cap mx ih.1 hc he, ?_⟩
    unfold runeBuffer at he
    split at he
    · cases he
    · split at he
      · cases he; exact ih.2
      · cases he; exact ih.2
  | call c ok _ he ih =>
    refine ⟨Reachable.call c ok ih.1 he, ?_⟩
    have := ih.2
    cases c with
    | next => rw [(next_zero B he).1, (next_zero B he).2]; exact this
    | bounded b => rw [(next_zero B he).1, (next_zero B he).2]; exact this

/-- What was last requested with BreakOnZero counts for every text, whatever else is done with the segmenter in between: text is cut exactly after the
runes whose penalties are feasible with these settings. -/
theorem C13_last_setting {z0 z1 : Bool} {s : Seg β} (h : LastSet B z0 z1 s) (src : List (Int × Nat)) (n : Nat)
    (hh : Honest (verdicts B s.brk (src.map (·.1) ++ [0]))) (hn : src.length + 1 < n) :
    (s.initReader src none).collect B n =
      some ((segmentsOf (places B s.brk z0 z1 (src.map (·.1)))).map fun seg => ⟨seg.runes.take s.room, seg.pens⟩, true) := by
  obtain ⟨h1, h2, h3⟩ := lastSet_facts B h
  have := collect_reader B h1 src n hh hn
  rw [h2, h3] at this
  exact this

/-- A breaker which says nothing at all: cut after every rune if zero counts for the primary or for the secondary breaker. -/
def mute : Breaker Unit := ⟨fun _ _ => ((), 0, [])⟩

example : (((Seg.new [(), ()]).breakOnZero false true).initReader [(97, 1), (98, 1)] none).collect mute 9 =
      some ([⟨[97], (0, 0)⟩, ⟨[98], (0, 0)⟩], true) ∧
    (((Seg.new [(), ()]).breakOnZero false false).initReader [(97, 1), (98, 1)] none).collect mute 9 = some ([], true) := by
  constructor <;> decide +kernel

end Uax
