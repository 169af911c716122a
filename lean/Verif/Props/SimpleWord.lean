import Verif.SimpleWordProofs

/-! Properties C09 and C21. -/

namespace Uax
open Seg

/-! ### C21 -/

/-- The runs of white space and of other runes with the penalties after them. -/
def wordRuns (isSpace : Int → Bool) (text : List Int) : List Segment :=
  (text.splitBy fun a c => isSpace a == isSpace c).map fun run => ⟨run, (if run.all isSpace then -100 else 100, 0)⟩

theorem chain_uniform (isSpace : Int → Bool) : ∀ (l : List Int) (a : Int),
    (l ++ [a]).IsChain (fun x y => (isSpace x == isSpace y) = true) → (l ++ [a]).all isSpace = isSpace a := by
  intro l
  induction l with
  | nil => intro a _; simp
  | cons x l ih =>
    intro a h
    rw [List.cons_append] at h ⊢
    rw [List.all_cons]
    have htail := h.tail
    rw [List.tail_cons] at htail
    rw [ih a htail]
    cases l with
    | nil =>
      simp only [List.nil_append, List.isChain_cons_cons, beq_iff_eq] at h
      rw [h.1, Bool.and_self]
    | cons y l =>
      simp only [List.cons_append, List.isChain_cons_cons, beq_iff_eq] at h
      have := ih a htail
      rw [List.cons_append, List.all_cons] at this
      rw [h.1]
      cases hy : isSpace y with
      | true => simp
      | false => rw [hy] at this; simp at this; simp [this]

/-- The places computed for the breaker are the runs. -/
theorem segments_are_runs (isSpace : Int → Bool) (hz : isSpace 0 = false) {b : SWB} (h : SWB.Idle b) (z1 : Bool)
    (text : List Int) (ht : ∀ x ∈ text, x ≠ 0) :
    segmentsOf (places (SWB.breaker isSpace) [b] false z1 text) = wordRuns isSpace text := by
  rw [SWB.places_eq isSpace hz h z1 text ht]
  unfold segmentsOf wordRuns
  rw [pieces_snoc_unmarked _ _ rfl]
  have e := pieces_map (SWB.placeOf isSpace) (·.2) Place.cut (fun _ => rfl) (runMarks (fun a c => isSpace a == isSpace c) text) []
  rw [List.map_nil] at e
  have hsp := splitBy_pieces (fun a c => isSpace a == isSpace c) text
  have hch : ∀ p ∈ text.splitBy (fun a c => isSpace a == isSpace c), p.IsChain fun x y => (isSpace x == isSpace y) = true :=
    fun p hp => List.isChain_of_mem_splitBy hp
  obtain ⟨_, _, _, g3, _⟩ := pieces_split (·.2) (runMarks (fun a c => isSpace a == isSpace c) text) [] (by simp)
  rw [e]
  rw [hsp] at hch ⊢
  rw [List.map_map, List.map_map]
  apply List.map_congr_left
  intro p hp
  obtain ⟨q, a, rfl, ha, _⟩ := g3 p hp
  have hc := hch _ (List.mem_map_of_mem hp)
  simp only [List.map_append, List.map_cons, List.map_nil] at hc
  have hu := chain_uniform isSpace _ _ hc
  simp only [Function.comp, List.map_append, List.map_cons, List.map_nil, hu]
  simp only [List.getLast?_append, List.getLast?_singleton, Option.some_or, Option.map_some, Option.getD_some,
    SWB.placeOf, ha, if_true, List.map_map]
  rfl

/-- A new segmenter with the simple word breaker, for reader input: the segments are the maximal
runs of white space and of other runes, in order, with penalty -100 and 100. (The text must fit
into the output buffer, see C09.) -/
theorem C21_reader_gives_runs (isSpace : Int → Bool) (hz : isSpace 0 = false) (src : List (Int × Nat))
    (ht : ∀ x ∈ src, x.1 ≠ 0) (hlen : src.length < 4096) (n : Nat) (hn : src.length + 1 < n) :
    ((Seg.new [SWB.new]).initReader src none).collect (SWB.breaker isSpace) n =
      some (wordRuns isSpace (src.map (·.1)), true) := by
  have ht' : ∀ x ∈ src.map (·.1), x ≠ 0 := by
    intro x hx
    obtain ⟨y, hy, rfl⟩ := List.mem_map.mp hx
    exact ht y hy
  rw [C02_cuts_exactly_at_feasible_positions _ (Reachable.new _) src n
    (SWB.honest isSpace hz SWB.new_idle _ ht') hlen hn]
  have := segments_are_runs isSpace hz SWB.new_idle false (src.map (·.1)) ht'
  rw [← this]; rfl

/-- The same for slice input, without any limit to the length. -/
theorem C21_slice_gives_runs (isSpace : Int → Bool) (hz : isSpace 0 = false) (text : List Int)
    (ht : ∀ x ∈ text, x ≠ 0) (n : Nat) (hn : text.length + 1 < n) :
    ((Seg.new [SWB.new]).initSlice text).collect (SWB.breaker isSpace) n = some (wordRuns isSpace text, true) := by
  have hp := SWB.places_eq isSpace hz SWB.new_idle false text ht
  rw [C02_slice_cuts_exactly_at_feasible_positions _ (Reachable.new _) text n
    (SWB.honest isSpace hz SWB.new_idle _ ht) ?_ hn]
  · have := segments_are_runs isSpace hz SWB.new_idle false text ht
    rw [← this]; rfl
  · intro p h
    have h : (places (SWB.breaker isSpace) [SWB.new] false false text)[text.length]? = some p := h
    have hl := places_length (SWB.breaker isSpace) [SWB.new] false false text
    rw [hp] at h hl
    rw [List.length_append, List.length_singleton] at hl
    rw [List.getElem?_append_right (by omega), show text.length - _ = 0 by omega] at h
    simp only [List.getElem?_cons_zero, Option.some.injEq] at h
    rw [← h]

/-- All of the text is delivered. -/
theorem C21_runs_cover_text (isSpace : Int → Bool) (text : List Int) :
    ((wordRuns isSpace text).map (·.runes)).flatten = text := by
  unfold wordRuns
  rw [List.map_map]
  have := List.flatten_splitBy (fun a c => isSpace a == isSpace c) text
  simpa [Function.comp_def] using this

/-- A used segmenter and breaker: after a first text has been segmented to its end, by any
calls, a second text is segmented into its runs just the same. -/
theorem C21_reuse (isSpace : Int → Bool) (hz : isSpace 0 = false) (src src' : List (Int × Nat)) (cs : List SegCall) (s : Seg SWB)
    (h : ((Seg.new [SWB.new]).initReader src none).after (SWB.breaker isSpace) cs = some s) (hE : s.atEOF = true)
    (ht : ∀ x ∈ src, x.1 ≠ 0) (ht' : ∀ x ∈ src', x.1 ≠ 0) (hlen : src'.length < 4096) (n : Nat) (hn : src'.length + 1 < n) :
    (s.initReader src' none).collect (SWB.breaker isSpace) n = some (wordRuns isSpace (src'.map (·.1)), true) := by
  have hr0 : Reachable (SWB.breaker isSpace) ((Seg.new [SWB.new]).initReader src none) := Reachable.reader _ _ (Reachable.new _)
  have hr := after_reachable _ cs hr0 h
  have hmem : ∀ (l : List (Int × Nat)), (∀ x ∈ l, x.1 ≠ 0) → ∀ x ∈ l.map (·.1), x ≠ 0 := by
    intro l hl x hx
    obtain ⟨y, hy, rfl⟩ := List.mem_map.mp hx
    exact hl y hy
  have hbrk : s.brk = [(SWB.breaker isSpace).run SWB.new (src.map (·.1) ++ [0])] :=
    exhausted_brk _ (Reachable.new [SWB.new]) src cs h hE
  have hidle := SWB.run_idle isSpace hz SWB.new_idle (src.map (·.1)) (hmem _ ht)
  have hz0 : s.zero0 = false ∧ 4096 ≤ s.room := by
    obtain ⟨w, f, b1, b2, b3, b4, b5, b6, b7, b8, b9, b10⟩ := initReader_facts (SWB.breaker isSpace) (reachable_inv (SWB.breaker isSpace) (Reachable.new [SWB.new])) src none
    obtain ⟨k1, _, k3⟩ := kept _ cs _ s w ⟨b1, fun _ _ => b3, fun _ => w, fun h => by rw [w.ready] at h; cases h⟩ h
    exact ⟨k1, by rw [k3, b4]; decide⟩
  have := C02_cuts_exactly_at_feasible_positions _ hr src' n (by rw [hbrk]; exact SWB.honest isSpace hz hidle _ (hmem _ ht')) (by omega) hn
  rw [this, hbrk, hz0.1, segments_are_runs isSpace hz hidle _ _ (hmem _ ht')]

/-- The hypotheses of C21 can be met: "ab  c". -/
example : wordRuns (· == 32) [97, 98, 32, 32, 99] =
    [⟨[97, 98], (100, 0)⟩, ⟨[32, 32], (-100, 0)⟩, ⟨[99], (100, 0)⟩] := by decide +kernel

example : ((Seg.new [SWB.new]).initReader [(97, 1), (98, 1), (32, 1), (32, 1), (99, 1)] none).collect spaceB 7 =
    some ([⟨[97, 98], (100, 0)⟩, ⟨[32, 32], (-100, 0)⟩, ⟨[99], (100, 0)⟩], true) := by decide +kernel

/-- A NUL rune in the text is taken for the end-of-text mark by the breaker: the text after it
is not split any more the way C21 says. -/
theorem C21_needs_nul_free :
    ((Seg.new [SWB.new]).initReader [(97, 1), (0, 1), (97, 1)] none).collect spaceB 5 ≠
      some (wordRuns (· == 32) [97, 0, 97], true) := by decide +kernel

/-! ### C09 -/

/-- Whatever the length of the text: `Runes()` are the runes of each segment cut off at the
size of the output buffer, and `Err()` stays as it was. -/
theorem C09_truncated_silently {β : Type} (B : Breaker β) {s : Seg β} (hr : Reachable B s) (src : List (Int × Nat)) (n : Nat)
    (hh : Honest (verdicts B s.brk (src.map (·.1) ++ [0]))) (hn : src.length + 1 < n) :
    (s.initReader src none).collect B n =
      some ((segmentsOf (places B s.brk s.zero0 s.zero1 (src.map (·.1)))).map fun seg => ⟨seg.runes.take s.room, seg.pens⟩, true) ∧
    ∀ m s', (s.initReader src none).after B (List.replicate m .next) = some s' → s'.errValue = s.errValue := by
  refine ⟨collect_reader B hr src n hh hn, fun m s' h => ?_⟩
  have he : (s.initReader src none).srcEnd = none ∧ (s.initReader src none).err = s.err := by
    unfold initReader init; split <;> exact ⟨rfl, rfl⟩
  have := nexts_noerr B m _ s' he.1 h
  unfold errValue
  rw [this, he.2]

theorem splitBy_replicate {α : Type} (R : α → α → Bool) (a : α) (k : Nat) (h : R a a = true) :
    (List.replicate (k + 1) a).splitBy R = [List.replicate (k + 1) a] := by
  rw [List.splitBy_eq_iff]
  refine ⟨by simp, by simp, ?_, by simp⟩
  intro l hl
  rw [List.mem_singleton] at hl
  rw [hl]
  clear hl
  induction k with
  | zero => simp
  | succ k ih =>
    rw [List.replicate_succ, List.replicate_succ, List.isChain_cons_cons, ← List.replicate_succ]
    exact ⟨h, ih⟩

/-- The contract is violated: a new segmenter with the default breaker cuts off a word of 4097
letters, and `Err()` is nil after each of the calls. -/
theorem C09_violated (isSpace : Int → Bool) (hz : isSpace 0 = false) (ha : isSpace 97 = false) :
    ((Seg.new [SWB.new]).initReader (List.replicate 4097 (97, 1)) none).collect (SWB.breaker isSpace) 4099 =
      some ([⟨List.replicate 4096 97, (100, 0)⟩], true) ∧
    ∀ m s', ((Seg.new [SWB.new]).initReader (List.replicate 4097 (97, 1)) none).after (SWB.breaker isSpace)
      (List.replicate m .next) = some s' → s'.errValue = none := by
  have ht : ∀ x ∈ List.replicate 4097 (97 : Int), x ≠ 0 := by
    intro x hx; rw [(List.mem_replicate.mp hx).2]; decide
  have e1 : (List.replicate 4097 ((97 : Int), 1)).map (·.1) = List.replicate 4097 97 := by rw [List.map_replicate]
  obtain ⟨h1, h2⟩ := C09_truncated_silently (SWB.breaker isSpace) (Reachable.new [SWB.new]) (List.replicate 4097 (97, 1)) 4099
    (by rw [e1]; exact SWB.honest isSpace hz SWB.new_idle _ ht) (by rw [List.length_replicate]; decide)
  refine ⟨?_, h2⟩
  rw [h1, e1]
  have hs := segments_are_runs isSpace hz SWB.new_idle false _ ht
  have : segmentsOf (places (SWB.breaker isSpace) (Seg.new [SWB.new]).brk (Seg.new [SWB.new]).zero0 (Seg.new [SWB.new]).zero1 (List.replicate 4097 97)) =
      [⟨List.replicate 4097 97, (100, 0)⟩] := by
    refine Eq.trans hs ?_
    unfold wordRuns
    have e2 := splitBy_replicate (fun a c => isSpace a == isSpace c) (97 : Int) 4096 (by simp)
    rw [e2]
    have e3 : (List.replicate 4097 (97 : Int)).all isSpace = false := by
      rw [List.replicate_succ, List.all_cons, ha, Bool.false_and]
    rw [List.map_cons, List.map_nil, e3]
    rfl
  rw [this]
  have e4 : (Seg.new [SWB.new]).room = 4096 := rfl
  rw [List.map_cons, List.map_nil, e4, List.take_replicate]
  rfl

/-- What holds: if the text is not longer than the output buffer, segments are complete. -/
theorem C09_short_segments_complete_partial {β : Type} (B : Breaker β) {s : Seg β} (hr : Reachable B s) (src : List (Int × Nat)) (n : Nat)
    (hh : Honest (verdicts B s.brk (src.map (·.1) ++ [0]))) (hn : src.length + 1 < n)
    (hroom : ∀ seg ∈ segmentsOf (places B s.brk s.zero0 s.zero1 (src.map (·.1))), seg.runes.length ≤ s.room) :
    (s.initReader src none).collect B n = some (segmentsOf (places B s.brk s.zero0 s.zero1 (src.map (·.1))), true) := by
  rw [(C09_truncated_silently B hr src n hh hn).1]
  congr 2
  conv => rhs; rw [← List.map_id (segmentsOf _)]
  apply List.map_congr_left
  intro seg hseg
  rw [List.take_of_length_le (hroom seg hseg)]
  rfl

end Uax
