import Verif.BidiNestSeq

/-
The directions of the text in nested isolates.
-/
namespace Uax.Bidi

open Spec

/-- Isolates in others meet the conditions for isolates outside, too. -/
theorem good_outside {T : Tables} {o : Options} : ∀ (is : Isolates) (nested : Bool), is.Good T o nested → is.Good T o false := by
  intro is
  induction is with
  | none => intros; trivial
  | more op lead inner cl aft rest _ ih =>
    intro nested h
    obtain ⟨h1, h2, h3, h4, h5, h6, h7, h8, h9, h10⟩ := h
    exact ⟨h1, h2, h3, fun e => ⟨rfl, (h4 e).2⟩, h5, h6, h7, h8, h9, ih nested h10⟩

theorem clear_shift {T : Tables} {o : Options} {e : Class} {D : List Class} (l : List Class) : ∀ (is : Isolates) (pos : Nat) (seg : List Class),
    Clear T o e D pos seg is → Clear T o e (l ++ D) (l.length + pos) seg is := by
  intro is
  induction is with
  | none => intros; trivial
  | more op lead inner cl aft rest _ ih =>
    intro pos seg h
    refine ⟨fun hs => ?_, ?_⟩
    · rw [List.getElem?_append_right (by omega), Nat.add_sub_cancel_left]
      exact h.1 hs
    · rw [Nat.add_assoc]
      exact ih _ _ h.2

theorem ownSequence_classes (T : Tables) (o : Options) (pos : Nat) (op : Char) (lead : List Char) (is : Isolates) :
    classes T o ((ownSequence pos op lead is).map (·.1)) = classes T o lead ++ seqClasses T o is := by
  rw [ownSequence, List.map_append, charsAt_chars, classes_append, sequence_classes]

/-- Where the characters of the sequence are. -/
theorem ownSequence_get {pos : Nat} {op : Char} {lead : List Char} {is : Isolates} {i : Nat} {c : Char} {q : Nat} (h : (ownSequence pos op lead is)[i]? = some (c, q)) :
    (∃ w, (widthsOf lead ++ seqWidths is)[i]? = some w ∧ (utf8 [c]).length ≤ w) ∧ q = pos + (utf8 [op]).length + ((widthsOf lead ++ seqWidths is).take i).sum := by
  rw [ownSequence] at h
  by_cases hi : i < (widthsOf lead).length
  · rw [List.getElem?_append_left (by rw [charsAt_length]; exact hi)] at h
    obtain ⟨h1, h2⟩ := charsAt_get _ _ _ _ _ h
    rw [List.getElem?_append_left hi, List.take_append_of_le_length (by omega)]
    exact ⟨⟨_, h1, Nat.le_refl _⟩, h2⟩
  · rw [List.getElem?_append_right (by rw [charsAt_length]; omega), charsAt_length] at h
    obtain ⟨h1, h2⟩ := sequence_get _ _ _ _ _ h
    rw [List.getElem?_append_right (by omega), List.take_append, List.take_of_length_le (by omega), List.sum_append, widthsOf_sum]
    refine ⟨h1, ?_⟩
    rw [h2, utf8_len op]
    omega

theorem ownBytes_widen (T : Tables) (o : Options) (lead : List Char) (is : Isolates) :
    ownBytes T o lead is = widen (widthsOf lead ++ seqWidths is) (seqStart T o lead is) := by
  rw [ownBytes, seqStart, widen_append _ _ _ _ (by rw [scanned_length, widthsOf, classes, List.length_map, List.length_map]), spread_widen, outBytes_widen]

/-- The classes of the bytes of an isolate are those which the rules give to its sequence. -/
theorem raw_own {T : Tables} {o : Options} {op : Char} {lead : List Char} {inner : Isolates} {pos : Nat} {e : Class} (he : e = isoDir (charClass T o op))
    (hop : charClass T o op = cLRI ∨ charClass T o op = cRLI)
    (hnum : NumbersLTR e (classes T o (lead ++ inner.outer)))
    (hq : inner ≠ .none → QuietText (classes T o (lead ++ inner.outer))) (hg : inner.Good T o false)
    (hs : SimpleClasses (classes T o (lead ++ inner.outer))) (hh : (classes T o lead).head? ≠ some cNSM) (hL : inner ≠ .none → e = cL)
    (hset : InitiatorsSettled e (classes T o lead ++ seqClasses T o inner)) :
    (∀ x ∈ ownBytes T o lead inner, x ∈ [cL, cR, cNI, cEN]) ∧ (inner ≠ .none → charClass T o op = cLRI) ∧
    n12 e e ((ownBytes T o lead inner).map settle) = widen (widthsOf lead ++ seqWidths inner) (resolved e (classes T o lead ++ seqClasses T o inner)) ∧
    (resolved e (classes T o lead ++ seqClasses T o inner)).length = (widthsOf lead ++ seqWidths inner).length ∧
    Clear T o e (List.replicate (pos + (utf8 [op]).length) e ++ n12 e e ((ownBytes T o lead inner).map settle)) (pos + (utf8 (op :: lead)).length)
      (scanned cNULL (classes T o lead)) inner := by
  have hee : e = cL ∨ e = cR := by rw [he]; unfold isoDir; split <;> simp
  have hs2 : SimpleClasses (classes T o lead) ∧ SimpleClasses (classes T o inner.outer) := by
    rw [classes_append] at hs
    exact ⟨fun c hc => hs c (List.mem_append_left _ hc), fun c hc => hs c (List.mem_append_right _ hc)⟩
  have hnum' : NumbersLTR e ((classes T o lead ++ seqClasses T o inner).map plainIso) := by
    rw [List.map_append, plain_after (simple_noIsolates hs2.1)]
    by_cases hn : inner = .none
    · subst hn
      have : classes T o (lead ++ Isolates.none.outer) = classes T o lead := by simp [Isolates.outer]
      rw [this] at hnum
      simpa [seqClasses] using hnum
    · rw [hL hn]
      refine quiet_numbers (seq_quiet inner _ hg (simple_noIsolates hs2.2) ?_)
      rw [← classes_append]; exact hq hn
  obtain ⟨r1, r2, r3⟩ := seq_resolved_at hee hg hs hnum' hh
  have hn12 : n12 e e ((ownBytes T o lead inner).map settle) = widen (widthsOf lead ++ seqWidths inner) (resolved e (classes T o lead ++ seqClasses T o inner)) := by
    rw [ownBytes_widen, widen_map, widen_n12 e _ _ _ (by rw [List.length_map]; exact seq_lengths T o lead inner) (seq_widths_pos lead inner), r2]
  have hlen : (resolved e (classes T o lead ++ seqClasses T o inner)).length = (seqStart T o lead inner).length := by
    rw [r2, n12_length, List.length_map]
  refine ⟨?_, ?_, hn12, by rw [hlen, seq_lengths T o], ?_⟩
  · intro x hx
    rw [ownBytes_widen] at hx
    exact r3 _ (mem_widen _ _ _ hx)
  · intro hn
    have := hL hn
    rw [he] at this
    rcases hop with h | h
    · exact h
    · rw [h] at this; exact absurd this (by decide)
  · by_cases hn : inner = .none
    · subst hn; trivial
    · have hc := hL hn
      rw [hc] at hset hn12 hlen ⊢
      have hRlen : (resolved cL (classes T o lead ++ seqClasses T o inner)).length = (classes T o lead ++ seqClasses T o inner).length := by
        rw [hlen, seqStart, List.length_append, List.length_append, scanned_length, seqClasses_length]
      have := seq_clear inner (classes T o lead) (widthsOf lead) (scanned cNULL (classes T o lead)) hg hs2.2 (by simp [classes, widthsOf]) hRlen hset (by
        intro hlast
        rw [scanned_head _ cNULL (asScanned cL) hh] at hlast
        exact last_neutral (by decide) (by decide) hs2.1 hlast)
      rw [widthsOf_sum, ← hn12] at this
      have hsh := clear_shift (List.replicate (pos + (utf8 [op]).length) cL) inner _ _ this
      rw [List.length_replicate] at hsh
      rw [utf8_len op lead, ← Nat.add_assoc]
      exact hsh

/-- The directions of the text in isolates. -/
theorem raw_directions {T : Tables} {o : Options} (rl : Levels) : ∀ (is : Isolates) (nested : Bool) (pos : Nat) (runs : List (List Scrap)),
    is.Good T o nested → is.RunsFor T o pos runs → RawFor T o is pos runs → is.DirectionsFor T o rl pos runs := by
  intro is
  induction is with
  | none => intro _ _ runs _ h _; exact h
  | more op lead inner cl aft rest ihin ihrest =>
    intro nested pos runs hg hr hw
    obtain ⟨g1, -, -, -, -, -, g7, g8, g9, g10⟩ := hg
    obtain ⟨run, runs', h1, h2, -, -, -, -, h7, h8⟩ := hr
    obtain ⟨first, mid, last, runs2, w1, w2, w3, w4, w5⟩ := hw
    rw [h1, List.cons.injEq] at w1
    obtain ⟨rfl, rfl⟩ := w1
    refine ⟨_, runs', h1, ?_, ihin true _ _ g9 h7 w4, ihrest nested _ _ g10 h8 w5⟩
    intro e he hs hh hL hset i c q hi k hk
    have he' : e = isoDir (charClass T o op) := he
    rw [ownSequence_classes] at hset ⊢
    obtain ⟨k1, k2, k3, k4, k5⟩ := raw_own (pos := pos) he' g1 (by rw [he]; exact g7) (fun hn pre post e => (g8 hn pre post e).2) (good_outside _ _ g9) hs hh hL hset
    rw [← he'] at w3
    obtain ⟨m1, m2⟩ := w3 hh k1 k2 k5
    obtain ⟨⟨w, hw, hcw⟩, hpos⟩ := ownSequence_get hi
    have hget := widen_get _ _ i w k k4.symm hw (by omega)
    rw [← k3, ← m2] at hget
    obtain ⟨hil, -⟩ := List.getElem?_eq_some_iff.mp hw
    -- the scraps between initiator and PDI
    obtain ⟨-, h2⟩ := h2
    obtain ⟨m, t1, -⟩ := tiles_append.mp h2
    have hb := bytes_tiles mid _ _ t1 (fun s hs => Nat.le_of_lt (m1 s hs).2)
    have hlt : q + k < m := by
      rw [List.getElem?_eq_getElem (i := i) (by omega)] at hget
      obtain ⟨hh, -⟩ := List.getElem?_eq_some_iff.mp hget
      omega
    obtain ⟨s, s1, s2⟩ := find_bytes mid first.r m (q + k) t1 (fun s hs => (m1 s hs).2) (by omega) hlt
    have hd : ({ rl with scraps := first :: (mid ++ [last]) } : Levels).directionAt (q + k) = directionOf s .ltr := by
      unfold Levels.directionAt
      dsimp only
      rw [List.find?_cons_of_neg, List.find?_append, s1]
      · rfl
      · have : ¬ (q + k < first.r) := by omega
        simp [this]
    rw [hd]
    have e2 : q + k - first.r = ((widthsOf lead ++ seqWidths inner).take i).sum + k := by omega
    rw [e2, hget] at s2
    unfold directions
    rw [List.getElem?_map, s2, Option.map_some, Option.some.injEq]
    have hee : e = cL ∨ e = cR := by rw [he]; split <;> simp
    rcases (m1 s (List.mem_of_find?_eq_some s1)).1 with h | h <;> rcases hee with h' | h' <;> unfold directionOf Spec.level <;> rw [h, h'] <;> rfl

/-- The directions of the text in isolates, after resolution. -/
theorem resolve_inside {T : Tables} {o : Options} (hT : KnownClasses T) (ho : o.markup = none) (sched : Nat → Nat)
    {t lead : List Char} {is : Isolates} (ht : firstParagraph T o t = lead ++ is.chars) (h : NestedIsolates T o lead is)
    (h3 : cAN ∉ classes T o (firstParagraph T o t)) (h4 : (classes T o (firstParagraph T o t)).head? ≠ some cNSM) :
    ∃ N p, resolveParagraph T o sched (utf8 t) N = .returns (levelsOf o p.stack, p) ∧
      ∀ rl, is.DirectionsFor T o rl (utf8 lead).length (nestedRuns p.stack) := by
  obtain ⟨N, p, e1, -, e3, -, -, -, e7⟩ := resolve_nested_raw hT ho sched True ht h (fun _ => ⟨h3, h4⟩)
  exact ⟨N, p, e1, fun rl => raw_directions rl is false _ _ h.good (e3 trivial).2.1 (e7 trivial)⟩

end Uax.Bidi
