import Verif.BidiReturns
import Verif.BidiNestSame
import Verif.Props.BidiIsolates

/-! Properties C41, C42, C48, C50 and C51 for texts with isolates within isolates, to any depth.

A text is given by the text `lead` before the first isolate and the isolates `is`; each of them
contains text and, after it, further isolates. `is.chars` are all their characters, `is.outer`
those outside of them. `NestedIsolates` are the conditions (SpecNested.lean). Tables and options
(without markup), the depth of nesting, the text outside of the isolates (which may have
brackets), and the schedule are arbitrary. -/

namespace Uax
open Bidi Spec

/-- The conditions on isolates can be computed. -/
theorem good_more {T : Tables} {o : Options} {op : Char} {lead : List Char} {inner : Isolates} {cl : Char} {after : List Char} {rest : Isolates} {nested : Bool}
    (h1 : (charClass T o op = cLRI ∨ charClass T o op = cRLI) ∧ charClass T o cl = cPDI) (h2 : lead ≠ []) (h3 : after ≠ [] ∨ nested = false ∧ rest = .none)
    (h4 : (∀ c ∈ classes T o (lead ++ inner.outer), c ∉ [cLRI, cRLI, cFSI, cPDI]) ∧
      cBRACKO ∉ classes T o (lead ++ inner.outer) ∧ cBRACKC ∉ classes T o (lead ++ inner.outer))
    (h5 : ∀ k, k < (lead ++ inner.outer).length → (classes T o (lead ++ inner.outer))[k]? = some cEN →
      charClass T o op = cLRI ∧ cR ∉ (classes T o (lead ++ inner.outer)).take k ∧ cAL ∉ (classes T o (lead ++ inner.outer)).take k)
    (h6 : inner.Good T o true) (h7 : rest.Good T o nested) : (Isolates.more op lead inner cl after rest).Good T o nested := by
  have key : ∀ pre post, classes T o (lead ++ inner.outer) = pre ++ cEN :: post → charClass T o op = cLRI ∧ cR ∉ pre ∧ cAL ∉ pre := by
    intro pre post e
    have := h5 pre.length (by
      have := congrArg List.length e
      rw [classes, List.length_map] at this
      rw [this]; simp) (by rw [e]; simp)
    rwa [e, List.take_left] at this
  refine ⟨h1.1, h1.2, h2, fun e => h3.resolve_left (fun h => h e), h4.1, h4.2, ?_, fun _ => key, h6, h7⟩
  intro pre post e
  obtain ⟨k1, k2, k3⟩ := key pre post e
  rw [if_pos k1]
  exact quiet_numbers (cs := pre ++ cEN :: post) (by
    intro p q e'
    rw [← e] at e'
    exact (key p q e').2) pre post rfl

/-- Isolates of depth three: "a (1) >b 2<Cd>e3=f=g=h >i=!", with brackets and numbers. -/
def nestedLead : List Char := "a (1) ".toList
def nestedList : Isolates :=
  .more '>' "b 2".toList (.more '<' "Cd".toList (.more '>' "e3".toList .none '=' "f".toList .none) '=' "g".toList .none) '=' "h ".toList
    (.more '>' "i".toList .none '=' "!".toList .none)

theorem nested_good : NestedIsolates sample { testing := true } nestedLead nestedList where
  good := good_more (by decide +kernel) (by decide) (Or.inl (by decide)) (by decide +kernel) (by decide +kernel)
    (good_more (by decide +kernel) (by decide) (Or.inl (by decide)) (by decide +kernel) (by decide +kernel)
      (good_more (by decide +kernel) (by decide) (Or.inl (by decide)) (by decide +kernel) (by decide +kernel) trivial trivial) trivial)
    (good_more (by decide +kernel) (by decide) (Or.inl (by decide)) (by decide +kernel) (by decide +kernel) trivial trivial)
  outer := by
    have : ∀ c ∈ classes sample { testing := true } (nestedLead ++ nestedList.outer), c ∉ [cLRI, cRLI, cFSI, cPDI] := by decide +kernel
    exact this
  numbersOutside pre post e := by
    have h : ∀ k, k < (nestedLead ++ nestedList.outer).length → (classes sample { testing := true } (nestedLead ++ nestedList.outer))[k]? = some cEN →
      cR ∉ (classes sample { testing := true } (nestedLead ++ nestedList.outer)).take k ∧
      cAL ∉ (classes sample { testing := true } (nestedLead ++ nestedList.outer)).take k := by decide +kernel
    have := h pre.length (by
      have := congrArg List.length e
      rw [classes, List.length_map] at this
      rw [this]; simp) (by rw [e]; simp)
    rwa [e, List.take_left] at this
  numbers pre post e := by
    have h : cAL ∉ classes sample { testing := true } (nestedLead ++ nestedList.chars) := by decide +kernel
    rw [e] at h
    exact fun hm => h (List.mem_append_left _ hm)

theorem nested_paragraph : firstParagraph sample { testing := true } (nestedLead ++ nestedList.chars) = nestedLead ++ nestedList.chars ∧ nestedList.depth = 3 := by
  decide +kernel

/-! ### C41 Resolution ends -/

/-- Resolution ends, without a panic, for every text with such isolates, nested to any depth, and
for every schedule. Missing: other isolates, other numbers (see `C41_violated`, `C41_isolate_violated`). -/
theorem C41_nested_partial (T : Tables) (o : Options) (sched : Nat → Nat) (t lead : List Char) (is : Isolates) (hT : KnownClasses T)
    (ho : o.markup = none) (ht : firstParagraph T o t = lead ++ is.chars) (h : NestedIsolates T o lead is) :
    ∃ rl, Resolves T o sched (utf8 t) rl := by
  obtain ⟨N, p, e, -⟩ := resolve_nested hT ho sched False ht h (fun h => h.elim)
  exact ⟨_, resolves_of e⟩

example : ∃ t, firstParagraph sample { testing := true } t = nestedLead ++ nestedList.chars ∧ NestedIsolates sample { testing := true } nestedLead nestedList ∧
    cBRACKO ∈ classes sample { testing := true } t ∧ cEN ∈ classes sample { testing := true } t :=
  ⟨_, nested_paragraph.1, nested_good, by decide +kernel, by decide +kernel⟩

/-! ### C50 The result does not depend on the schedule -/

/-- All schedules lead to the same result for every text with such isolates, and with any brackets
outside of them. Missing: other texts with both isolates and brackets (see `C50_violated`). -/
theorem C50_nested_partial (T : Tables) (o : Options) (s1 s2 : Nat → Nat) (t lead : List Char) (is : Isolates) (hT : KnownClasses T)
    (ho : o.markup = none) (ht : firstParagraph T o t = lead ++ is.chars) (h : NestedIsolates T o lead is) :
    (∃ rl, Resolves T o s1 (utf8 t) rl) ∧ ∀ rl, Resolves T o s1 (utf8 t) rl ↔ Resolves T o s2 (utf8 t) rl := by
  obtain ⟨M, e⟩ := resolve_nested_same hT ho s1 s2 ht h
  refine ⟨C41_nested_partial T o s1 t lead is hT ho ht h, fun rl => ⟨?_, ?_⟩⟩
  · rintro ⟨N, hN⟩
    obtain ⟨p, hp⟩ := hN (max M N) (Nat.le_max_right _ _)
    rw [e _ (Nat.le_max_left _ _)] at hp
    exact resolves_of hp
  · rintro ⟨N, hN⟩
    obtain ⟨p, hp⟩ := hN (max M N) (Nat.le_max_right _ _)
    rw [← e _ (Nat.le_max_left _ _)] at hp
    exact resolves_of hp

example : ∃ t, firstParagraph sample { testing := true } t = nestedLead ++ nestedList.chars ∧ NestedIsolates sample { testing := true } nestedLead nestedList ∧
    cBRACKO ∈ classes sample { testing := true } t ∧ cBRACKC ∈ classes sample { testing := true } t :=
  ⟨_, nested_paragraph.1, nested_good, by decide +kernel, by decide +kernel⟩

/-! ### C42 Resolved scraps tile the paragraph -/

/-- The property does not hold, if a nested isolate is not followed by text: in ">>a==" the
letter belongs to two scraps, and so do the ends of the isolates. -/
theorem C42_nested_violated : ∃ (T : Tables) (o : Options) (t : List Char) (sched : Nat → Nat) (rl : Levels), KnownClasses T ∧ o.markup = none ∧
    Resolves T o sched (utf8 t) rl ∧
    brief rl.scraps = [(cLRI, 0, 0), (cL, 0, 4), (cPDI, 4, 5), (cL, 2, 3), (cPDI, 3, 4), (cPDI, 4, 5), (cPDI, 5, 5)] ∧
    classes T o t = [cLRI, cLRI, cL, cPDI, cPDI] := by
  obtain ⟨rl, a1, a2⟩ := resolvedWith_iff (T := sample) (o := { testing := true }) (sched := fun _ => 0) (b := utf8 ">>a==".toList) (n := 99)
    (f := fun rl => brief rl.scraps == [(cLRI, 0, 0), (cL, 0, 4), (cPDI, 4, 5), (cL, 2, 3), (cPDI, 3, 4), (cPDI, 4, 5), (cPDI, 5, 5)]) (by decide +kernel)
  exact ⟨sample, { testing := true }, ">>a==".toList, _, rl, sample_known, rfl, a1, eq_of_beq a2, by decide +kernel⟩

/-- The property does not hold, if a nonspacing mark is the first character of an isolate with FSI:
the mark is taken for a second initiator, and the PDI belongs to two scraps. -/
theorem C42_fsi_violated : ∃ (T : Tables) (o : Options) (t : List Char) (sched : Nat → Nat) (rl : Levels), KnownClasses T ∧ o.markup = none ∧
    Resolves T o sched (utf8 t) rl ∧
    brief rl.scraps = [(cLRI, 0, 0), (cL, 0, 7), (cPDI, 7, 8), (cL, 8, 9), (cPDI, 9, 9)] ∧
    nestedRuns rl.scraps ≠ [] ∧ (∀ run ∈ nestedRuns rl.scraps, brief run = [(cFSI, 1, 4), (cL, 4, 7), (cPDI, 7, 8)]) ∧
    classes T o t = [cL, cFSI, cNSM, cL, cPDI, cL] := by
  obtain ⟨rl, a1, a2⟩ := resolvedWith_iff (T := sample) (o := { testing := true }) (sched := fun _ => 0) (b := utf8 ['a', Char.ofNat 0x2068, Char.ofNat 0x301, 'b', '=', 'c']) (n := 99)
    (f := fun rl => brief rl.scraps == [(cLRI, 0, 0), (cL, 0, 7), (cPDI, 7, 8), (cL, 8, 9), (cPDI, 9, 9)] &&
      ((nestedRuns rl.scraps).map brief == [[(cFSI, 1, 4), (cL, 4, 7), (cPDI, 7, 8)]])) (by decide +kernel)
  rw [Bool.and_eq_true] at a2
  have e := eq_of_beq a2.2
  refine ⟨sample, { testing := true }, ['a', Char.ofNat 0x2068, Char.ofNat 0x301, 'b', '=', 'c'], _, rl, sample_known, rfl, a1, eq_of_beq a2.1, ?_, ?_, by decide +kernel⟩
  · intro h; rw [h] at e; cases e
  · intro run hr
    have := List.mem_map_of_mem (f := brief) hr
    rw [e] at this
    exact List.mem_singleton.mp this

/-- For every text with such isolates, without Arabic numbers and not beginning with a nonspacing
mark, the scraps of the result follow each other without gaps from the beginning of the text to
the end of the (first) paragraph. There is one nested run for each isolate, in their order; it
covers the isolate from its initiator to its PDI without gaps and lies within its scrap, and it
has in turn the runs of the isolates in this isolate, to any depth. It begins with a scrap for the
initiator and ends with one for the PDI; nothing between them is left neutral, and no neighbours
are both L or both R.
Missing: other texts (see `C42_violated`, `C42_isolate_violated`, `C42_nested_violated`). -/
theorem C42_nested_partial (T : Tables) (o : Options) (sched : Nat → Nat) (t lead : List Char) (is : Isolates) (rl : Levels)
    (hT : KnownClasses T) (ho : o.markup = none) (ht : firstParagraph T o t = lead ++ is.chars) (h : NestedIsolates T o lead is)
    (h3 : cAN ∉ classes T o (firstParagraph T o t)) (h4 : (classes T o (firstParagraph T o t)).head? ≠ some cNSM)
    (hr : Resolves T o sched (utf8 t) rl) :
    Tiles 0 (utf8 (firstParagraph T o t)).length rl.scraps ∧
    (∀ s ∈ rl.scraps, s.l < s.r ∨ s.clz ∈ [cLRI, cRLI, cFSI, cPDI]) ∧
    is.RunsFor T o (utf8 lead).length (nestedRuns rl.scraps) ∧
    (∀ s ∈ rl.scraps, Within s) ∧ Maximal rl.scraps := by
  obtain ⟨N, p, e1, -, e3, g3, -, gu⟩ := resolve_nested_unlike hT ho sched True ht h (fun _ => ⟨h3, h4⟩)
  obtain ⟨ht, hn, hw⟩ := e3 trivial
  have := (resolves_of e1).unique hr
  subst this
  obtain ⟨ys, last, hp⟩ : ∃ ys last, p.stack = ys ++ [last] := ⟨_, _, (List.dropLast_concat_getLast g3).symm⟩
  rw [hp] at ht hn hw gu
  obtain ⟨m, t1, t2, t3⟩ := tiles_append.mp ht
  unfold levelsOf
  dsimp only
  rw [hp]
  simp only [List.getLast?_append, List.getLast?_singleton, Option.some_or, Option.getD_some]
  refine ⟨tiles_append.mpr ⟨_, tiles_append.mpr ⟨m, t1, t2, rfl⟩, rfl, t3⟩, ?_, ?_, ?_, ?_⟩
  · intro s hs
    rw [List.mem_append, List.mem_singleton] at hs
    rcases hs with hs | rfl
    · rcases (hw s hs).2.2.2.2 trivial with ⟨-, ⟨hi, -⟩ | hi⟩
      · right
        simpa [isIsolate, or_assoc] using hi
      · exact Or.inl hi
    · right
      simp
  · have : nestedRuns (ys ++ [last] ++ [{ clz := cPDI, l := last.r, r := last.r }]) = nestedRuns (ys ++ [last]) := by simp [nestedRuns]
    rw [this]
    exact hn
  · intro s hs
    rw [List.mem_append, List.mem_singleton] at hs
    rcases hs with hs | rfl
    · exact (hw s hs).1
    · intro run hr
      cases hr
  · intro pre x y post e hd
    have hl := differ_pdi (unlike_left gu) last.r
    rw [e] at hl
    exact (linked_append.mp hl).2.1.1 hd

example : cAN ∉ classes sample { testing := true } (nestedLead ++ nestedList.chars) ∧
    (classes sample { testing := true } (nestedLead ++ nestedList.chars)).head? ≠ some cNSM := by
  refine ⟨by decide +kernel, by decide +kernel⟩

/-! ### C48 Reorder returns -/

/-- For every text with such isolates, without Arabic numbers and not beginning with a nonspacing
mark, `Reorder` panics exactly when the paragraph begins with an LRI; otherwise it returns.
Missing: other texts (see `C48_fsi_violated`), and that it returns the same again (`C48_again_violated`). -/
theorem C48_nested_partial (T : Tables) (o : Options) (sched : Nat → Nat) (t lead : List Char) (is : Isolates) (rl : Levels)
    (hT : KnownClasses T) (ho : o.markup = none) (ht : firstParagraph T o t = lead ++ is.chars) (h : NestedIsolates T o lead is)
    (h3 : cAN ∉ classes T o (firstParagraph T o t)) (h4 : (classes T o (firstParagraph T o t)).head? ≠ some cNSM)
    (hr : Resolves T o sched (utf8 t) rl) :
    rl.reorder = none ↔ (classes T o (firstParagraph T o t)).head? = some cLRI := by
  obtain ⟨N, p, e1, -, e3, g3, g4, gu⟩ := resolve_nested_unlike hT ho sched True ht h (fun _ => ⟨h3, h4⟩)
  have := (resolves_of e1).unique hr
  subst this
  obtain ⟨k1, -, k3, k4, -⟩ := C42_nested_partial T o sched t lead is _ hT ho ht h h3 h4 hr
  obtain ⟨-, -, hw⟩ := e3 trivial
  obtain ⟨ys, last, hp⟩ : ∃ ys last, p.stack = ys ++ [last] := ⟨_, _, (List.dropLast_concat_getLast g3).symm⟩
  have hsc : (levelsOf o p.stack).scraps = p.stack ++ [{ clz := cPDI, l := last.r, r := last.r }] := by
    unfold levelsOf
    rw [hp]
    simp
  have hcl : ∀ s ∈ (levelsOf o p.stack).scraps, s.clz ≠ cNULL ∧ s.clz ≠ cEN ∧ s.clz ≠ cAN := by
    rw [hsc]
    intro s hs
    rw [List.mem_append, List.mem_singleton] at hs
    rcases hs with hs | rfl
    · refine ⟨fun e => ?_, g4 s hs, ((hw s hs).2.2.2.2 trivial).1⟩
      have := (hw s hs).2.1
      rw [e] at this
      exact absurd this (by decide)
    · show cPDI ≠ cNULL ∧ cPDI ≠ cEN ∧ cPDI ≠ cAN
      decide
  have hd : Linked Differ (levelsOf o p.stack).scraps := by
    rw [hsc]
    exact differ_pdi (unlike_left gu) last.r
  have hin := sane_runs is false _ _ h.good k3
  have hs : Sane (levelsOf o p.stack).scraps :=
    ⟨_, fun s hs ch hc => (hin ch (List.mem_flatMap.mpr ⟨s, hs, hc⟩)).1, fun s hs ch hc => (hin ch (List.mem_flatMap.mpr ⟨s, hs, hc⟩)).2⟩
  have hf := first_run k3
  have hle : ∀ s ∈ (levelsOf o p.stack).scraps, s.l ≤ s.r := by
    rw [hsc]
    intro s hs
    rw [List.mem_append, List.mem_singleton] at hs
    rcases hs with hs | rfl
    · rcases ((hw s hs).2.2.2.2 trivial).2 with ⟨-, hi⟩ | hi
      · exact hi
      · exact Nat.le_of_lt hi
    · exact Nat.le_refl _
  have hhead : (classes T o (firstParagraph T o t)).head? = some cLRI ↔ lead = [] ∧ is.opening.map (charClass T o) = some cLRI := by
    rw [ht]
    cases lead with
    | cons c lead =>
      refine ⟨fun e => absurd (h.outer cLRI ?_) (by simp), fun e => absurd e.1 (by simp)⟩
      have : charClass T o c = cLRI := by simpa [classes] using e
      rw [← this]
      exact List.mem_map_of_mem (by simp)
    | nil =>
      cases is with
      | none => simp [Isolates.chars, Isolates.opening, classes]
      | more op l i cl a r => simp [Isolates.chars, Isolates.opening, classes]
  rw [hhead]
  constructor
  · intro hn
    refine Classical.byContradiction fun hno => ?_
    have hP : 0 < (utf8 lead).length ∨ (is.opening.map (charClass T o) = some cRLI ∨ is = .none) := by
      cases lead with
      | cons c lead =>
        left
        rw [utf8_len_cons]
        have := token_width c
        omega
      | nil =>
        cases is with
        | none => exact Or.inr (Or.inr rfl)
        | more op l i cl a r =>
          right
          left
          rcases h.good.1 with g | g
          · exact absurd ⟨rfl, by simp [Isolates.opening, g]⟩ hno
          · simp [Isolates.opening, g]
    obtain ⟨runs, e⟩ := reorder_returns hs (led_tiles (pos := (utf8 lead).length) hP _ _ k1 (fun s hs => (hcl s hs).1)
      (fun ch more f e hh => ⟨(hf ch more f e hh).1, fun hP => by
        have := (hf ch more f e hh).2
        rcases hP with hP | hP
        · rw [hP] at this
          exact Option.some.inj this
        · rw [hP] at this
          cases this⟩)) hcl hd
    rw [hn] at e
    cases e
  · rintro ⟨rfl, hop⟩
    refine reorder_panics hs (unled_tiles _ _ k1 (fun s hs => ⟨(hcl s hs).1, hle s hs, k4 s hs⟩) ?_) hcl hd
    cases is with
    | none => cases hop
    | more op l i cl a r =>
      obtain ⟨run, runs', e, r1, -, ⟨first, mid, last', e', -⟩, -⟩ := k3
      refine ⟨run, runs', first, e, by rw [e']; rfl, ?_⟩
      obtain ⟨q1, q2⟩ := hf run runs' first e (by rw [e']; rfl)
      rw [hop] at q2
      exact ⟨q1, Option.some.inj q2⟩

example : (classes sample { testing := true } (nestedLead ++ nestedList.chars)).head? ≠ some cLRI := by decide +kernel

-- The same isolates without the text before them begin with an LRI.
example : (classes sample { testing := true } nestedList.chars).head? = some cLRI ∧ NestedIsolates sample { testing := true } [] nestedList := by
  refine ⟨by decide +kernel, nested_good.good, fun c hc => nested_good.outer c ?_, fun pre post e => ?_, fun pre post e => ?_⟩
  · rw [classes, List.map_append]
    exact List.mem_append_right _ hc
  · have := nested_good.numbersOutside (classes sample { testing := true } nestedLead ++ pre) post (by
      rw [classes, List.map_append, List.append_assoc, ← e]; rfl)
    simp only [List.mem_append, not_or] at this
    exact ⟨this.1.2, this.2.2⟩
  · have := nested_good.numbers (classes sample { testing := true } nestedLead ++ pre) post (by
      rw [classes, List.map_append, List.append_assoc, ← e]; rfl)
    simp only [List.mem_append, not_or] at this
    exact this.2

/-! ### C51 No goroutine is left behind -/

/-- For every text with such isolates the scanner's goroutine has ended when the paragraph has
been resolved, unless the paragraph consists of nonspacing marks only.
Missing: other isolates, other numbers. -/
theorem C51_nested_partial (T : Tables) (o : Options) (sched : Nat → Nat) (t lead : List Char) (is : Isolates) (hT : KnownClasses T)
    (ho : o.markup = none) (ht : firstParagraph T o t = lead ++ is.chars) (h : NestedIsolates T o lead is) :
    ∃ n rl p, resolveParagraph T o sched (utf8 t) n = .returns (rl, p) ∧
      (p.env.1.pc = .closed ↔ ∃ c ∈ classes T o (firstParagraph T o t), c ≠ cNSM) := by
  obtain ⟨N, p, e, he, -⟩ := resolve_nested hT ho sched False ht h (fun h => h.elim)
  refine ⟨N, _, p, e, ?_⟩
  unfold Ended at he
  rw [he]
  by_cases hs : scrapsOf T o (utf8 t) = []
  · rw [if_pos hs]
    have := (scraps_empty hT t).mp hs
    refine ⟨fun h => (by cases h), fun ⟨c, hc, hn⟩ => absurd (this c hc) hn⟩
  · rw [if_neg hs]
    refine ⟨fun _ => ?_, fun _ => rfl⟩
    rw [scraps_empty hT] at hs
    simpa using hs

end Uax
