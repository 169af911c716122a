import Verif.BidiOrderProofs
import Verif.BidiSplitProofs
import Verif.BidiRunsProofs
import Verif.BidiSample

/-! Properties C38, C39, C44, C47, C48 and C49: splitting and reordering of resolved levels. -/

namespace Uax
open Bidi

/-! ### C38 Reordering only permutes -/

/-- reverse(scraps, i, j) reverses exactly the part from i to j. -/
theorem C38_reverse (a b c : List Scrap) : reverse (a ++ b ++ c) a.length (a.length + b.length) = a ++ b.reverse ++ c :=
  reverse_block a b c

/-- Reversing twice changes nothing, for all bounds, also such as are out of range
or exchanged. -/
theorem C38_reverse_twice (scraps : List Scrap) (i j : Nat) : reverse (reverse scraps i j) i j = scraps :=
  reverse_twice scraps i j

example : brief (reverse [{ clz := cL, r := 1 }, { clz := cR, l := 1, r := 2 }, { clz := cEN, l := 2, r := 3 }] 1 9)
    = [(cL, 0, 1), (cEN, 2, 3), (cR, 1, 2)] := by decide +kernel

/-- Reordering permutes: all scraps, nested or not, are there afterwards with their
classes and intervals, nested in the same scraps as before, and no other ones. -/
theorem C38_reorder_permutes (d : Dir) (scraps out : List Scrap) (h : reorder d scraps = some out) :
    (nodes [] out).Perm (nodes [] scraps) := reorder_nodes d scraps out h []

/-- A run with nested ones, for examples: a car, quoted in Hebrew. -/
def nestedSample : List Scrap :=
  [{ clz := cLRI }, { clz := cL, r := 3, children := [[{ clz := cRLI, l := 1, r := 1 }, { clz := cR, l := 1, r := 2 },
    { clz := cEN, l := 2, r := 3 }, { clz := cPDI, l := 3, r := 3 }]] },
    { clz := cR, l := 3, r := 4 }, { clz := cEN, l := 4, r := 5 }, { clz := cPDI, l := 5, r := 5 }]

example : (reorder .ltr nestedSample).map brief
    = some [(cLRI, 0, 0), (cL, 0, 3), (cEN, 4, 5), (cR, 3, 4), (cPDI, 5, 5)] := by decide +kernel

/-- Where all is from left to right, nothing moves. -/
theorem C38_ltr_unchanged (scraps : List Scrap) (h : OnlyLtr scraps) : reorder .ltr scraps = some scraps :=
  reorder_ltr scraps h

example : OnlyLtr [{ clz := cLRI }, { clz := cL, r := 9, children := [[{ clz := cLRI, l := 2, r := 3 }, { clz := cL, l := 3, r := 4 },
    { clz := cPDI, l := 4, r := 5 }]] }, { clz := cPDI, l := 9, r := 9 }] := by
  refine ⟨_, by simp [cLRI, cL, cPDI, cR, cEN, cAN, cNULL], ?_, ?_⟩
  · simp [cLRI, cFSI, cPDI, cRLI]
  · intro s hs ch hc
    simp at hs
    rcases hs with rfl | rfl | rfl
    · cases hc
    · simp at hc
      subst hc
      exact ⟨_, by simp [cLRI, cL, cPDI, cR, cEN, cAN, cNULL], by simp, by simp⟩
    · cases hc

/-! ### C47 The order of the scraps of a run is that of rule L2

Specification: every scrap has a level above that of its run (table 5 of UAX#9);
rule L2 reverses, from the highest level down to 1, every block of scraps with at
least that level. A right-to-left run has an odd level, so the whole of it is
reversed, too; the scraps are meant to be read from right to left then. -/

/-- Levels above an even level, UAX#9 table 5. -/
def levelInLtr (s : Scrap) : Nat := if s.clz = cEN ∨ s.clz = cAN then 2 else if s.clz = cR then 1 else 0

/-- Levels above the even level below an odd level, UAX#9 table 5. -/
def levelInRtl (s : Scrap) : Nat := if s.clz = cEN ∨ s.clz = cAN ∨ s.clz = cL then 2 else 1

/-- Every maximal block of elements with a property is reversed. -/
def reverseBlocks {α : Type} (p : α → Bool) (l : List α) : List α := flipBlocks p [] l

/-- Rule L2 for levels 0, 1 and 2. -/
def ruleL2 (lev : Scrap → Nat) (l : List Scrap) : List Scrap :=
  reverseBlocks (fun s => decide (1 ≤ lev s)) (reverseBlocks (fun s => decide (2 ≤ lev s)) l)

/-- No two numbers are next to each other. -/
def NumbersApart : List Scrap → Prop
  | [] => True
  | [_] => True
  | a :: b :: rest => ¬ (levelInLtr a = 2 ∧ levelInLtr b = 2) ∧ NumbersApart (b :: rest)

theorem flipBlocks_apart : ∀ (l : List Scrap), NumbersApart l → flipBlocks (fun s => decide (2 ≤ levelInLtr s)) [] l = l
  | [], _ => rfl
  | [a], _ => by simp [flipBlocks]
  | a :: b :: rest, h => by
    have ih := flipBlocks_apart (b :: rest) h.2
    have h2 : ∀ s : Scrap, 2 ≤ levelInLtr s ↔ levelInLtr s = 2 := by
      intro s; unfold levelInLtr; split
      · simp
      · split <;> simp
    by_cases ha : 2 ≤ levelInLtr a
    · have hb : ¬ 2 ≤ levelInLtr b := fun hb => h.1 ⟨(h2 a).mp ha, (h2 b).mp hb⟩
      rw [flipBlocks, if_neg (by simpa using hb)] at ih
      rw [flipBlocks, if_pos (by simpa using ha), flipBlocks, if_neg (by simpa using hb)]
      simpa using ih
    · rw [flipBlocks, if_neg (by simpa using ha), ih]
      rfl

theorem kids_none (d : Dir) : ∀ l : List Scrap, (∀ s ∈ l, s.children = []) → reorderKids d l = some l := by
  intro l
  induction l with
  | nil => intro _; rw [reorderKids]
  | cons s rest ih =>
    intro h
    have h0 := h s (by simp)
    obtain ⟨c, l, r, x, ch⟩ := s
    simp only at h0
    subst h0
    rw [reorderKids, reorderChildren, ih (fun t ht => h t (by simp [ht]))]
    simp only
    split <;> rfl

theorem flat_ltr (scraps : List Scrap) (hn : ∀ s ∈ scraps, s.clz ≠ cNULL) (ha : NumbersApart scraps) :
    reorderFlat .ltr scraps = ruleL2 levelInLtr scraps := by
  rw [reorderFlat_eq .ltr scraps hn]
  unfold ruleL2 reverseBlocks
  rw [flipBlocks_apart scraps ha]
  congr 1
  funext s
  unfold level levelInLtr
  by_cases h1 : s.clz = cEN ∨ s.clz = cAN
  · simp [h1]
  · by_cases h2 : s.clz = cR
    · simp [h2, cR, cEN, cAN]
    · simp [h1, h2]

theorem flat_rtl (scraps : List Scrap) (hn : ∀ s ∈ scraps, s.clz ≠ cNULL) :
    reorderFlat .rtl scraps = (ruleL2 levelInRtl scraps).reverse := by
  rw [reorderFlat_eq .rtl scraps hn]
  unfold ruleL2 reverseBlocks
  have hall : ∀ (l acc : List Scrap), flipBlocks (fun s => decide (1 ≤ levelInRtl s)) acc l = l.reverse ++ acc := by
    intro l
    induction l with
    | nil => intro acc; rfl
    | cons s rest ih =>
      intro acc
      have : 1 ≤ levelInRtl s := by unfold levelInRtl; split <;> omega
      rw [flipBlocks, if_pos (by simpa using this), ih]
      simp
  rw [hall, List.append_nil, List.reverse_reverse]
  congr 1
  funext s
  unfold level levelInRtl
  by_cases h1 : s.clz = cEN ∨ s.clz = cAN
  · have : s.clz = cEN ∨ s.clz = cAN ∨ s.clz = cL := by rcases h1 with h | h <;> simp [h]
    simp [h1, this]
  · by_cases h2 : s.clz = cL
    · simp [h2, cL, cEN, cAN]
    · simp [h1, h2]

/-- In a left-to-right run, the order is that of rule L2 when no two numbers are
neighbours. Missing for the full property: neighbouring numbers. -/
theorem C47_ltr_partial (scraps : List Scrap) (hn : ∀ s ∈ scraps, s.clz ≠ cNULL) (hc : ∀ s ∈ scraps, s.children = [])
    (ha : NumbersApart scraps) : reorder .ltr scraps = some (ruleL2 levelInLtr scraps) := by
  rw [reorder, kids_none .ltr scraps hc, Option.map_some, flat_ltr scraps hn ha]

example : NumbersApart [{ clz := cL }, { clz := cR }, { clz := cEN }, { clz := cR }] ∧
    brief (ruleL2 levelInLtr [{ clz := cL, r := 1 }, { clz := cR, l := 1, r := 2 }, { clz := cEN, l := 2, r := 3 }, { clz := cR, l := 3, r := 4 }])
      = [(cL, 0, 1), (cR, 3, 4), (cEN, 2, 3), (cR, 1, 2)] := by
  refine ⟨⟨by decide, by decide, by decide, trivial⟩, by decide +kernel⟩

/-- In a right-to-left run, the order is that of rule L2 read from right to left. -/
theorem C47_rtl (scraps : List Scrap) (hn : ∀ s ∈ scraps, s.clz ≠ cNULL) (hc : ∀ s ∈ scraps, s.children = []) :
    reorder .rtl scraps = some (ruleL2 levelInRtl scraps).reverse := by
  rw [reorder, kids_none .rtl scraps hc, Option.map_some, flat_rtl scraps hn]

example : brief (ruleL2 levelInRtl [{ clz := cR, r := 1 }, { clz := cL, l := 1, r := 2 }, { clz := cEN, l := 2, r := 3 }, { clz := cR, l := 3, r := 4 }])
      = [(cR, 3, 4), (cL, 1, 2), (cEN, 2, 3), (cR, 0, 1)] := by decide +kernel

/-- Neighbouring numbers in a left-to-right run are exchanged: the numbers 1 (EN)
and 2 (AN) in this order are put as 2, 1. The comment of reordering.go asks for
their being reversed once more, as rule L2 does. -/
theorem C47_violated : ∃ scraps : List Scrap, (∀ s ∈ scraps, s.clz ≠ cNULL ∧ s.children = []) ∧
    (reorder .ltr scraps).map brief ≠ some (brief (ruleL2 levelInLtr scraps)) :=
  ⟨[{ clz := cL, r := 1 }, { clz := cEN, l := 1, r := 2 }, { clz := cAN, l := 2, r := 3 }], by simp [cL, cEN, cAN, cNULL], by decide +kernel⟩

/-! With isolates: the scraps of a run of direction `d` have their places from left to right by
rule L2; they are listed from the side where the embedding run begins. -/

/-- A run without nested ones from left to right. -/
def leftToRight (d : Dir) (l : List Scrap) : List Scrap :=
  if d = .ltr then ruleL2 levelInLtr l else ruleL2 levelInRtl l

/-- Listed in a direction. -/
def listed (e : Dir) (l : List Scrap) : List Scrap := if e = .ltr then l else l.reverse

/-- The direction of an isolate. -/
def isolateDir (s : Scrap) : Dir := if s.clz = cLRI then .ltr else .rtl

/-- An isolate in a run of direction `e`, in the order it is to be read. The initiator stays the
first and the terminator the last scrap. -/
def listedIsolate (e : Dir) : List Scrap → List Scrap
  | [] => []
  | first :: rest => first :: (listed e (leftToRight (isolateDir first) rest.dropLast) ++ rest.getLast?.toList)

/-- An isolate without nested isolates: LRI or RLI, some scraps and PDI. -/
def IsolateRun (ch : List Scrap) : Prop := ∃ first mid last, ch = first :: (mid ++ [last]) ∧ (first.clz = cLRI ∨ first.clz = cRLI) ∧
  first.children = [] ∧ last.clz = cPDI ∧ last.children = [] ∧ (∀ s ∈ mid, s.clz ≠ cNULL ∧ s.children = []) ∧
  (first.clz = cLRI → NumbersApart mid)

theorem flipBlocks_end {α : Type} (p : α → Bool) (z : α) (hz : p z = false) : ∀ (l acc : List α),
    flipBlocks p acc (l ++ [z]) = flipBlocks p acc l ++ [z] := by
  intro l
  induction l with
  | nil => intro acc; simp [flipBlocks, hz]
  | cons x xs ih =>
    intro acc
    rw [List.cons_append, flipBlocks, flipBlocks]
    split
    · exact ih _
    · rw [ih, List.append_assoc, List.cons_append]

theorem flat_isolate (d : Dir) (first last : Scrap) (mid : List Scrap) (hf : first.clz = cLRI ∨ first.clz = cRLI) (hl : last.clz = cPDI)
    (hm : ∀ s ∈ mid, s.clz ≠ cNULL) :
    reorderFlat d (first :: (mid ++ [last])) = first :: (reorderFlat d mid ++ [last]) := by
  have n1 : first.clz ≠ cNULL := by rcases hf with h | h <;> rw [h] <;> decide
  have n2 : last.clz ≠ cNULL := by rw [hl]; decide
  rw [reorderFlat_eq d _ (by
    intro s hs
    rw [List.mem_cons, List.mem_append, List.mem_singleton] at hs
    rcases hs with rfl | hs | rfl
    · exact n1
    · exact hm s hs
    · exact n2), reorderFlat_eq d _ hm]
  have z1 : level first d = 0 := by
    unfold level
    rcases hf with h | h <;> rw [h] <;> simp [cLRI, cRLI, cEN, cAN, cL, cR]
  have z2 : level last d = 0 := by
    unfold level
    rw [hl]
    simp [cPDI, cEN, cAN, cL, cR]
  rw [flipBlocks, if_neg (by simp [z1]), flipBlocks_end _ _ (by simp [z2])]
  rfl

theorem turn_isolate (first last : Scrap) (mid : List Scrap) (hf : first.clz = cLRI ∨ first.clz = cRLI) (hl : last.clz = cPDI) :
    reverseWithoutIsolates (first :: (mid ++ [last])) = first :: (mid.reverse ++ [last]) := by
  have i1 : isIsolate first = true := by unfold isIsolate; rcases hf with h | h <;> simp [h]
  have i2 : isIsolate last = true := by unfold isIsolate; simp [hl]
  unfold reverseWithoutIsolates
  have e : (first :: (mid ++ [last])).getLast? = some last := by
    rw [← List.cons_append, List.getLast?_append]
    rfl
  rw [List.head?_cons, e]
  dsimp only
  rw [i1, i2]
  have := reverse_block [first] mid [last]
  simp only [List.length_singleton, List.cons_append, List.nil_append] at this
  simp only [if_true]
  rw [show (first :: (mid ++ [last])).length - 1 = 1 + mid.length from by simp; omega]
  exact this

theorem children_isolates (e : Dir) : ∀ chs : List (List Scrap), (∀ ch ∈ chs, IsolateRun ch) →
    reorderChildren e chs = some (chs.map (listedIsolate e)) := by
  intro chs
  induction chs with
  | nil => intro _; rw [reorderChildren]; rfl
  | cons ch more ih =>
    intro h
    obtain ⟨first, mid, last, rfl, hf, hf0, hl, hl0, hm, ha⟩ := h ch (by simp)
    rw [reorderChildren]
    have hdir : findEmbeddingDir (first :: (mid ++ [last])) e = some (isolateDir first) := by
      unfold findEmbeddingDir isolateDir
      rcases hf with h | h <;> simp [h, cLRI, cRLI]
    rw [hdir]
    dsimp only
    rw [kids_none _ _ (by
      intro s hs
      rw [List.mem_cons, List.mem_append, List.mem_singleton] at hs
      rcases hs with rfl | hs | rfl
      · exact hf0
      · exact (hm s hs).2
      · exact hl0)]
    dsimp only
    rw [ih (fun ch hc => h ch (by simp [hc]))]
    dsimp only
    rw [List.map_cons]
    congr 2
    rw [flat_isolate _ _ _ _ hf hl (fun s hs => (hm s hs).1)]
    rw [listedIsolate, List.dropLast_concat, List.getLast?_concat]
    have hm' : ∀ s ∈ mid, s.clz ≠ cNULL := fun s hs => (hm s hs).1
    by_cases hd : first.clz = cLRI
    · have e1 : isolateDir first = .ltr := if_pos hd
      rw [e1, flat_ltr mid hm' (ha hd)]
      cases e
      · rfl
      · rw [if_pos (by decide), turn_isolate _ _ _ hf hl]; rfl
    · have e1 : isolateDir first = .rtl := if_neg hd
      rw [e1, flat_rtl mid hm']
      cases e
      · rw [if_pos (by decide), turn_isolate _ _ _ hf hl, List.reverse_reverse]; rfl
      · rfl

/-- With isolates that do not contain isolates, the order of a run and that of its isolates are
those of rule L2, too, listed in the direction of the run.
Missing: neighbouring numbers, isolates in isolates (see `C47_nested_violated`). -/
theorem C47_isolates_partial (e : Dir) (scraps : List Scrap) (hn : ∀ s ∈ scraps, s.clz ≠ cNULL)
    (hc : ∀ s ∈ scraps, ∀ ch ∈ s.children, IsolateRun ch) (ha : e = .ltr → NumbersApart scraps) :
    reorder e scraps = some (listed e (leftToRight e (scraps.map fun s => { s with children := s.children.map (listedIsolate e) }))) := by
  have hk : ∀ l : List Scrap, (∀ s ∈ l, s.clz ≠ cNULL) → (∀ s ∈ l, ∀ ch ∈ s.children, IsolateRun ch) →
      reorderKids e l = some (l.map fun s => { s with children := s.children.map (listedIsolate e) }) := by
    intro l
    induction l with
    | nil => intro _ _; rw [reorderKids]; rfl
    | cons s rest ih =>
      intro h1 h2
      have h3 := h1 s (by simp)
      have h4 := children_isolates e s.children (h2 s (by simp))
      have h5 := ih (fun t ht => h1 t (by simp [ht])) (fun t ht => h2 t (by simp [ht]))
      obtain ⟨c, l, r, x, ch⟩ := s
      rw [reorderKids, h4]
      dsimp only
      rw [if_neg h3, h5]
      rfl
  rw [reorder, hk scraps hn hc, Option.map_some]
  congr 1
  have hn' : ∀ s ∈ (scraps.map fun s : Scrap => { s with children := s.children.map (listedIsolate e) }), s.clz ≠ cNULL := by
    intro s hs
    obtain ⟨t, ht, rfl⟩ := List.mem_map.mp hs
    exact hn t ht
  cases e with
  | ltr =>
    refine flat_ltr _ hn' ?_
    have : ∀ l : List Scrap, NumbersApart l → NumbersApart (l.map fun s => { s with children := s.children.map (listedIsolate .ltr) }) := by
      intro l
      induction l with
      | nil => intro _; trivial
      | cons a l ih =>
        cases l with
        | nil => intro _; trivial
        | cons b l => intro h; exact ⟨h.1, ih h.2⟩
    exact this _ (ha rfl)
  | rtl => exact flat_rtl _ hn'

/-- A right-to-left isolate in left-to-right text. -/
def isolateSample : List Scrap := [{ clz := cL, r := 9, children := [[{ clz := cRLI, l := 1, r := 2 }, { clz := cR, l := 2, r := 3 },
  { clz := cL, l := 3, r := 4 }, { clz := cPDI, l := 4, r := 5 }]] }, { clz := cR, l := 9, r := 10 }]

example : (∀ s ∈ isolateSample, ∀ ch ∈ s.children, IsolateRun ch) ∧ NumbersApart isolateSample ∧
    (isolateSample.map fun s => s.children.map fun ch => brief (listedIsolate .ltr ch)) = [[[(cRLI, 1, 2), (cL, 3, 4), (cR, 2, 3), (cPDI, 4, 5)]], []] := by
  refine ⟨?_, ⟨by decide, trivial⟩, by decide +kernel⟩
  intro s hs ch hch
  simp only [isolateSample, List.mem_cons, List.not_mem_nil, or_false] at hs
  rcases hs with rfl | rfl
  · simp only [List.mem_singleton] at hch
    subst hch
    exact ⟨_, [_, _], _, rfl, Or.inr rfl, rfl, rfl, rfl, by simp [cR, cL, cNULL], by simp [cRLI, cLRI]⟩
  · cases hch

/-- The runs which are nested in nested runs. -/
def nestedTwice (scraps : List Scrap) : List (List (Class × Nat × Nat)) :=
  scraps.flatMap fun s => s.children.flatMap fun ch => ch.flatMap fun s => s.children.map brief

/-- A left-to-right isolate in a right-to-left isolate in left-to-right text is listed from
right to left. (By rule L2 it is reversed twice, so its two scraps have to stay in order.) -/
theorem C47_nested_violated : ∃ scraps : List Scrap, (∀ s ∈ scraps, s.clz ≠ cNULL) ∧
    nestedTwice scraps = [[(cLRI, 3, 4), (cL, 4, 5), (cR, 5, 6), (cPDI, 6, 7)]] ∧
    (reorder .ltr scraps).map nestedTwice = some [[(cLRI, 3, 4), (cR, 5, 6), (cL, 4, 5), (cPDI, 6, 7)]] := by
  refine ⟨[{ clz := cL, r := 9, children := [[{ clz := cRLI, l := 1, r := 2 }, { clz := cR, l := 2, r := 8, children :=
    [[{ clz := cLRI, l := 3, r := 4 }, { clz := cL, l := 4, r := 5 }, { clz := cR, l := 5, r := 6 }, { clz := cPDI, l := 6, r := 7 }]] },
    { clz := cPDI, l := 8, r := 9 }]] }], by simp [cL, cNULL], rfl, ?_⟩
  decide +kernel

/-! ### C39 Splitting resolved levels at a position

Specification: `pathAt pos scraps` lists the classes of the scraps which contain
a position, from the outermost to the innermost one. `Contig a z` says that
scraps are contiguous intervals from `a` to `z`. -/

/-- Splitting levels which tile [a,z) at a position in it gives one part tiling
[a,at) and another tiling [at,z), with the classes, nested or not, they had
before. A copy of the isolate initiator is put before the right part; that
makes no difference for the classes of the positions from `at` on.
Missing for the full property: cuts between nested runs of one scrap
(`CleanCut`), see `C39_violated`. -/
theorem C39_split_partial (rl : Levels) (a z at_ : Nat) (ht : Tiled a z rl.scraps) (ha : a ≤ at_) (hz : at_ < z)
    (hc : CleanCut at_ rl.scraps) :
    ∃ f p s, rl.scraps.head? = some f ∧
      rl.split at_ false = some (⟨.ltr, p⟩, ⟨.ltr, if isIsolate f then f :: s else s⟩) ∧
      Contig a at_ p ∧ Contig at_ z s ∧ (∀ pos, pos < at_ → pathAt pos p = pathAt pos rl.scraps) ∧
      (∀ pos, at_ ≤ pos → pathAt pos s = pathAt pos rl.scraps) ∧
      (∀ pos, at_ ≤ pos → pathAt pos (f :: s) = pathAt pos rl.scraps) := by
  obtain ⟨f, p, s, h1, h2, h3⟩ := split_ok at_ rl.scraps a z ht ha hz hc
  exact ⟨f, p, s, h1, by rw [Levels.split, h2]; rfl, h3⟩

example : Tiled 0 5 nestedSample ∧ CleanCut 2 nestedSample ∧ pathAt 2 nestedSample = [cL, cEN] := by
  refine ⟨?_, ?_, by simp [nestedSample, pathAt, pathIn, startOf, endOf]⟩
  · refine .cons _ _ _ _ rfl (by simp) (by simp) (by simp) (by simp) (.cons _ _ _ _ rfl (by simp) (by simp) ?_ (by simp)
      (.cons _ _ _ _ rfl (by simp) (by simp) (by simp) (by simp) (.cons _ _ _ _ rfl (by simp) (by simp) (by simp) (by simp)
        (.cons _ _ _ _ rfl (by simp) (by simp) (by simp) (by simp) (.nil _)))))
    intro ch hch
    simp at hch
    subst hch
    exact .cons _ _ _ _ rfl (by simp) (by simp) (by simp) (by simp) (.cons _ _ _ _ rfl (by simp) (by simp) (by simp) (by simp)
      (.cons _ _ _ _ rfl (by simp) (by simp) (by simp) (by simp) (.cons _ _ _ _ rfl (by simp) (by simp) (by simp) (by simp) (.nil _))))
  · refine ⟨_, ?_, ?_⟩
    · intro s hs h
      simp [nestedSample] at hs
      rcases hs with rfl | rfl | rfl | rfl | rfl <;> simp at h
      left
      exact ⟨_, List.mem_singleton.mpr rfl, by simp [startOf, endOf]⟩
    · intro s hs h ch hch _
      simp [nestedSample] at hs
      rcases hs with rfl | rfl | rfl | rfl | rfl <;> simp at h
      simp at hch
      subst hch
      exact ⟨_, by simp, by simp⟩

/-- With `shift0` the right part starts at zero and has its classes at positions
lowered by `at`. (Nested runs are not shifted, see `C39_shift_violated`.) -/
theorem C39_shift_partial (s : List Scrap) (at_ z : Nat) (h : Contig at_ z s) :
    Contig 0 (z - at_) (shiftZero s at_) ∧
      ∀ pos, (shiftZero s at_).find? (·.contains pos) = (s.find? (·.contains (pos + at_))).map
        fun t => { t with l := t.l - at_, r := t.r - at_ } := by
  have hv : ∀ p d, validCharpos p d = p - d := by
    intro p d; unfold validCharpos; split <;> omega
  have key : ∀ (s : List Scrap) (b : Nat), at_ ≤ b → Contig b z s → Contig (b - at_) (z - at_) (shiftZero s at_) ∧
      ∀ pos, (shiftZero s at_).find? (·.contains pos) = (s.find? (·.contains (pos + at_))).map
        fun t => { t with l := t.l - at_, r := t.r - at_ } := by
    intro s
    induction s with
    | nil => intro b hb h; exact ⟨by simp only [shiftZero, List.map_nil, Contig] at h ⊢; omega, fun _ => rfl⟩
    | cons t rest ih =>
      intro b hb h
      have h1 := h.1
      have h2 := h.2.1
      obtain ⟨k1, k2⟩ := ih t.r (by omega) h.2.2
      refine ⟨⟨?_, ?_, ?_⟩, fun pos => ?_⟩
      · simp only [hv]; omega
      · simp only [hv]; omega
      · show Contig (validCharpos t.r at_) (z - at_) (shiftZero rest at_)
        rw [hv]; exact k1
      · have e : shiftZero (t :: rest) at_ = { t with l := t.l - at_, r := t.r - at_ } :: shiftZero rest at_ := by
          simp [shiftZero, hv]
        have ec : ({ t with l := t.l - at_, r := t.r - at_ } : Scrap).contains pos = t.contains (pos + at_) := by
          have a1 : (t.l - at_ ≤ pos) ↔ (t.l ≤ pos + at_) := by omega
          have a2 : (pos < t.r - at_) ↔ (pos + at_ < t.r) := by omega
          simp only [Scrap.contains, a1, a2]
        rw [e, List.find?_cons, List.find?_cons, ec]
        cases t.contains (pos + at_)
        · exact k2 pos
        · rfl
  have := key s at_ (Nat.le_refl _) h
  simpa using this

example : Contig 2 5 [{ clz := cL, l := 2, r := 3 }, { clz := cR, l := 3, r := 5 }] := by simp [Contig]

/-- A cut between two nested runs: the levels of a paragraph with two isolates are
split at a position between them. The right part has lost the second one, whose
text is taken for L from then on. -/
theorem C39_violated : ∃ rl p s, Resolves sample { testing := true } (fun _ => 0) (ascii ['x', '<', 'B', '=', ' ', '<', 'C', '=', 'y']) rl ∧
    rl.split 4 false = some (p, s) ∧ pathAt 6 rl.scraps = [cL, cR] ∧ pathAt 6 s.scraps = [cL] := by
  obtain ⟨rl, hr, h⟩ := resolvedWith_iff (T := sample) (o := { testing := true }) (sched := fun _ => 0)
    (b := ascii ['x', '<', 'B', '=', ' ', '<', 'C', '=', 'y']) (n := 60)
    (f := fun rl => match rl.split 4 false with
      | some (_, s) => decide (pathAt 6 rl.scraps = [cL, cR]) && decide (pathAt 6 s.scraps = [cL])
      | none => false) (by decide +kernel)
  cases hs : rl.split 4 false with
  | none => rw [hs] at h; cases h
  | some x =>
    rw [hs] at h
    simp only [Bool.and_eq_true, decide_eq_true_eq] at h
    exact ⟨rl, x.1, x.2, hr, hs, h⟩

/-- With `shift0` nested runs keep their positions: what was at position 5 is at
position 1 of the right part, but its nested run is not found there. -/
theorem C39_shift_violated : ∃ rl p s, Resolves sample { testing := true } (fun _ => 0) (ascii ['x', '<', 'B', 'C', 'D', '=', 'y']) rl ∧
    rl.split 3 true = some (p, s) ∧ pathAt 4 rl.scraps = [cL, cR] ∧ pathAt (4 - 3) s.scraps = [cL, cRLI] := by
  obtain ⟨rl, hr, h⟩ := resolvedWith_iff (T := sample) (o := { testing := true }) (sched := fun _ => 0)
    (b := ascii ['x', '<', 'B', 'C', 'D', '=', 'y']) (n := 60)
    (f := fun rl => match rl.split 3 true with
      | some (_, s) => decide (pathAt 4 rl.scraps = [cL, cR]) && decide (pathAt (4 - 3) s.scraps = [cL, cRLI])
      | none => false) (by decide +kernel)
  cases hs : rl.split 3 true with
  | none => rw [hs] at h; cases h
  | some x =>
    rw [hs] at h
    simp only [Bool.and_eq_true, decide_eq_true_eq] at h
    exact ⟨rl, x.1, x.2, hr, hs, h⟩

/-! ### C44 Visual runs of flattened levels

Specification: `visual runs` lists the positions of the text in the order of the
runs, each with the direction of its run; `order` lists the positions of scraps
and of the runs nested in them, each with the direction of its scrap. -/

/-- For levels without nested runs, flattening gives runs of alternating
directions, none of them empty, whose lengths are the numbers of their positions,
and which have exactly the positions of the scraps, in their order and with their
directions. Missing for the full property: see `C44_nested_partial`. -/
theorem C44_runs_partial (scraps : List Scrap) (e : Dir) (hs : ∀ s ∈ scraps, s.children = [] ∧ s.l ≤ s.r ∧ s.clz ≠ cNULL) :
    ∃ runs, flatten scraps e = some runs ∧ Alternate runs ∧
      (∀ r ∈ runs, 0 < r.length ∧ r.length = (allPositions r.scraps).length) ∧
      visual runs = scraps.flatMap fun s => (positions s).map fun p => (p, dirOfClass s.clz (runEmbedding scraps e)) := by
  obtain ⟨runs, h1, h2, h3⟩ := flatten_flat scraps e hs
  exact ⟨runs, h1, h2.alt, fun r hr => ⟨(h2.each r hr).pos, (h2.each r hr).len⟩, h3⟩

/-- The lengths of the runs add up to the length of the text. -/
theorem C44_lengths_partial (scraps : List Scrap) (e : Dir) (hs : ∀ s ∈ scraps, s.children = [] ∧ s.l ≤ s.r ∧ s.clz ≠ cNULL) :
    ∃ runs, flatten scraps e = some runs ∧ (runs.map (·.length)).sum = (scraps.map fun s => s.r - s.l).sum := by
  obtain ⟨runs, h1, h2, h3⟩ := flatten_flat scraps e hs
  refine ⟨runs, h1, ?_⟩
  have e1 : ∀ l : List VRun, (∀ r ∈ l, r.Ok) → (l.map (·.length)).sum = (visual l).length := by
    intro l
    induction l with
    | nil => intro _; rfl
    | cons r rest ih =>
      intro h
      have := ih (fun r hr => h r (by simp [hr]))
      simp only [List.map_cons, List.sum_cons, this, (h r (by simp)).len]
      simp [visual]
  rw [e1 runs h2.each, h3]
  clear h1 h2 h3
  generalize runEmbedding scraps e = d
  induction scraps with
  | nil => rfl
  | cons s rest ih =>
    have := ih (fun r hr => hs r (by simp [hr]))
    rw [List.flatMap_cons, List.length_append, this]
    simp [positions]

example : (flatten [{ clz := cL, r := 3 }, { clz := cEN, l := 3, r := 4 }, { clz := cR, l := 6, r := 8 }, { clz := cR, l := 4, r := 6 },
    { clz := cL, l := 8, r := 9 }] .ltr).map briefRuns
    = some [(.ltr, 4, [(0, 4)]), (.rtl, 4, [(6, 8), (4, 6)]), (.ltr, 1, [(8, 9)])] := by decide +kernel

/-- The same with nested runs, when they begin with LRI or RLI, lie within their
scraps and the position before a nested run has another direction than the
first position of the nested run (`Fits`). Missing for the full property: nested
runs after text of their own direction. -/
theorem C44_nested_partial (scraps : List Scrap) (e : Dir) (h : Fits (runEmbedding scraps e) .ltr scraps) :
    ∃ runs, flatten scraps e = some runs ∧ Alternate runs ∧
      (∀ r ∈ runs, 0 < r.length ∧ r.length = (allPositions r.scraps).length) ∧
      visual runs = order (runEmbedding scraps e) scraps := by
  obtain ⟨runs, h1, h2, h3⟩ := flatten_fits scraps e h
  exact ⟨runs, h1, h2.alt, fun r hr => ⟨(h2.each r hr).pos, (h2.each r hr).len⟩, h3⟩

example : Fits (runEmbedding nestedSample .ltr) .ltr nestedSample ∧
    order .ltr nestedSample = [(0, .ltr), (1, .rtl), (2, .ltr), (3, .rtl), (4, .ltr)] := by
  refine ⟨?_, ?_⟩
  · simp [nestedSample, runEmbedding, isIsolate, cLRI, cRLI, cFSI, cPDI, cL, cR, cEN, cAN, cNULL, Fits, FitsIn, startOf, endOf,
      order, orderIn, spread, dirOfClass, lastDir, List.range'_succ]
  · simp [nestedSample, runEmbedding, isIsolate, cLRI, cRLI, cFSI, cPDI, cL, cR, cEN, cAN, startOf, endOf,
      order, orderIn, spread, dirOfClass, List.range'_succ]

/-- An isolate after text of its own direction: the ordering of a paragraph of
five bytes has one run, whose length is two. -/
theorem C44_violated : ∃ rl runs, Resolves sample { testing := true } (fun _ => 0) (ascii ['x', '>', 'a', '=', 'y']) rl ∧
    rl.reorder = some runs ∧ (runs.map (·.length)).sum = 2 := by
  obtain ⟨rl, hr, h⟩ := resolvedWith_iff (T := sample) (o := { testing := true }) (sched := fun _ => 0)
    (b := ascii ['x', '>', 'a', '=', 'y']) (n := 60)
    (f := fun rl => match rl.reorder with
      | some runs => decide ((runs.map (·.length)).sum = 2)
      | none => false) (by decide +kernel)
  cases hs : rl.reorder with
  | none => rw [hs] at h; cases h
  | some x =>
    rw [hs] at h
    exact ⟨rl, x, hr, hs, by simpa using h⟩

/-! ### C48 Reorder returns, and returns the same again -/

/-- Reordering panics for a paragraph which starts with a left-to-right isolate. -/
theorem C48_violated : ∃ rl, Resolves sample { testing := true } (fun _ => 0) (ascii ['>', 'a', '=', 'b']) rl ∧ rl.reorder = none := by
  obtain ⟨rl, hr, h⟩ := resolvedWith_iff (T := sample) (o := { testing := true }) (sched := fun _ => 0)
    (b := ascii ['>', 'a', '=', 'b']) (n := 60) (f := fun rl => rl.reorder.isNone) (by decide +kernel)
  exact ⟨rl, hr, by simpa using h⟩

/-- Reordering panics for isolates of class FSI, too (here U+2068 in UTF-8). -/
theorem C48_fsi_violated : ∃ rl, Resolves sample {} (fun _ => 0) ([97] ++ [0xe2, 0x81, 0xa8] ++ [98] ++ [0xe2, 0x81, 0xa9] ++ [99]) rl ∧
    rl.reorder = none := by
  obtain ⟨rl, hr, h⟩ := resolvedWith_iff (T := sample) (o := {}) (sched := fun _ => 0)
    (b := [97] ++ [0xe2, 0x81, 0xa8] ++ [98] ++ [0xe2, 0x81, 0xa9] ++ [99]) (n := 60) (f := fun rl => rl.reorder.isNone) (by decide +kernel)
  exact ⟨rl, hr, by simpa using h⟩

/-- The levels after Reorder, which changes the scraps of its receiver. -/
def Levels.afterReorder (rl : Levels) : Levels := ⟨rl.embedding, (reorder rl.embedding rl.scraps).getD rl.scraps⟩

/-- A second call of Reorder gives another result: it undoes the first one. -/
theorem C48_again_violated : ∃ rl runs runs', Resolves sample { testing := true } (fun _ => 0) (ascii ['A', '1']) rl ∧
    rl.reorder = some runs ∧ (Levels.afterReorder rl).reorder = some runs' ∧ briefRuns runs ≠ briefRuns runs' := by
  obtain ⟨rl, hr, h⟩ := resolvedWith_iff (T := sample) (o := { testing := true }) (sched := fun _ => 0)
    (b := ascii ['A', '1']) (n := 60)
    (f := fun rl => match rl.reorder, (Levels.afterReorder rl).reorder with
      | some runs, some runs' => decide (briefRuns runs ≠ briefRuns runs')
      | _, _ => false) (by decide +kernel)
  cases h1 : rl.reorder with
  | none => rw [h1] at h; cases h
  | some x =>
    cases h2 : (Levels.afterReorder rl).reorder with
    | none => rw [h1, h2] at h; cases h
    | some y =>
      rw [h1, h2] at h
      exact ⟨rl, x, y, hr, h1, h2, by simpa using h⟩

/-- Reordering itself does not panic when no nested run begins with FSI or PDI. -/
theorem C48_reorder_partial (d : Dir) (scraps : List Scrap) (h : Bracketed scraps) : ∃ out, reorder d scraps = some out :=
  reorder_some d scraps h

example : Bracketed nestedSample := by
  refine ⟨_, ?_, ?_⟩
  · simp [nestedSample, cRLI, cFSI, cPDI]
  · intro s hs ch hch
    simp [nestedSample] at hs
    rcases hs with rfl | rfl | rfl | rfl | rfl <;> simp at hch
    subst hch
    exact ⟨_, by simp, by simp⟩

/-- Reorder does not panic for levels without nested runs. -/
theorem C48_flat_partial (rl : Levels) (hs : ∀ s ∈ rl.scraps, s.children = [] ∧ s.l ≤ s.r ∧ s.clz ≠ cNULL) :
    ∃ runs, rl.reorder = some runs ∧ Alternate runs := by
  unfold Levels.reorder
  cases hsc : rl.scraps with
  | nil => exact ⟨[], rfl, trivial⟩
  | cons a t =>
    rw [hsc] at hs
    have hb : Bracketed (a :: t) := ⟨_, fun s h ch hc => absurd ((hs s h).1 ▸ hc) (List.not_mem_nil),
      fun s h ch hc => absurd ((hs s h).1 ▸ hc) (List.not_mem_nil)⟩
    obtain ⟨out, ho⟩ := reorder_some rl.embedding (a :: t) hb
    have hk : ∀ l : List Scrap, (∀ s ∈ l, s.children = []) → reorderKids rl.embedding l = some l := by
      intro l
      induction l with
      | nil => intro _; rw [reorderKids]
      | cons s rest ih =>
        intro h
        have h0 := h s (by simp)
        obtain ⟨c, l, r, x, ch⟩ := s
        simp only at h0
        subst h0
        rw [reorderKids, reorderChildren, ih (fun t ht => h t (by simp [ht]))]
        simp only
        split <;> rfl
    have hp : out.Perm (a :: t) := by
      rw [reorder, hk _ (fun s h => (hs s h).1)] at ho
      cases ho
      exact reorderLoop_perm _ _ _ _ _ _
    obtain ⟨runs, h1, h2, _⟩ := flatten_flat out rl.embedding (fun s h => hs s (hp.mem_iff.mp h))
    exact ⟨runs, by rw [ho]; exact h1, h2.alt⟩

/-! ### C49 Segments of a run -/

/-- The iterator after a number of calls of Next. -/
def afterNext (it : SegIter) : Nat → SegIter
  | 0 => it
  | n + 1 => (afterNext it n).next.2

theorem exchange_fold : ∀ (m : Nat) (a b c : List Scrap), a.length = m → c.length = m →
    (List.range m).foldl (fun s i => exchange s i (s.length - i - 1)) (a ++ b ++ c) = c.reverse ++ b ++ a.reverse := by
  intro m
  induction m with
  | zero =>
    intro a b c ha hc
    obtain rfl := List.length_eq_zero_iff.mp ha
    obtain rfl := List.length_eq_zero_iff.mp hc
    simp
  | succ m ih =>
    intro a b c ha hc
    obtain ⟨a0, x, rfl⟩ : ∃ a0 x, a = a0 ++ [x] :=
      ⟨a.dropLast, a.getLast (by intro h; subst h; simp at ha), (List.dropLast_concat_getLast _).symm⟩
    cases c with
    | nil => simp at hc
    | cons y c0 =>
      have ha0 : a0.length = m := by simpa using ha
      have hc0 : c0.length = m := by simpa using hc
      rw [List.range_succ, List.foldl_append]
      have e : a0 ++ [x] ++ b ++ y :: c0 = a0 ++ (x :: (b ++ [y])) ++ c0 := by simp
      rw [e, ih a0 (x :: (b ++ [y])) c0 ha0 hc0]
      simp only [List.foldl_cons, List.foldl_nil]
      have e2 : c0.reverse ++ (x :: (b ++ [y])) ++ a0.reverse = c0.reverse ++ x :: (b ++ y :: a0.reverse) := by simp
      rw [e2]
      have := exchange_ends c0.reverse b a0.reverse x y
      rw [List.length_reverse, hc0] at this
      have hl : (c0.reverse ++ x :: (b ++ y :: a0.reverse)).length - m - 1 = m + b.length + 1 := by
        simp [ha0, hc0]; omega
      rw [hl, this]
      simp

theorem exchange_all (l : List Scrap) :
    (List.range (l.length / 2)).foldl (fun s i => exchange s i (s.length - i - 1)) l = l.reverse := by
  have e := three_parts l (show l.length / 2 ≤ l.length - l.length / 2 by omega)
  have := exchange_fold (l.length / 2) (l.take (l.length / 2)) ((l.take (l.length - l.length / 2)).drop (l.length / 2))
    (l.drop (l.length - l.length / 2)) (by simp; omega) (by simp; omega)
  rw [e] at this
  rw [this]
  conv => rhs; rw [← e]
  simp only [List.reverse_append, List.append_assoc]
  congr 2
  have hl : ((l.take (l.length - l.length / 2)).drop (l.length / 2)).length ≤ 1 := by simp; omega
  match (l.take (l.length - l.length / 2)).drop (l.length / 2), hl with
  | [], _ => rfl
  | [x], _ => rfl
  | _ :: _ :: _, h => simp at h

/-- The iterator visits every segment of a run exactly once, in their order or
from the last to the first: after the k-th call of Next, which says that there is
a segment, Segment gives the k-th one with the direction of the run; Next says
that there is none when all have been visited. -/
theorem C49_segments (r : VRun) (rev : Bool) (k : Nat) (hk : k ≤ r.scraps.length) :
    let it := afterNext (r.segmentIterator rev).1 k
    let segs := if rev then r.scraps.reverse else r.scraps
    it.next.1 = decide (k < r.scraps.length) ∧
      (0 < k → it.segment = (segs[k - 1]?).map fun s => (r.dir, s.l, s.r)) := by
  have hs : (r.segmentIterator rev).1 = { dir := r.dir, scraps := if rev then r.scraps.reverse else r.scraps } := by
    unfold VRun.segmentIterator
    cases rev
    · rfl
    · simp only [if_true, exchange_all]
  rw [hs]
  generalize hg : (if rev = true then r.scraps.reverse else r.scraps) = segs
  have hlen : segs.length = r.scraps.length := by rw [← hg]; split <;> simp
  rw [← hlen] at hk ⊢
  have key : ∀ k, k ≤ segs.length → (afterNext { dir := r.dir, scraps := segs } k).interval = k ∧
      (afterNext { dir := r.dir, scraps := segs } k).scraps = segs ∧ (afterNext { dir := r.dir, scraps := segs } k).dir = r.dir := by
    intro k
    induction k with
    | zero => intro _; exact ⟨rfl, rfl, rfl⟩
    | succ k ih =>
      intro hk
      obtain ⟨h1, h2, h3⟩ := ih (by omega)
      rw [afterNext, SegIter.next, h1, h2, if_neg (by omega)]
      exact ⟨rfl, rfl, h3⟩
  obtain ⟨h1, h2, h3⟩ := key k hk
  refine ⟨?_, fun h0 => ?_⟩
  · rw [SegIter.next, h1, h2]
    by_cases h : k < segs.length
    · rw [if_neg (by omega)]; simp [h]
    · rw [if_pos (by omega)]; simp [h]
  · rw [SegIter.segment, h1, h2, h3, if_neg (by omega)]

example : (afterNext (VRun.segmentIterator { dir := .rtl, length := 4, scraps := [{ l := 6, r := 8 }, { l := 4, r := 6 }] } true).1 1).segment
    = some (.rtl, 4, 6) := by decide +kernel

/-- After all segments have been visited, Next keeps saying that there is none. -/
theorem C49_done (r : VRun) (rev : Bool) (k : Nat) (hk : r.scraps.length ≤ k) :
    (afterNext (r.segmentIterator rev).1 k).next.1 = false := by
  have hs : (r.segmentIterator rev).1.scraps.length = r.scraps.length := by
    unfold VRun.segmentIterator
    cases rev
    · rfl
    · simp only [if_true, exchange_all, List.length_reverse]
  have key : ∀ k, (afterNext (r.segmentIterator rev).1 k).interval = min k r.scraps.length ∧
      (afterNext (r.segmentIterator rev).1 k).scraps.length = r.scraps.length := by
    intro k
    induction k with
    | zero => refine ⟨?_, hs⟩; simp [afterNext, VRun.segmentIterator]
    | succ k ih =>
      obtain ⟨h1, h2⟩ := ih
      rw [afterNext, SegIter.next, h1, h2]
      by_cases h : min k r.scraps.length ≥ r.scraps.length
      · rw [if_pos h]; exact ⟨by rw [h1]; omega, h2⟩
      · rw [if_neg h]; exact ⟨by show min k r.scraps.length + 1 = _; omega, h2⟩
  obtain ⟨h1, h2⟩ := key k
  rw [SegIter.next, h1, h2, if_pos (by omega)]

/-- EOF says that the last segment has been visited: from the call of Next which gets to it on, and not before it. The direction that
Segment gives then is the one IsOpposite compares with. -/
theorem C49_eof (r : VRun) (rev : Bool) (k : Nat) (dir : Dir) :
    (afterNext (r.segmentIterator rev).1 k).atEof = decide (0 < r.scraps.length ∧ r.scraps.length ≤ k) ∧
      ∃ d i j, (afterNext (r.segmentIterator rev).1 k).segment = some (d, i, j) ∧ (r.isOpposite dir = true ↔ d ≠ dir) := by
  have hs : (r.segmentIterator rev).1.scraps.length = r.scraps.length := by
    unfold VRun.segmentIterator
    cases rev
    · rfl
    · simp only [if_true, exchange_all, List.length_reverse]
  have key : ∀ k, (afterNext (r.segmentIterator rev).1 k).interval = min k r.scraps.length ∧
      (afterNext (r.segmentIterator rev).1 k).scraps.length = r.scraps.length ∧ (afterNext (r.segmentIterator rev).1 k).dir = r.dir ∧
      (afterNext (r.segmentIterator rev).1 k).eof = decide (0 < r.scraps.length ∧ r.scraps.length ≤ k) := by
    intro k
    induction k with
    | zero => exact ⟨by simp [afterNext, VRun.segmentIterator], hs, rfl, (decide_eq_false (by omega)).symm⟩
    | succ k ih =>
      obtain ⟨h1, h2, h3, h4⟩ := ih
      rw [afterNext, SegIter.next, h1, h2]
      by_cases h : min k r.scraps.length ≥ r.scraps.length
      · rw [if_pos h]
        refine ⟨by rw [h1]; omega, h2, h3, ?_⟩
        rw [h4]
        exact decide_eq_decide.mpr ⟨fun x => ⟨x.1, by omega⟩, fun x => ⟨x.1, by omega⟩⟩
      · rw [if_neg h]
        refine ⟨by show min k r.scraps.length + 1 = _; omega, h2, h3, ?_⟩
        show (((afterNext (r.segmentIterator rev).1 k).eof || _) = _)
        rw [h4, Bool.eq_iff_iff]
        simp only [Bool.or_eq_true, decide_eq_true_eq, beq_iff_eq]
        omega
  obtain ⟨h1, h2, h3, h4⟩ := key k
  refine ⟨h4, ?_⟩
  have hd : ∀ d : Dir, r.isOpposite dir = true ↔ r.dir ≠ dir := fun _ => by
    unfold VRun.isOpposite
    rw [bne_iff_ne]
    exact ne_comm
  rw [SegIter.segment, h1, h3]
  by_cases h : min k r.scraps.length = 0
  · rw [if_pos h]
    exact ⟨_, _, _, rfl, hd r.dir⟩
  · rw [if_neg h]
    have hlt : min k r.scraps.length - 1 < (afterNext (r.segmentIterator rev).1 k).scraps.length := by rw [h2]; omega
    rw [List.getElem?_eq_getElem hlt]
    exact ⟨_, _, _, rfl, hd r.dir⟩

example : (afterNext (VRun.segmentIterator { dir := .rtl, length := 4, scraps := [{ l := 6, r := 8 }, { l := 4, r := 6 }] } true).1 1).atEof = false ∧
    (afterNext (VRun.segmentIterator { dir := .rtl, length := 4, scraps := [{ l := 6, r := 8 }, { l := 4, r := 6 }] } true).1 2).atEof = true ∧
    VRun.isOpposite { dir := .rtl, length := 4, scraps := [] } .ltr = true := by decide +kernel

/-- Asking for the segments in reverse order turns the run around for good: another
iterator over the same run finds them in reverse, too. -/
theorem C49_violated : ∃ r : VRun, (afterNext ((r.segmentIterator true).2.segmentIterator false).1 1).segment
    ≠ (afterNext (r.segmentIterator false).1 1).segment :=
  ⟨{ dir := .rtl, length := 4, scraps := [{ l := 6, r := 8 }, { l := 4, r := 6 }] }, by decide +kernel⟩

end Uax
