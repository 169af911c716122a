import Verif.BidiIsoOwn
import Verif.Props.BidiIsolates
import Verif.Props.BidiDirections

/-! Property C69: the text of an isolate is resolved on its own.

`nestedRuns` are the runs in the scraps of a result, one for each isolate in their order;
`ownOptions` are the options under which the text of an isolate is a paragraph of the direction
of the isolate (SpecIsolates.lean). -/

namespace Uax
open Bidi Spec

/-- The property does not hold: what is inside of an isolate depends on what is outside. After an
Arabic letter numbers in isolates are not resolved like after a Latin one, although the
isolates are the same. (By UAX#9 the space in "x 1" is from left to right both times.) -/
theorem C69_violated : ∃ (T : Tables) (o : Options) (i : Isolate) (x y : List Char) (sched : Nat → Nat) (rl rl' : Levels), KnownClasses T ∧ o.markup = none ∧
    firstParagraph T o (withIsolates x [i]) = withIsolates x [i] ∧ firstParagraph T o (withIsolates y [i]) = withIsolates y [i] ∧
    classes T o (withIsolates x [i]) = [cAL, cRLI, cL, cWS, cEN, cPDI, cL] ∧ classes T o (withIsolates y [i]) = [cL, cL, cRLI, cL, cWS, cEN, cPDI, cL] ∧
    (utf8 x).length = 2 ∧ (utf8 y).length = 2 ∧
    Resolves T o sched (utf8 (withIsolates x [i])) rl ∧ Resolves T o sched (utf8 (withIsolates y [i])) rl' ∧
    (nestedRuns rl.scraps).map (movedBy 0) = [[(cRLI, 2, 3), (cL, 3, 4), (cR, 4, 5), (cEN, 5, 6), (cPDI, 6, 7)]] ∧
    (nestedRuns rl'.scraps).map (movedBy 0) = [[(cRLI, 2, 3), (cL, 3, 6), (cPDI, 6, 7)]] := by
  obtain ⟨rl, a1, a2⟩ := resolvedWith_iff (T := sample) (o := { testing := true }) (sched := fun _ => 0) (b := utf8 (withIsolates ['ا'] [⟨'<', ['x', ' ', '1'], '=', ['c']⟩])) (n := 99)
    (f := fun rl => (nestedRuns rl.scraps).map (movedBy 0) == [[(cRLI, 2, 3), (cL, 3, 4), (cR, 4, 5), (cEN, 5, 6), (cPDI, 6, 7)]]) (by decide +kernel)
  obtain ⟨rl', b1, b2⟩ := resolvedWith_iff (T := sample) (o := { testing := true }) (sched := fun _ => 0) (b := utf8 (withIsolates ['a', 'b'] [⟨'<', ['x', ' ', '1'], '=', ['c']⟩])) (n := 99)
    (f := fun rl => (nestedRuns rl.scraps).map (movedBy 0) == [[(cRLI, 2, 3), (cL, 3, 6), (cPDI, 6, 7)]]) (by decide +kernel)
  exact ⟨sample, { testing := true }, ⟨'<', ['x', ' ', '1'], '=', ['c']⟩, ['ا'], ['a', 'b'], _, rl, rl', sample_known, rfl, by decide +kernel, by decide +kernel,
    by decide +kernel, by decide +kernel, by decide +kernel, by decide +kernel, a1, b1, eq_of_beq a2, eq_of_beq b2⟩

/-- Isolates with FSI have the direction of the text around them, not the one of their first strong
character: in "a⁨B !⁩c" (FSI; the first strong character of the isolate is from right to left) the space
and the exclamation mark are from left to right, but resolved on its own, from right to left,
all of "B !" is from right to left. -/
theorem C69_fsi_violated : ∃ (T : Tables) (o : Options) (i : Isolate) (x : List Char) (sched : Nat → Nat) (rl own : Levels), KnownClasses T ∧ o.markup = none ∧
    firstParagraph T o (withIsolates x [i]) = withIsolates x [i] ∧
    classes T o (withIsolates x [i]) = [cL, cFSI, cR, cWS, cON, cPDI, cL] ∧ classes T o i.text = [cR, cWS, cON] ∧
    Resolves T o sched (utf8 (withIsolates x [i])) rl ∧ Resolves T (ownOptions o cRLI) sched (utf8 i.text) own ∧
    (nestedRuns rl.scraps).map (movedBy 0) = [[(cFSI, 1, 4), (cR, 4, 5), (cL, 5, 7), (cPDI, 7, 8)]] ∧
    movedBy 4 own.scraps = [(cRLI, 4, 4), (cR, 4, 7), (cPDI, 7, 7)] := by
  obtain ⟨rl, a1, a2⟩ := resolvedWith_iff (T := sample) (o := { testing := true }) (sched := fun _ => 0) (b := utf8 (withIsolates ['a'] [⟨Char.ofNat 0x2068, ['B', ' ', '!'], '=', ['c']⟩])) (n := 99)
    (f := fun rl => (nestedRuns rl.scraps).map (movedBy 0) == [[(cFSI, 1, 4), (cR, 4, 5), (cL, 5, 7), (cPDI, 7, 8)]]) (by decide +kernel)
  obtain ⟨own, b1, b2⟩ := resolvedWith_iff (T := sample) (o := ownOptions { testing := true } cRLI) (sched := fun _ => 0) (b := utf8 ['B', ' ', '!']) (n := 99)
    (f := fun rl => movedBy 4 rl.scraps == [(cRLI, 4, 4), (cR, 4, 7), (cPDI, 7, 7)]) (by decide +kernel)
  exact ⟨sample, { testing := true }, ⟨Char.ofNat 0x2068, ['B', ' ', '!'], '=', ['c']⟩, ['a'], _, rl, own, sample_known, rfl, by decide +kernel,
    by decide +kernel, by decide +kernel, a1, b1, eq_of_beq a2, eq_of_beq b2⟩

/-- In every text with such isolates, the run nested for an isolate consists of its initiator,
of what its text is resolved to when it is a paragraph by itself, of the direction of the isolate
and at its place in the text, and of the PDI. (The results, for both the whole text and the
isolate, exist by `C41_isolates_partial` and `C41_ends_partial`.)
Missing: other isolates, those which begin with a nonspacing mark, other numbers. -/
theorem C69_own_partial (T : Tables) (o : Options) (sched sched' : Nat → Nat) (t lead : List Char) (pre post : List Isolate) (i : Isolate) (rl own : Levels)
    (hT : KnownClasses T) (ho : o.markup = none) (ht : firstParagraph T o t = withIsolates lead (pre ++ i :: post))
    (h : FlatIsolates T o lead (pre ++ i :: post)) (hn : (classes T o i.text).head? ≠ some cNSM)
    (hr : Resolves T o sched (utf8 t) rl) (hr' : Resolves T (ownOptions o (charClass T o i.opening)) sched' (utf8 i.text) own) :
    ∃ run, (nestedRuns rl.scraps)[pre.length]? = some run ∧
      movedBy 0 run =
        (charClass T o i.opening, (utf8 (withIsolates lead pre)).length, (utf8 (withIsolates lead pre ++ [i.opening])).length) ::
        movedBy (utf8 (withIsolates lead pre ++ [i.opening])).length own.scraps.tail.dropLast ++
        [(cPDI, (utf8 (withIsolates lead pre ++ i.opening :: i.text)).length,
          (utf8 (withIsolates lead pre ++ i.opening :: i.text ++ [i.closing])).length)] := by
  obtain ⟨N, p, e1, -, -, -, g⟩ := resolve_isolates hT ho sched False ht h (fun h => h.elim)
  have := (resolves_of e1).unique hr
  subst this
  obtain ⟨run, r1, r2⟩ := own_at pre i post _ _ g
  obtain ⟨rl', k1, k2⟩ := resolve_own hT ho sched' ht h (by simp) hn r2
  have := k1.unique hr'
  subst this
  refine ⟨run, ?_, ?_⟩
  · have : nestedRuns (levelsOf o p.stack).scraps = nestedRuns p.stack := by simp [nestedRuns, levelsOf]
    rw [this]
    exact r1
  · have l : ∀ a b : List Char, (utf8 (a ++ b)).length = (utf8 a).length + (utf8 b).length := by
      intro a b
      rw [← tokens_width, ← tokens_width, ← tokens_width, ← widthOf_append, ← List.map_append]
    have lw : (utf8 (withIsolates lead pre)).length = (utf8 lead).length + (utf8 (withIsolates [] pre)).length := by
      rw [← l]
      simp [withIsolates]
    rw [k2, List.append_assoc, l _ (i.opening :: i.text), l _ (i.opening :: i.text ++ [i.closing]), l _ [i.opening], lw]

/-- The classes which the rules of UAX#9 give to the characters of such an isolate are those
of its run: DirectionAt for the levels of this run.
Missing: in addition brackets, Arabic numbers and separators beside each other within the isolate. -/
theorem C69_directions_partial (T : Tables) (o : Options) (sched : Nat → Nat) (t lead : List Char) (pre post : List Isolate) (i : Isolate) (rl : Levels)
    (hT : KnownClasses T) (ho : o.markup = none) (ht : firstParagraph T o t = withIsolates lead (pre ++ i :: post))
    (h : FlatIsolates T o lead (pre ++ i :: post)) (h1 : PlainClasses (classes T o i.text)) (hn : (classes T o i.text).head? ≠ some cNSM) (e : Class)
    (he : (e = cL ∧ charClass T o i.opening = cLRI) ∨ (e = cR ∧ charClass T o i.opening = cRLI))
    (h4 : SeparatorsSettled e (w5 cON (w4 cON (w3 (w2 e (w1 e (classes T o i.text)))))) (resolved e (classes T o i.text)))
    (hr : Resolves T o sched (utf8 t) rl) :
    ∃ run, (nestedRuns rl.scraps)[pre.length]? = some run ∧ ∀ a c b, i.text = a ++ c :: b → ∀ k, k < (utf8 [c]).length →
      (directions e (classes T o i.text))[a.length]? =
        some ({ rl with scraps := run }.directionAt ((utf8 (withIsolates lead pre ++ i.opening :: a)).length + k)) := by
  have hpar := own_paragraph ht (i := i) (by simp) (charClass T o i.opening)
  have hout : outer (ownOptions o (charClass T o i.opening)) = e := by
    rcases he with ⟨rfl, e⟩ | ⟨rfl, e⟩ <;> rw [e] <;> rfl
  have hcl : classes T (ownOptions o (charClass T o i.opening)) (firstParagraph T (ownOptions o (charClass T o i.opening)) i.text) = classes T o i.text := by
    rw [hpar]; rfl
  have hnum : NumbersLTR e (classes T o i.text) := by
    have := h.numbersInside i (by simp)
    rcases he with ⟨rfl, e⟩ | ⟨rfl, e⟩ <;> rw [e] at this
    · rwa [if_pos rfl] at this
    · rwa [if_neg (by decide)] at this
  obtain ⟨own, o1, o2⟩ := C52_directions_partial T (ownOptions o (charClass T o i.opening)) sched i.text hT ho (by rw [hcl]; exact h1) (by rw [hcl]; exact hn)
    (by rw [hcl, hout]; exact hnum) (by rw [hcl, hout]; exact h4)
  obtain ⟨N, p, ys, y1, y2, y3, y4, -, y5⟩ := resolve_bytes (T := T) (o := ownOptions o (charClass T o i.opening)) hT ho sched i.text
    (by rw [hcl]; exact h1) (by rw [hcl]; exact hn) (by rw [hcl, hout]; exact hnum) (by rw [hcl, hout]; exact h4) (known_notNull hT)
  have := (resolves_of y1).unique o1
  subst this
  rw [hcl, hout, hpar] at o2
  rw [hpar] at y3
  obtain ⟨run, r1, r2⟩ := C69_own_partial T o sched sched t lead pre post i rl _ hT ho ht h hn hr o1
  refine ⟨run, r1, ?_⟩
  intro a c b hab k hk
  rw [o2 a c b hab k hk, Option.some.injEq]
  have l : ∀ a b : List Char, (utf8 (a ++ b)).length = (utf8 a).length + (utf8 b).length := by
    intro a b
    rw [← tokens_width, ← tokens_width, ← tokens_width, ← widthOf_append, ← List.map_append]
  have hpos : (utf8 a).length + k < (utf8 i.text).length := by
    rw [hab, l, utf8_len c b]
    omega
  obtain ⟨s, s1, -⟩ := find_bytes ys 0 _ _ y3 (fun s hs => (y4 s hs).2.1) (Nat.zero_le _) hpos
  have hd : ∀ (x : Levels) (q : Nat), x.directionAt q =
      match ((movedBy 0 x.scraps).find? fun y => y.2.1 ≤ q && q < y.2.2).map (·.1) with
      | some c => directionOf { clz := c, l := 0, r := 0 } .ltr
      | none => .ltr := by
    intro x q
    unfold Levels.directionAt movedBy
    rw [List.find?_map]
    simp only [Function.comp_def, Nat.add_zero]
    cases x.scraps.find? (fun s => decide (s.l ≤ q) && decide (q < s.r)) <;> rfl
  have e1 : (levelsOf (ownOptions o (charClass T o i.opening)) p.stack).directionAt ((utf8 a).length + k) = directionOf s .ltr := by
    unfold Levels.directionAt levelsOf
    dsimp only
    rw [y2, List.cons_append, List.find?_cons_of_neg, List.find?_append, s1]
    · rfl
    · have : (initialOuterScrap (ownOptions o (charClass T o i.opening)) true).r = 0 := rfl
      rw [this]
      simp
  have tl : (levelsOf (ownOptions o (charClass T o i.opening)) p.stack).scraps.tail.dropLast = ys := by
    unfold levelsOf
    dsimp only
    rw [y2, List.cons_append, List.tail_cons, List.dropLast_concat]
  have sh : ∀ d, (movedBy d ys).find? (fun y => y.2.1 ≤ d + ((utf8 a).length + k) && d + ((utf8 a).length + k) < y.2.2) = some (s.clz, s.l + d, s.r + d) := by
    intro d
    unfold movedBy
    rw [List.find?_map]
    have : ((fun y : Class × Nat × Nat => decide (y.2.1 ≤ d + ((utf8 a).length + k)) && decide (d + ((utf8 a).length + k) < y.2.2)) ∘
        fun s : Scrap => (s.clz, s.l + d, s.r + d)) = fun s : Scrap => decide (s.l ≤ (utf8 a).length + k) && decide ((utf8 a).length + k < s.r) := by
      funext s
      simp only [Function.comp_apply]
      congr 1 <;> exact decide_eq_decide.mpr (by omega)
    rw [this, s1]
    rfl
  rw [e1, hd, r2, tl]
  have hlen : (utf8 (withIsolates lead pre ++ i.opening :: a)).length + k = (utf8 (withIsolates lead pre ++ [i.opening])).length + ((utf8 a).length + k) := by
    rw [l, l, utf8_len i.opening a]
    omega
  rw [hlen, List.cons_append, List.find?_cons_of_neg (by simp only [Bool.and_eq_true, decide_eq_true_eq]; omega), List.find?_append, sh]
  rfl

/-- Both isolates of the sample meet the conditions. -/
example : isolatesList = [] ++ ⟨'<', "Bב́ c 3".toList, '=', ", [D] ".toList⟩ :: [⟨'>', "e 4,5 F".toList, '=', "!".toList⟩] ∧
    (∀ i ∈ isolatesList, PlainClasses (classes sample { testing := true } i.text) ∧ (classes sample { testing := true } i.text).head? ≠ some cNSM) ∧
    SeparatorsSettled cR (w5 cON (w4 cON (w3 (w2 cR (w1 cR (classes sample { testing := true } "Bב́ c 3".toList))))))
      (resolved cR (classes sample { testing := true } "Bב́ c 3".toList)) ∧
    directions cR (classes sample { testing := true } "Bב́ c 3".toList) = [.rtl, .rtl, .rtl, .rtl, .ltr, .ltr, .ltr] := by
  refine ⟨rfl, ?_, ?_, by decide +kernel⟩
  · show ∀ i ∈ isolatesList, (∀ c ∈ _, _) ∧ _
    unfold isolatesList
    decide +kernel
  · exact separatorsSettled_of (by decide +kernel)

end Uax
