import Verif.BidiLookup

/-
The handlers of bracket pairs, one for each isolating run sequence, after the scanner has
ended: they are a function of the brackets and isolates of the text.
-/
namespace Uax.Bidi
open Spec

/-- The part of the scanner's state which has to do with brackets. -/
structure House where
  handlers : List Handler
  irs : List (Nat × Nat)
  irsStack : List Nat
  bd16 : Nat

def Scanner.house (sc : Scanner) : House := ⟨sc.handlers, sc.irs, sc.irsStack, sc.bd16⟩

def House.at (H : House) (pos : Nat) : Nat := ((H.irs.find? (·.1 == pos)).map (·.2)).getD 0

def House.tell (H : House) (r : Nat) (s : Scrap) : House :=
  if isBracket s = false then H
  else if s.clz = cBRACKO then { H with handlers := setHandler H.handlers H.bd16 (·.pushOpening r s) }
  else { H with handlers := setHandler H.handlers H.bd16 (·.findPair r s) }

def House.enter (H : House) (pos : Nat) : House :=
  let last := lastOf H.handlers H.handlers.length (H.at 0)
  let new := H.handlers.length
  { handlers := setHandler H.handlers last (fun h => { h with next := some new }) ++ [{ firstpos := pos }]
    irs := (pos, new) :: H.irs
    irsStack := pos :: H.irsStack
    bd16 := new }

def House.leave (H : House) (pos : Nat) : House :=
  match H.irsStack with
  | [] => H
  | _ :: rest =>
    let hs := setHandler H.handlers H.bd16 fun h => { h with lastpos := pos }
    match rest with
    | [] => { H with handlers := hs, irsStack := rest }
    | tos :: _ => { H with handlers := hs, irsStack := rest, bd16 := H.at tos }

/-- What an initiator or PDI does when it is sent. -/
def House.pass (H : House) (s : Scrap) : House :=
  if isIsolate s then (if s.clz = cPDI then H.leave s.l else H.enter s.l) else H

theorem house_tell (sc : Scanner) (r : Nat) (s : Scrap) : (prepareRuleBD16 sc r s).house = sc.house.tell r s := by
  unfold prepareRuleBD16 House.tell
  split
  · rfl
  · split <;> rfl

theorem house_pass (sc : Scanner) (s : Scrap) (h : isIsolate s = true) : (isolatingRunSwitch sc s).house = sc.house.pass s := by
  unfold isolatingRunSwitch House.pass
  rw [if_pos h]
  split
  · unfold House.leave
    cases hs : sc.irsStack with
    | nil =>
      have : sc.house.irsStack = [] := hs
      rw [this]
    | cons x rest =>
      have : sc.house.irsStack = x :: rest := hs
      rw [this]
      cases rest <;> rfl
  · rfl

/-- The house at the end of a paragraph. -/
def houseUp (T : Tables) (o : Options) : List (Nat × Nat) → Scrap → Option Nat → List DirContext → House → House
  | [], cur, _, _, H => H.pass cur
  | (r, n) :: rest, cur, a, st, H =>
    let c := runeClass T o r
    let la := nextScrap cur c n
    if breaks cur c then
      let sw := switchContext cur st la
      let new := inheritStrongTypes la sw.1 a
      houseUp T o rest new (if c = cAL then some la.l else a) sw.2 ((H.pass cur).tell r new)
    else houseUp T o rest (collapse cur la cur.clz) a st H

/-- What will become of a scanner's house. -/
def Scanner.later (T : Tables) (o : Options) (sc : Scanner) : House :=
  match sc.pc with
  | .run => houseUp T o (paragraph T o sc.input) sc.current sc.lastAL sc.ctxstack sc.house
  | .send _ r la isAL | .resume r la isAL =>
    let p := proceed sc r la isAL
    houseUp T o (paragraph T o p.input) p.current p.lastAL p.ctxstack p.house
  | _ => sc.house

theorem proceed_house (sc : Scanner) (r : Nat) (la : Scrap) (isAL : Bool) :
    (proceed sc r la isAL).house = sc.house.tell r (inheritStrongTypes la (switchContext sc.current sc.ctxstack la).1 sc.lastAL) := by
  have := house_tell { sc with ctxstack := (switchContext sc.current sc.ctxstack la).2 } r
    (inheritStrongTypes la (switchContext sc.current sc.ctxstack la).1 sc.lastAL)
  exact this

theorem later_step {T : Tables} {o : Options} (ho : o.markup = none) {sc sc' : Scanner} (h : sc.step T o = some sc') :
    sc'.later T o = sc.later T o := by
  unfold Scanner.step at h
  cases hp : sc.pc with
  | resume r la isAL =>
    rw [hp] at h
    injection h with h
    subst h
    unfold Scanner.later
    rw [hp, (proceed_eq sc r la isAL).2.1]
  | run =>
    rw [hp] at h
    injection h with h
    subst h
    have he : sc.later T o = houseUp T o (paragraph T o sc.input) sc.current sc.lastAL sc.ctxstack sc.house := by
      unfold Scanner.later
      rw [hp]
    rw [he]
    by_cases hpar : paragraph T o sc.input = []
    · rw [hpar, houseUp]
      unfold scanLoop nextRune
      rw [ho]
      dsimp only
      have hr : (readRune T o sc).1 = none ∧ (readRune T o sc).2.house = sc.house ∧ (readRune T o sc).2.current = sc.current := by
        unfold readRune
        split
        · exact ⟨rfl, rfl, rfl⟩
        · rename_i r n rest hin
          rw [hin] at hpar
          have hs : isSeparator T o r = true := by
            by_cases hs : isSeparator T o r = true
            · exact hs
            · rw [paragraph_cons (by simpa using hs)] at hpar
              cases hpar
          unfold isSeparator at hs
          dsimp only
          rw [if_pos (by simpa using hs)]
          exact ⟨rfl, rfl, rfl⟩
      obtain ⟨r1, r2, r3⟩ := hr
      generalize readRune T o sc = x at r1 r2 r3
      obtain ⟨x1, x2⟩ := x
      dsimp only at r1 r2 r3
      subst r1
      dsimp only
      split
      · rename_i hi
        show (isolatingRunSwitch x2 x2.current).house = _
        rw [house_pass _ _ hi, r2, r3]
      · rename_i hi
        show x2.house = _
        rw [r2]
        unfold House.pass
        rw [← r3, if_neg hi]
    · obtain ⟨r, n, rest, hin, hsep⟩ : ∃ r n rest, sc.input = (r, n) :: rest ∧ isSeparator T o r = false := by
        cases hin : sc.input with
        | nil => rw [hin] at hpar; exact absurd rfl hpar
        | cons x rest =>
          obtain ⟨r, n⟩ := x
          refine ⟨r, n, rest, rfl, ?_⟩
          cases hs : isSeparator T o r with
          | false => rfl
          | true => rw [hin] at hpar; simp [paragraph, hs] at hpar
      have hl := scanLoop_next ho hin hsep
      rw [hin, paragraph_cons hsep, houseUp]
      dsimp only
      by_cases hb : breaks sc.current (runeClass T o r) = true
      · rw [if_pos hb] at hl ⊢
        by_cases hz : sc.current.clz = cNULL
        · rw [if_neg (by simpa using hz)] at hl
          rw [hl]
          have hq := proceed_eq { sc with input := rest } r (nextScrap sc.current (runeClass T o r) n) (runeClass T o r == cAL)
          have hh := proceed_house { sc with input := rest } r (nextScrap sc.current (runeClass T o r) n) (runeClass T o r == cAL)
          unfold Scanner.later
          rw [hq.2.1]
          dsimp only
          rw [hq.1, hq.2.2.1, hq.2.2.2.1, hq.2.2.2.2, hh]
          have hps : sc.house.pass sc.current = sc.house := by
            unfold House.pass isIsolate
            rw [hz]; rfl
          rw [hps]
          simp only [beq_iff_eq]
          rfl
        · rw [if_pos hz] at hl
          rw [hl]
          unfold Scanner.later
          dsimp only
          generalize hS : (if isIsolate sc.current = true then isolatingRunSwitch { sc with input := rest } sc.current else { sc with input := rest }) = S
          have hSc : S.current = sc.current ∧ S.input = rest ∧ S.lastAL = sc.lastAL ∧ S.ctxstack = sc.ctxstack ∧ S.house = sc.house.pass sc.current := by
            rw [← hS]
            split
            · rename_i hi
              obtain ⟨a, b, c, d⟩ := switch_current { sc with input := rest } sc.current
              exact ⟨a, b, c, d, house_pass _ _ hi⟩
            · rename_i hi
              refine ⟨rfl, rfl, rfl, rfl, ?_⟩
              unfold House.pass
              rw [if_neg hi]
              rfl
          obtain ⟨e1, e2, e3, e4, e5⟩ := hSc
          have hq := proceed_eq { S with pc := .send sc.current r (nextScrap sc.current (runeClass T o r) n) (runeClass T o r == cAL) } r
            (nextScrap sc.current (runeClass T o r) n) (runeClass T o r == cAL)
          have hh := proceed_house { S with pc := .send sc.current r (nextScrap sc.current (runeClass T o r) n) (runeClass T o r == cAL) } r
            (nextScrap sc.current (runeClass T o r) n) (runeClass T o r == cAL)
          have e6 : ({ S with pc := .send sc.current r (nextScrap sc.current (runeClass T o r) n) (runeClass T o r == cAL) } : Scanner).house = S.house := rfl
          rw [e6] at hh
          dsimp only at hq hh
          rw [hq.1, hq.2.2.1, hq.2.2.2.1, hq.2.2.2.2, hh, e1, e2, e3, e4, e5]
          simp only [beq_iff_eq]
      · rw [if_neg hb] at hl ⊢
        rw [hl]
        unfold Scanner.later
        dsimp only
        rw [hp]
        rfl
  | _ => rw [hp] at h; cases h

theorem later_steps {T : Tables} {o : Options} (ho : o.markup = none) : ∀ (n : Nat) (sc : Scanner), (sc.steps T o n).later T o = sc.later T o := by
  intro n
  induction n with
  | zero => intro sc; rfl
  | succ n ih =>
    intro sc
    rw [Scanner.steps]
    cases hs : sc.step T o with
    | none => rfl
    | some s1 => exact (ih s1).trans (later_step ho hs)

theorem later_feeds {T : Tables} {o : Options} (ho : o.markup = none) {sched : Nat → Nat} {e e' : Scanner × Nat} {ss : List Scrap}
    (hf : Feeds (scannerEnv T o sched) e ss e') : e'.1.later T o = e.1.later T o := by
  have recv : ∀ {e e' : Scanner × Nat} {x : Scrap}, (scannerEnv T o sched).recv e = some (x, e') → e'.1.later T o = e.1.later T o := by
    intro e e' x hr
    obtain ⟨sc, i⟩ := e
    change ((sc.steps T o (3 * sc.input.length + 4)).receive).map _ = _ at hr
    have hk := later_steps (T := T) ho (3 * sc.input.length + 4) sc
    show _ = sc.later T o
    rw [← hk]
    generalize sc.steps T o (3 * sc.input.length + 4) = s1 at hr
    unfold Scanner.receive at hr
    split at hr
    all_goals
      simp only [Option.map_some, Option.map_none, Option.some.injEq, Prod.mk.injEq, reduceCtorEq] at hr
    · rename_i s r la isAL hpc
      rw [← hr.2]
      simp only [Scanner.later, hpc]
      have a := proceed_eq s1 r la isAL
      have a' := proceed_eq { s1 with pc := .resume r la isAL } r la isAL
      have b := proceed_house s1 r la isAL
      have b' := proceed_house { s1 with pc := .resume r la isAL } r la isAL
      dsimp only at a' b'
      rw [a.1, a.2.2.1, a.2.2.2.1, a.2.2.2.2, b, a'.1, a'.2.2.1, a'.2.2.2.1, a'.2.2.2.2, b']
      rfl
    all_goals
      rename_i hpc
      rw [← hr.2]
      try simp only [Scanner.later, hpc]
    all_goals try rfl
  induction hf with
  | stop hr _ => exact recv hr
  | more hr _ _ ih => exact ih.trans (recv hr)

/-- The house when the scanner has ended. -/
theorem house_ended {T : Tables} {o : Options} (ho : o.markup = none) {sched : Nat → Nat} {b : List Nat} {fin : Scanner} {ss : List Scrap}
    (hf : Feeds (scannerEnv T o sched) (newScanner o b, 0) ss (fin, 0)) (he : Ended fin ss) :
    fin.house = houseUp T o (paragraph T o (runesOf b)) (initialOuterScrap o false) none [] ⟨[{}], [(0, 0)], [0], 0⟩ := by
  have := later_feeds ho hf
  have e : fin.later T o = fin.house := by
    unfold Scanner.later
    unfold Ended at he
    by_cases hs : ss = []
    · rw [he, if_pos hs]
    · rw [he, if_neg hs]
  rw [← e, this]
  rfl

end Uax.Bidi
