import Verif.BidiText

/-
Resolving a text without isolates, with the scanner running concurrently: the
schedule does not matter.
-/
namespace Uax.Bidi

open Spec (Tiles NumbersLTR)

/-- The scanner does not do anything more, the opening brackets of pairs have these classes, and the closing brackets this property. -/
def AtRestIn (T : Tables) (o : Options) (C : Class → Prop) (D : Scrap → Prop) (env : Scanner × Nat) : Prop :=
  env.1.step T o = none ∧ ∀ h ∈ env.1.handlers, ∀ p ∈ h.pairings, C p.opening.clz ∧ D p.closing

/-- The scanner does not do anything more, and the bracket pairs have not been
changed to other classes than these. -/
def AtRest (T : Tables) (o : Options) (env : Scanner × Nat) : Prop := AtRestIn T o (fun c => Settled c ∨ c = cBRACKO) (fun _ => True) env

theorem mem_modify {α : Type} {l : List α} {i : Nat} {f : α → α} {x : α} (h : x ∈ l.modify i f) : x ∈ l ∨ ∃ y ∈ l, x = f y := by
  obtain ⟨j, hj⟩ := List.mem_iff_getElem?.mp h
  rw [List.getElem?_modify] at hj
  cases hy : l[j]? with
  | none => rw [hy] at hj; cases hj
  | some y =>
    rw [hy] at hj
    change some (if i = j then f y else y) = some x at hj
    have hm := List.mem_of_getElem? hy
    by_cases hi : i = j
    · rw [if_pos hi] at hj
      exact Or.inr ⟨y, hm, by simpa using hj.symm⟩
    · rw [if_neg hi] at hj
      left
      have : y = x := by simpa using hj
      rw [← this]; exact hm

theorem atRestIn_pair {T : Tables} {o : Options} {sched : Nat → Nat} {C : Class → Prop} {D : Scrap → Prop} {env : Scanner × Nat} (g : AtRestIn T o C D env) (s : Scrap) :
    AtRestIn T o C D ((scannerEnv T o sched).pairing env s).2 ∧ ∀ pr, ((scannerEnv T o sched).pairing env s).1 = some pr → C pr.opening.clz ∧ D pr.closing := by
  obtain ⟨sc, i⟩ := env
  obtain ⟨h1, h2⟩ := g
  show AtRestIn T o C D (sc.steps T o (sched i), i + 1) ∧ _
  have he : (scannerEnv T o sched).pairing (sc, i) s = (((sc.steps T o (sched i)).handlers[(sc.steps T o (sched i)).bd16For s.l]?).bind (·.find s),
    (sc.steps T o (sched i), i + 1)) := rfl
  rw [he, steps_stuck h1]
  refine ⟨⟨h1, h2⟩, ?_⟩
  intro pr hpr
  dsimp only at hpr
  rw [Option.bind_eq_some_iff] at hpr
  obtain ⟨h, hh, hf⟩ := hpr
  exact h2 h (List.mem_of_getElem? hh) pr (List.mem_of_find?_eq_some hf)

theorem atRestIn_change {T : Tables} {o : Options} {sched : Nat → Nat} {C : Class → Prop} {D : Scrap → Prop} {env : Scanner × Nat} (g : AtRestIn T o C D env) (s : Scrap)
    (hs : C s.clz) : AtRestIn T o C D ((scannerEnv T o sched).change env s) := by
  obtain ⟨sc, i⟩ := env
  obtain ⟨h1, h2⟩ := g
  have he : (scannerEnv T o sched).change (sc, i) s = ({ sc.steps T o (sched i) with
    handlers := setHandler (sc.steps T o (sched i)).handlers ((sc.steps T o (sched i)).bd16For s.l) (·.changeOpening s) }, i + 1) := rfl
  rw [he, steps_stuck h1]
  refine ⟨?_, ?_⟩
  · unfold Scanner.step at h1 ⊢
    dsimp only at h1 ⊢
    cases hp : sc.pc <;> rw [hp] at h1 <;> simp at h1 ⊢
  · intro h hh p hp
    dsimp only at hh
    rcases mem_modify hh with hm | ⟨y, hy, rfl⟩
    · exact h2 h hm p hp
    · simp only [Handler.changeOpening, List.mem_map] at hp
      obtain ⟨q, hq, rfl⟩ := hp
      split
      · exact ⟨hs, (h2 y hy q hq).2⟩
      · exact h2 y hy q hq

theorem atRest_brackets (T : Tables) (o : Options) (sched : Nat → Nat) : Brackets (scannerEnv T o sched) (AtRest T o) where
  pair g s := ⟨(atRestIn_pair g s).1, fun pr h => ((atRestIn_pair g s).2 pr h).1⟩
  change g s hs := atRestIn_change g s (Or.inl hs)

/-- Openings on the stack and in pairs are scraps of this class. -/
def Handler.Openings (h : Handler) : Prop :=
  (∀ b ∈ h.stack, b.opening.clz = cBRACKO) ∧ ∀ p ∈ h.pairings, p.opening.clz = cBRACKO

theorem popLoop_mem {r : Nat} : ∀ (l : List BrktPos) (x : BrktPos) (below : List BrktPos), popLoop r l = some (x, below) → x ∈ l ∧ ∀ y ∈ below, y ∈ l := by
  intro l
  induction l with
  | nil => intro x below h; cases h
  | cons y ys ihy =>
    intro x below h
    unfold popLoop at h
    split at h
    · injection h with h; injection h with e1 e2; subst e1; subst e2
      exact ⟨List.mem_cons_self .., fun z hz => List.mem_cons_of_mem _ hz⟩
    · obtain ⟨g1, g2⟩ := ihy x below h
      exact ⟨List.mem_cons_of_mem _ g1, fun z hz => List.mem_cons_of_mem _ (g2 z hz)⟩

theorem openings_push {h : Handler} (r : Nat) (s : Scrap) (hh : h.Openings) : (h.pushOpening r s).Openings := by
  refine ⟨?_, hh.2⟩
  intro b hb
  unfold Handler.pushOpening pushStack at hb
  dsimp only at hb
  split at hb
  · exact hh.1 b hb
  · split at hb
    · exact hh.1 b hb
    · rename_i hc
      split at hb
      · rw [List.mem_append, List.mem_singleton] at hb
        rcases hb with hb | rfl
        · exact hh.1 b hb
        · simpa using hc
      · exact hh.1 b hb

theorem openings_find {h : Handler} (r : Nat) (s : Scrap) (hh : h.Openings) : (h.findPair r s).Openings := by
  unfold Handler.findPair
  cases hp : popWith h.stack r with
  | none => exact hh
  | some x =>
    obtain ⟨b, stack⟩ := x
    dsimp only
    unfold popWith at hp
    rw [Option.map_eq_some_iff] at hp
    obtain ⟨⟨x, below⟩, e1, e2⟩ := hp
    injection e2 with e2 e3
    subst e2
    obtain ⟨g1, g2⟩ := popLoop_mem _ _ _ e1
    refine ⟨?_, ?_⟩
    · intro y hy
      dsimp only at hy
      rw [← e3, List.mem_reverse] at hy
      exact hh.1 y (by simpa using g2 y hy)
    · intro p hp
      dsimp only at hp
      rw [List.mem_append, List.mem_cons] at hp
      rcases hp with hp | rfl | hp
      · exact hh.2 p (List.mem_of_mem_take hp)
      · exact hh.1 x (by simpa using g1)
      · exact hh.2 p (List.mem_of_mem_drop hp)

theorem pairUp_openings {T : Tables} {o : Options} : ∀ (inp : List (Nat × Nat)) (cur : Scrap) (a : Option Nat) (st : List DirContext) (h : Handler),
    h.Openings → (pairUp T o inp cur a st h).Openings := by
  intro inp
  induction inp with
  | nil => intro cur a st h hh; exact hh
  | cons x rest ih =>
    obtain ⟨r, n⟩ := x
    intro cur a st h hh
    rw [pairUp]
    dsimp only
    by_cases hb : breaks cur (runeClass T o r) = true
    · rw [if_pos hb]
      refine ih _ _ _ _ ?_
      split
      · exact hh
      · split
        · exact openings_push _ _ hh
        · exact openings_find _ _ hh
    · rw [if_neg hb]
      exact ih _ _ _ _ hh

theorem ended_atRest {T : Tables} {o : Options} {sc : Scanner} {ss : List Scrap} (h : Ended sc ss) : sc.step T o = none := by
  unfold Ended at h
  unfold Scanner.step
  rw [h]
  by_cases hs : ss = []
  · rw [if_pos hs]
  · rw [if_neg hs]

/-- A text whose scraps are as described is resolved. -/
theorem resolve_text {T : Tables} {o : Options} (ho : o.markup = none) (hT : ∀ r, T.cls r ≠ cNULL) (sched : Nat → Nat) (b : List Nat)
    {tile : Prop} {len : Nat} (h : Good1 tile len [] (scrapsOf T o b)) :
    ∃ N p, resolveParagraph T o sched b N = .returns (levelsOf o p.stack, p) ∧ Good2 tile len p.stack [] := by
  obtain ⟨fin, h1, h2, h3⟩ := scanner_feeds ho hT sched b
  have hn : NoIsolates (scrapsOf T o b) := fun s hs => (h.1 s (by simpa using hs)).2
  obtain ⟨N, p, e1, e2, -⟩ := resolve_stream (atRest_brackets T o sched) (o := o) h1 h ⟨ended_atRest h2, by
    intro x hx
    rw [h3 hn, List.mem_singleton] at hx
    subst hx
    intro p hp
    exact ⟨Or.inr ((pairUp_openings _ _ _ _ {} ⟨by simp, by simp⟩).2 p hp), trivial⟩⟩
  exact ⟨N, p, e1, e2⟩

end Uax.Bidi
