import Verif.BidiChars

/-
Where the scanner's goroutine is when a paragraph has been resolved.
-/
namespace Uax.Bidi
open Spec

theorem resting_brackets (T : Tables) (o : Options) (sched : Nat → Nat) (pc : Pc) :
    Brackets (scannerEnv T o sched) (fun env => AtRest T o env ∧ env.1.pc = pc) where
  pair := by
    rintro ⟨sc, i⟩ ⟨h, hpc⟩ s
    obtain ⟨a, b⟩ := (atRest_brackets T o sched).pair h s
    refine ⟨⟨a, ?_⟩, b⟩
    show (sc.steps T o (sched i)).pc = pc
    rw [steps_stuck h.1]
    exact hpc
  change := by
    rintro ⟨sc, i⟩ ⟨h, hpc⟩ s hs
    refine ⟨(atRest_brackets T o sched).change h s hs, ?_⟩
    show (sc.steps T o (sched i)).pc = pc
    rw [steps_stuck h.1]
    exact hpc

/-- A text whose scraps are as described is resolved, and where the scanner is then. -/
theorem resolve_ends {T : Tables} {o : Options} (ho : o.markup = none) (hT : ∀ r, T.cls r ≠ cNULL) (sched : Nat → Nat) (b : List Nat)
    {tile : Prop} {len : Nat} (h : Good1 tile len [] (scrapsOf T o b)) :
    ∃ N p, resolveParagraph T o sched b N = .returns (levelsOf o p.stack, p) ∧ Ended p.env.1 (scrapsOf T o b) := by
  obtain ⟨fin, h1, h2, h3⟩ := scanner_feeds ho hT sched b
  have hn : NoIsolates (scrapsOf T o b) := fun s hs => (h.1 s (by simpa using hs)).2
  obtain ⟨N, p, e1, -, e3⟩ := resolve_stream (resting_brackets T o sched fin.pc) (o := o) h1 h ⟨⟨ended_atRest h2, by
    intro x hx
    rw [h3 hn, List.mem_singleton] at hx
    subst hx
    intro p hp
    exact ⟨Or.inr ((pairUp_openings _ _ _ _ {} ⟨by simp, by simp⟩).2 p hp), trivial⟩⟩, rfl⟩
  refine ⟨N, p, e1, ?_⟩
  unfold Ended at h2 ⊢
  rw [e3.2, h2]

/-- There is a scrap unless there are only marks. -/
theorem emit_empty {T : Tables} {o : Options} (hT : KnownClasses T) : ∀ (t : List Char) (cur : Scrap) (a : Option Nat) (st : List DirContext),
    emit T o (t.map fun c => (c.toNat, (utf8 [c]).length)) cur a st = [] ↔ cur.clz = cNULL ∧ ∀ c ∈ classes T o t, c = cNSM := by
  intro t
  induction t with
  | nil =>
    intro cur a st
    rw [List.map_nil, emit]
    split
    · simpa [classes] using by assumption
    · simpa [classes] using by assumption
  | cons c t ih =>
    intro cur a st
    rw [List.map_cons]
    by_cases hz : cur.clz = cNULL
    · have hb : breaks cur (charClass T o c) = true := by simp [breaks, hz]
      rw [emit]
      dsimp only
      rw [runeClass_char, if_pos hb, if_pos hz, ih, inherit_clz]
      show rulesW1to3 (charClass T o c) cur = cNULL ∧ _ ↔ _
      have : rulesW1to3 (charClass T o c) cur = cNULL ↔ charClass T o c = cNSM := by
        have hk : charClass T o c ≠ cNULL := by
          intro h
          have := charClass_known hT o c
          rw [h] at this
          exact absurd this (by decide)
        unfold rulesW1to3
        by_cases h1 : charClass T o c = cNSM
        · simp [h1, hz, cNULL, cLRI, cRLI, cPDI]
        · rw [if_neg h1]
          refine ⟨fun h => ?_, fun h => absurd h h1⟩
          repeat' split at h
          all_goals first
            | exact absurd h (by decide)
            | exact absurd h hk
      rw [this]
      simp [classes, hz]
    · refine ⟨fun h => ?_, fun h => absurd h.1 hz⟩
      obtain ⟨s, hs⟩ := emit_cons_mem (T := T) (o := o) ((c.toNat, (utf8 [c]).length) :: t.map fun c => (c.toNat, (utf8 [c]).length)) cur a st hz
      rw [h] at hs
      cases hs

theorem scraps_empty {T : Tables} {o : Options} (hT : KnownClasses T) (t : List Char) :
    scrapsOf T o (utf8 t) = [] ↔ ∀ c ∈ classes T o (firstParagraph T o t), c = cNSM := by
  unfold scrapsOf
  rw [paragraph_text, emit_empty hT]
  exact ⟨fun h => h.2, fun h => ⟨rfl, h⟩⟩

end Uax.Bidi
