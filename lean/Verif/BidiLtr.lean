import Verif.BidiKeeps
import Verif.BidiChars
import Verif.BidiRunsProofs
import Verif.BidiReorderProofs
import Verif.BidiVisual

/-
Left-to-right texts: nothing gets another direction.
-/
namespace Uax.Bidi

open Spec (Tiles NumbersLTR)

/-- A scrap of left-to-right text. -/
structure LtrScrap (s : Scrap) : Prop where
  cls : s.clz ≠ cR ∧ s.clz ≠ cAL ∧ s.clz ≠ cAN ∧ s.clz ≠ cRLI
  emb : s.e = cL
  strong : s.ctx.strong ≠ cR ∧ s.ctx.strong ≠ cAL
  kids : s.children = []
  wide : isIsolate s = true → s.l ≤ s.r

theorem ltr_class {s : Scrap} {c : Class} (h : LtrScrap s) (hc : c = cL ∨ c = cNI ∨ c = cBRACKO) : LtrScrap { s with clz := c } := by
  refine ⟨by show c ≠ cR ∧ c ≠ cAL ∧ c ≠ cAN ∧ c ≠ cRLI; rcases hc with rfl | rfl | rfl <;> decide, h.emb, h.strong, h.kids, fun hi => ?_⟩
  unfold isIsolate at hi
  rcases hc with rfl | rfl | rfl <;> cases hi

theorem ltr_fuse {c : Class} {s : Scrap} {t : List Scrap} (h1 : LtrScrap s) (h2 : ∀ x ∈ t, LtrScrap x) (hc : c = cL ∨ c = cNI ∨ c = cEN) :
    LtrScrap (fuse c (s :: t)) := by
  refine ⟨by show c ≠ cR ∧ c ≠ cAL ∧ c ≠ cAN ∧ c ≠ cRLI; rcases hc with rfl | rfl | rfl <;> decide, h1.emb, h1.strong, noKids_fuse h1.kids fun x hx => (h2 x hx).kids, fun hi => ?_⟩
  unfold isIsolate at hi
  rcases hc with rfl | rfl | rfl <;> cases hi

theorem ltr_keeps1 : Keeps1 LtrScrap where
  fuse h1 h2 _ hp := by
    refine ltr_fuse h1 h2 ?_
    obtain ⟨p1, p2, -⟩ := pick1_target hp
    rcases p1 with h | h | h
    · exact Or.inr (Or.inr h)
    · exact absurd (p2 h) h1.cls.2.2.1
    · exact Or.inr (Or.inl h)
  w7 h _ := ltr_class h (Or.inl rfl)

theorem ltr_keeps2 (T : Tables) (o : Options) (sched : Nat → Nat) :
    Keeps2 (scannerEnv T o sched) LtrScrap (AtRestIn T o (fun c => c = cL ∨ c = cNI ∨ c = cBRACKO) fun _ => True) where
  fuse h1 h2 hc hlr := ltr_fuse h1 h2 (hlr.elim Or.inl fun h => absurd (hc.trans h) h1.cls.1)
  absorb h1 h2 hd := absurd hd h2.cls.2.2.1
  n2 h := ltr_class h (Or.inl h.emb)
  alone h := ltr_class h (Or.inr (Or.inl rfl))
  opening := by
    intro s env pr h g hb hp
    have hc : (openingClass s pr.closing).1 = cL ∨ (openingClass s pr.closing).1 = cNI := by
      have he : s.ctx.embeddingDir = cL := h.emb
      unfold openingClass
      split
      · exact Or.inl he
      · split
        · split
          · rename_i hso
            exfalso
            unfold DirContext.strongContext Scrap.o opposite at hso
            rw [if_neg h.strong.2, he, if_pos rfl] at hso
            exact h.strong.1 hso
          · exact Or.inl he
        · exact Or.inr rfl
    refine ⟨ltr_class h (hc.imp id Or.inl), ?_⟩
    exact atRestIn_change (atRestIn_pair g s).1 _ (hc.imp id Or.inl)
  closing := by
    intro s env pr h g hb hp
    exact ltr_class h ((atRestIn_pair g s).2 pr hp).1
  pair g s := (atRestIn_pair g s).1

/-- The scraps of the scanner. -/
theorem emit_ltr {T : Tables} {o : Options} : ∀ (inp : List (Nat × Nat)) (cur : Scrap) (st : List DirContext),
    (∀ x ∈ inp, runeClass T o x.1 ∉ [cR, cAL, cAN, cLRI, cRLI, cFSI, cPDI]) → LtrScrap cur → isIsolate cur = false →
    ∀ s ∈ emit T o inp cur none st, LtrScrap s := by
  intro inp
  induction inp with
  | nil =>
    intro cur st _ h _ s hs
    rw [emit] at hs
    split at hs
    · cases hs
    · rw [List.mem_singleton] at hs; rw [hs]; exact h
  | cons x rest ih =>
    obtain ⟨r, n⟩ := x
    intro cur st hx h hi
    have hx' := fun y hy => hx y (List.mem_cons_of_mem _ hy)
    have hc := hx (r, n) (List.mem_cons_self ..)
    dsimp only at hc
    generalize hcc : runeClass T o r = c at hc
    simp only [List.mem_cons, List.not_mem_nil, or_false, not_or] at hc
    obtain ⟨c1, c2, c3, c4, c5, c6, c7⟩ := hc
    rw [emit]
    dsimp only
    rw [hcc]
    split
    · -- the class of the next scrap
      have hz : rulesW1to3 c cur ∉ [cR, cAL, cAN, cLRI, cRLI, cFSI, cPDI] := by
        have hcur : cur.clz ∉ [cR, cAL, cAN, cLRI, cRLI, cFSI, cPDI] := by
          simp only [isIsolate, Bool.or_eq_false_iff, beq_eq_false_iff_ne] at hi
          simp only [List.mem_cons, List.not_mem_nil, or_false, not_or]
          exact ⟨h.cls.1, h.cls.2.1, h.cls.2.2.1, hi.1.1.1, hi.1.1.2, hi.1.2, hi.2⟩
        rcases rules_cases c cur with e | ⟨-, e | e⟩ | ⟨-, e, -⟩ | ⟨e, -⟩ | e
        · rw [e]; simp [*]
        · rw [e]; exact hcur
        · rw [hi] at e; cases e
        · simp only [DirContext.isAL, beq_iff_eq] at e
          exact absurd e h.strong.2
        · exact absurd e c2
        · rw [e]; decide
      simp only [List.mem_cons, List.not_mem_nil, or_false, not_or] at hz
      obtain ⟨z1, z2, z3, z4, z5, z6, z7⟩ := hz
      have hla : isIsolate (nextScrap cur c n) = false := by
        simp only [isIsolate, Bool.or_eq_false_iff, beq_eq_false_iff_ne]
        exact ⟨⟨⟨z4, z5⟩, z6⟩, z7⟩
      rw [switch_plain hi hla]
      dsimp only
      obtain ⟨i1, i2, i3, i4⟩ := inherit_eq (nextScrap cur c n) cur none hla hi h.cls.2.1
      have icl := inherit_clz (nextScrap cur c n) cur none
      have hkids : (inheritStrongTypes (nextScrap cur c n) cur none).children = [] := by
        unfold inheritStrongTypes
        repeat' split
        all_goals rfl
      have hni : isIsolate (inheritStrongTypes (nextScrap cur c n) cur none) = false := by
        unfold isIsolate at hla ⊢
        rw [icl]; exact hla
      have hnew : LtrScrap (inheritStrongTypes (nextScrap cur c n) cur none) := by
        refine ⟨by rw [icl]; exact ⟨z1, z2, z3, z5⟩, by rw [i3]; exact h.emb, ?_, hkids, fun hh => by rw [hni] at hh; cases hh⟩
        rw [(i4 rfl).1]
        unfold nextStrong
        split
        · decide
        · rw [if_neg h.cls.1]; exact h.strong
      have := ih _ st hx' hnew hni
      split
      · exact this
      · intro s hs
        rw [List.mem_cons] at hs
        rcases hs with rfl | hs
        · exact h
        · exact this s hs
    · refine ih _ _ hx' ⟨h.cls, h.emb, h.strong, ?_, fun hh => absurd (show isIsolate cur = true from hh) (by rw [hi]; decide)⟩ hi
      show cur.children ++ [] = []
      rw [h.kids]; rfl

/-- A left-to-right text is resolved to left-to-right scraps. -/
theorem resolve_ltr {T : Tables} {o : Options} (hT : Spec.KnownClasses T) (ho : o.markup = none) (hd : o.outerR2L = false) (sched : Nat → Nat) (t : List Char)
    (h1 : ∀ c ∈ Spec.classes T o (Spec.firstParagraph T o t), c ∉ [cR, cAL, cAN, cLRI, cRLI, cFSI, cPDI]) (tile : Prop)
    (h2 : tile → (Spec.classes T o (Spec.firstParagraph T o t)).head? ≠ some cNSM) (hT0 : ∀ r, T.cls r ≠ cNULL) :
    ∃ N p, resolveParagraph T o sched (utf8 t) N = .returns (levelsOf o p.stack, p) ∧
      Good2 tile (utf8 (Spec.firstParagraph T o t)).length p.stack [] ∧ ∀ s ∈ p.stack, LtrScrap s := by
  have hout : Spec.outer o = cL := by unfold Spec.outer; rw [hd]; rfl
  have hni : Spec.NoIsolates (Spec.classes T o (Spec.firstParagraph T o t)) := by
    intro c hc hm
    refine h1 c hc ?_
    simp only [List.mem_cons, List.not_mem_nil, or_false] at hm ⊢
    exact Or.inr (Or.inr (Or.inr hm))
  have hnum : NumbersLTR cL (Spec.classes T o (Spec.firstParagraph T o t)) := by
    intro pre post he
    have hp : ∀ c ∈ pre, c ≠ cR ∧ c ≠ cAL := by
      intro c hc
      have := h1 c (by rw [he]; simp [hc])
      simp only [List.mem_cons, List.not_mem_nil, or_false, not_or] at this
      exact ⟨this.1, this.2.1⟩
    refine ⟨?_, fun hm => (hp _ hm).2 rfl⟩
    clear he
    induction pre with
    | nil => rfl
    | cons c pre ih =>
      obtain ⟨p1, p2⟩ := hp c (List.mem_cons_self ..)
      have hs : Spec.strongAfter cL c = cL := by
        unfold Spec.strongAfter
        by_cases h : c = cL
        · rw [h]; rfl
        · rw [if_neg (by simp [h, p1, p2])]
      unfold Spec.lastStrong at ih ⊢
      rw [List.foldl_cons, hs]
      exact ih fun x hx => hp x (List.mem_cons_of_mem _ hx)
  have hg := good_text hT t tile hni hnum (fun ht => ⟨fun hm => h1 _ hm (by simp), h2 ht⟩)
  obtain ⟨fin, f1, f2, f3⟩ := scanner_feeds ho hT0 sched (utf8 t)
  have hs : ∀ s ∈ scrapsOf T o (utf8 t), LtrScrap s := by
    unfold scrapsOf
    refine emit_ltr _ _ _ ?_ ?_ rfl
    · intro x hx
      rw [paragraph_text, List.mem_map] at hx
      obtain ⟨c, hc, rfl⟩ := hx
      dsimp only
      rw [runeClass_char]
      exact h1 _ (List.mem_map_of_mem hc)
    · unfold initialOuterScrap
      rw [hd]
      exact ⟨by decide, rfl, by decide, rfl, fun _ => Nat.le_refl _⟩
  have hn : NoIsolates (scrapsOf T o (utf8 t)) := fun s hs => (hg.1 s (by simpa using hs)).2
  have hrest : ∀ C : Class → Prop, C cBRACKO → AtRestIn T o C (fun _ => True) (fin, 0) := by
    intro C hC
    refine ⟨ended_atRest f2, ?_⟩
    intro x hx
    rw [f3 hn, List.mem_singleton] at hx
    subst hx
    intro p hp
    rw [(pairUp_openings _ _ _ _ {} ⟨by simp, by simp⟩).2 p hp]
    exact ⟨hC, trivial⟩
  obtain ⟨N, p, e1, e2, -⟩ := whole (o := o) f1 ((good1_inv tile 0 (utf8 (Spec.firstParagraph T o t)).length).keeps ltr_keeps1)
    ((good2_inv (atRest_brackets T o sched) tile 0 (utf8 (Spec.firstParagraph T o t)).length).keeps (ltr_keeps2 T o sched)) ⟨hg, by simpa [AllOf] using hs⟩ (by
      intro ys hy
      refine ⟨good2_start o hy.1, ?_⟩
      · intro s hs
        rw [List.nil_append, List.mem_cons] at hs
        rcases hs with rfl | hs
        · unfold initialOuterScrap
          rw [hd]
          exact ⟨by decide, rfl, by decide, rfl, fun _ => Nat.le_refl _⟩
        · exact hy.2 s (by simpa using hs)) (fun h => by simpa using h.1.2.2) ⟨hrest _ (Or.inr rfl), hrest _ (by simp)⟩
  exact ⟨N, p, e1, e2.1, fun s hs => e2.2 s (by simpa using hs)⟩

theorem kids_flat (d : Dir) : ∀ l : List Scrap, (∀ s ∈ l, s.children = []) → reorderKids d l = some l := by
  intro l
  induction l with
  | nil => intro _; rw [reorderKids]
  | cons s rest ih =>
    intro h
    have h0 := h s (by simp)
    obtain ⟨c, l, r, x, ch⟩ := s
    simp only at h0
    subst h0
    rw [reorderKids, reorderChildren, ih (fun t ht => h t (by simp [ht]))]
    simp only
    split <;> rfl

theorem tiles_positions : ∀ (ys : List Scrap) (l r : Nat), Tiles l r ys → (∀ s ∈ ys, s.l ≤ s.r) → l ≤ r ∧ allPositions ys = List.range' l (r - l) := by
  intro ys
  induction ys with
  | nil => intro l r h _; have : l = r := h; subst this; simp [allPositions]
  | cons s ys ih =>
    intro l r h hs
    obtain ⟨rfl, h⟩ := h
    have h0 := hs s (List.mem_cons_self ..)
    obtain ⟨h1, h2⟩ := ih _ _ h fun x hx => hs x (List.mem_cons_of_mem _ hx)
    refine ⟨by omega, ?_⟩
    unfold allPositions at h2 ⊢
    rw [List.flatMap_cons, h2]
    unfold positions
    rw [show r - s.l = (s.r - s.l) + (r - s.r) by omega, ← List.range'_append, Nat.one_mul]
    congr 2
    omega

/-- Scraps which all have the direction of the paragraph become one run. -/
theorem one_run {len : Nat} {stack : List Scrap} {z : Scrap} {d : Dir} (hz3 : z.l = z.r)
    (hall : ∀ s ∈ stack ++ [z], s.children = [] ∧ s.l ≤ s.r ∧ s.clz ≠ cNULL ∧ level s d = 0 ∧ directionOf s d = d)
    (h2 : Tiles 0 len stack) (hlen : 0 < len) :
    ∃ r : VRun, (⟨d, stack ++ [z]⟩ : Levels).reorder = some [r] ∧ r.dir = d ∧ r.length = len ∧ allPositions r.scraps = List.range len := by
  have hdir : ∀ s ∈ stack ++ [z], directionOf s d = d := fun s hs => (hall s hs).2.2.2.2
  have hre : reorder d (stack ++ [z]) = some (stack ++ [z]) := by
    rw [reorder, kids_flat _ _ fun s hs => (hall s hs).1, Option.map_some, reorderFlat_eq _ _ fun s hs => (hall s hs).2.2.1]
    have := flip_none (fun s : Scrap => decide (0 < level s d)) (stack ++ [z]) [] [] (by simp) (by
      intro s hs
      rw [(hall s hs).2.2.2.1]
      rfl)
    simpa [flipBlocks] using this
  have hemb : runEmbedding (stack ++ [z]) d = d := by
    unfold runEmbedding
    cases hst : stack ++ [z] with
    | nil => rfl
    | cons a b =>
      dsimp only
      split
      · rw [← directionOf_eq]; exact hdir a (by rw [hst]; simp)
      · rfl
  obtain ⟨runs, e1, e2, e3⟩ := flatten_flat (stack ++ [z]) d fun s hs => ⟨(hall s hs).1, (hall s hs).2.1, (hall s hs).2.2.1⟩
  rw [hemb] at e3
  simp only [← directionOf_eq] at e3
  have hpos := (tiles_positions stack 0 len h2 fun s hs => (hall s (by simp [hs])).2.1).2
  have hvis : visual runs = (List.range len).map fun p => (p, d) := by
    rw [e3]
    have : ∀ l : List Scrap, (∀ s ∈ l, directionOf s d = d) → l.flatMap (fun s => (positions s).map fun p => (p, directionOf s d)) =
        (allPositions l).map fun p => (p, d) := by
      intro l
      induction l with
      | nil => intro _; rfl
      | cons s l ih =>
        intro h
        unfold allPositions at ih ⊢
        rw [List.flatMap_cons, List.flatMap_cons, List.map_append, ih fun x hx => h x (List.mem_cons_of_mem _ hx), h s (List.mem_cons_self ..)]
    rw [this _ hdir]
    have hz0 : allPositions [z] = [] := by simp [allPositions, positions, hz3]
    have : allPositions (stack ++ [z]) = allPositions stack ++ allPositions [z] := by simp [allPositions]
    rw [this, hz0, List.append_nil, hpos, List.range_eq_range', Nat.sub_zero]
  have hltr : ∀ r ∈ runs, r.dir = d := by
    intro r hr
    have hok := e2.each r hr
    have hne : allPositions r.scraps ≠ [] := by
      intro h0
      have := hok.len
      rw [h0] at this
      have := hok.pos
      simp at *
      omega
    obtain ⟨p, hp⟩ := List.exists_mem_of_ne_nil _ hne
    have : (p, r.dir) ∈ visual runs := by
      unfold visual
      rw [List.mem_flatMap]
      exact ⟨r, hr, List.mem_map.mpr ⟨p, hp, rfl⟩⟩
    rw [hvis, List.mem_map] at this
    obtain ⟨q, -, hq⟩ := this
    injection hq with _ hq
    exact hq.symm
  have hnil : stack ++ [z] ≠ [] := by simp
  have hreo : (⟨d, stack ++ [z]⟩ : Levels).reorder = some runs := by
    unfold Levels.reorder
    dsimp only
    split
    · rename_i h0; exact absurd h0 hnil
    · rw [hre, Option.bind_some, e1]
  match runs, hreo, hvis, hltr, e2 with
  | [], _, hv, _, _ =>
    have := congrArg List.length hv
    simp [visual] at this
    omega
  | [r], hr, hv, hl, hok =>
    have hd := hl r (by simp)
    have hp : allPositions r.scraps = List.range len := by
      have := congrArg (List.map (·.1)) hv
      simpa [visual, Function.comp_def] using this
    refine ⟨r, hr, hd, ?_, hp⟩
    rw [(hok.each r (by simp)).len, hp, List.length_range]
  | a :: b :: more, _, _, hl, hok =>
    have := hok.alt.1
    rw [hl a (by simp), hl b (by simp)] at this
    exact absurd rfl this

/-- Left-to-right scraps become one run. -/
theorem reorder_ltr_run {len : Nat} {stack : List Scrap} {e : Dir} (he : e = .ltr) (h1 : ∀ s ∈ stack, LtrScrap s)
    (h2 : Good2 True len stack []) (hlen : 0 < len) :
    ∃ r : VRun, (⟨e, stack ++ [{ l := (stack.getLast?.getD {}).r, r := (stack.getLast?.getD {}).r, clz := cPDI }]⟩ : Levels).reorder = some [r] ∧
      r.dir = .ltr ∧ r.length = len ∧ allPositions r.scraps = List.range len := by
  subst he
  refine one_run rfl ?_ (by have := h2.2.1 trivial; simpa using this) hlen
  intro s hs
  rw [List.mem_append, List.mem_singleton] at hs
  rcases hs with hs | rfl
  · have g1 := h1 s hs
    obtain ⟨g2, g3⟩ := h2.1 s (by simpa using hs)
    refine ⟨g1.kids, ?_, ?_, ?_, ?_⟩
    · rcases (g2.2.2.2 trivial).2 with h | h
      · exact g1.wide h.1
      · omega
    · have h28 := g2.1
      intro h0
      rw [h0] at h28
      exact absurd h28 (by decide)
    · unfold level
      rw [if_neg (by simp [g3, g1.cls.2.2.1]), if_neg (by simp [g1.cls.1])]
    · unfold directionOf
      have c1 := g1.cls.1
      have c2 := g1.cls.2.2.2
      repeat' split
      all_goals simp_all
  · exact ⟨rfl, Nat.le_refl _, show cPDI ≠ cNULL by decide, rfl, rfl⟩

end Uax.Bidi

namespace Uax.Bidi.Spec

/-! ### Right-to-left texts in the standard -/

theorem w1_rtl : ∀ (cs : List Class) (p : Class), (∀ c ∈ cs, c ∈ [cR, cAL, cNSM, cES, cET, cCS, cS, cWS, cON]) → p ∈ [cR, cAL, cES, cET, cCS, cS, cWS, cON] →
    ∀ c ∈ w1 p cs, c ∈ [cR, cAL, cES, cET, cCS, cS, cWS, cON] := by
  intro cs
  induction cs with
  | nil => intro p _ _ c h; cases h
  | cons x cs ih =>
    intro p h hp
    have hx := h x (List.mem_cons_self ..)
    have hx' : (if x = cNSM then (if p ∈ [cLRI, cRLI, cFSI, cPDI] then cON else p) else x) ∈ [cR, cAL, cES, cET, cCS, cS, cWS, cON] := by
      split
      · split
        · decide
        · exact hp
      · rename_i hn
        simp only [List.mem_cons, List.not_mem_nil, or_false] at hx ⊢
        rcases hx with h | h | h | h | h | h | h | h | h <;> simp_all
    rw [w1]
    intro c hc
    rw [List.mem_cons] at hc
    rcases hc with rfl | hc
    · exact hx'
    · exact ih _ (fun y hy => h y (List.mem_cons_of_mem _ hy)) hx' c hc

theorem w2_rtl : ∀ (cs : List Class) (s : Class), cEN ∉ cs → w2 s cs = cs := by
  intro cs
  induction cs with
  | nil => intros; rfl
  | cons x cs ih =>
    intro s h
    rw [List.mem_cons, not_or] at h
    rw [w2, if_neg (fun hh => h.1 hh.1.symm), ih _ h.2]

theorem w4_rtl : ∀ (cs : List Class) (p : Class), cEN ∉ cs → cAN ∉ cs → w4 p cs = cs := by
  intro cs
  induction cs with
  | nil => intros; rfl
  | cons x cs ih =>
    intro p h1 h2
    rw [List.mem_cons, not_or] at h1 h2
    rw [w4, if_neg (fun hh => h1.2 (List.mem_of_head? hh.2.2)), if_neg, ih _ h1.2 h2.2]
    rintro ⟨-, rfl | rfl, hh⟩
    · exact h1.2 (List.mem_of_head? hh)
    · exact h2.2 (List.mem_of_head? hh)

theorem w5_rtl : ∀ (cs : List Class) (p : Class), cEN ∉ cs → p ≠ cEN → w5 p cs = cs := by
  intro cs
  induction cs with
  | nil => intros; rfl
  | cons x cs ih =>
    intro p h hp
    rw [List.mem_cons, not_or] at h
    rw [w5, if_neg, ih _ h.2 (fun hh => h.1 hh.symm)]
    rintro ⟨-, hh | hh⟩
    · exact hp hh
    · exact h.2 ((List.dropWhile_sublist _).mem (List.mem_of_head? hh))

theorem w7_rtl : ∀ (cs : List Class) (s : Class), cEN ∉ cs → w7 s cs = cs := by
  intro cs
  induction cs with
  | nil => intros; rfl
  | cons x cs ih =>
    intro s h
    rw [List.mem_cons, not_or] at h
    rw [w7, if_neg (fun hh => h.1 hh.1.symm), ih _ h.2]

theorem sideOf_rtl : ∀ (cs : List Class), (∀ c ∈ cs, c ∈ [cR, cS, cWS, cON]) → sideOf cR cs = cR := by
  intro cs h
  unfold sideOf
  cases hd : cs.dropWhile neutral with
  | nil => rfl
  | cons c rest =>
    have hm : c ∈ cs := (List.dropWhile_sublist neutral).mem (by rw [hd]; simp)
    have this : neutral c = false := by
      have := List.head?_dropWhile_not neutral cs
      rw [hd] at this
      exact this
    have hc := h c hm
    simp only [List.mem_cons, List.not_mem_nil, or_false] at hc
    rcases hc with rfl | rfl | rfl | rfl
    · rfl
    all_goals exact absurd this (by decide)

theorem n12_rtl : ∀ (cs : List Class), (∀ c ∈ cs, c ∈ [cR, cS, cWS, cON]) → n12 cR cR cs = List.replicate cs.length cR := by
  intro cs
  induction cs with
  | nil => intros; rfl
  | cons x cs ih =>
    intro h
    have hx := h x (List.mem_cons_self ..)
    have h' := fun y hy => h y (List.mem_cons_of_mem _ hy)
    rw [n12, sideOf_rtl cs h', List.length_cons, List.replicate_succ]
    simp only [List.mem_cons, List.not_mem_nil, or_false] at hx
    rcases hx with rfl | rfl | rfl | rfl
    · rw [if_neg (by decide), show side cR = cR from rfl, ih h']
    all_goals rw [if_pos (by decide), if_pos rfl, ih h']

/-- The rules make everything R. -/
theorem resolved_rtl (cs : List Class) (h : ∀ c ∈ cs, c ∈ [cR, cAL, cNSM, cES, cET, cCS, cS, cWS, cON]) :
    resolved cR cs = List.replicate (w1 cR cs).length cR ∧ w5 cON (w4 cON (w3 (w2 cR (w1 cR cs)))) = w3 (w1 cR cs) := by
  have h1 := w1_rtl cs cR h (by decide)
  have h2 : w2 cR (w1 cR cs) = w1 cR cs := w2_rtl _ _ fun hm => absurd (h1 _ hm) (by decide)
  have h3 : ∀ c ∈ w3 (w1 cR cs), c ∈ [cR, cES, cET, cCS, cS, cWS, cON] := by
    intro c hc
    unfold w3 at hc
    rw [List.mem_map] at hc
    obtain ⟨x, hx, rfl⟩ := hc
    have := h1 x hx
    simp only [List.mem_cons, List.not_mem_nil, or_false] at this
    rcases this with rfl | rfl | rfl | rfl | rfl | rfl | rfl | rfl <;> decide
  have h4 : w4 cON (w3 (w1 cR cs)) = w3 (w1 cR cs) := w4_rtl _ _ (fun hm => absurd (h3 _ hm) (by decide)) (fun hm => absurd (h3 _ hm) (by decide))
  have h5 : w5 cON (w3 (w1 cR cs)) = w3 (w1 cR cs) := w5_rtl _ _ (fun hm => absurd (h3 _ hm) (by decide)) (by decide)
  have h6 : ∀ c ∈ w6 (w3 (w1 cR cs)), c ∈ [cR, cS, cWS, cON] := by
    intro c hc
    unfold w6 at hc
    rw [List.mem_map] at hc
    obtain ⟨x, hx, rfl⟩ := hc
    have := h3 x hx
    simp only [List.mem_cons, List.not_mem_nil, or_false] at this
    rcases this with rfl | rfl | rfl | rfl | rfl | rfl | rfl <;> decide
  have h7 : w7 cR (w6 (w3 (w1 cR cs))) = w6 (w3 (w1 cR cs)) := w7_rtl _ _ (fun hm => absurd (h6 _ hm) (by decide))
  rw [h2, h4, h5]
  refine ⟨?_, rfl⟩
  unfold resolved weak
  rw [h2, h4, h5, h7, n12_rtl _ h6]
  unfold w6 w3
  rw [List.length_map, List.length_map]

end Uax.Bidi.Spec
