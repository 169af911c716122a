import Verif.BidiLtr

/-
Right-to-left texts: nothing gets another direction.
-/
namespace Uax.Bidi

open Spec (Tiles NumbersLTR)

/-- A scrap of right-to-left text. -/
structure RtlScrap (s : Scrap) : Prop where
  cls : s.clz ≠ cL ∧ s.clz ≠ cAL ∧ s.clz ≠ cAN ∧ s.clz ≠ cEN ∧ s.clz ≠ cLRI
  emb : s.e = cR
  far : s.ctx.odist = 0
  kids : s.children = []
  wide : isIsolate s = true → s.l ≤ s.r

theorem rtl_class {s : Scrap} {c : Class} (h : RtlScrap s) (hc : c = cR ∨ c = cNI ∨ c = cBRACKO) : RtlScrap { s with clz := c } := by
  refine ⟨by show c ≠ cL ∧ c ≠ cAL ∧ c ≠ cAN ∧ c ≠ cEN ∧ c ≠ cLRI; rcases hc with rfl | rfl | rfl <;> decide, h.emb, h.far, h.kids, fun hi => ?_⟩
  unfold isIsolate at hi
  rcases hc with rfl | rfl | rfl <;> cases hi

theorem rtl_fuse {c : Class} {s : Scrap} {t : List Scrap} (h1 : RtlScrap s) (h2 : ∀ x ∈ t, RtlScrap x) (hc : c = cR ∨ c = cNI) :
    RtlScrap (fuse c (s :: t)) := by
  refine ⟨by show c ≠ cL ∧ c ≠ cAL ∧ c ≠ cAN ∧ c ≠ cEN ∧ c ≠ cLRI; rcases hc with rfl | rfl <;> decide, h1.emb, h1.far,
    noKids_fuse h1.kids fun x hx => (h2 x hx).kids, fun hi => ?_⟩
  unfold isIsolate at hi
  rcases hc with rfl | rfl <;> cases hi

theorem rtl_keeps1 : Keeps1 RtlScrap where
  fuse h1 h2 hb hp := by
    refine rtl_fuse h1 h2 (Or.inr ?_)
    obtain ⟨p1, p2, p3⟩ := pick1_target hp
    rcases p1 with h | h | h
    · rcases p3 h with h | ⟨-, h⟩
      · exact absurd h h1.cls.2.2.2.1
      · obtain ⟨y, hy, e⟩ := hb _ h
        exact absurd e hy.cls.2.2.2.1
    · exact absurd (p2 h) h1.cls.2.2.1
    · exact h
  w7 h he := absurd he h.cls.2.2.2.1

theorem rtl_keeps2 (T : Tables) (o : Options) (sched : Nat → Nat) :
    Keeps2 (scannerEnv T o sched) RtlScrap (AtRestIn T o (fun c => c = cR ∨ c = cNI ∨ c = cBRACKO) fun s => s.ctx.odist = 0) where
  fuse h1 h2 hc hlr := rtl_fuse h1 h2 (hlr.elim (fun h => absurd (hc.trans h) h1.cls.1) Or.inl)
  absorb h1 h2 hd := absurd hd h2.cls.2.2.1
  n2 h := rtl_class h (Or.inl h.emb)
  alone h := rtl_class h (Or.inr (Or.inl rfl))
  opening := by
    intro s env pr h g hb hp
    have hc : (openingClass s pr.closing).1 = cR ∨ (openingClass s pr.closing).1 = cNI := by
      have he : s.ctx.embeddingDir = cR := h.emb
      have hcl : pr.closing.ctx.odist = 0 := ((atRestIn_pair g s).2 pr hp).2
      unfold openingClass
      split
      · exact Or.inl he
      · rename_i h1
        rw [if_neg]
        · exact Or.inr rfl
        · unfold Scrap.hasOppositeAfter
          rw [hcl, Nat.add_zero]
          exact h1
    refine ⟨rtl_class h (hc.imp id Or.inl), ?_⟩
    exact atRestIn_change (atRestIn_pair g s).1 _ (hc.imp id Or.inl)
  closing := by
    intro s env pr h g hb hp
    exact rtl_class h ((atRestIn_pair g s).2 pr hp).1
  pair g s := (atRestIn_pair g s).1

theorem setStrong_far {dc : DirContext} {c : Class} (p : Nat) (he : dc.embeddingDir = cR) (hc : c ≠ cL) (h : dc.odist = 0) :
    (dc.setStrongType c p).odist = 0 := by
  unfold DirContext.setStrongType
  split
  · exact h
  · split
    · exact h
    · rw [if_neg]
      · exact h
      · rw [he]
        exact fun hh => hc hh.1

/-- The next scrap of the scanner. -/
theorem rtl_next {cur : Scrap} {c : Class} {n : Nat} {a : Option Nat} (hc : c ∉ [cL, cEN, cAN, cLRI, cRLI, cFSI, cPDI]) (h : RtlScrap cur)
    (hi : isIsolate cur = false) :
    isIsolate (nextScrap cur c n) = false ∧ RtlScrap (inheritStrongTypes (nextScrap cur c n) cur a) ∧
      isIsolate (inheritStrongTypes (nextScrap cur c n) cur a) = false := by
  simp only [List.mem_cons, List.not_mem_nil, or_false, not_or] at hc
  obtain ⟨c1, c2, c3, c4, c5, c6, c7⟩ := hc
  have hz : rulesW1to3 c cur ∉ [cL, cAL, cAN, cEN, cLRI, cRLI, cFSI, cPDI] := by
    have hcur : cur.clz ∉ [cL, cAL, cAN, cEN, cLRI, cRLI, cFSI, cPDI] := by
      simp only [isIsolate, Bool.or_eq_false_iff, beq_eq_false_iff_ne] at hi
      simp only [List.mem_cons, List.not_mem_nil, or_false, not_or]
      exact ⟨h.cls.1, h.cls.2.1, h.cls.2.2.1, h.cls.2.2.2.1, hi.1.1.1, hi.1.1.2, hi.1.2, hi.2⟩
    rcases rules_cases c cur with e | ⟨-, e | e⟩ | ⟨e, -, -⟩ | ⟨-, e⟩ | e
    · have hcal : c ≠ cAL := by
        rintro rfl
        have : rulesW1to3 cAL cur = cR := rfl
        rw [this] at e
        exact absurd e (by decide)
      rw [e]; simp [*]
    · rw [e]; exact hcur
    · rw [hi] at e; cases e
    · exact absurd e c2
    · rw [e]; decide
    · rw [e]; decide
  simp only [List.mem_cons, List.not_mem_nil, or_false, not_or] at hz
  obtain ⟨z1, z2, z3, z4, z5, z6, z7, z8⟩ := hz
  have hla : isIsolate (nextScrap cur c n) = false := by
    simp only [isIsolate, Bool.or_eq_false_iff, beq_eq_false_iff_ne]
    exact ⟨⟨⟨z5, z6⟩, z7⟩, z8⟩
  obtain ⟨i1, i2, i3, i4⟩ := inherit_eq (nextScrap cur c n) cur a hla hi h.cls.2.1
  have icl := inherit_clz (nextScrap cur c n) cur a
  have hkids : (inheritStrongTypes (nextScrap cur c n) cur a).children = [] := by
    unfold inheritStrongTypes
    repeat' split
    all_goals rfl
  have hfar : (inheritStrongTypes (nextScrap cur c n) cur a).ctx.odist = 0 := by
    unfold inheritStrongTypes
    dsimp only
    rw [if_neg (show ¬ (nextScrap cur c n).clz = cLRI from z5), if_neg (show ¬ (nextScrap cur c n).clz = cRLI from z6)]
    dsimp only
    clear i1 i2 i3 i4 icl hkids
    have h1 : ∀ dc : DirContext, dc = (match a with | some p => cur.ctx.setStrongType cAL p | none => cur.ctx) → dc.embeddingDir = cR ∧ dc.odist = 0 := by
      intro dc hdc
      subst hdc
      cases a with
      | none => exact ⟨h.emb, h.far⟩
      | some p => exact ⟨((setStrong_eq cur.ctx cAL p (by simp)).2).trans h.emb, setStrong_far p h.emb (by decide) h.far⟩
    obtain ⟨g1, g2⟩ := h1 _ rfl
    rw [if_neg (by
      simp only [isIsolate, Bool.or_eq_false_iff, beq_eq_false_iff_ne] at hi
      exact fun hh => hh.elim h.cls.1 hi.1.1.1)]
    split
    · exact setStrong_far _ g1 (by decide) g2
    · split
      · exact setStrong_far _ g1 (by decide) g2
      · exact g2
  have hni : isIsolate (inheritStrongTypes (nextScrap cur c n) cur a) = false := by
    unfold isIsolate at hla ⊢
    rw [icl]; exact hla
  exact ⟨hla, ⟨by rw [icl]; exact ⟨z1, z2, z3, z4, z5⟩, by rw [i3]; exact h.emb, hfar, hkids, fun hh => by rw [hni] at hh; cases hh⟩, hni⟩

theorem rtl_join {cur : Scrap} {c : Class} {n : Nat} (h : RtlScrap cur) (hi : isIsolate cur = false) : RtlScrap (collapse cur (nextScrap cur c n) cur.clz) := by
  refine ⟨h.cls, h.emb, h.far, ?_, fun hh => absurd (show isIsolate cur = true from hh) (by rw [hi]; decide)⟩
  show cur.children ++ [] = []
  rw [h.kids]; rfl

/-- The scraps of the scanner. -/
theorem emit_rtl {T : Tables} {o : Options} : ∀ (inp : List (Nat × Nat)) (cur : Scrap) (a : Option Nat) (st : List DirContext),
    (∀ x ∈ inp, runeClass T o x.1 ∉ [cL, cEN, cAN, cLRI, cRLI, cFSI, cPDI]) → RtlScrap cur → isIsolate cur = false →
    ∀ s ∈ emit T o inp cur a st, RtlScrap s := by
  intro inp
  induction inp with
  | nil =>
    intro cur a st _ h _ s hs
    rw [emit] at hs
    split at hs
    · cases hs
    · rw [List.mem_singleton] at hs; rw [hs]; exact h
  | cons x rest ih =>
    obtain ⟨r, n⟩ := x
    intro cur a st hx h hi
    have hx' := fun y hy => hx y (List.mem_cons_of_mem _ hy)
    obtain ⟨hla, hnew, hni⟩ := rtl_next (n := n) (a := a) (hx (r, n) (List.mem_cons_self ..)) h hi
    rw [emit]
    dsimp only at hla hnew hni ⊢
    split
    · rw [switch_plain hi hla]
      have := ih _ (if runeClass T o r = cAL then some (nextScrap cur (runeClass T o r) n).l else a) st hx' hnew hni
      dsimp only
      split
      · exact this
      · intro s hs
        rw [List.mem_cons] at hs
        rcases hs with rfl | hs
        · exact h
        · exact this s hs
    · exact ih _ _ _ hx' (rtl_join h hi) hi

/-- The closing brackets found by the scanner. -/
theorem pairUp_rtl {T : Tables} {o : Options} : ∀ (inp : List (Nat × Nat)) (cur : Scrap) (a : Option Nat) (st : List DirContext) (hd : Handler),
    (∀ x ∈ inp, runeClass T o x.1 ∉ [cL, cEN, cAN, cLRI, cRLI, cFSI, cPDI]) → RtlScrap cur → isIsolate cur = false →
    (∀ p ∈ hd.pairings, p.closing.ctx.odist = 0) → ∀ p ∈ (pairUp T o inp cur a st hd).pairings, p.closing.ctx.odist = 0 := by
  intro inp
  induction inp with
  | nil => intro cur a st hd _ _ _ h; exact h
  | cons x rest ih =>
    obtain ⟨r, n⟩ := x
    intro cur a st hd hx h hi hp
    have hx' := fun y hy => hx y (List.mem_cons_of_mem _ hy)
    obtain ⟨hla, hnew, hni⟩ := rtl_next (n := n) (a := a) (hx (r, n) (List.mem_cons_self ..)) h hi
    rw [pairUp]
    dsimp only at hla hnew hni ⊢
    split
    · rw [switch_plain hi hla]
      refine ih _ _ _ _ hx' hnew hni ?_
      dsimp only
      split
      · exact hp
      · split
        · exact hp
        · unfold Handler.findPair
          split
          · exact hp
          · intro p hm
            dsimp only at hm
            rw [List.mem_append, List.mem_cons] at hm
            rcases hm with hm | rfl | hm
            · exact hp p (List.mem_of_mem_take hm)
            · exact hnew.far
            · exact hp p (List.mem_of_mem_drop hm)
    · exact ih _ _ _ _ hx' (rtl_join h hi) hi hp

/-- A right-to-left text is resolved to right-to-left scraps. -/
theorem resolve_rtl {T : Tables} {o : Options} (hT : Spec.KnownClasses T) (ho : o.markup = none) (hd : o.outerR2L = true) (sched : Nat → Nat) (t : List Char)
    (h1 : ∀ c ∈ Spec.classes T o (Spec.firstParagraph T o t), c ∉ [cL, cEN, cAN, cLRI, cRLI, cFSI, cPDI]) (tile : Prop)
    (h2 : tile → (Spec.classes T o (Spec.firstParagraph T o t)).head? ≠ some cNSM) (hT0 : ∀ r, T.cls r ≠ cNULL) :
    ∃ N p, resolveParagraph T o sched (utf8 t) N = .returns (levelsOf o p.stack, p) ∧
      Good2 tile (utf8 (Spec.firstParagraph T o t)).length p.stack [] ∧ ∀ s ∈ p.stack, RtlScrap s := by
  have hni : Spec.NoIsolates (Spec.classes T o (Spec.firstParagraph T o t)) := by
    intro c hc hm
    refine h1 c hc ?_
    simp only [List.mem_cons, List.not_mem_nil, or_false] at hm ⊢
    exact Or.inr (Or.inr (Or.inr hm))
  have hnum : NumbersLTR cL (Spec.classes T o (Spec.firstParagraph T o t)) := by
    intro pre post he
    exact absurd (show cEN ∈ [cL, cEN, cAN, cLRI, cRLI, cFSI, cPDI] by decide) (h1 cEN (by rw [he]; simp))
  have hg := good_text hT t tile hni hnum (fun ht => ⟨fun hm => h1 _ hm (by simp), h2 ht⟩)
  obtain ⟨fin, f1, f2, f3⟩ := scanner_feeds ho hT0 sched (utf8 t)
  have hx : ∀ x ∈ paragraph T o (runesOf (utf8 t)), runeClass T o x.1 ∉ [cL, cEN, cAN, cLRI, cRLI, cFSI, cPDI] := by
    intro x hx
    rw [paragraph_text, List.mem_map] at hx
    obtain ⟨c, hc, rfl⟩ := hx
    dsimp only
    rw [runeClass_char]
    exact h1 _ (List.mem_map_of_mem hc)
  have hi0 : RtlScrap (initialOuterScrap o false) := by
    unfold initialOuterScrap
    rw [hd]
    exact ⟨by decide, rfl, rfl, rfl, fun _ => Nat.le_refl _⟩
  have hs : ∀ s ∈ scrapsOf T o (utf8 t), RtlScrap s := by
    unfold scrapsOf
    exact emit_rtl _ _ _ _ hx hi0 rfl
  have hn : NoIsolates (scrapsOf T o (utf8 t)) := fun s hs => (hg.1 s (by simpa using hs)).2
  have hrest : ∀ (C : Class → Prop) (D : Scrap → Prop), C cBRACKO → (∀ s : Scrap, s.ctx.odist = 0 → D s) → AtRestIn T o C D (fin, 0) := by
    intro C D hC hD
    refine ⟨ended_atRest f2, ?_⟩
    intro x hm
    rw [f3 hn, List.mem_singleton] at hm
    subst hm
    intro p hp
    rw [(pairUp_openings _ _ _ _ {} ⟨by simp, by simp⟩).2 p hp]
    exact ⟨hC, hD _ (pairUp_rtl _ _ _ _ {} hx hi0 rfl (by simp) p hp)⟩
  obtain ⟨N, p, e1, e2, -⟩ := whole (o := o) f1 ((good1_inv tile 0 (utf8 (Spec.firstParagraph T o t)).length).keeps rtl_keeps1)
    ((good2_inv (atRest_brackets T o sched) tile 0 (utf8 (Spec.firstParagraph T o t)).length).keeps (rtl_keeps2 T o sched)) ⟨hg, by simpa [AllOf] using hs⟩ (by
      intro ys hy
      refine ⟨good2_start o hy.1, ?_⟩
      · intro s hs
        rw [List.nil_append, List.mem_cons] at hs
        rcases hs with rfl | hs
        · unfold initialOuterScrap
          rw [hd]
          exact ⟨by decide, rfl, rfl, rfl, fun _ => Nat.le_refl _⟩
        · exact hy.2 s (by simpa using hs)) (fun h => by simpa using h.1.2.2) ⟨hrest _ _ (Or.inr rfl) (fun _ _ => trivial), hrest _ _ (by simp) (fun _ h => h)⟩
  exact ⟨N, p, e1, e2.1, fun s hs => e2.2 s (by simpa using hs)⟩

/-- Right-to-left scraps become one run. -/
theorem reorder_rtl_run {len : Nat} {stack : List Scrap} {e : Dir} (he : e = .rtl) (h1 : ∀ s ∈ stack, RtlScrap s)
    (h2 : Good2 True len stack []) (hlen : 0 < len) :
    ∃ r : VRun, (⟨e, stack ++ [{ l := (stack.getLast?.getD {}).r, r := (stack.getLast?.getD {}).r, clz := cPDI }]⟩ : Levels).reorder = some [r] ∧
      r.dir = .rtl ∧ r.length = len ∧ allPositions r.scraps = List.range len := by
  subst he
  refine one_run rfl ?_ (by have := h2.2.1 trivial; simpa using this) hlen
  intro s hs
  rw [List.mem_append, List.mem_singleton] at hs
  rcases hs with hs | rfl
  · have g1 := h1 s hs
    obtain ⟨g2, g3⟩ := h2.1 s (by simpa using hs)
    refine ⟨g1.kids, ?_, ?_, ?_, ?_⟩
    · rcases (g2.2.2.2 trivial).2 with h | h
      · exact g1.wide h.1
      · omega
    · have h28 := g2.1
      intro h0
      rw [h0] at h28
      exact absurd h28 (by decide)
    · unfold level
      rw [if_neg (by simp [g1.cls]), if_neg (by simp [g1.cls])]
    · unfold directionOf
      have c1 := g1.cls.1
      have c2 := g1.cls.2.2.2.2
      have c3 := g1.cls.2.2.1
      have c4 := g1.cls.2.2.2.1
      repeat' split
      all_goals simp_all
  · exact ⟨rfl, Nat.le_refl _, show cPDI ≠ cNULL by decide, rfl, rfl⟩

end Uax.Bidi
