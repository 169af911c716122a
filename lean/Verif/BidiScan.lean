import Verif.BidiChars

/-
The classes that the scanner gives to the bytes of a text without isolates.
-/
namespace Uax.Bidi
open Spec

/-- The rules W1 and W3, with one class for neutrals. -/
def scanned (prev : Class) : List Class → List Class
  | [] => []
  | c :: cs =>
    let c' := if c = cNSM then prev else if c = cAL then cR else oneNeutral c
    c' :: scanned c' cs

theorem noAL_cons {c : Class} {cs : List Class} (h : NoALBeforeEN (c :: cs)) : (c = cAL → cEN ∉ cs) ∧ NoALBeforeEN cs := by
  refine ⟨?_, fun pre post he => ?_⟩
  · rintro rfl hm
    obtain ⟨pre, post, he⟩ := List.append_of_mem hm
    exact h (cAL :: pre) post (by rw [he]; rfl) (List.mem_cons_self ..)
  · have := h (c :: pre) post (by rw [he]; rfl)
    exact fun hm => this (List.mem_cons_of_mem _ hm)

/-- Rule W2 changes nothing. -/
theorem w2_same : ∀ (cs : List Class) (s prev : Class), ((s ≠ cAL ∧ prev ≠ cAL ∧ NoALBeforeEN cs) ∨ (cEN ∉ cs ∧ prev ≠ cEN)) →
    Spec.NoIsolates cs → prev ∉ [cLRI, cRLI, cFSI, cPDI] →
    w2 s (w1 prev cs) = w1 prev cs := by
  intro cs
  induction cs with
  | nil => intros; rfl
  | cons c cs ih =>
    intro s prev h hni hp
    rw [w1]
    rw [if_neg hp]
    generalize hc' : (if c = cNSM then prev else c) = c'
    have hp' : c' ∉ [cLRI, cRLI, cFSI, cPDI] := by
      rw [← hc']
      split
      · exact hp
      · exact hni c (List.mem_cons_self ..)
    rw [w2]
    have hstep : ¬ (c' = cEN ∧ s = cAL) := by
      rintro ⟨h1, h2⟩
      rcases h with ⟨h3, -, -⟩ | ⟨h3, h4⟩
      · exact h3 h2
      · rw [← hc'] at h1
        split at h1
        · exact h4 h1
        · exact h3 (by rw [h1]; exact List.mem_cons_self ..)
    rw [if_neg hstep, ih]
    · rcases h with ⟨h1, h2, h3⟩ | ⟨h3, h4⟩
      · obtain ⟨g1, g2⟩ := noAL_cons h3
        by_cases hA : c' = cAL
        · right
          have : c = cAL := by
            rw [← hc'] at hA
            split at hA
            · exact absurd hA h2
            · exact hA
          exact ⟨g1 this, by rw [hA]; decide⟩
        · left
          refine ⟨?_, hA, g2⟩
          unfold strongAfter
          split
          · exact hA
          · exact h1
      · right
        refine ⟨fun hm => h3 (List.mem_cons_of_mem _ hm), ?_⟩
        rw [← hc']
        split
        · exact h4
        · intro he; exact h3 (by rw [he]; exact List.mem_cons_self ..)
    · exact fun x hx => hni x (List.mem_cons_of_mem _ hx)
    · exact hp'

/-- The class before, as the scanner has it. -/
def asScanned (c : Class) : Class := oneNeutral (if c = cAL then cR else c)

theorem scanned_w1 : ∀ (cs : List Class) (prev : Class), Spec.NoIsolates cs → prev ∉ [cLRI, cRLI, cFSI, cPDI] →
    scanned (asScanned prev) cs = (w3 (w1 prev cs)).map oneNeutral := by
  intro cs
  induction cs with
  | nil => intros; rfl
  | cons c cs ih =>
    intro prev hni hp
    rw [w1, scanned]
    rw [if_neg hp]
    have hp' : (if c = cNSM then prev else c) ∉ [cLRI, cRLI, cFSI, cPDI] := by
      split
      · exact hp
      · exact hni c (List.mem_cons_self ..)
    have := ih _ (fun x hx => hni x (List.mem_cons_of_mem _ hx)) hp'
    rw [w3, List.map_cons, List.map_cons, ← w3, ← this]
    have e : (if c = cNSM then asScanned prev else if c = cAL then cR else oneNeutral c) = asScanned (if c = cNSM then prev else c) := by
      by_cases h1 : c = cNSM
      · rw [if_pos h1, if_pos h1]
      · rw [if_neg h1, if_neg h1]
        by_cases h2 : c = cAL
        · rw [if_pos h2, asScanned, if_pos h2]; rfl
        · rw [if_neg h2, asScanned, if_neg h2]
    rw [e]
    rfl

/-- The first character is not a mark, so that it does not matter what is before. -/
theorem scanned_head (cs : List Class) (a b : Class) (h : cs.head? ≠ some cNSM) : scanned a cs = scanned b cs := by
  cases cs with
  | nil => rfl
  | cons c cs =>
    have hc : c ≠ cNSM := by rintro rfl; exact h rfl
    rw [scanned, scanned]
    rw [if_neg hc, if_neg hc]

theorem utf8_len (c : Char) (t : List Char) : (utf8 (c :: t)).length = (utf8 [c]).length + (utf8 t).length := by
  simp [utf8]

theorem rules_scanned {c : Class} {cur : Scrap} (hni : isIsolate cur = false) (h : c = cEN → cur.ctx.isAL = false) :
    rulesW1to3 c cur = if c = cNSM then cur.clz else if c = cAL then cR else oneNeutral c := by
  simp only [isIsolate, Bool.or_eq_false_iff, beq_eq_false_iff_ne] at hni
  unfold rulesW1to3
  by_cases h1 : c = cNSM
  · rw [if_pos h1, if_pos h1, if_neg hni.1.1.1, if_neg hni.1.1.2, if_neg hni.2]
  · rw [if_neg h1, if_neg h1]
    by_cases h2 : c = cEN
    · rw [if_pos h2, h h2, h2]; rfl
    · rw [if_neg h2]
      rfl

/-- The scraps of a text, byte by byte. -/
theorem emit_bytes {T : Tables} {o : Options} (hT : KnownClasses T) : ∀ (t : List Char) (cur : Scrap) (a : Option Nat) (st : List DirContext),
    isIsolate cur = false → cur.clz ≠ cAL → cur.l ≤ cur.r → (cur.clz = cNULL → (classes T o t).head? ≠ some cNSM) →
    Spec.NoIsolates (classes T o t) →
    ((a = none ∧ cur.ctx.isAL = false ∧ NoALBeforeEN (classes T o t)) ∨ cEN ∉ classes T o t) →
    byteClasses (emit T o (t.map fun c => (c.toNat, (utf8 [c]).length)) cur a st) =
      List.replicate (if cur.clz = cNULL then 0 else cur.r - cur.l) cur.clz ++ spread t (scanned cur.clz (classes T o t)) ∧
    Tiles (if cur.clz = cNULL then cur.r else cur.l) (cur.r + (utf8 t).length) (emit T o (t.map fun c => (c.toNat, (utf8 [c]).length)) cur a st) := by
  intro t
  induction t with
  | nil =>
    intro cur a st _ _ _ _ _ _
    rw [List.map_nil, emit]
    by_cases hz : cur.clz = cNULL
    · rw [if_pos hz, if_pos hz, if_pos hz]
      exact ⟨rfl, rfl⟩
    · rw [if_neg hz, if_neg hz, if_neg hz]
      refine ⟨?_, rfl, rfl⟩
      simp [byteClasses, spread, classes]
  | cons c t ih =>
    intro cur a st hni hal hle hh hiso hA
    have hcs : classes T o (c :: t) = charClass T o c :: classes T o t := rfl
    rw [hcs] at hh hiso hA ⊢
    have hk := charClass_known hT o c
    generalize hcc : charClass T o c = k at hh hiso hA hk ⊢
    rw [List.map_cons, emit]
    dsimp only
    rw [runeClass_char, hcc]
    have hen : k = cEN → cur.ctx.isAL = false := by
      rintro rfl
      rcases hA with h | h
      · exact h.2.1
      · exact absurd (List.mem_cons_self ..) h
    have hr := rules_scanned hni hen
    have hkz : k ≠ cNULL := by
      rintro rfl
      exact absurd hk (by decide)
    have hki : k ∉ [cLRI, cRLI, cFSI, cPDI] := hiso k (List.mem_cons_self ..)
    have hiso' : Spec.NoIsolates (classes T o t) := fun x hx => hiso x (List.mem_cons_of_mem _ hx)
    rw [scanned]
    rw [← hr]
    generalize hn : rulesW1to3 k cur = n at hr ⊢
    have hspread : spread (c :: t) (n :: scanned n (classes T o t)) = List.replicate (utf8 [c]).length n ++ spread t (scanned n (classes T o t)) := rfl
    rw [hspread, utf8_len c t]
    have hnn : (cur.clz = cNULL → k ≠ cNSM) → n ≠ cNULL := by
      intro h
      rw [hr]
      split
      · intro hz
        exact h hz (by assumption)
      · split
        · decide
        · unfold oneNeutral
          split
          · decide
          · exact hkz
    have hnz : n ≠ cNULL := hnn (fun h => by
      rintro rfl
      exact hh h rfl)
    have hnal : n ≠ cAL := by
      rw [hr]
      split
      · exact hal
      · split
        · decide
        · unfold oneNeutral
          split
          · decide
          · assumption
    have hniso : n ∉ [cLRI, cRLI, cFSI, cPDI] := by
      rw [hr]
      split
      · simp only [isIsolate, Bool.or_eq_false_iff, beq_eq_false_iff_ne] at hni
        simp [hni.1.1.1, hni.1.1.2, hni.1.2, hni.2]
      · split
        · decide
        · unfold oneNeutral
          split
          · decide
          · exact hki
    have hlaiso : isIsolate (nextScrap cur k (utf8 [c]).length) = false := by
      simp only [List.mem_cons, List.not_mem_nil, or_false, not_or] at hniso
      unfold isIsolate nextScrap
      rw [hn]
      simp [hniso.1, hniso.2.1, hniso.2.2.1, hniso.2.2.2]
    by_cases hb : breaks cur k = true
    · rw [if_pos hb, switch_plain hni hlaiso]
      dsimp only
      obtain ⟨i1, i2, i3, i4⟩ := inherit_eq (nextScrap cur k (utf8 [c]).length) cur a hlaiso hni hal
      have icl := inherit_clz (nextScrap cur k (utf8 [c]).length) cur a
      change (inheritStrongTypes (nextScrap cur k (utf8 [c]).length) cur a).l = cur.r at i1
      change (inheritStrongTypes (nextScrap cur k (utf8 [c]).length) cur a).r = cur.r + (utf8 [c]).length at i2
      change (inheritStrongTypes (nextScrap cur k (utf8 [c]).length) cur a).clz = rulesW1to3 k cur at icl
      rw [hn] at icl
      generalize inheritStrongTypes (nextScrap cur k (utf8 [c]).length) cur a = new at *
      have hnewi : isIsolate new = false := by
        simp only [List.mem_cons, List.not_mem_nil, or_false, not_or] at hniso
        unfold isIsolate
        rw [icl]
        simp [hniso.1, hniso.2.1, hniso.2.2.1, hniso.2.2.2]
      have hA' : ((if k = cAL then some (nextScrap cur k (utf8 [c]).length).l else a) = none ∧ new.ctx.isAL = false ∧ NoALBeforeEN (classes T o t)) ∨
          cEN ∉ classes T o t := by
        rcases hA with ⟨h1, h2, h3⟩ | h
        · obtain ⟨g1, g2⟩ := noAL_cons h3
          by_cases hkal : k = cAL
          · exact Or.inr (g1 hkal)
          · left
            rw [if_neg hkal]
            refine ⟨h1, ?_, g2⟩
            simp only [DirContext.isAL, beq_eq_false_iff_ne] at h2 ⊢
            rw [(i4 h1).1]
            unfold nextStrong
            split
            · decide
            · split
              · decide
              · exact h2
        · exact Or.inr (fun hm => h (List.mem_cons_of_mem _ hm))
      obtain ⟨r1, r2⟩ := ih new (if k = cAL then some (nextScrap cur k (utf8 [c]).length).l else a) st hnewi (by rw [icl]; exact hnal)
        (by rw [i1, i2]; omega) (fun h => absurd (icl ▸ h) hnz) hiso' hA'
      rw [icl, if_neg hnz, i1, i2, Nat.add_sub_cancel_left] at r1
      rw [icl, if_neg hnz, i1, i2, Nat.add_assoc] at r2
      by_cases hz : cur.clz = cNULL
      · rw [if_pos hz, if_pos hz, if_pos hz]
        exact ⟨by rw [r1]; rfl, r2⟩
      · rw [if_neg hz, if_neg hz, if_neg hz]
        refine ⟨?_, rfl, r2⟩
        rw [byteClasses, List.flatMap_cons, ← byteClasses, r1]
    · rw [if_neg hb]
      have hb' : breaks cur k = false := by simpa using hb
      simp only [breaks, Bool.or_eq_false_iff, decide_eq_false_iff_not, ne_eq, Decidable.not_not] at hb'
      obtain ⟨⟨⟨b1, b2⟩, -⟩, -⟩ := hb'
      rw [hn] at b2
      have hA' : (a = none ∧ cur.ctx.isAL = false ∧ NoALBeforeEN (classes T o t)) ∨ cEN ∉ classes T o t := by
        rcases hA with ⟨h1, h2, h3⟩ | h
        · exact Or.inl ⟨h1, h2, (noAL_cons h3).2⟩
        · exact Or.inr (fun hm => h (List.mem_cons_of_mem _ hm))
      obtain ⟨r1, r2⟩ := ih (collapse cur (nextScrap cur k (utf8 [c]).length) cur.clz) a st hni hal
        (by show cur.l ≤ cur.r + (utf8 [c]).length; omega) (fun h => absurd h b1) hiso' hA'
      change byteClasses _ = List.replicate (if cur.clz = cNULL then 0 else cur.r + (utf8 [c]).length - cur.l) cur.clz ++ spread t (scanned cur.clz (classes T o t)) at r1
      change Tiles (if cur.clz = cNULL then cur.r + (utf8 [c]).length else cur.l) (cur.r + (utf8 [c]).length + (utf8 t).length) _ at r2
      rw [if_neg b1] at r1 r2 ⊢
      rw [if_neg b1]
      refine ⟨?_, by rw [← Nat.add_assoc]; exact r2⟩
      rw [r1, ← b2, ← List.append_assoc, List.replicate_append_replicate]
      congr 2
      omega

/-- The scraps of a text. -/
theorem scraps_bytes {T : Tables} {o : Options} (hT : KnownClasses T) (t : List Char) (h1 : Spec.NoIsolates (classes T o (firstParagraph T o t)))
    (h2 : (classes T o (firstParagraph T o t)).head? ≠ some cNSM) (h3 : NoALBeforeEN (classes T o (firstParagraph T o t))) (e : Class)
    (he : e = cL ∨ e = cR) :
    byteClasses (scrapsOf T o (utf8 t)) = spread (firstParagraph T o t) ((w3 (w2 e (w1 e (classes T o (firstParagraph T o t))))).map oneNeutral) ∧
    Tiles 0 (utf8 (firstParagraph T o t)).length (scrapsOf T o (utf8 t)) := by
  unfold scrapsOf
  rw [paragraph_text]
  have hz : (initialOuterScrap o false).clz = cNULL := rfl
  have hr : (initialOuterScrap o false).r = 0 := rfl
  obtain ⟨r1, r2⟩ := emit_bytes hT (o := o) (firstParagraph T o t) (initialOuterScrap o false) none [] rfl (by rw [hz]; decide) (Nat.le_refl _)
    (fun _ => h2) h1 (Or.inl ⟨rfl, rfl, h3⟩)
  rw [if_pos hz, hz] at r1
  rw [if_pos hz, hr, Nat.zero_add] at r2
  refine ⟨?_, r2⟩
  have hiso : e ∉ [cLRI, cRLI, cFSI, cPDI] := by rcases he with rfl | rfl <;> decide
  have hnal : e ≠ cAL := by rcases he with rfl | rfl <;> decide
  rw [r1, w2_same _ _ _ (Or.inl ⟨hnal, hnal, h3⟩) h1 hiso, ← scanned_w1 _ _ h1 hiso, scanned_head _ cNULL (asScanned e) h2]
  rfl

end Uax.Bidi
