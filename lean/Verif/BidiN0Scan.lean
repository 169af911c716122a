import Verif.BidiLookup
import Verif.BidiScan
import Verif.SpecN0

/-
The contexts which the scanner gives to brackets, in a text without isolates and
Arabic letters.
-/
namespace Uax.Bidi
open Spec

/-- The letters of a text, as strong types. -/
def letters (T : Tables) (o : Options) (t : List Char) : List Class := (classes T o t).filter fun c => c == cL || c == cR

theorem letters_append (T : Tables) (o : Options) (a b : List Char) : letters T o (a ++ b) = letters T o a ++ letters T o b := by
  simp [letters, classes]

theorem letters_cons (T : Tables) (o : Options) (c : Char) (t : List Char) : letters T o (c :: t) = letters T o [c] ++ letters T o t :=
  letters_append T o [c] t

theorem utf8_append (a b : List Char) : (utf8 (a ++ b)).length = (utf8 a).length + (utf8 b).length := by
  simp [utf8]

/-- A bracket. -/
def IsBr (c : Class) : Prop := c = cBRACKO ∨ c = cBRACKC

/-- What a context says about the text before. -/
structure CtxAt (T : Tables) (o : Options) (pre : List Char) (dc : DirContext) : Prop where
  emb : dc.embeddingDir = outer o
  strong : dc.strong = (letters T o pre).getLast?.getD cL
  before : dc.matchPos < (utf8 pre).length ∨ dc.matchPos = 0
  here : ∀ u c w, pre = u ++ c :: w → IsBr (charClass T o c) →
    (outer o ∈ letters T o w → (utf8 u).length ≤ dc.matchPos) ∧
    (outer o ∉ letters T o w → dc.matchPos < (utf8 u).length ∨ u = []) ∧
    (opposite (outer o) ∈ letters T o w → (utf8 u).length ≤ dc.matchPos + dc.odist)

/-- The text of a scrap. -/
structure RunOf (T : Tables) (o : Options) (k : Class) (cch : List Char) : Prop where
  strong : k = cL ∨ k = cR → letters T o cch ≠ [] ∧ ∀ x ∈ letters T o cch, x = k
  other : k ≠ cL → k ≠ cR → letters T o cch = []
  bracket : ∀ c ∈ cch, IsBr (charClass T o c) → IsBr k
  one : IsBr k → ∃ c, cch = [c]

theorem RunOf.tail {T : Tables} {o : Options} {k : Class} {cch : List Char} (h : RunOf T o k cch) (u : List Char) (c : Char) (w : List Char)
    (he : cch = u ++ c :: w) (hb : IsBr (charClass T o c)) : u = [] ∧ w = [] := by
  obtain ⟨x, hx⟩ := h.one (h.bracket c (by rw [he]; simp) hb)
  rw [hx] at he
  cases u with
  | nil => simp at he; exact ⟨rfl, he.2⟩
  | cons y ys => simp at he

theorem getLast_of_all {l : List Class} {k d : Class} (h : l ≠ []) (ha : ∀ x ∈ l, x = k) (m : List Class) : (m ++ l).getLast?.getD d = k := by
  rw [List.getLast?_append]
  cases hl : l.getLast? with
  | none => exact absurd (List.getLast?_eq_none_iff.mp hl) h
  | some x => exact ha x (List.mem_of_getLast? hl)

theorem outer_cases (o : Options) : (outer o = cL ∧ opposite (outer o) = cR) ∨ (outer o = cR ∧ opposite (outer o) = cL) := by
  unfold outer
  split
  · exact Or.inr ⟨rfl, rfl⟩
  · exact Or.inl ⟨rfl, rfl⟩

/-- Splitting a text at a bracket, when only the end of the text has been added. -/
theorem split_run {T : Tables} {o : Options} {k : Class} {pre cch u w : List Char} {c : Char} (hr : RunOf T o k cch) (h : pre ++ cch = u ++ c :: w)
    (hb : IsBr (charClass T o c)) : (∃ w', pre = u ++ c :: w' ∧ w = w' ++ cch) ∨ (u = pre ∧ w = [] ∧ cch = [c]) := by
  rcases List.append_eq_append_iff.mp h with ⟨a', h1, h2⟩ | ⟨b', h1, h2⟩
  · obtain ⟨e1, e2⟩ := hr.tail a' c w h2 hb
    right
    subst e1; subst e2
    exact ⟨by simpa using h1, rfl, h2⟩
  · cases b' with
    | nil =>
      have e : cch = [] ++ c :: w := by simpa using h2.symm
      obtain ⟨-, e2⟩ := hr.tail [] c w e hb
      subst e2
      exact Or.inr ⟨by simpa using h1.symm, rfl, e⟩
    | cons x b' =>
      rw [List.cons_append, List.cons.injEq] at h2
      obtain ⟨rfl, h2⟩ := h2
      exact Or.inl ⟨b', h1, h2⟩

/-- The context of the next scrap. -/
def nextCtx (s : Scrap) : DirContext := if s.clz = cL then s.ctx.setStrongType cL s.l else if s.clz = cR then s.ctx.setStrongType cR s.l else s.ctx

theorem inherit_ctx {d s : Scrap} (hd : isIsolate d = false) (hs : isIsolate s = false) (hal : s.clz ≠ cAL) :
    (inheritStrongTypes d s none).ctx = nextCtx s := by
  simp only [isIsolate, Bool.or_eq_false_iff, beq_eq_false_iff_ne] at hd hs
  unfold inheritStrongTypes nextCtx
  rw [if_neg hd.1.1.1, if_neg hd.1.1.2]
  dsimp only
  by_cases h1 : s.clz = cL
  · rw [if_pos (Or.inl h1), if_pos h1]
  · rw [if_neg (by simp [h1, hs.1.1.1]), if_neg h1]
    by_cases h2 : s.clz = cR
    · rw [if_pos (Or.inl h2), if_pos h2]
    · rw [if_neg (by simp [h2, hs.1.1.2]), if_neg h2, if_neg hal]

theorem ctx_step {T : Tables} {o : Options} {pre cch : List Char} {s : Scrap} (h : CtxAt T o pre s.ctx) (hr : RunOf T o s.clz cch)
    (hl : s.l = (utf8 pre).length) (hb : (utf8 pre).length ≤ 65535) (hne : (utf8 pre).length < (utf8 (pre ++ cch)).length ∨ s.clz = cNULL) :
    CtxAt T o (pre ++ cch) (nextCtx s) := by
  have hlen := utf8_append pre cch
  -- the letter case
  have key : s.clz = cL ∨ s.clz = cR → CtxAt T o (pre ++ cch) (s.ctx.setStrongType s.clz s.l) := by
    intro hk
    obtain ⟨l1, l2⟩ := hr.strong hk
    have hpos : (utf8 pre).length < (utf8 (pre ++ cch)).length := by
      rcases hne with h1 | h1
      · exact h1
      · rw [h1] at hk; rcases hk with h2 | h2 <;> exact absurd h2 (by decide)
    obtain ⟨g1, g2⟩ := setStrong_eq s.ctx s.clz s.l (hk.imp id Or.inl)
    have hlast : ((letters T o (pre ++ cch)).getLast?).getD cL = s.clz := by
      rw [letters_append]; exact getLast_of_all l1 l2 _
    have hnot : ¬ (s.clz ≠ cL ∧ s.clz ≠ cR ∧ s.clz ≠ cAL ∧ s.clz ≠ cNI) := by rcases hk with h | h <;> simp [h]
    have hpos0 : ∀ u : List Char, u = [] → (utf8 u).length = 0 := by rintro u rfl; rfl
    refine ⟨by rw [g2]; exact h.emb, by rw [g1, hlast], ?_, ?_⟩
    · unfold DirContext.setStrongType
      rw [if_neg hnot]
      split
      · left; show s.l < _; omega
      · have := h.before
        split <;> (show s.ctx.matchPos < _ ∨ s.ctx.matchPos = 0) <;> omega
    · intro u c w he hbr
      rcases split_run hr he hbr with ⟨w', e1, e2⟩ | ⟨e1, e2, e3⟩
      · obtain ⟨a1, a2, a3⟩ := h.here u c w' e1 hbr
        have hul : (utf8 u).length < (utf8 pre).length := by
          rw [e1, utf8_append, utf8_len]; have := utf8_pos c; omega
        rw [e2, letters_append]
        simp only [List.mem_append]
        have hmem : ∀ x, x ∈ letters T o cch ↔ x = s.clz := fun x => ⟨l2 x, fun e => by
          obtain ⟨y, hy⟩ := List.exists_mem_of_ne_nil _ l1
          rw [e, ← l2 y hy]; exact hy⟩
        simp only [hmem]
        have hlt : s.l > s.ctx.matchPos := by rcases h.before with h' | h' <;> omega
        unfold DirContext.setStrongType
        rw [if_neg hnot, h.emb]
        by_cases hse : s.clz = outer o
        · rw [if_pos ⟨hse, hlt⟩]
          dsimp only
          refine ⟨fun _ => by omega, fun hn => absurd (Or.inr hse.symm) hn, fun _ => by omega⟩
        · have hso : s.clz = opposite (outer o) := by
            rcases outer_cases o with ⟨q1, q2⟩ | ⟨q1, q2⟩
            · rw [q2]; rw [q1] at hse; exact hk.resolve_left hse
            · rw [q2]; rw [q1] at hse; exact hk.resolve_right hse
          rw [if_neg (fun hx => hse hx.1), if_pos ⟨hso, hlt⟩]
          dsimp only
          refine ⟨fun hx => a1 (hx.resolve_right fun e => hse e.symm), fun hn => a2 fun hx => hn (Or.inl hx), fun _ => ?_⟩
          have : min (s.l - s.ctx.matchPos) 65535 = s.l - s.ctx.matchPos := by omega
          rw [this]
          omega
      · exfalso
        rw [e3] at l1
        apply l1
        unfold letters classes
        rcases hbr with hb' | hb' <;> simp [hb', cBRACKO, cBRACKC, cL, cR]
  unfold nextCtx
  by_cases h1 : s.clz = cL
  · rw [if_pos h1]; have := key (Or.inl h1); rw [h1] at this; exact this
  · rw [if_neg h1]
    by_cases h2 : s.clz = cR
    · rw [if_pos h2]; have := key (Or.inr h2); rw [h2] at this; exact this
    · rw [if_neg h2]
      have hno := hr.other h1 h2
      refine ⟨h.emb, by rw [letters_append, hno, List.append_nil]; exact h.strong, by rcases h.before with h' | h' <;> omega, ?_⟩
      intro u c w he hbr
      rcases split_run hr he hbr with ⟨w', e1, e2⟩ | ⟨e1, e2, e3⟩
      · obtain ⟨a1, a2, a3⟩ := h.here u c w' e1 hbr
        rw [e2, letters_append, hno, List.append_nil]
        exact ⟨a1, a2, a3⟩
      · subst e2
        refine ⟨fun hx => by simp [letters, classes] at hx, fun _ => ?_, fun hx => by simp [letters, classes] at hx⟩
        subst e1
        rcases h.before with h' | h'
        · exact Or.inl h'
        · cases hu : u with
          | nil => exact Or.inr rfl
          | cons x xs => left; rw [h', utf8_len]; have := utf8_pos x; omega

theorem letters_nil {T : Tables} {o : Options} {c : Char} (h1 : charClass T o c ≠ cL) (h2 : charClass T o c ≠ cR) : letters T o [c] = [] := by
  simp [letters, classes, h1, h2]

theorem letters_one {T : Tables} {o : Options} {c : Char} (h : charClass T o c = cL ∨ charClass T o c = cR) : letters T o [c] = [charClass T o c] := by
  rcases h with h | h <;> simp [letters, classes, h]

/-- The class of the next character, in a text without isolates and Arabic letters. -/
theorem char_class_next {k : Class} {cur : Scrap} (hni : isIsolate cur = false) (hal : k ≠ cAL) (hen : k = cEN → cur.ctx.isAL = false) :
    rulesW1to3 k cur = if k = cNSM then cur.clz else oneNeutral k := by
  rw [rules_scanned hni hen, if_neg hal]

/-- There is no Arabic letter before. -/
theorem CtxAt.notAL {T : Tables} {o : Options} {pre : List Char} {dc : DirContext} (h : CtxAt T o pre dc) : dc.isAL = false := by
  unfold DirContext.isAL
  rw [h.strong]
  cases hg : (letters T o pre).getLast? with
  | none => rfl
  | some x =>
    have := List.mem_of_getLast? hg
    simp only [letters, List.mem_filter, Bool.or_eq_true, beq_iff_eq] at this
    rcases this.2 with rfl | rfl <;> rfl

theorem oneNeutral_class {k : Class} : (oneNeutral k = cL ↔ k = cL) ∧ (oneNeutral k = cR ↔ k = cR) ∧ (IsBr (oneNeutral k) ↔ IsBr k) := by
  unfold oneNeutral IsBr
  split
  · rename_i h
    rcases h with rfl | rfl | rfl | rfl <;> decide
  · exact ⟨Iff.rfl, Iff.rfl, Iff.rfl⟩

/-- The brackets of the stream, with their contexts. -/
theorem emit_ctx {T : Tables} {o : Options} (hT : KnownClasses T) : ∀ (t pre cch : List Char) (cur : Scrap) (st : List DirContext),
    isIsolate cur = false → cur.clz ≠ cAL → cur.l = (utf8 pre).length → cur.r = (utf8 (pre ++ cch)).length →
    CtxAt T o pre cur.ctx → RunOf T o cur.clz cch → (cch ≠ [] ∨ cur.clz = cNULL) →
    (cur.clz = cNULL → (classes T o t).head? ≠ some cNSM) →
    Spec.NoIsolates (classes T o t) → cAL ∉ classes T o t → (utf8 (pre ++ cch ++ t)).length ≤ 65535 →
    ∀ s ∈ emit T o (t.map fun c => (c.toNat, (utf8 [c]).length)) cur none st, IsBr s.clz →
      ∃ u c w, pre ++ cch ++ t = u ++ c :: w ∧ s.l = (utf8 u).length ∧ s.r = (utf8 u).length + (utf8 [c]).length ∧ CtxAt T o u s.ctx := by
  intro t
  induction t with
  | nil =>
    intro pre cch cur st _ _ hl hr hc hrun _ _ _ _ _ s hs hb
    rw [List.map_nil, emit] at hs
    split at hs
    · cases hs
    · rw [List.mem_singleton] at hs
      subst hs
      obtain ⟨c, hcc⟩ := hrun.one hb
      refine ⟨pre, c, [], by rw [hcc]; simp, hl, ?_, hc⟩
      rw [hr, hcc, utf8_append]
  | cons c t ih =>
    intro pre cch cur st hni hal hl hr hc hrun hne hh hiso hAL hlen
    have hcs : classes T o (c :: t) = charClass T o c :: classes T o t := rfl
    rw [hcs] at hh hiso hAL
    have hk := charClass_known hT o c
    have hkal : charClass T o c ≠ cAL := fun h => hAL (by rw [h]; exact List.mem_cons_self ..)
    have hAL' : cAL ∉ classes T o t := fun h => hAL (List.mem_cons_of_mem _ h)
    have hiso' : Spec.NoIsolates (classes T o t) := fun x hx => hiso x (List.mem_cons_of_mem _ hx)
    have hki : charClass T o c ∉ [cLRI, cRLI, cFSI, cPDI] := hiso _ (List.mem_cons_self ..)
    have hn := char_class_next hni hkal (fun _ => hc.notAL)
    have hkz : charClass T o c ≠ cNULL := by intro h; rw [h] at hk; exact absurd hk (by decide)
    rw [List.map_cons, emit]
    dsimp only
    rw [runeClass_char]
    have hlaiso : isIsolate (nextScrap cur (charClass T o c) (utf8 [c]).length) = false := by
      unfold isIsolate nextScrap
      dsimp only
      rw [hn]
      split
      · exact hni
      · unfold oneNeutral
        simp only [List.mem_cons, List.not_mem_nil, or_false, not_or] at hki
        split
        · decide
        · simp [hki]
    have hpl : (utf8 pre).length ≤ 65535 := by rw [utf8_append, utf8_append] at hlen; omega
    have happ : pre ++ cch ++ c :: t = (pre ++ cch) ++ [c] ++ t := by simp
    by_cases hb : breaks cur (charClass T o c) = true
    · rw [if_pos hb, switch_plain hni hlaiso]
      dsimp only
      rw [if_neg hkal]
      have hctx := inherit_ctx (d := nextScrap cur (charClass T o c) (utf8 [c]).length) hlaiso hni hal
      obtain ⟨i1, i2, i3⟩ := inherit_parts (nextScrap cur (charClass T o c) (utf8 [c]).length) cur none
      change _ = cur.r at i1
      change _ = cur.r + (utf8 [c]).length at i2
      change _ = rulesW1to3 (charClass T o c) cur at i3
      generalize inheritStrongTypes (nextScrap cur (charClass T o c) (utf8 [c]).length) cur none = new at *
      have hnsm : charClass T o c = cNSM → IsBr cur.clz := by
        intro h
        rw [h, if_pos rfl] at hn
        simp only [breaks, h, hn, ne_eq, not_true, decide_false, Bool.or_false, hni, Bool.or_eq_true, decide_eq_true_eq, isBracket, beq_iff_eq] at hb
        rcases hb with hz | hb
        · exact absurd (by rw [h]; rfl) (hh hz)
        · exact hb
      have hrun' : RunOf T o new.clz [c] := by
        rw [i3, hn]
        by_cases hm : charClass T o c = cNSM
        · rw [if_pos hm]
          have := hnsm hm
          have hx : letters T o [c] = [] := letters_nil (by rw [hm]; decide) (by rw [hm]; decide)
          refine ⟨fun h => ?_, fun _ _ => hx, fun x hxm hxb => ?_, fun _ => ⟨c, rfl⟩⟩
          · rcases this with h' | h' <;> rw [h'] at h <;> exact absurd h (by decide)
          · rw [List.mem_singleton] at hxm
            rw [hxm, hm] at hxb
            exact absurd hxb (by unfold IsBr; decide)
        · rw [if_neg hm]
          obtain ⟨o1, o2, o3⟩ := oneNeutral_class (k := charClass T o c)
          refine ⟨fun h => ?_, fun h1 h2 => letters_nil (fun e => h1 (o1.mpr e)) (fun e => h2 (o2.mpr e)), fun x hxm hxb => ?_, fun _ => ⟨c, rfl⟩⟩
          · rw [o1, o2] at h
            rw [letters_one h]
            refine ⟨by simp, fun x hx => ?_⟩
            rw [List.mem_singleton] at hx
            rw [hx]
            rcases h with h | h <;> rw [h] <;> rfl
          · rw [List.mem_singleton] at hxm
            rw [hxm] at hxb
            exact o3.mpr hxb
      have hctx' : CtxAt T o (pre ++ cch) new.ctx := by
        rw [hctx]
        refine ctx_step hc hrun hl hpl ?_
        rcases hne with hne | hne
        · left
          rw [utf8_append]
          cases hcc : cch with
          | nil => exact absurd hcc hne
          | cons x xs => rw [utf8_len]; have := utf8_pos x; omega
        · exact Or.inr hne
      have hz' : new.clz ≠ cNULL := by
        rw [i3, hn]
        split
        · rename_i hm
          intro hz
          rcases hnsm hm with h' | h' <;> rw [h'] at hz <;> exact absurd hz (by decide)
        · unfold oneNeutral
          split
          · decide
          · exact hkz
      have hih := ih (pre ++ cch) [c] new st (by
          have := hlaiso
          unfold isIsolate nextScrap at this
          unfold isIsolate
          rw [i3]
          exact this) (by
          rw [i3, hn]
          split
          · exact hal
          · unfold oneNeutral
            split
            · decide
            · exact hkal) (by rw [i1, hr]) (by rw [i2, hr, utf8_append (pre ++ cch) [c]]) hctx' hrun' (Or.inl (by simp))
        (fun h => absurd h hz') hiso' hAL' (by rw [← happ]; exact hlen)
      rw [← happ] at hih
      intro s hs hsb
      by_cases hz : cur.clz = cNULL
      · rw [if_pos hz] at hs
        exact hih s hs hsb
      · rw [if_neg hz, List.mem_cons] at hs
        rcases hs with rfl | hs
        · obtain ⟨x, hcc⟩ := hrun.one hsb
          refine ⟨pre, x, c :: t, by rw [hcc]; simp, hl, ?_, hc⟩
          rw [hr, hcc, utf8_append]
        · exact hih s hs hsb
    · rw [if_neg hb]
      have hb' : breaks cur (charClass T o c) = false := by simpa using hb
      simp only [breaks, Bool.or_eq_false_iff, decide_eq_false_iff_not, ne_eq, Decidable.not_not] at hb'
      obtain ⟨⟨⟨b1, b2⟩, b3⟩, -⟩ := hb'
      have hnb : ¬ IsBr cur.clz := by
        unfold isBracket at b3
        simp only [Bool.or_eq_false_iff, beq_eq_false_iff_ne] at b3
        rintro (h | h)
        · exact b3.1 h
        · exact b3.2 h
      rw [hn] at b2
      have hrun' : RunOf T o cur.clz (cch ++ [c]) := by
        by_cases hm : charClass T o c = cNSM
        · have hx : letters T o [c] = [] := letters_nil (by rw [hm]; decide) (by rw [hm]; decide)
          refine ⟨fun h => ?_, fun h1 h2 => ?_, fun x hxm hxb => ?_, fun h => absurd h hnb⟩
          · rw [letters_append, hx, List.append_nil]; exact hrun.strong h
          · rw [letters_append, hx, List.append_nil]; exact hrun.other h1 h2
          · rw [List.mem_append, List.mem_singleton] at hxm
            rcases hxm with hxm | rfl
            · exact hrun.bracket x hxm hxb
            · rw [hm] at hxb
              exact absurd hxb (by unfold IsBr; decide)
        · rw [if_neg hm] at b2
          obtain ⟨o1, o2, o3⟩ := oneNeutral_class (k := charClass T o c)
          rw [← b2] at o1 o2 o3
          refine ⟨fun h => ?_, fun h1 h2 => ?_, fun x hxm hxb => ?_, fun h => absurd h hnb⟩
          · rw [letters_append]
            obtain ⟨g1, g2⟩ := hrun.strong h
            refine ⟨by simp [g1], fun x hx => ?_⟩
            rw [List.mem_append] at hx
            rcases hx with hx | hx
            · exact g2 x hx
            · rw [o1, o2] at h
              rw [letters_one h, List.mem_singleton] at hx
              rw [hx]
              rcases h with h | h
              · rw [h]; exact (o1.mpr h).symm
              · rw [h]; exact (o2.mpr h).symm
          · rw [letters_append, hrun.other h1 h2, letters_nil (fun e => h1 (o1.mpr e)) (fun e => h2 (o2.mpr e))]; rfl
          · rw [List.mem_append, List.mem_singleton] at hxm
            rcases hxm with hxm | rfl
            · exact hrun.bracket x hxm hxb
            · exact o3.mpr hxb
      have hih := ih pre (cch ++ [c]) (collapse cur (nextScrap cur (charClass T o c) (utf8 [c]).length) cur.clz) st hni hal hl
        (by show cur.r + (utf8 [c]).length = _; rw [hr, ← List.append_assoc, utf8_append (pre ++ cch) [c]]) hc hrun' (Or.inl (by simp))
        (fun h => absurd h b1) hiso' hAL' (by rw [← List.append_assoc, ← happ]; exact hlen)
      rw [← List.append_assoc, ← happ] at hih
      exact hih

/-- The brackets of a text. -/
theorem scraps_ctx {T : Tables} {o : Options} (hT : KnownClasses T) (t : List Char) (h1 : Spec.NoIsolates (classes T o (firstParagraph T o t)))
    (h2 : (classes T o (firstParagraph T o t)).head? ≠ some cNSM) (h3 : cAL ∉ classes T o (firstParagraph T o t))
    (h5 : (utf8 (firstParagraph T o t)).length ≤ 65535) :
    ∀ s ∈ scrapsOf T o (utf8 t), IsBr s.clz →
      ∃ u c w, firstParagraph T o t = u ++ c :: w ∧ s.l = (utf8 u).length ∧ s.r = (utf8 u).length + (utf8 [c]).length ∧ CtxAt T o u s.ctx := by
  unfold scrapsOf
  rw [paragraph_text]
  refine emit_ctx hT (firstParagraph T o t) [] [] (initialOuterScrap o false) [] rfl (by show cNULL ≠ cAL; decide) rfl rfl ?_ ?_ (Or.inr rfl) (fun _ => h2)
    h1 h3 (by simpa using h5)
  · refine ⟨rfl, rfl, Or.inr rfl, fun u c w h => ?_⟩
    exact absurd h.symm (by simp)
  · exact ⟨fun h => absurd (show cNULL = cL ∨ cNULL = cR from h) (by decide), fun _ _ => rfl, fun c hc => absurd hc (by simp),
      fun h => absurd (show cNULL = cBRACKO ∨ cNULL = cBRACKC from h) (by decide)⟩

/-! ### The class of a pair -/

theorem letters_mem {T : Tables} {o : Options} {t : List Char} {x : Class} (h : x ∈ letters T o t) : x = cL ∨ x = cR := by
  simp only [letters, List.mem_filter, Bool.or_eq_true, beq_iff_eq] at h
  exact h.2

theorem opening_n0 {T : Tables} {o : Options} {u inside : List Char} {a : Char} {os cs : Scrap} (h1 : CtxAt T o u os.ctx) (h2 : CtxAt T o (u ++ a :: inside) cs.ctx)
    (hb : IsBr (charClass T o a)) (hl : os.l = (utf8 u).length) (hne : letters T o inside ≠ []) :
    (openingClass os cs).1 = if outer o ∈ letters T o inside ∨ u = [] then outer o else (letters T o u).getLast?.getD cL := by
  obtain ⟨a1, a2, a3⟩ := h2.here u a inside rfl hb
  unfold openingClass Scrap.hasEmbeddingMatchAfter Scrap.hasOppositeAfter Scrap.o
  rw [h1.emb, hl]
  by_cases he : outer o ∈ letters T o inside
  · rw [if_pos (by simpa using a1 he), if_pos (Or.inl he)]
  · by_cases hu : u = []
    · subst hu
      rw [if_pos (by simp [utf8]), if_pos (Or.inr rfl)]
    · have e1 : decide (cs.ctx.matchPos ≥ (utf8 u).length) = false := by have := (a2 he).resolve_right hu; simpa using this
      have e2 : ¬ (outer o ∈ letters T o inside ∨ u = []) := by simp [he, hu]
      simp only [e1, Bool.false_eq_true, if_false, if_neg e2]
      have hopp : opposite (outer o) ∈ letters T o inside := by
        obtain ⟨x, hx⟩ := List.exists_mem_of_ne_nil _ hne
        have hx' := letters_mem hx
        rcases outer_cases o with ⟨q1, q2⟩ | ⟨q1, q2⟩
        · rw [q2]; rcases hx' with rfl | rfl
          · rw [q1] at he; exact absurd hx he
          · exact hx
        · rw [q2]; rcases hx' with rfl | rfl
          · exact hx
          · rw [q1] at he; exact absurd hx he
      rw [if_pos (by simpa using a3 hopp)]
      have hlast : (letters T o u).getLast?.getD cL = cL ∨ (letters T o u).getLast?.getD cL = cR := by
        cases hg : (letters T o u).getLast? with
        | none => exact Or.inl rfl
        | some x => exact letters_mem (List.mem_of_getLast? hg)
      have hsc : os.ctx.strongContext = (letters T o u).getLast?.getD cL := by
        unfold DirContext.strongContext
        rw [h1.strong, if_neg]
        intro h
        rw [h] at hlast
        exact absurd hlast (by decide)
      rw [hsc]
      rcases outer_cases o with ⟨q1, q2⟩ | ⟨q1, q2⟩ <;> rw [q1] at q2 ⊢ <;> rw [q2] <;> rcases hlast with h | h <;> rw [h] <;> rfl

end Uax.Bidi
