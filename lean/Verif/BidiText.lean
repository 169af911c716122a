import Verif.BidiTile
import Verif.SpecBidi

/-
The stream of scraps that the scanner makes of a text without isolates whose
numbers stand in left-to-right context.
-/
namespace Uax.Bidi

open Spec (Tiles strongAfter lastStrong NumbersLTR)

theorem numbers_cons {s c : Class} {cs : List Class} (h : NumbersLTR s (c :: cs)) :
    (c = cEN → s = cL) ∧ (c ≠ cAL → NumbersLTR (strongAfter s c) cs) ∧ (c = cAL → cEN ∉ cs) := by
  refine ⟨?_, ?_, ?_⟩
  · rintro rfl
    exact (h [] cs rfl).1
  · intro hc pre post he
    obtain ⟨h1, h2⟩ := h (c :: pre) post (by rw [he]; rfl)
    exact ⟨h1, fun hm => h2 (List.mem_cons_of_mem _ hm)⟩
  · rintro rfl hm
    obtain ⟨pre, post, he⟩ := List.append_of_mem hm
    exact (h (cAL :: pre) post (by rw [he]; rfl)).2 (List.mem_cons_self ..)

/-- The classes of tokens. -/
def classesIn (T : Tables) (o : Options) (inp : List (Nat × Nat)) : List Class := inp.map fun x => runeClass T o x.1

/-- The strong type that the scrap after this one finds. -/
def nextStrong (s : Scrap) : Class := if s.clz = cL then cL else if s.clz = cR then cR else s.ctx.strong

/-- A class which the scanner can meet in a text without isolates. -/
def PlainClass (tile : Prop) (c : Class) : Prop := c < 28 ∧ c ∉ [cLRI, cRLI, cFSI, cPDI] ∧ (tile → c ≠ cAN)

/-- The scanner in the midst of a text. -/
structure Ready (tile : Prop) (cur : Scrap) (lastAL : Option Nat) (cs : List Class) : Prop where
  fine : cur.clz = cNULL ∨ (Fine tile cur ∧ isIsolate cur = false)
  emb : cur.e = cL ∨ cur.e = cR
  notAL : cur.clz ≠ cAL
  latin : lastAL = none → (cur.ctx.strong = cL ∨ cur.ctx.strong = cR) ∧ (cur.clz = cEN → cur.ctx.strong = cL) ∧ NumbersLTR (nextStrong cur) cs
  arabic : lastAL ≠ none → cEN ∉ cs ∧ cur.clz ≠ cEN

/-- The class of a scrap after rules W1 to W3. -/
theorem rules_cases (c : Class) (cur : Scrap) :
    rulesW1to3 c cur = c ∨ (c = cNSM ∧ (rulesW1to3 c cur = cur.clz ∨ isIsolate cur = true)) ∨ (c = cEN ∧ cur.ctx.isAL = true ∧ rulesW1to3 c cur = cAN) ∨
      (c = cAL ∧ rulesW1to3 c cur = cR) ∨ rulesW1to3 c cur = cNI := by
  unfold rulesW1to3
  by_cases h1 : c = cNSM
  · rw [if_pos h1]
    right; left
    refine ⟨h1, ?_⟩
    unfold isIsolate
    repeat' split
    all_goals simp_all
  · rw [if_neg h1]
    by_cases h2 : c = cEN
    · rw [if_pos h2]
      split
      · right; right; left
        exact ⟨h2, by assumption, rfl⟩
      · left; rfl
    · rw [if_neg h2]
      by_cases h3 : c = cAL
      · rw [if_pos h3]
        right; right; right; left
        exact ⟨h3, rfl⟩
      · rw [if_neg h3]
        split
        · right; right; right; right; rfl
        · left; rfl

theorem setStrong_eq (dc : DirContext) (c : Class) (p : Nat) (h : c = cL ∨ c = cR ∨ c = cAL) :
    (dc.setStrongType c p).strong = c ∧ (dc.setStrongType c p).embeddingDir = dc.embeddingDir := by
  unfold DirContext.setStrongType
  rw [if_neg (by rcases h with rfl | rfl | rfl <;> decide)]
  repeat' split
  all_goals exact ⟨rfl, rfl⟩

/-- What a new scrap gets from the one before. -/
theorem inherit_eq (d s : Scrap) (a : Option Nat) (hd : isIsolate d = false) (hs : isIsolate s = false) (hal : s.clz ≠ cAL) :
    (inheritStrongTypes d s a).l = d.l ∧ (inheritStrongTypes d s a).r = d.r ∧ (inheritStrongTypes d s a).e = s.e ∧
    (a = none → (inheritStrongTypes d s a).ctx.strong = nextStrong s ∧ (s.clz ≠ cL → s.clz ≠ cR → (inheritStrongTypes d s a).ctx = s.ctx)) := by
  simp only [isIsolate, Bool.or_eq_false_iff, beq_eq_false_iff_ne] at hd hs
  unfold inheritStrongTypes
  rw [if_neg hd.1.1.1, if_neg hd.1.1.2]
  dsimp only
  refine ⟨rfl, rfl, ?_, ?_⟩
  · unfold Scrap.e
    dsimp only
    have : ∀ dc : DirContext, ((if s.clz = cL ∨ s.clz = cLRI then dc.setStrongType cL s.l
        else if s.clz = cR ∨ s.clz = cRLI then dc.setStrongType cR s.l
        else if s.clz = cAL then dc.setStrongType cAL s.l else dc).embeddingDir) = dc.embeddingDir := by
      intro dc
      split
      · exact (setStrong_eq _ _ _ (Or.inl rfl)).2
      · split
        · exact (setStrong_eq _ _ _ (Or.inr (Or.inl rfl))).2
        · rfl
    rw [this]
    cases a with
    | none => rfl
    | some p => exact (setStrong_eq _ _ _ (by simp)).2
  · rintro rfl
    dsimp only
    unfold nextStrong
    by_cases h1 : s.clz = cL
    · rw [if_pos (Or.inl h1), if_pos h1]
      exact ⟨(setStrong_eq _ _ _ (by simp)).1, fun h => absurd h1 h⟩
    · rw [if_neg (by simp [h1, hs.1.1.1]), if_neg h1]
      by_cases h2 : s.clz = cR
      · rw [if_pos (Or.inl h2), if_pos h2]
        exact ⟨(setStrong_eq _ _ _ (by simp)).1, fun _ h => absurd h2 h⟩
      · rw [if_neg (by simp [h2, hs.1.1.2]), if_neg h2, if_neg hal]
        exact ⟨rfl, fun _ _ => rfl⟩

theorem Ready.notIso {tile : Prop} {cur : Scrap} {a : Option Nat} {cs : List Class} (h : Ready tile cur a cs) : isIsolate cur = false := by
  rcases h.fine with h | h
  · unfold isIsolate; rw [h]; rfl
  · exact h.2

/-- The class of the next scrap. -/
theorem next_class {tile : Prop} {cur : Scrap} {a : Option Nat} {c : Class} {cs : List Class} (h : Ready tile cur a (c :: cs))
    (hc : PlainClass tile c) :
    (rulesW1to3 c cur = cNULL → c = cNSM ∧ cur.clz = cNULL) ∧
    (rulesW1to3 c cur ≠ cNULL → rulesW1to3 c cur < 28 ∧ (tile → rulesW1to3 c cur ≠ cAN)) ∧
    isIsolate { clz := rulesW1to3 c cur } = false ∧
    rulesW1to3 c cur ≠ cAL ∧
    (rulesW1to3 c cur = cEN → c = cEN ∨ (c = cNSM ∧ cur.clz = cEN)) := by
  obtain ⟨h1, h2, h3⟩ := hc
  simp only [List.mem_cons, List.not_mem_nil, or_false, not_or] at h2
  have hni := h.notIso
  have hal := h.notAL
  rcases rules_cases c cur with e | ⟨e1, e2⟩ | ⟨e1, e2, e3⟩ | ⟨e1, e2⟩ | e
  · -- the class itself
    have hcal : c ≠ cAL := by
      rintro rfl
      have : rulesW1to3 cAL cur = cR := rfl
      rw [this] at e
      exact absurd e (by decide)
    rw [e]
    refine ⟨fun h => ?_, fun _ => ⟨h1, h3⟩, ?_, hcal, Or.inl⟩
    · rw [h] at h1; exact absurd h1 (by decide)
    · simp [isIsolate, h2]
  · rcases e2 with e2 | e2
    · rw [e2]
      refine ⟨fun h' => ⟨e1, h'⟩, fun h' => ?_, ?_, hal, fun h' => Or.inr ⟨e1, h'⟩⟩
      · rcases h.fine with hf | hf
        · exact absurd hf h'
        · exact ⟨hf.1.1, fun ht => (hf.1.2.2.2 ht).1⟩
      · simpa [isIsolate] using hni
    · rw [hni] at e2; cases e2
  · -- Arabic numbers
    exfalso
    subst e1
    cases a with
    | none =>
      have := (h.latin rfl).1
      simp only [DirContext.isAL, beq_iff_eq] at e2
      rw [e2] at this
      exact absurd this (by decide)
    | some p => exact (h.arabic (by simp)).1 (List.mem_cons_self ..)
  · rw [e2]; exact ⟨fun h => absurd h (by decide), fun _ => ⟨by decide, fun _ => by decide⟩, rfl, by decide, fun h => absurd h (by decide)⟩
  · rw [e]; exact ⟨fun h => absurd h (by decide), fun _ => ⟨by decide, fun _ => by decide⟩, rfl, by decide, fun h => absurd h (by decide)⟩

/-- The strong type after the next scrap. -/
theorem next_strong {cur new : Scrap} {c : Class} (hni : isIsolate cur = false) (hc : c ∉ [cLRI, cRLI, cFSI, cPDI]) (hal : c ≠ cAL)
    (hnal : cur.ctx.strong = cL ∨ cur.ctx.strong = cR) (hz : new.clz = rulesW1to3 c cur) (hs : new.ctx.strong = nextStrong cur) :
    nextStrong new = strongAfter (nextStrong cur) c := by
  have hns : ∀ x : Class, x ≠ cL → x ≠ cR → new.clz = x → nextStrong new = nextStrong cur := by
    intro x h1 h2 h3
    rw [nextStrong, h3, if_neg h1, if_neg h2, hs]
  unfold strongAfter
  rcases rules_cases c cur with e | ⟨e1, e2⟩ | ⟨e1, e2, e3⟩ | ⟨e1, e2⟩ | e
  · rw [e] at hz
    by_cases h1 : c = cL
    · rw [if_pos (Or.inl h1), nextStrong, hz, if_pos h1, h1]
    · by_cases h2 : c = cR
      · rw [if_pos (Or.inr (Or.inl h2)), nextStrong, hz, if_neg h1, if_pos h2, h2]
      · rw [if_neg (by simp [h1, h2, hal])]
        exact hns c h1 h2 hz
  · rw [if_neg (by rw [e1]; decide)]
    rcases e2 with e2 | e2
    · rw [e2] at hz
      rw [nextStrong, hz, hs]
      unfold nextStrong
      repeat' split
      all_goals rfl
    · rw [hni] at e2; cases e2
  · simp only [DirContext.isAL, beq_iff_eq] at e2
    rw [e2] at hnal
    exact absurd hnal (by decide)
  · exact absurd e1 hal
  · rw [e] at hz
    have hcl : c ≠ cL ∧ c ≠ cR := by
      constructor
      · rintro rfl; exact absurd e (by show cL ≠ cNI; decide)
      · rintro rfl; exact absurd e (by show cR ≠ cNI; decide)
    rw [if_neg (by simp [hcl, hal])]
    exact hns cNI (by decide) (by decide) hz

/-- The next character begins a new scrap. -/
theorem ready_break {tile : Prop} {cur : Scrap} {a : Option Nat} {c : Class} {cs : List Class} {n : Nat} (h : Ready tile cur a (c :: cs))
    (hc : PlainClass tile c) (hn : 0 < n) :
    Ready tile (inheritStrongTypes (nextScrap cur c n) cur a) (if c = cAL then some cur.r else a) cs := by
  obtain ⟨n1, n2, n3, n4, n5⟩ := next_class h hc
  have hla : isIsolate (nextScrap cur c n) = false := n3
  obtain ⟨i1, i2, i3, i4⟩ := inherit_eq (nextScrap cur c n) cur a hla h.notIso h.notAL
  have icl := inherit_clz (nextScrap cur c n) cur a
  generalize inheritStrongTypes (nextScrap cur c n) cur a = new at i1 i2 i3 i4 icl ⊢
  change new.clz = rulesW1to3 c cur at icl
  have hemb : new.e = cL ∨ new.e = cR := by rw [i3]; exact h.emb
  refine ⟨?_, hemb, by rw [icl]; exact n4, ?_, ?_⟩
  · by_cases hz : rulesW1to3 c cur = cNULL
    · left; rw [icl, hz]
    · right
      obtain ⟨m1, m2⟩ := n2 hz
      have hni : isIsolate new = false := by
        unfold isIsolate at n3 ⊢
        rw [icl]; exact n3
      refine ⟨⟨by rw [icl]; exact m1, hemb, ?_, fun ht => ⟨by rw [icl]; exact m2 ht, Or.inr ?_⟩⟩, hni⟩
      · intro hp
        unfold isIsolate at hni
        rw [hp] at hni
        cases hni
      · rw [i1, i2]
        show cur.r < cur.r + n
        omega
  · intro hA
    have hcal : c ≠ cAL := by rintro rfl; rw [if_pos rfl] at hA; cases hA
    rw [if_neg hcal] at hA
    obtain ⟨s1, s2, s3⟩ := h.latin hA
    obtain ⟨j1, j2, -⟩ := numbers_cons s3
    obtain ⟨k1, -⟩ := i4 hA
    have hns : nextStrong cur = cL ∨ nextStrong cur = cR := by
      unfold nextStrong
      split
      · exact Or.inl rfl
      · split
        · exact Or.inr rfl
        · exact s1
    refine ⟨by rw [k1]; exact hns, ?_, ?_⟩
    · intro he
      rw [k1]
      rw [icl] at he
      rcases n5 he with e | ⟨-, e⟩
      · exact j1 e
      · unfold nextStrong
        rw [e, if_neg (by decide), if_neg (by decide)]
        exact s2 e
    · rw [next_strong h.notIso hc.2.1 hcal s1 icl k1]
      exact j2 hcal
  · intro hA
    by_cases hcal : c = cAL
    · subst hcal
      have hr : rulesW1to3 cAL cur = cR := rfl
      refine ⟨?_, by rw [icl, hr]; decide⟩
      cases a with
      | none => exact (numbers_cons (h.latin rfl).2.2).2.2 rfl
      | some p => exact fun hm => (h.arabic (by simp)).1 (List.mem_cons_of_mem _ hm)
    · rw [if_neg hcal] at hA
      obtain ⟨g1, g2⟩ := h.arabic hA
      refine ⟨fun hm => g1 (List.mem_cons_of_mem _ hm), ?_⟩
      intro he
      rw [icl] at he
      rcases n5 he with e | ⟨-, e⟩
      · exact g1 (by rw [e]; exact List.mem_cons_self ..)
      · exact g2 e

/-- The next character belongs to the scrap. -/
theorem ready_join {tile : Prop} {cur : Scrap} {a : Option Nat} {c : Class} {cs : List Class} {n : Nat} (h : Ready tile cur a (c :: cs))
    (hb : breaks cur c = false) :
    Ready tile (collapse cur (nextScrap cur c n) cur.clz) a cs := by
  simp only [breaks, Bool.or_eq_false_iff, decide_eq_false_iff_not, ne_eq, Decidable.not_not] at hb
  obtain ⟨⟨⟨b1, b2⟩, -⟩, -⟩ := hb
  have hni : isIsolate (collapse cur (nextScrap cur c n) cur.clz) = false := h.notIso
  refine ⟨?_, h.emb, h.notAL, ?_, ?_⟩
  · right
    rcases h.fine with hf | hf
    · exact absurd hf b1
    · refine ⟨⟨hf.1.1, hf.1.2.1, hf.1.2.2.1, fun ht => ⟨(hf.1.2.2.2 ht).1, Or.inr ?_⟩⟩, hf.2⟩
      rcases (hf.1.2.2.2 ht).2 with ⟨h', -⟩ | h'
      · rw [hf.2] at h'; cases h'
      · show cur.l < cur.r + n
        omega
  · intro hA
    obtain ⟨s1, s2, s3⟩ := h.latin hA
    refine ⟨s1, s2, ?_⟩
    show NumbersLTR (nextStrong cur) cs
    obtain ⟨-, j2, j3⟩ := numbers_cons s3
    by_cases hcal : c = cAL
    · intro pre post he
      exact absurd (by rw [he]; simp) (j3 hcal)
    · have hs : strongAfter (nextStrong cur) c = nextStrong cur := by
        unfold strongAfter
        by_cases h1 : c = cL
        · have : rulesW1to3 c cur = cL := by rw [h1]; rfl
          rw [if_pos (Or.inl h1), h1, nextStrong, b2, this, if_pos rfl]
        · by_cases h2 : c = cR
          · have : rulesW1to3 c cur = cR := by rw [h2]; rfl
            rw [if_pos (Or.inr (Or.inl h2)), h2, nextStrong, b2, this, if_neg (by decide), if_pos rfl]
          · rw [if_neg (by simp [h1, h2, hcal])]
      have := j2 hcal
      rw [hs] at this
      exact this
  · intro hA
    obtain ⟨g1, g2⟩ := h.arabic hA
    exact ⟨fun hm => g1 (List.mem_cons_of_mem _ hm), g2⟩

theorem switch_plain {cur : Scrap} {st : List DirContext} {la : Scrap} (h1 : isIsolate cur = false) (h2 : isIsolate la = false) :
    switchContext cur st la = (cur, st) := by
  unfold switchContext
  rw [if_neg (by simp [h2]), if_neg]
  intro h
  unfold isIsolate at h1
  rw [h] at h1
  cases h1

/-- The lengths of tokens. -/
def widthOf (inp : List (Nat × Nat)) : Nat := (inp.map (·.2)).sum

theorem emit_good {T : Tables} {o : Options} {tile : Prop} : ∀ (inp : List (Nat × Nat)) (cur : Scrap) (a : Option Nat) (st : List DirContext),
    Ready tile cur a (classesIn T o inp) → (∀ x ∈ inp, PlainClass tile (runeClass T o x.1) ∧ 0 < x.2) →
    (∀ s ∈ emit T o inp cur a st, Fine tile s ∧ isIsolate s = false) ∧ NumOk (emit T o inp cur a st) ∧
    (a ≠ none → ∀ s ∈ emit T o inp cur a st, s.clz ≠ cEN) ∧
    (cur.clz ≠ cNULL → ∃ x rest, emit T o inp cur a st = x :: rest ∧ x.ctx = cur.ctx ∧ x.clz = cur.clz) ∧
    (tile → (cur.clz = cNULL → (classesIn T o inp).head? ≠ some cNSM) →
      Tiles (if cur.clz = cNULL then cur.r else cur.l) (cur.r + widthOf inp) (emit T o inp cur a st)) := by
  intro inp
  induction inp with
  | nil =>
    intro cur a st h _
    unfold emit
    by_cases hz : cur.clz = cNULL
    · rw [if_pos hz, if_pos hz]
      exact ⟨by simp, trivial, by simp, fun h => absurd hz h, fun _ _ => by simp [Tiles, widthOf]⟩
    · rw [if_neg hz, if_neg hz]
      have hf := h.fine.resolve_left hz
      refine ⟨by simpa using hf, ⟨?_, trivial⟩, ?_, fun _ => ⟨cur, [], rfl, rfl, rfl⟩, fun _ _ => by simp [Tiles, widthOf]⟩
      · rintro (he | ⟨-, he⟩)
        · cases a with
          | none => unfold DirContext.context; rw [(h.latin rfl).2.1 he]; rfl
          | some p => exact absurd he (h.arabic (by simp)).2
        · exact he.elim
      · intro ha s hs
        rw [List.mem_singleton] at hs
        subst hs
        exact (h.arabic ha).2
  | cons x rest ih =>
    obtain ⟨r, n⟩ := x
    intro cur a st h hin
    obtain ⟨hc, hn⟩ := hin (r, n) (List.mem_cons_self ..)
    have hin' : ∀ x ∈ rest, PlainClass tile (runeClass T o x.1) ∧ 0 < x.2 := fun x hx => hin x (List.mem_cons_of_mem _ hx)
    dsimp only at hc hn
    have hcs : classesIn T o ((r, n) :: rest) = runeClass T o r :: classesIn T o rest := rfl
    rw [hcs] at h ⊢
    generalize hcc : runeClass T o r = c at h hc ⊢
    have hw : widthOf ((r, n) :: rest) = n + widthOf rest := by simp [widthOf]
    rw [hw]
    unfold emit
    dsimp only
    rw [hcc]
    by_cases hb : breaks cur c = true
    · rw [if_pos hb]
      obtain ⟨n1, n2, n3, n4, n5⟩ := next_class h hc
      have hla : isIsolate (nextScrap cur c n) = false := n3
      rw [switch_plain h.notIso hla]
      dsimp only
      have hR := ready_break (n := n) h hc hn
      obtain ⟨r1, r2, r3, r4, r5⟩ := ih _ _ st hR hin'
      obtain ⟨i1, i2, i3, i4⟩ := inherit_eq (nextScrap cur c n) cur a n3 h.notIso h.notAL
      have icl := inherit_clz (nextScrap cur c n) cur a
      change (inheritStrongTypes (nextScrap cur c n) cur a).clz = rulesW1to3 c cur at icl
      change (inheritStrongTypes (nextScrap cur c n) cur a).l = cur.r at i1
      change (inheritStrongTypes (nextScrap cur c n) cur a).r = cur.r + n at i2
      have hlal : (nextScrap cur c n).l = cur.r := rfl
      rw [hlal]
      generalize inheritStrongTypes (nextScrap cur c n) cur a = new at *
      generalize htl : emit T o rest new (if c = cAL then some cur.r else a) st = tail at *
      have htiles : tile → (cur.clz = cNULL → c ≠ cNSM) → Tiles cur.r (cur.r + (n + widthOf rest)) tail := by
        intro ht hh
        have hnz : new.clz ≠ cNULL := by
          rw [icl]
          intro hz
          obtain ⟨e1, e2⟩ := n1 hz
          exact hh e2 e1
        have := r5 ht (fun e => absurd e hnz)
        rw [if_neg hnz, i1, i2] at this
        rw [← Nat.add_assoc]
        exact this
      by_cases hz : cur.clz = cNULL
      · rw [if_pos hz, if_pos hz]
        refine ⟨r1, r2, ?_, fun h => absurd hz h, ?_⟩
        · intro ha
          refine r3 ?_
          split
          · simp
          · exact ha
        · intro ht hh
          exact htiles ht (fun e hcn => hh e (by rw [hcn]; rfl))
      · rw [if_neg hz, if_neg hz]
        have hf := h.fine.resolve_left hz
        refine ⟨?_, ⟨?_, r2⟩, ?_, fun _ => ⟨cur, tail, rfl, rfl, rfl⟩, ?_⟩
        · intro s hs
          rw [List.mem_cons] at hs
          rcases hs with rfl | hs
          · exact hf
          · exact r1 s hs
        · -- numbers
          rintro (he | ⟨he, hl⟩)
          · cases a with
            | none => unfold DirContext.context; rw [(h.latin rfl).2.1 he]; rfl
            | some p => exact absurd he (h.arabic (by simp)).2
          · by_cases ha : (if c = cAL then some cur.r else a) = none
            · have ha' : a = none := by
                by_cases hcal : c = cAL
                · rw [if_pos hcal] at ha; cases ha
                · rw [if_neg hcal] at ha; exact ha
              have hnz : new.clz ≠ cNULL := by
                rw [icl]
                intro hz'
                exact hz (n1 hz').2
              obtain ⟨x, xs, e1, e2, e3⟩ := r4 hnz
              rw [e1] at hl r2
              have := r2.1 hl
              rw [e2, (i4 ha').2 (by rw [he]; decide) (by rw [he]; decide)] at this
              exact this
            · exfalso
              have := r3 ha
              have : ∀ l : List Scrap, (∀ s ∈ l, s.clz ≠ cEN) → ¬ LeadsEN l := by
                intro l
                induction l with
                | nil => intro _ h; exact h
                | cons y ys ihy =>
                  intro hy h
                  rcases h with h | ⟨-, h⟩
                  · exact hy y (List.mem_cons_self ..) h
                  · exact ihy (fun s hs => hy s (List.mem_cons_of_mem _ hs)) h
              exact this tail (r3 ha) hl
        · intro ha s hs
          rw [List.mem_cons] at hs
          rcases hs with rfl | hs
          · exact (h.arabic ha).2
          · refine r3 ?_ s hs
            split
            · simp
            · exact ha
        · intro ht hh
          exact ⟨rfl, htiles ht (fun e => absurd e hz)⟩
    · have hb' : breaks cur c = false := by simpa using hb
      rw [if_neg hb]
      have hR := ready_join (n := n) h hb'
      obtain ⟨r1, r2, r3, r4, r5⟩ := ih _ a st hR hin'
      have hz : cur.clz ≠ cNULL := by
        intro hz
        simp [breaks, hz] at hb'
      refine ⟨r1, r2, r3, fun _ => r4 hz, ?_⟩
      intro ht hh
      have := r5 ht (fun e => absurd e hz)
      rw [if_neg (show ¬ (collapse cur (nextScrap cur c n) cur.clz).clz = cNULL from hz)] at this
      rw [if_neg hz, ← Nat.add_assoc]
      exact this

end Uax.Bidi
