import Verif.BidiIsoWhole
import Verif.BidiKeeps
import Verif.BidiChars

/-
The scraps of a text with isolates.
-/
namespace Uax.Bidi

open Spec (Tiles NumbersLTR strongAfter)

/-- A scrap which is no bracket. -/
def NoBracket (s : Scrap) : Prop := isBracket s = false

theorem noBracket_keeps : Keeps1 NoBracket where
  fuse _ _ _ hp := by
    show isBracket { clz := target _ } = false
    rcases (pick1_target hp).1 with e | e | e <;> rw [e] <;> rfl
  w7 _ _ := rfl

theorem dead_brackets : Brackets dead (fun _ => True) where
  pair _ _ := ⟨trivial, fun pr h => by cases h⟩
  change _ _ _ := trivial

/-- The text of an isolate is resolved. -/
theorem inner_run {tile : Prop} {a z : Scrap} {body : List Scrap} (hal : a.l ≤ a.r) (ha : a.clz = cLRI ∨ a.clz = cRLI) (hae : a.e = cL ∨ a.e = cR)
    (hb : Good1At tile a.r z.l [] body) (hbr : ∀ s ∈ body, NoBracket s) :
    ∃ ys zs, Red false (a :: body) 1 (a :: ys) ∧ (∀ x ∈ a :: ys, Inner x) ∧ Settles (a :: ys) zs ∧ zs ≠ [] ∧ (tile → Tiles a.l z.l zs) := by
  obtain ⟨ys, h1, h2, h3⟩ := pass1_iso_total ((good1_inv tile a.r z.l).keeps noBracket_keeps).noIso a _ [] body (Nat.le_refl _)
    ⟨hb, by simpa [AllOf] using hbr⟩
  have hac : a.clz < 28 ∧ a.clz ≠ cEN ∧ a.clz ≠ cPDI ∧ isBracket a = false ∧ isIsolate a = true ∧ a.clz ≠ cAN := by
    unfold isBracket isIsolate
    rcases ha with ha | ha <;> rw [ha] <;> decide
  have hyf : ∀ s ∈ ys, Fine tile s ∧ s.clz ≠ cEN := by
    intro s hs
    refine ⟨(h2.1 s (by simpa using hs)).1, ?_⟩
    intro he
    have := h2.2.2.2 s hs
    simp [weakClass, he] at this
  have hg : Good2At tile a.l z.l [] (a :: ys) := by
    refine ⟨?_, fun ht => ⟨rfl, by simpa using h2.2.2.1 ht⟩, by simp⟩
    intro s hs
    simp only [List.nil_append, List.mem_cons] at hs
    rcases hs with rfl | hs
    · exact ⟨⟨hac.1, hae, hac.2.2.1, fun _ => ⟨hac.2.2.2.2.2, Or.inl ⟨hac.2.2.2.2.1, hal⟩⟩⟩, hac.2.1⟩
    · exact hyf s hs
  obtain ⟨N, q, e1, e2, e3, -⟩ := pass2_total (good2_inv dead_brackets tile a.l z.l) _ [] (a :: ys)
    { stack := a :: ys, sp := 0, eof := true, depth := 0, env := () } (Nat.le_refl _) hg trivial rfl rfl
  refine ⟨ys, q.stack, by simpa using h1, ?_, ⟨N, q, e1, rfl, e3⟩, by simpa using e2.2.2, fun ht => by simpa using e2.2.1 ht⟩
  intro x hx
  rw [List.mem_cons] at hx
  rcases hx with rfl | hx
  · exact ⟨hac.1, hac.2.1, hac.2.2.1, hac.2.2.2.1, hae⟩
  · obtain ⟨f1, f2⟩ := hyf x hx
    exact ⟨f1.1, f2, f1.2.2.1, h3 x (by simpa using hx), f1.2.1⟩

/-- The scrap for an isolate whose text has been resolved. -/
theorem isoScrap_fine {tile : Prop} {a z : Scrap} {zs : List Scrap} (hne : zs ≠ []) (hal : a.l ≤ z.l) (hz : z.l < z.r) (ht : tile → Tiles a.l z.l zs) :
    Fine tile (isoScrap z zs) ∧ isIsolate (isoScrap z zs) = false ∧ (isoScrap z zs).r = z.r ∧ (tile → (isoScrap z zs).l = a.l) ∧
      (tile → Tiles a.l z.r (zs ++ [z])) := by
  have hl : tile → (isoScrap z zs).l = a.l := by
    intro h
    have := ht h
    cases zs with
    | nil => exact absurd rfl hne
    | cons x xs => exact this.1
  refine ⟨⟨(by decide : cNI < 28), Or.inl rfl, (by decide : cNI ≠ cPDI), fun h => ⟨(by decide : cNI ≠ cAN), Or.inr ?_⟩⟩, rfl, rfl, hl,
    fun h => tiles_append.mpr ⟨_, ht h, rfl, rfl⟩⟩
  rw [hl h]
  show a.l < z.r
  omega

/-! ### The scanner after a part of the text -/

/-- What the scanner has after a text without isolates: the scrap at work and the last Arabic letter. -/
def after (T : Tables) (o : Options) : List (Nat × Nat) → Scrap → Option Nat → Scrap × Option Nat
  | [], cur, a => (cur, a)
  | (r, n) :: rest, cur, a =>
    if breaks cur (runeClass T o r) then
      after T o rest (inheritStrongTypes (nextScrap cur (runeClass T o r) n) cur a) (if runeClass T o r = cAL then some cur.r else a)
    else after T o rest (collapse cur (nextScrap cur (runeClass T o r) n) cur.clz) a

theorem next_plain {cur : Scrap} {c : Class} (n : Nat) (hcur : isIsolate cur = false ∨ c ≠ cNSM ∨ cur.clz = cLRI ∨ cur.clz = cRLI ∨ cur.clz = cPDI)
    (hc : c ∉ [cLRI, cRLI, cFSI, cPDI]) : isIsolate (nextScrap cur c n) = false := by
  simp only [List.mem_cons, List.not_mem_nil, or_false, not_or] at hc
  unfold isIsolate nextScrap rulesW1to3
  dsimp only
  unfold isIsolate at hcur
  by_cases h1 : c = cNSM
  · rw [if_pos h1]
    by_cases g1 : cur.clz = cLRI
    · rw [if_pos g1]; rfl
    · rw [if_neg g1]
      by_cases g2 : cur.clz = cRLI
      · rw [if_pos g2]; rfl
      · rw [if_neg g2]
        by_cases g3 : cur.clz = cPDI
        · rw [if_pos g3]; rfl
        · rw [if_neg g3]
          rcases hcur with h | h | h | h | h
          · exact h
          · exact absurd h1 h
          · exact absurd h g1
          · exact absurd h g2
          · exact absurd h g3
  · rw [if_neg h1]
    repeat' split
    all_goals first
      | rfl
      | (simp [hc]; done)

theorem emit_split {T : Tables} {o : Options} (r n : Nat) (rest : List (Nat × Nat)) : ∀ (xs : List (Nat × Nat)) (cur : Scrap) (a : Option Nat) (st : List DirContext),
    isIsolate cur = false → (∀ x ∈ xs, runeClass T o x.1 ∉ [cLRI, cRLI, cFSI, cPDI]) → breaks (after T o xs cur a).1 (runeClass T o r) = true →
    emit T o (xs ++ (r, n) :: rest) cur a st = emit T o xs cur a st ++
      emit T o rest (inheritStrongTypes (nextScrap (after T o xs cur a).1 (runeClass T o r) n)
          (switchContext (after T o xs cur a).1 st (nextScrap (after T o xs cur a).1 (runeClass T o r) n)).1 (after T o xs cur a).2)
        (if runeClass T o r = cAL then some (after T o xs cur a).1.r else (after T o xs cur a).2)
        (switchContext (after T o xs cur a).1 st (nextScrap (after T o xs cur a).1 (runeClass T o r) n)).2 := by
  intro xs
  induction xs with
  | nil =>
    intro cur a st _ _ hb
    rw [after] at hb ⊢
    dsimp only at hb ⊢
    rw [List.nil_append, emit, emit, if_pos hb]
    dsimp only
    by_cases hz : cur.clz = cNULL
    · rw [if_pos hz, if_pos hz]; rfl
    · rw [if_neg hz, if_neg hz]; rfl
  | cons x xs ih =>
    obtain ⟨r', n'⟩ := x
    intro cur a st hcur hxs hb
    have hx := hxs (r', n') (by simp)
    have hxs' : ∀ x ∈ xs, runeClass T o x.1 ∉ [cLRI, cRLI, cFSI, cPDI] := fun x hx => hxs x (by simp [hx])
    dsimp only at hx
    have hla := next_plain (cur := cur) n' (Or.inl hcur) hx
    rw [after] at hb ⊢
    rw [List.cons_append, emit, emit]
    dsimp only
    by_cases hbr : breaks cur (runeClass T o r') = true
    · rw [if_pos hbr] at hb ⊢
      rw [if_pos hbr, if_pos hbr, switch_plain hcur hla]
      dsimp only
      rw [show (nextScrap cur (runeClass T o r') n').l = cur.r from rfl]
      have := ih _ _ st (by unfold isIsolate; rw [inherit_clz]; exact hla) hxs' hb
      rw [this]
      by_cases hz : cur.clz = cNULL
      · rw [if_pos hz, if_pos hz]
      · rw [if_neg hz, if_neg hz, List.cons_append]
    · rw [if_neg hbr] at hb ⊢
      rw [if_neg hbr, if_neg hbr]
      exact ih _ _ st hcur hxs' hb

theorem numbers_prefix {e : Class} {cs cs' : List Class} (h : NumbersLTR e (cs ++ cs')) : NumbersLTR e cs := by
  intro pre post he
  exact h pre (post ++ cs') (by rw [he]; simp)

theorem Ready.mono {tile : Prop} {cur : Scrap} {a : Option Nat} {cs cs' : List Class} (h : Ready tile cur a (cs ++ cs')) : Ready tile cur a cs :=
  ⟨h.fine, h.emb, h.notAL, fun ha => ⟨(h.latin ha).1, (h.latin ha).2.1, numbers_prefix (h.latin ha).2.2⟩,
    fun ha => ⟨fun hm => (h.arabic ha).1 (List.mem_append_left _ hm), (h.arabic ha).2⟩⟩

theorem after_ready {T : Tables} {o : Options} {tile : Prop} (cs : List Class) : ∀ (xs : List (Nat × Nat)) (cur : Scrap) (a : Option Nat),
    Ready tile cur a (classesIn T o xs ++ cs) → (∀ x ∈ xs, PlainClass tile (runeClass T o x.1) ∧ 0 < x.2) →
    Ready tile (after T o xs cur a).1 (after T o xs cur a).2 cs := by
  intro xs
  induction xs with
  | nil => intro cur a h _; exact h
  | cons x xs ih =>
    obtain ⟨r, n⟩ := x
    intro cur a h hin
    obtain ⟨hc, hn⟩ := hin (r, n) (List.mem_cons_self ..)
    rw [after]
    by_cases hb : breaks cur (runeClass T o r) = true
    · rw [if_pos hb]
      exact ih _ _ (ready_break h hc hn) (fun x hx => hin x (by simp [hx]))
    · rw [if_neg hb]
      exact ih _ _ (ready_join h (by simpa using hb)) (fun x hx => hin x (by simp [hx]))

theorem after_r {T : Tables} {o : Options} : ∀ (xs : List (Nat × Nat)) (cur : Scrap) (a : Option Nat), isIsolate cur = false →
    (∀ x ∈ xs, runeClass T o x.1 ∉ [cLRI, cRLI, cFSI, cPDI]) → (after T o xs cur a).1.r = cur.r + widthOf xs := by
  intro xs
  induction xs with
  | nil => intro cur a _ _; simp [after, widthOf]
  | cons x xs ih =>
    obtain ⟨r, n⟩ := x
    intro cur a hcur hxs
    have hla := next_plain (cur := cur) n (Or.inl hcur) (hxs (r, n) (by simp))
    have hw : widthOf ((r, n) :: xs) = n + widthOf xs := by simp [widthOf]
    rw [after, hw]
    have hxs' : ∀ x ∈ xs, runeClass T o x.1 ∉ [cLRI, cRLI, cFSI, cPDI] := fun x hx => hxs x (by simp [hx])
    by_cases hb : breaks cur (runeClass T o r) = true
    · rw [if_pos hb, ih _ _ (by unfold isIsolate; rw [inherit_clz]; exact hla) hxs']
      have : (inheritStrongTypes (nextScrap cur (runeClass T o r) n) cur a).r = cur.r + n := by
        unfold inheritStrongTypes
        split
        · rfl
        · split <;> rfl
      rw [this, Nat.add_assoc]
    · rw [if_neg hb, ← Nat.add_assoc]
      exact ih (collapse cur (nextScrap cur (runeClass T o r) n) cur.clz) a hcur hxs'

theorem after_AL {T : Tables} {o : Options} : ∀ (xs : List (Nat × Nat)) (cur : Scrap) (a : Option Nat),
    (after T o xs cur a).2 ≠ none → a ≠ none ∨ cAL ∈ classesIn T o xs := by
  intro xs
  induction xs with
  | nil => intro cur a h; exact Or.inl h
  | cons x xs ih =>
    obtain ⟨r, n⟩ := x
    intro cur a h
    have hcs : classesIn T o ((r, n) :: xs) = runeClass T o r :: classesIn T o xs := rfl
    rw [after] at h
    rw [hcs, List.mem_cons]
    by_cases hc : runeClass T o r = cAL
    · exact Or.inr (Or.inl hc.symm)
    · by_cases hb : breaks cur (runeClass T o r) = true
      · rw [if_pos hb, if_neg hc] at h
        rcases ih _ _ h with h' | h'
        · exact Or.inl h'
        · exact Or.inr (Or.inr h')
      · rw [if_neg hb] at h
        rcases ih _ _ h with h' | h'
        · exact Or.inl h'
        · exact Or.inr (Or.inr h')

/-- No character from right to left before a European number. -/
def QuietText (cs : List Class) : Prop := ∀ pre post, cs = pre ++ cEN :: post → cR ∉ pre ∧ cAL ∉ pre

theorem quiet_append {pre cs : List Class} (h : QuietText (pre ++ cs)) : QuietText cs := by
  intro p q e
  obtain ⟨h1, h2⟩ := h (pre ++ p) q (by rw [e, List.append_assoc])
  exact ⟨fun hm => h1 (List.mem_append_right _ hm), fun hm => h2 (List.mem_append_right _ hm)⟩

theorem quiet_head {c : Class} {cs : List Class} (h : QuietText (c :: cs)) (he : cEN ∈ cs) : c ≠ cR ∧ c ≠ cAL := by
  obtain ⟨p, q, e⟩ := List.append_of_mem he
  obtain ⟨h1, h2⟩ := h (c :: p) q (by rw [e]; rfl)
  exact ⟨fun e => h1 (by rw [e]; simp), fun e => h2 (by rw [e]; simp)⟩

theorem quiet_numbers {cs : List Class} (h : QuietText cs) : NumbersLTR cL cs := by
  intro pre post e
  obtain ⟨h1, h2⟩ := h pre post e
  refine ⟨?_, h2⟩
  clear e h
  have : ∀ (l : List Class), cR ∉ l → cAL ∉ l → Spec.lastStrong cL l = cL := by
    intro l
    induction l with
    | nil => intro _ _; rfl
    | cons c l ih =>
      intro g1 g2
      simp only [List.mem_cons, not_or] at g1 g2
      have : strongAfter cL c = cL := by
        unfold strongAfter
        split
        · rename_i hc
          rcases hc with hc | hc | hc
          · exact hc
          · exact absurd hc.symm g1.1
          · exact absurd hc.symm g2.1
        · rfl
      unfold Spec.lastStrong
      rw [List.foldl_cons, this]
      exact ih g1.2 g2.2
  exact this pre h1 h2

theorem numbers_none {e : Class} {cs : List Class} (h : cEN ∉ cs) : NumbersLTR e cs := by
  intro pre post he
  exact absurd (by rw [he]; simp) h

/-- The strong types are L as long as there are European numbers to come. -/
def Calm (cur : Scrap) (cs : List Class) : Prop := cEN ∈ cs → cur.ctx.strong = cL ∧ nextStrong cur = cL

theorem after_calm {T : Tables} {o : Options} {tile : Prop} (cs : List Class) : ∀ (xs : List (Nat × Nat)) (cur : Scrap) (a : Option Nat),
    Ready tile cur a (classesIn T o xs ++ cs) → (∀ x ∈ xs, PlainClass tile (runeClass T o x.1) ∧ 0 < x.2) → QuietText (classesIn T o xs ++ cs) →
    Calm cur (classesIn T o xs ++ cs) → Calm (after T o xs cur a).1 cs := by
  intro xs
  induction xs with
  | nil => intro cur a _ _ _ h; exact h
  | cons x xs ih =>
    obtain ⟨r, n⟩ := x
    intro cur a h hin hq hcalm
    obtain ⟨hc, hn⟩ := hin (r, n) (List.mem_cons_self ..)
    have hcs : classesIn T o ((r, n) :: xs) = runeClass T o r :: classesIn T o xs := rfl
    rw [hcs, List.cons_append] at h hq hcalm
    dsimp only at hc hn
    generalize hcc : runeClass T o r = c at h hq hcalm hc
    rw [after, hcc]
    have hq' : QuietText (classesIn T o xs ++ cs) := quiet_append (pre := [c]) hq
    by_cases hb : breaks cur c = true
    · rw [if_pos hb]
      refine ih _ _ (ready_break h hc hn) (fun x hx => hin x (by simp [hx])) hq' ?_
      intro he
      obtain ⟨k1, k2⟩ := hcalm (List.mem_cons_of_mem _ he)
      obtain ⟨q1, q2⟩ := quiet_head hq he
      have ha : a = none := by
        cases a with
        | none => rfl
        | some p => exact absurd (List.mem_cons_of_mem _ he) (h.arabic (by simp)).1
      obtain ⟨-, -, n3, -, -⟩ := next_class h hc
      obtain ⟨-, -, -, i4⟩ := inherit_eq (nextScrap cur c n) cur a n3 h.notIso h.notAL
      obtain ⟨i5, -⟩ := i4 ha
      refine ⟨by rw [i5]; exact k2, ?_⟩
      rw [next_strong h.notIso hc.2.1 q2 (h.latin ha).1 (inherit_clz _ _ _) i5, k2]
      unfold strongAfter
      split
      · rename_i hh
        rcases hh with hh | hh | hh
        · exact hh
        · exact absurd hh q1
        · exact absurd hh q2
      · rfl
    · rw [if_neg hb]
      refine ih _ _ (ready_join h (by simpa using hb)) (fun x hx => hin x (by simp [hx])) hq' ?_
      intro he
      exact hcalm (List.mem_cons_of_mem _ he)

/-! ### Entering and leaving an isolate -/

/-- The direction that an isolate initiator gives. -/
def isoDir (c : Class) : Class := if c = cLRI then cL else cR

theorem inherit_lr (d s : Scrap) (a : Option Nat) : (inheritStrongTypes d s a).l = d.l ∧ (inheritStrongTypes d s a).r = d.r := by
  unfold inheritStrongTypes
  split
  · exact ⟨rfl, rfl⟩
  · split <;> exact ⟨rfl, rfl⟩

/-- An isolate initiator. -/
theorem open_scrap {cur : Scrap} {c : Class} (n : Nat) (a : Option Nat) (hc : c = cLRI ∨ c = cRLI) :
    (nextScrap cur c n).clz = c ∧ (inheritStrongTypes (nextScrap cur c n) cur a).clz = c ∧
    (inheritStrongTypes (nextScrap cur c n) cur a).e = isoDir c := by
  have h1 : (nextScrap cur c n).clz = c := by
    rcases hc with rfl | rfl <;> rfl
  refine ⟨h1, by rw [inherit_clz, h1], ?_⟩
  unfold inheritStrongTypes
  rw [h1]
  rcases hc with rfl | rfl <;> rfl

/-- The class of the first scrap after an initiator or PDI. -/
theorem first_class {A : Scrap} {c : Class} {tile : Prop} (hA : A.clz = cLRI ∨ A.clz = cRLI ∨ A.clz = cPDI) (hc : PlainClass tile c)
    (hal : c = cEN → A.ctx.isAL = false) :
    rulesW1to3 c A < 28 ∧ (tile → rulesW1to3 c A ≠ cAN) ∧ rulesW1to3 c A ≠ cAL ∧ (rulesW1to3 c A = cEN → c = cEN) ∧
    (rulesW1to3 c A = cR → c = cR ∨ c = cAL ∨ A.clz = cRLI) ∧ (rulesW1to3 c A = cL → c = cL ∨ A.clz = cLRI) ∧
    (c = cL → rulesW1to3 c A = cL) ∧ (c = cR → rulesW1to3 c A = cR) := by
  obtain ⟨h1, h2, h3⟩ := hc
  unfold rulesW1to3
  by_cases g1 : c = cNSM
  · rw [if_pos g1]
    subst g1
    rcases hA with h | h | h <;> rw [h] <;> (refine ⟨by decide, fun _ => by decide, by decide, ?_, ?_, ?_, ?_, ?_⟩ <;> decide)
  · rw [if_neg g1]
    by_cases g2 : c = cEN
    · rw [if_pos g2, hal g2]
      subst g2
      exact ⟨by decide, fun _ => by decide, by decide, fun _ => rfl, fun h => absurd h (by decide), fun h => absurd h (by decide), by decide, by decide⟩
    · rw [if_neg g2]
      by_cases g3 : c = cAL
      · rw [if_pos g3]
        subst g3
        exact ⟨by decide, fun _ => by decide, by decide, by decide, fun _ => Or.inr (Or.inl rfl), fun h => absurd h (by decide), by decide, by decide⟩
      · rw [if_neg g3]
        by_cases g4 : c = cS ∨ c = cWS ∨ c = cON
        · rw [if_pos g4]
          refine ⟨by decide, fun _ => by decide, by decide, fun h => absurd h (by decide), fun h => absurd h (by decide), fun h => absurd h (by decide), ?_, ?_⟩
          · intro e; rw [e] at g4; exact absurd g4 (by decide)
          · intro e; rw [e] at g4; exact absurd g4 (by decide)
        · rw [if_neg g4]
          exact ⟨h1, h3, g3, id, Or.inl, Or.inl, id, id⟩

/-- The first character of an isolate. -/
theorem ready_open {tile : Prop} {A : Scrap} {a : Option Nat} {c : Class} {cs : List Class} {n : Nat} (hA : A.clz = cLRI ∨ A.clz = cRLI)
    (hae : A.e = cL ∨ A.e = cR) (hAal : a = none → A.ctx.isAL = false) (hc : PlainClass tile c) (hn : 0 < n) (hnum : NumbersLTR (isoDir A.clz) (c :: cs))
    (har : a ≠ none → cEN ∉ c :: cs) :
    Ready tile (inheritStrongTypes (nextScrap A c n) A a) (if c = cAL then some A.r else a) cs := by
  have hal : c = cEN → A.ctx.isAL = false := by
    intro e
    cases a with
    | none => exact hAal rfl
    | some p => exact absurd (by rw [e]; simp) (har (by simp))
  obtain ⟨f1, f2, f3, f4, f5, f6, f7, f8⟩ := first_class (hA.imp id Or.inl) hc hal
  have hni := next_plain (cur := A) n (Or.inr (Or.inr (hA.imp id Or.inl))) hc.2.1
  have hd : (nextScrap A c n).clz ≠ cLRI ∧ (nextScrap A c n).clz ≠ cRLI := by
    unfold isIsolate at hni
    simp only [Bool.or_eq_false_iff, beq_eq_false_iff_ne] at hni
    exact hni.1.1
  obtain ⟨i1, i2⟩ := inherit_lr (nextScrap A c n) A a
  have icl := inherit_clz (nextScrap A c n) A a
  change _ = rulesW1to3 c A at icl
  -- the context
  have hctx : (inheritStrongTypes (nextScrap A c n) A a).ctx.strong = isoDir A.clz ∧ (inheritStrongTypes (nextScrap A c n) A a).e = A.e := by
    unfold inheritStrongTypes
    rw [if_neg hd.1, if_neg hd.2]
    dsimp only
    have he : ∀ dc : DirContext, (if A.clz = cL ∨ A.clz = cLRI then dc.setStrongType cL A.l
        else if A.clz = cR ∨ A.clz = cRLI then dc.setStrongType cR A.l
        else if A.clz = cAL then dc.setStrongType cAL A.l else dc).strong = isoDir A.clz ∧
        (if A.clz = cL ∨ A.clz = cLRI then dc.setStrongType cL A.l
        else if A.clz = cR ∨ A.clz = cRLI then dc.setStrongType cR A.l
        else if A.clz = cAL then dc.setStrongType cAL A.l else dc).embeddingDir = dc.embeddingDir := by
      intro dc
      rcases hA with h | h
      · rw [h, if_pos (Or.inr rfl)]
        exact setStrong_eq _ _ _ (Or.inl rfl)
      · rw [h, if_neg (by decide), if_pos (Or.inr rfl)]
        exact setStrong_eq _ _ _ (Or.inr (Or.inl rfl))
    refine ⟨(he _).1, ?_⟩
    show DirContext.embeddingDir _ = _
    rw [(he _).2]
    cases a with
    | none => rfl
    | some p => exact (setStrong_eq _ _ _ (by simp)).2
  have hdir : isoDir A.clz = cL ∨ isoDir A.clz = cR := by unfold isoDir; split <;> simp
  generalize inheritStrongTypes (nextScrap A c n) A a = new at i1 i2 icl hctx ⊢
  have hemb : new.e = cL ∨ new.e = cR := by rw [hctx.2]; exact hae
  have hnew : isIsolate new = false := by
    unfold isIsolate at hni ⊢
    rw [icl]; exact hni
  refine ⟨Or.inr ⟨⟨by rw [icl]; exact f1, hemb, ?_, fun ht => ⟨by rw [icl]; exact f2 ht, Or.inr ?_⟩⟩, hnew⟩, hemb, by rw [icl]; exact f3, ?_, ?_⟩
  · intro hp
    unfold isIsolate at hnew
    rw [hp] at hnew; cases hnew
  · rw [i1, i2]
    show A.r < A.r + n
    omega
  · intro hA'
    have hcal : c ≠ cAL := by rintro rfl; rw [if_pos rfl] at hA'; cases hA'
    obtain ⟨j1, j2, -⟩ := numbers_cons hnum
    refine ⟨by rw [hctx.1]; exact hdir, ?_, ?_⟩
    · intro he
      rw [icl] at he
      rw [hctx.1]
      exact j1 (f4 he)
    · have : nextStrong new = strongAfter (isoDir A.clz) c := by
        unfold nextStrong strongAfter
        rw [icl, hctx.1]
        by_cases g1 : c = cL
        · rw [if_pos (f7 g1), if_pos (Or.inl g1), g1]
        · by_cases g2 : c = cR
          · rw [if_neg (by rw [f8 g2]; decide), if_pos (f8 g2), if_pos (Or.inr (Or.inl g2)), g2]
          · rw [if_neg (show ¬ (c = cL ∨ c = cR ∨ c = cAL) by simp [g1, g2, hcal])]
            by_cases g3 : rulesW1to3 c A = cL
            · rw [if_pos g3]
              rcases f6 g3 with h | h
              · exact absurd h g1
              · rw [h]; rfl
            · rw [if_neg g3]
              by_cases g4 : rulesW1to3 c A = cR
              · rw [if_pos g4]
                rcases f5 g4 with h | h | h
                · exact absurd h g2
                · exact absurd h hcal
                · rw [h]; rfl
              · rw [if_neg g4]
      rw [this]
      exact j2 hcal
  · intro hA'
    by_cases hcal : c = cAL
    · subst hcal
      refine ⟨?_, by rw [icl]; exact fun e => absurd (f4 e) (by decide)⟩
      exact (numbers_cons hnum).2.2 rfl
    · rw [if_neg hcal] at hA'
      have := har hA'
      refine ⟨fun hm => this (List.mem_cons_of_mem _ hm), ?_⟩
      intro he
      rw [icl] at he
      exact this (by rw [f4 he]; simp)

/-- The first character after an isolate. -/
theorem ready_close {tile : Prop} {Z : Scrap} {d : DirContext} {a : Option Nat} {c : Class} {cs : List Class} {n : Nat} (hZ : Z.clz = cPDI)
    (hde : d.embeddingDir = cL ∨ d.embeddingDir = cR) (hZal : a = none → Z.ctx.isAL = false) (hc : PlainClass tile c) (hn : 0 < n)
    (hd : a = none → d.strong = cL ∨ d.strong = cR) (hdL : cEN ∈ c :: cs → d.strong = cL) (hq : QuietText (c :: cs))
    (har : a ≠ none → cEN ∉ c :: cs) :
    Ready tile (inheritStrongTypes (nextScrap Z c n) { Z with ctx := d } a) (if c = cAL then some Z.r else a) cs ∧
    Calm (inheritStrongTypes (nextScrap Z c n) { Z with ctx := d } a) cs := by
  have hal : c = cEN → Z.ctx.isAL = false := by
    intro e
    cases a with
    | none => exact hZal rfl
    | some p => exact absurd (by rw [e]; simp) (har (by simp))
  obtain ⟨f1, f2, f3, f4, f5, f6, f7, f8⟩ := first_class (Or.inr (Or.inr hZ)) hc hal
  have hni := next_plain (cur := Z) n (Or.inr (Or.inr (Or.inr (Or.inr hZ)))) hc.2.1
  have hdd : (nextScrap Z c n).clz ≠ cLRI ∧ (nextScrap Z c n).clz ≠ cRLI := by
    unfold isIsolate at hni
    simp only [Bool.or_eq_false_iff, beq_eq_false_iff_ne] at hni
    exact hni.1.1
  obtain ⟨i1, i2⟩ := inherit_lr (nextScrap Z c n) { Z with ctx := d } a
  have icl := inherit_clz (nextScrap Z c n) { Z with ctx := d } a
  change _ = rulesW1to3 c Z at icl
  have hctx : (a = none → (inheritStrongTypes (nextScrap Z c n) { Z with ctx := d } a).ctx = d) ∧
      (inheritStrongTypes (nextScrap Z c n) { Z with ctx := d } a).e = d.embeddingDir := by
    unfold inheritStrongTypes
    rw [if_neg hdd.1, if_neg hdd.2]
    dsimp only
    rw [hZ, if_neg (by decide), if_neg (by decide), if_neg (by decide)]
    refine ⟨?_, ?_⟩
    · rintro rfl; rfl
    · cases a with
      | none => rfl
      | some p => exact (setStrong_eq _ _ _ (by simp)).2
  generalize inheritStrongTypes (nextScrap Z c n) { Z with ctx := d } a = new at i1 i2 icl hctx ⊢
  have hemb : new.e = cL ∨ new.e = cR := by rw [hctx.2]; exact hde
  have hnew : isIsolate new = false := by
    unfold isIsolate at hni ⊢
    rw [icl]; exact hni
  have hcalm : Calm new cs := by
    intro he
    obtain ⟨q1, q2⟩ := quiet_head hq he
    have ha : a = none := by
      cases a with
      | none => rfl
      | some p => exact absurd (List.mem_cons_of_mem _ he) (har (by simp))
    have hs := hdL (List.mem_cons_of_mem _ he)
    refine ⟨by rw [hctx.1 ha]; exact hs, ?_⟩
    unfold nextStrong
    rw [icl, hctx.1 ha, hs]
    have : rulesW1to3 c Z ≠ cR := by
      intro h
      rcases f5 h with h | h | h
      · exact q1 h
      · exact q2 h
      · rw [hZ] at h; exact absurd h (by decide)
    rw [if_neg this]
    split <;> rfl
  refine ⟨⟨Or.inr ⟨⟨by rw [icl]; exact f1, hemb, ?_, fun ht => ⟨by rw [icl]; exact f2 ht, Or.inr ?_⟩⟩, hnew⟩, hemb, by rw [icl]; exact f3, ?_, ?_⟩, hcalm⟩
  · intro hp
    unfold isIsolate at hnew
    rw [hp] at hnew; cases hnew
  · rw [i1, i2]
    show Z.r < Z.r + n
    omega
  · intro hA'
    have hcal : c ≠ cAL := by rintro rfl; rw [if_pos rfl] at hA'; cases hA'
    rw [if_neg hcal] at hA'
    refine ⟨by rw [hctx.1 hA']; exact hd hA', ?_, ?_⟩
    · intro he
      rw [icl] at he
      rw [hctx.1 hA']
      exact hdL (by rw [f4 he]; simp)
    · by_cases he : cEN ∈ cs
      · rw [(hcalm he).2]
        exact quiet_numbers (quiet_append (pre := [c]) hq)
      · exact numbers_none he
  · intro hA'
    by_cases hcal : c = cAL
    · subst hcal
      refine ⟨fun he => (quiet_head hq he).2 rfl, by rw [icl]; exact fun e => absurd (f4 e) (by decide)⟩
    · rw [if_neg hcal] at hA'
      have := har hA'
      refine ⟨fun hm => this (List.mem_cons_of_mem _ hm), ?_⟩
      intro he
      rw [icl] at he
      exact this (by rw [f4 he]; simp)

/-- A PDI after text. -/
theorem close_scrap {cur : Scrap} (n : Nat) (a : Option Nat) (hal : cur.clz ≠ cAL) (hi : isIsolate cur = false) :
    (nextScrap cur cPDI n).clz = cPDI ∧ (inheritStrongTypes (nextScrap cur cPDI n) cur a).clz = cPDI ∧
    (a = none → (inheritStrongTypes (nextScrap cur cPDI n) cur a).ctx.strong = nextStrong cur) := by
  have h1 : (nextScrap cur cPDI n).clz = cPDI := rfl
  refine ⟨h1, by rw [inherit_clz, h1], ?_⟩
  rintro rfl
  simp only [isIsolate, Bool.or_eq_false_iff, beq_eq_false_iff_ne] at hi
  unfold inheritStrongTypes nextStrong
  rw [h1, if_neg (by decide), if_neg (by decide)]
  dsimp only
  by_cases g1 : cur.clz = cL
  · rw [if_pos (Or.inl g1), if_pos g1]
    exact (setStrong_eq _ _ _ (by simp)).1
  · rw [if_neg (by simp [g1, hi]), if_neg g1]
    by_cases g2 : cur.clz = cR
    · rw [if_pos (Or.inl g2), if_pos g2]
      exact (setStrong_eq _ _ _ (by simp)).1
    · rw [if_neg (by simp [g2, hi]), if_neg g2, if_neg hal]

theorem emit_noKids {T : Tables} {o : Options} (inp : List (Nat × Nat)) (cur : Scrap) (a : Option Nat) (st : List DirContext) (h : NoKids cur) :
    ∀ s ∈ emit T o inp cur a st, NoKids s := by
  refine emit_keeps _ _ _ _ h ?_ ?_
  · intro cur a st r n _ _
    show (inheritStrongTypes _ _ _).children = []
    unfold inheritStrongTypes
    repeat' split
    all_goals rfl
  · intro cur r n h _
    show cur.children ++ [] = []
    rw [show cur.children = [] from h]
    rfl

theorem inherit_noKids (cur : Scrap) (c : Class) (n : Nat) (s : Scrap) (a : Option Nat) : NoKids (inheritStrongTypes (nextScrap cur c n) s a) := by
  show (inheritStrongTypes _ _ _).children = []
  unfold inheritStrongTypes
  repeat' split
  all_goals rfl

theorem next_noBracket {cur : Scrap} {c : Class} (h : NoBracket cur) (hc : c ≠ cBRACKO ∧ c ≠ cBRACKC) : NoBracket { clz := rulesW1to3 c cur } := by
  unfold NoBracket isBracket at h ⊢
  simp only [Bool.or_eq_false_iff, beq_eq_false_iff_ne] at h ⊢
  unfold rulesW1to3
  repeat' split
  all_goals first
    | exact h
    | exact hc
    | decide

theorem emit_noBracket {T : Tables} {o : Options} (inp : List (Nat × Nat)) (cur : Scrap) (a : Option Nat) (st : List DirContext) (h : NoBracket cur)
    (hin : ∀ x ∈ inp, runeClass T o x.1 ≠ cBRACKO ∧ runeClass T o x.1 ≠ cBRACKC) : ∀ s ∈ emit T o inp cur a st, NoBracket s := by
  refine emit_keeps _ _ _ _ h ?_ ?_
  · intro cur a st r n h hm
    have := next_noBracket (c := runeClass T o r) h (hin _ hm)
    unfold NoBracket isBracket at this ⊢
    rw [inherit_clz]
    exact this
  · intro cur r n h _
    exact h

/-! ### The whole text -/

/-- An isolate, and the text after it, as tokens. -/
structure Piece where
  op : Nat × Nat
  body : List (Nat × Nat)
  cl : Nat × Nat
  rest : List (Nat × Nat)

/-- The tokens of an isolate. -/
def Piece.inner (p : Piece) : List (Nat × Nat) := p.op :: (p.body ++ [p.cl])

/-- The tokens of an isolate and the text after it. -/
def Piece.all (p : Piece) : List (Nat × Nat) := p.op :: (p.body ++ p.cl :: p.rest)

/-- The tokens of some pieces. -/
def ofPieces (ps : List Piece) : List (Nat × Nat) := ps.flatMap Piece.all

/-- The classes of the text outside of isolates. -/
def outerOf (T : Tables) (o : Options) (ps : List Piece) : List Class := ps.flatMap fun p => classesIn T o p.rest

/-- Where the isolates are. -/
def spansFrom : Nat → List Piece → List (Nat × Nat)
  | _, [] => []
  | pos, p :: ps => (pos, pos + widthOf p.inner) :: spansFrom (pos + widthOf p.all) ps

/-- Nested runs which tile these parts of the text. -/
def Runs : List (Nat × Nat) → List (List Scrap) → Prop
  | [], [] => True
  | sp :: sps, run :: runs => Tiles sp.1 sp.2 run ∧ Runs sps runs
  | _, _ => False

/-- An isolate which contains text, but no brackets and no isolates. -/
structure GoodPiece (T : Tables) (o : Options) (tile : Prop) (p : Piece) : Prop where
  op : runeClass T o p.op.1 = cLRI ∨ runeClass T o p.op.1 = cRLI
  opw : 0 < p.op.2
  some : p.body ≠ []
  body : ∀ x ∈ p.body, (PlainClass tile (runeClass T o x.1) ∧ 0 < x.2) ∧ runeClass T o x.1 ≠ cBRACKO ∧ runeClass T o x.1 ≠ cBRACKC
  cl : runeClass T o p.cl.1 = cPDI
  clw : 0 < p.cl.2
  rest : ∀ x ∈ p.rest, PlainClass tile (runeClass T o x.1) ∧ 0 < x.2
  numbers : NumbersLTR (isoDir (runeClass T o p.op.1)) (classesIn T o p.body)

theorem outline_more {l t o : List Scrap} (h : ∀ s ∈ l, isIsolate s = false) (ho : Outline t o) : Outline (l ++ t) (l ++ o) := by
  induction l with
  | nil => exact ho
  | cons x l ih => exact .plain (h x (by simp)) (ih fun y hy => h y (by simp [hy]))

theorem leads_append {x : Scrap} {l2 : List Scrap} (h : ¬ LeadsEN (x :: l2)) : ∀ l1 : List Scrap, LeadsEN (l1 ++ x :: l2) → LeadsEN l1
  | [], hl => absurd hl h
  | y :: l1, hl => hl.imp id fun h' => ⟨h'.1, leads_append h l1 h'.2⟩

theorem numOk_append {x : Scrap} {l2 : List Scrap} (h2 : NumOk (x :: l2)) (h : ¬ LeadsEN (x :: l2)) : ∀ l1 : List Scrap, NumOk l1 → NumOk (l1 ++ x :: l2)
  | [], _ => h2
  | y :: l1, h1 => ⟨fun hl => h1.1 (leads_append h (y :: l1) hl), numOk_append h2 h l1 h1.2⟩

/-- There is text after an isolate. -/
theorem far_iso {d : Nat} {A Z : Scrap} {body R : List Scrap} (hA : opens A = true) (hZ : Z.clz = cPDI) (hb : body ≠ [])
    (hbody : Far (d + 1) (Z :: R) → Far (d + 1) (body ++ Z :: R)) (hR : Far d R) (hlen : 2 * d ≤ R.length)
    (hhead : (d = 0 ∧ R = []) ∨ ∃ x w, R = x :: w ∧ isIsolate x = false) : Far d (A :: (body ++ Z :: R)) := by
  have hZo : opens Z = false := by unfold opens; rw [hZ]; rfl
  have hAp : A.clz ≠ cPDI := by
    intro e
    unfold opens at hA
    rw [e] at hA; cases hA
  have hbl := List.length_pos_iff.mpr hb
  refine ⟨Or.inr ?_, fun e => absurd e hAp, ?_⟩
  · simp only [List.length_cons, List.length_append]; omega
  · rw [hA, if_pos rfl]
    refine hbody ⟨?_, ?_, ?_⟩
    · rw [ahead, hZo, if_neg (by simp)]
      rcases hhead with ⟨-, rfl⟩ | ⟨x, w, rfl, hx⟩
      · exact Or.inl rfl
      · rw [ahead, opens_not hx, if_neg (by simp)]
        rcases (hR.tail hx).ahead with h | h
        · exact Or.inl h
        · right; simp only [List.length_cons]; omega
    · intro _ h2
      rcases hhead with ⟨h, -⟩ | ⟨x, w, rfl, hx⟩
      · omega
      · exact ⟨x, w, rfl, notPDI hx⟩
    · rw [hZo, if_neg (by simp), if_pos hZ]
      exact hR

end Uax.Bidi
