import Verif.BidiConform
import Verif.BidiKeeps
import Verif.BidiResolve

/-
Both passes of the parser keep the direction which the rules give to each byte.
-/
namespace Uax.Bidi
open Spec

/-! ### The scraps of the scanner -/

theorem emit_linked {T : Tables} {o : Options} {e : Class} : ∀ (inp : List (Nat × Nat)) (cur : Scrap) (a : Option Nat) (st : List DirContext),
    isIsolate cur = false → isBracket cur = false → cur.clz ≠ cAL → cur.e = e →
    (∀ x ∈ inp, runeClass T o x.1 ∉ [cLRI, cRLI, cFSI, cPDI, cBRACKO, cBRACKC, cNULL]) →
    (∀ s ∈ emit T o inp cur a st, s.e = e) ∧ Linked (fun s s' : Scrap => s.clz ≠ s'.clz) (emit T o inp cur a st) ∧
    (cur.clz ≠ cNULL → ∃ x rest, emit T o inp cur a st = x :: rest ∧ x.clz = cur.clz) := by
  intro inp
  induction inp with
  | nil =>
    intro cur a st _ _ _ he _
    rw [emit]
    by_cases hz : cur.clz = cNULL
    · rw [if_pos hz]
      exact ⟨by simp, trivial, fun h => absurd hz h⟩
    · rw [if_neg hz]
      exact ⟨by simpa using he, trivial, fun _ => ⟨cur, [], rfl, rfl⟩⟩
  | cons x rest ih =>
    obtain ⟨r, n⟩ := x
    intro cur a st hi hb hal he hin
    have hin' : ∀ x ∈ rest, runeClass T o x.1 ∉ [cLRI, cRLI, cFSI, cPDI, cBRACKO, cBRACKC, cNULL] := fun x hx => hin x (List.mem_cons_of_mem _ hx)
    have hc := hin (r, n) (List.mem_cons_self ..)
    dsimp only at hc
    rw [emit]
    dsimp only
    generalize runeClass T o r = c at hc ⊢
    simp only [List.mem_cons, List.not_mem_nil, or_false, not_or] at hc
    obtain ⟨c1, c2, c3, c4, c5, c6, c7⟩ := hc
    have hrc : rulesW1to3 c cur ∈ [cLRI, cRLI, cFSI, cPDI, cBRACKO, cBRACKC, cAL] → False := by
      have hi' := hi
      have hb' := hb
      simp only [isIsolate, isBracket, Bool.or_eq_false_iff, beq_eq_false_iff_ne] at hi' hb'
      intro hm
      simp only [List.mem_cons, List.not_mem_nil, or_false] at hm
      rcases rules_cases c cur with h | ⟨-, h | h⟩ | ⟨-, -, h⟩ | ⟨-, h⟩ | h
      · rw [h] at hm
        rcases hm with hm | hm | hm | hm | hm | hm | hm
        · exact c1 hm
        · exact c2 hm
        · exact c3 hm
        · exact c4 hm
        · exact c5 hm
        · exact c6 hm
        · rw [hm] at h
          exact absurd (show cR = cAL from h) (by decide)
      · rw [h] at hm
        rcases hm with hm | hm | hm | hm | hm | hm | hm
        · exact hi'.1.1.1 hm
        · exact hi'.1.1.2 hm
        · exact hi'.1.2 hm
        · exact hi'.2 hm
        · exact hb'.1 hm
        · exact hb'.2 hm
        · exact hal hm
      · rw [hi] at h; cases h
      all_goals (rw [h] at hm; revert hm; decide)
    simp only [List.mem_cons, List.not_mem_nil, or_false, imp_false, not_or] at hrc
    obtain ⟨d1, d2, d3, d4, d5, d6, d7⟩ := hrc
    have hnull : rulesW1to3 c cur = cNULL → cur.clz = cNULL := by
      intro h0
      rcases rules_cases c cur with h | ⟨-, h | h⟩ | ⟨-, -, h⟩ | ⟨-, h⟩ | h
      · exact absurd (h.symm.trans h0) c7
      · exact h.symm.trans h0
      · rw [hi] at h; cases h
      all_goals (rw [h] at h0; exact absurd h0 (by decide))
    have hla : isIsolate (nextScrap cur c n) = false := by
      simp only [isIsolate, Bool.or_eq_false_iff, beq_eq_false_iff_ne]
      exact ⟨⟨⟨d1, d2⟩, d3⟩, d4⟩
    by_cases hbr : breaks cur c = true
    · rw [if_pos hbr, switch_plain hi hla]
      dsimp only
      obtain ⟨-, -, i3, -⟩ := inherit_eq (nextScrap cur c n) cur a hla hi hal
      have icl := inherit_clz (nextScrap cur c n) cur a
      change (inheritStrongTypes (nextScrap cur c n) cur a).clz = rulesW1to3 c cur at icl
      generalize inheritStrongTypes (nextScrap cur c n) cur a = new at i3 icl ⊢
      obtain ⟨r1, r2, r3⟩ := ih new (if c = cAL then some (nextScrap cur c n).l else a) st
        (by simp only [isIsolate, Bool.or_eq_false_iff, beq_eq_false_iff_ne, icl]; exact ⟨⟨⟨d1, d2⟩, d3⟩, d4⟩)
        (by simp only [isBracket, Bool.or_eq_false_iff, beq_eq_false_iff_ne, icl]; exact ⟨d5, d6⟩) (by rw [icl]; exact d7) (i3.trans he) hin'
      by_cases hz : cur.clz = cNULL
      · rw [if_pos hz]
        exact ⟨r1, r2, fun h => absurd hz h⟩
      · rw [if_neg hz]
        refine ⟨?_, ?_, fun _ => ⟨cur, _, rfl, rfl⟩⟩
        · intro s hs
          rw [List.mem_cons] at hs
          rcases hs with rfl | hs
          · exact he
          · exact r1 s hs
        · obtain ⟨x, xs, e1, e2⟩ := r3 (fun h => hz (hnull (icl ▸ h)))
          rw [e1] at r2 ⊢
          refine ⟨?_, r2⟩
          show cur.clz ≠ x.clz
          rw [e2, icl]
          simpa [breaks, hz, hb, hi] using hbr
    · rw [if_neg hbr]
      have hz : cur.clz ≠ cNULL := by
        intro hz
        simp [breaks, hz] at hbr
      obtain ⟨r1, r2, r3⟩ := ih (collapse cur (nextScrap cur c n) cur.clz) a st hi hb hal he hin'
      exact ⟨r1, r2, fun _ => r3 hz⟩

/-! ### Bytes -/

theorem bytes_append (xs ys : List Scrap) : byteClasses (xs ++ ys) = byteClasses xs ++ byteClasses ys := List.flatMap_append

theorem bytes_cons (x : Scrap) (ys : List Scrap) : byteClasses (x :: ys) = List.replicate (x.r - x.l) x.clz ++ byteClasses ys := rfl

theorem bytes_mem {xs : List Scrap} {c : Class} (h : c ∈ byteClasses xs) : ∃ x ∈ xs, x.clz = c := by
  unfold byteClasses at h
  rw [List.mem_flatMap] at h
  obtain ⟨x, hx, hc⟩ := h
  exact ⟨x, hx, (List.eq_of_mem_replicate hc).symm⟩

theorem mem_bytes {xs : List Scrap} {x : Scrap} (hx : x ∈ xs) (h : x.l < x.r) : x.clz ∈ byteClasses xs := by
  unfold byteClasses
  rw [List.mem_flatMap]
  exact ⟨x, hx, List.mem_replicate.mpr ⟨by omega, rfl⟩⟩

theorem bytes_head {xs : List Scrap} (h : ∀ x ∈ xs, x.l < x.r) : (byteClasses xs).head? = xs.head?.map (·.clz) := by
  cases xs with
  | nil => rfl
  | cons x xs =>
    rw [bytes_cons, rep_head (by have := h x (List.mem_cons_self ..); omega)]
    rfl

theorem bytes_last {xs : List Scrap} (h : ∀ x ∈ xs, x.l < x.r) : (byteClasses xs).getLast? = xs.getLast?.map (·.clz) := by
  rcases List.eq_nil_or_concat xs with rfl | ⟨ys, y, rfl⟩
  · rfl
  · rw [List.concat_eq_append, bytes_append, List.getLast?_append, List.getLast?_append]
    have : (byteClasses [y]).getLast? = some y.clz := by
      rw [bytes_cons, show byteClasses [] = [] from rfl, List.append_nil, List.getLast?_replicate, if_neg]
      have := h y (by simp)
      omega
    rw [this]
    rfl

theorem bytes_tiles : ∀ (ys : List Scrap) (a z : Nat), Tiles a z ys → (∀ s ∈ ys, s.l ≤ s.r) → a + (byteClasses ys).length = z := by
  intro ys
  induction ys with
  | nil => intro a z h _; exact h
  | cons y ys ih =>
    intro a z h hp
    obtain ⟨rfl, h⟩ := h
    have := ih _ _ h (fun s hs => hp s (List.mem_cons_of_mem _ hs))
    have hy := hp y (by simp)
    rw [byteClasses, List.flatMap_cons, List.length_append, List.length_replicate]
    unfold byteClasses at this
    omega

/-! ### Pass 1 -/

/-- Neighbours are not the same separators or terminators. -/
def NotTwice (s s' : Scrap) : Prop := s.clz = s'.clz → s.clz ∉ [cES, cET, cCS]

/-- Both are neutral only where the direction is the one of the paragraph. -/
def NotNI (e : Class) (D : List Class) (s s' : Scrap) : Prop := s.clz = cNI → s'.clz = cNI → D[s'.l]? = some e

/-- What pass 1 keeps: the directions of the bytes. -/
structure Ex1 (e : Class) (D : List Class) (pre suf : List Scrap) : Prop where
  cls : ∀ s ∈ pre ++ suf, s.clz ∈ [cL, cR, cNI, cEN, cES, cET, cCS] ∧ s.e = e ∧ s.l < s.r
  val : n12 e e ((w5 cON (byteClasses (pre ++ suf))).map settle) = D
  apart : Aside e cL (w5 cON (byteClasses (pre ++ suf))) D
  blocks : Linked NotTwice (pre ++ suf)

theorem w5_pre {pre suf : List Scrap} (h : ∀ s ∈ pre, weakClass s = false) :
    w5 cON (byteClasses (pre ++ suf)) = byteClasses pre ++ w5 cON (byteClasses suf) := by
  have hw : ∀ c ∈ byteClasses pre, c ≠ cET ∧ c ≠ cEN := by
    intro c hc
    obtain ⟨x, hx, rfl⟩ := bytes_mem hc
    have := h x hx
    simp only [weakClass, Bool.or_eq_false_iff, beq_eq_false_iff_ne] at this
    exact ⟨this.1.2, this.1.1.1⟩
  rw [bytes_append, w5_plain _ _ _ (fun hm => (hw _ hm).1 rfl)]
  congr 1
  refine w5_state _ (Or.inl ?_)
  constructor
  · intro hq
    exfalso
    cases hl : (byteClasses pre).getLast? with
    | none => rw [hl] at hq; exact absurd hq (by decide)
    | some c =>
      rw [hl] at hq
      exact (hw c (List.mem_of_getLast? hl)).2 hq
  · intro h
    exact absurd h (by decide)

theorem bytes_strong {pre : List Scrap} (h : ∀ s ∈ pre, weakClass s = false) : ∀ c ∈ byteClasses pre, c ∉ [cES, cET, cCS] := by
  intro c hc
  obtain ⟨x, hx, rfl⟩ := bytes_mem hc
  have := h x hx
  simp only [weakClass, Bool.or_eq_false_iff, beq_eq_false_iff_ne] at this
  simp only [List.mem_cons, List.not_mem_nil, or_false, not_or]
  exact ⟨this.1.1.2, this.1.2, this.2⟩

/-- Two beginnings of the rest which are equivalent. -/
theorem ex1_step {e : Class} {D : List Class} {pre suf suf' : List Scrap} (h : Ex1 e D pre suf) (hp : ∀ s ∈ pre, weakClass s = false)
    (h1 : sideOf e ((w5 cON (byteClasses suf)).map settle) = sideOf e ((w5 cON (byteClasses suf')).map settle))
    (h2 : ∀ b, n12 e b ((w5 cON (byteClasses suf)).map settle) = n12 e b ((w5 cON (byteClasses suf')).map settle))
    (h3 : ∀ x d, Aside e x (w5 cON (byteClasses suf)) d → Aside e x (w5 cON (byteClasses suf')) d) :
    n12 e e ((w5 cON (byteClasses (pre ++ suf'))).map settle) = D ∧ Aside e cL (w5 cON (byteClasses (pre ++ suf'))) D := by
  have v := h.val
  have a := h.apart
  rw [w5_pre hp] at v a ⊢
  rw [List.map_append] at v ⊢
  rw [aside_plain _ _ _ _ _ (bytes_strong hp)] at a ⊢
  refine ⟨?_, h3 _ _ a⟩
  rw [← v]
  exact (n12_congr e h1 h2 _ _).symm

/-- Some scraps are replaced by one. -/
theorem ex1_replace {e : Class} {D : List Class} {pre m post : List Scrap} {f : Scrap} (h : Ex1 e D pre (m ++ post))
    (hp : ∀ s ∈ pre, weakClass s = false) (hf : f.clz ∈ [cL, cNI, cEN]) (he : f.e = e) (hl : f.l < f.r)
    (h1 : sideOf e ((w5 cON (byteClasses (m ++ post))).map settle) = sideOf e ((w5 cON (byteClasses (f :: post))).map settle))
    (h2 : ∀ b, n12 e b ((w5 cON (byteClasses (m ++ post))).map settle) = n12 e b ((w5 cON (byteClasses (f :: post))).map settle))
    (h3 : ∀ x d, Aside e x (w5 cON (byteClasses (m ++ post))) d → Aside e x (w5 cON (byteClasses (f :: post))) d) :
    Ex1 e D pre (f :: post) := by
  have hf2 : f.clz ∉ [cES, cET, cCS] := by
    simp only [List.mem_cons, List.not_mem_nil, or_false] at hf
    rcases hf with h | h | h <;> rw [h] <;> decide
  obtain ⟨v, a⟩ := ex1_step (suf' := f :: post) h hp h1 h2 h3
  refine ⟨?_, v, a, ?_⟩
  · intro s hs
    rw [List.mem_append, List.mem_cons] at hs
    rcases hs with hs | rfl | hs
    · exact h.cls s (List.mem_append_left _ hs)
    · refine ⟨?_, he, hl⟩
      simp only [List.mem_cons, List.not_mem_nil, or_false] at hf
      rcases hf with h | h | h <;> rw [h] <;> decide
    · exact h.cls s (by rw [List.mem_append, List.mem_append]; exact Or.inr (Or.inr hs))
  · have hb := h.blocks
    rw [linked_append, linked_append] at hb
    rw [← List.singleton_append, linked_append, linked_append]
    refine ⟨hb.1, ⟨trivial, hb.2.1.2.1, ?_⟩, ?_⟩
    · intro x hx y hy hxy
      rw [List.getLast?_singleton, Option.mem_def, Option.some.injEq] at hx
      rw [← hx]; exact hf2
    · intro x hx y hy hxy
      rw [List.singleton_append, List.head?_cons, Option.mem_def, Option.some.injEq] at hy
      rw [hxy, ← hy]; exact hf2

theorem tiles_two {l r : Nat} {a b : Scrap} {post : List Scrap} (h : Tiles l r (a :: b :: post)) : b.l = a.r := h.2.1

/-- The separators of one kind in a row are not followed by others. -/
theorem w5_block {c : Class} {n : Nat} (hn : 0 < n) (hc : c ≠ cET) (ys : List Class) :
    w5 cON (List.replicate n c ++ ys) = List.replicate n c ++ w5 c ys :=
  w5_rep hn c c (by rw [if_neg (fun h => hc h.1)])

theorem w5_head {q : Class} {ys : List Class} {z : Class} (h : (w5 q ys).head? = some z) : ys.head? = some z ∨ (z = cEN ∧ ys.head? = some cET) := by
  cases ys with
  | nil => cases h
  | cons y ys =>
    rw [w5_cons, List.head?_cons, Option.some.injEq] at h
    rw [List.head?_cons, Option.some.injEq]
    split at h
    · rename_i hc
      exact Or.inr ⟨h.symm, by rw [hc.1]⟩
    · exact Or.inl h

/-- Separators which become neutral, and the scrap before. -/
theorem ex1_neutral {e : Class} {D : List Class} {pre post : List Scrap} {s : Scrap} (h : Ex1 e D pre (s :: post))
    (hp : ∀ s ∈ pre, weakClass s = false) (hl : s.l = (byteClasses pre).length) (hs : s.clz ∈ [cES, cET, cCS]) (hen : s.clz = cET → post.head?.map (·.clz) ≠ some cEN) :
    Ex1 e D pre (fuse cNI [s] :: post) ∧ (Leads (w5 cON (byteClasses (s :: post))) → Leads (w5 cON (byteClasses post))) ∧
      ∀ x ∈ pre.getLast?, x.clz = cNI → D[s.l]? = some e ∨ Leads (w5 cON (byteClasses post)) := by
  have hs3 := h.cls s (by simp)
  have hpos : 0 < s.r - s.l := by omega
  have hpp : ∀ x ∈ post, x.l < x.r := fun x hx => (h.cls x (by simp [hx])).2.2
  -- the scrap after is another one
  have hnext : (byteClasses post).head? ≠ some s.clz := by
    rw [bytes_head hpp]
    intro hh
    rw [Option.map_eq_some_iff] at hh
    obtain ⟨y, hy, hyc⟩ := hh
    have hb := h.blocks
    rw [linked_append] at hb
    cases post with
    | nil => cases hy
    | cons z zs =>
      rw [List.head?_cons, Option.some.injEq] at hy
      subst hy
      exact hb.2.1.1 hyc.symm hs
  -- W5
  have e1 : w5 cON (byteClasses (s :: post)) = List.replicate (s.r - s.l) s.clz ++ w5 cON (byteClasses post) := by
    rw [bytes_cons]
    by_cases hc : s.clz = cET
    · rw [hc] at hnext ⊢
      rw [w5_apart hnext _ (by decide) (by rw [bytes_head hpp]; exact hen hc), if_neg (by omega)]
      congr 1
      exact w5_state _ (Or.inl (by decide))
    · rw [w5_block hpos hc]
      congr 1
      refine w5_state _ (Or.inl ?_)
      simp only [List.mem_cons, List.not_mem_nil, or_false] at hs
      rcases hs with hs | hs | hs <;> rw [hs] <;> decide
  have e2 : w5 cON (byteClasses (fuse cNI [s] :: post)) = List.replicate (s.r - s.l) cNI ++ w5 cON (byteClasses post) := by
    rw [bytes_cons]
    refine (w5_block (c := cNI) hpos (by decide) _).trans ?_
    congr 1
    exact w5_state _ (Or.inl (by decide))
  have hset : settle s.clz = settle cNI := by
    simp only [List.mem_cons, List.not_mem_nil, or_false] at hs
    rcases hs with hs | hs | hs <;> rw [hs] <;> rfl
  have e3 : (w5 cON (byteClasses (s :: post))).map settle = (w5 cON (byteClasses (fuse cNI [s] :: post))).map settle := by
    rw [e1, e2, List.map_append, List.map_append, List.map_replicate, List.map_replicate, hset]
  refine ⟨ex1_replace (m := [s]) (f := fuse cNI [s]) h hp (by show cNI ∈ _; decide) hs3.2.1 hs3.2.2 ?_ ?_ ?_, ?_, ?_⟩
  · rw [List.singleton_append, e3]
  · intro b; rw [List.singleton_append, e3]
  · intro x d ha
    rw [List.singleton_append, e1] at ha
    rw [e2, aside_rep (by decide) _ _ _ _ hpos]
    refine aside_prev ?_ (aside_rep_of _ _ _ _ hpos ha)
    intro y hy hyy ht
    exfalso
    rcases ht with t | t
    · rw [Option.mem_def] at hy
      rcases w5_head hy with g | ⟨g, -⟩
      · exact hnext (by rw [g, t])
      · rw [g] at hyy; exact absurd hyy (by decide)
    · refine t ?_
      simp only [List.mem_cons, List.not_mem_nil, or_false] at hs
      rcases hs with hs | hs | hs <;> rw [hs] <;> decide
  · rw [e1, leads_rep hs]
    exact id
  · intro x hx hxn
    have ha := h.apart
    rw [w5_pre hp, aside_plain _ _ _ _ _ (bytes_strong hp)] at ha
    have hx' : (byteClasses pre).getLast? = some cNI := by
      rw [bytes_last (fun x hx => (h.cls x (by simp [hx])).2.2), hx]
      show some x.clz = _
      rw [hxn]
    rw [hx', Option.getD_some, e1] at ha
    obtain ⟨k, hk⟩ : ∃ k, s.r - s.l = k + 1 := ⟨s.r - s.l - 1, by omega⟩
    rw [hk, List.replicate_succ, List.cons_append] at ha
    rcases ha.1 hs with t | t | t | t
    · rw [← t] at hs; exact absurd hs (by decide)
    · exact absurd (by decide) t
    · rw [List.head?_drop, ← hl] at t
      exact Or.inl t
    · rw [leads_rep hs] at t
      exact Or.inr t

/-- A number in left-to-right context. -/
theorem ex1_number {e : Class} {D : List Class} {pre post : List Scrap} {s : Scrap} (h : Ex1 e D pre (s :: post))
    (hp : ∀ s ∈ pre, weakClass s = false) (hs : s.clz = cEN) (het : post.head?.map (·.clz) ≠ some cET) :
    Ex1 e D pre ({ s with clz := cL } :: post) := by
  have hs3 := h.cls s (by simp)
  have hpos : 0 < s.r - s.l := by omega
  have hpp : ∀ x ∈ post, x.l < x.r := fun x hx => (h.cls x (by simp [hx])).2.2
  have e1 : w5 cON (byteClasses (s :: post)) = List.replicate (s.r - s.l) cEN ++ w5 cL (byteClasses post) := by
    rw [bytes_cons, hs, w5_block hpos (by decide)]
    congr 1
    exact w5_state _ (Or.inr (by rw [bytes_head hpp]; exact het))
  have e2 : w5 cON (byteClasses ({ s with clz := cL } :: post)) = List.replicate (s.r - s.l) cL ++ w5 cL (byteClasses post) := by
    rw [bytes_cons]
    exact w5_block (c := cL) hpos (by decide) _
  have e3 : (w5 cON (byteClasses (s :: post))).map settle = (w5 cON (byteClasses ({ s with clz := cL } :: post))).map settle := by
    rw [e1, e2, List.map_append, List.map_append, List.map_replicate, List.map_replicate]
    rfl
  refine ex1_replace (m := [s]) h hp (by show cL ∈ _; decide) hs3.2.1 hs3.2.2 ?_ ?_ ?_
  · rw [List.singleton_append, e3]
  · intro b; rw [List.singleton_append, e3]
  · intro x d ha
    rw [List.singleton_append, e1] at ha
    rw [e2, aside_rep (by decide) _ _ _ _ hpos]
    exact aside_prev (fun _ _ _ _ => Or.inr (by decide)) (aside_rep_of _ _ _ _ hpos ha)

/-- Two scraps become one, and every byte keeps its class after W5. -/
theorem ex1_two {e : Class} {D : List Class} {pre post : List Scrap} {s t : Scrap} {c : Class} (h : Ex1 e D pre (s :: t :: post))
    (hp : ∀ s ∈ pre, weakClass s = false) (ht : t.l = s.r) (hk : (s.clz = cEN ∧ t.clz = cET ∧ c = cEN) ∨ (s.clz = cET ∧ t.clz = cEN ∧ c = cEN) ∨
      (s.clz = cNI ∧ t.clz = cNI ∧ c = cNI)) : Ex1 e D pre (fuse c [s, t] :: post) ∧
      w5 cON (byteClasses (s :: t :: post)) = w5 cON (byteClasses (fuse c [s, t] :: post)) := by
  have hs3 := h.cls s (by simp)
  have ht3 := h.cls t (by simp)
  have hl : (fuse c [s, t]).r - (fuse c [s, t]).l = (s.r - s.l) + (t.r - t.l) := by
    show t.r - s.l = _
    omega
  have e3 : w5 cON (byteClasses ([s, t] ++ post)) = w5 cON (byteClasses (fuse c [s, t] :: post)) := by
    rw [bytes_cons, hl]
    show w5 cON (byteClasses (s :: t :: post)) = _
    rw [bytes_cons, bytes_cons]
    show _ = w5 cON (List.replicate _ c ++ _)
    rcases hk with ⟨k1, k2, rfl⟩ | ⟨k1, k2, rfl⟩ | ⟨k1, k2, rfl⟩
    · rw [k1, k2, w5_block (by omega) (by decide), w5_rep (by omega) cET cEN (by simp), w5_block (by omega) (by decide), ← List.replicate_append_replicate,
        List.append_assoc]
    · rw [k1, k2, w5_beside (by rw [rep_head (by omega)]; decide) _ (Or.inr (by rw [rep_head (by omega)])), if_neg (by omega),
        w5_rep (by omega) cEN cEN (by simp), w5_block (by omega) (by decide), ← List.replicate_append_replicate, List.append_assoc]
    · rw [k1, k2, ← List.append_assoc, List.replicate_append_replicate]
  refine ⟨ex1_replace (m := [s, t]) h hp ?_ hs3.2.1 ?_ (by rw [e3]) (fun b => by rw [e3]) (by rw [e3]; exact fun _ _ => id), e3⟩
  · show c ∈ _
    rcases hk with ⟨-, -, rfl⟩ | ⟨-, -, rfl⟩ | ⟨-, -, rfl⟩ <;> decide
  · show s.l < t.r
    omega

/-- A separator between numbers. -/
theorem ex1_three {e : Class} {D : List Class} {pre post : List Scrap} {s t u : Scrap} (h : Ex1 e D pre (s :: t :: u :: post))
    (hp : ∀ s ∈ pre, weakClass s = false) (ht : t.l = s.r) (hu : u.l = t.r) (h1 : s.clz = cEN) (h2 : t.clz = cES ∨ t.clz = cCS) (h3 : u.clz = cEN) :
    Ex1 e D pre (fuse cEN [s, t, u] :: post) := by
  have hs3 := h.cls s (by simp)
  have ht3 := h.cls t (by simp)
  have hu3 := h.cls u (by simp)
  have hl : (fuse cEN [s, t, u]).r - (fuse cEN [s, t, u]).l = (s.r - s.l) + (t.r - t.l) + (u.r - u.l) := by
    show u.r - s.l = _
    omega
  have e1 : w5 cON (byteClasses ([s, t, u] ++ post)) = List.replicate (s.r - s.l) cEN ++ (List.replicate (t.r - t.l) t.clz ++
      (List.replicate (u.r - u.l) cEN ++ w5 cEN (byteClasses post))) := by
    show w5 cON (byteClasses (s :: t :: u :: post)) = _
    rw [bytes_cons, bytes_cons, bytes_cons, h1, h3, w5_block (by omega) (by decide),
      w5_rep (by omega) t.clz t.clz (by rw [if_neg]; rintro ⟨h, -⟩; rcases h2 with h2 | h2 <;> rw [h2] at h <;> exact absurd h (by decide)),
      w5_rep (by omega) cEN cEN (by simp)]
  have e2 : w5 cON (byteClasses (fuse cEN [s, t, u] :: post)) =
      List.replicate ((s.r - s.l) + (t.r - t.l) + (u.r - u.l)) cEN ++ w5 cEN (byteClasses post) := by
    rw [bytes_cons, hl]
    exact w5_block (c := cEN) (by omega) (by decide) _
  have hset : settle t.clz = cON := by rcases h2 with h2 | h2 <;> rw [h2] <;> rfl
  refine ex1_replace (m := [s, t, u]) h hp (by show cEN ∈ _; decide) hs3.2.1 (by show s.l < u.r; omega) ?_ ?_ ?_
  · rw [e1, e2]
    simp only [List.map_append, List.map_replicate, settle_en]
    rw [sideOf_rep e (Or.inl rfl) (by omega), sideOf_rep e (Or.inl rfl) (by omega)]
  · intro b
    rw [e1, e2]
    simp only [List.map_append, List.map_replicate, settle_en, hset]
    exact n12_between e (Or.inl rfl) _ _ _ (by omega) (by omega) _ b
  · intro x d ha
    rw [e1] at ha
    have ha := aside_rep_of _ _ _ _ (by omega) (aside_rep_of _ _ _ _ (by omega) (aside_rep_of _ _ _ _ (by omega) ha))
    rw [e2, aside_rep (by decide) _ _ _ _ (by omega)]
    rw [List.drop_drop, List.drop_drop, ← Nat.add_assoc] at ha
    exact ha

/-- The rules of pass 1 when there are no Arabic numbers. -/
theorem pick1_shape {a : Class} {b c : Option Class} {rule : Rule} (ha : a ≠ cAN) (h : pick1 a b c = some rule) (hne : rule ≠ .W7) :
    (rule.lhsLen = 3 ∧ target rule = cEN ∧ a = cEN ∧ (b = some cES ∨ b = some cCS) ∧ c = some cEN) ∨
    (rule.lhsLen = 2 ∧ ((a = cEN ∧ b = some cET ∧ target rule = cEN) ∨ (a = cET ∧ b = some cEN ∧ target rule = cEN) ∨
      (a = cNI ∧ b = some cNI ∧ target rule = cNI ∧ stepBack rule = 1))) ∨
    (rule.lhsLen = 1 ∧ target rule = cNI ∧ a ∈ [cES, cET, cCS] ∧ (a = cET → b ≠ some cEN)) := by
  unfold pick1 at h
  repeat' split at h
  all_goals first
    | (cases h; done)
    | (injection h with h; subst h; first
        | exact absurd rfl hne
        | contradiction
        | (left; exact ⟨rfl, rfl, by assumption, by simp [*], by simp [*]⟩)
        | (right; left; refine ⟨rfl, ?_⟩; first | (left; exact ⟨by assumption, by assumption, rfl⟩) | (right; left; exact ⟨by assumption, by assumption, rfl⟩) | (right; right; exact ⟨by assumption, by assumption, rfl, rfl⟩))
        | (right; right; refine ⟨rfl, rfl, by simp [*], ?_⟩; intro hh; first | assumption | (rename_i hx; rw [hx] at hh; exact absurd hh (by decide))))

theorem nil_or_last {α : Type} (l : List α) : l = [] ∨ ∃ a x, l = a ++ [x] := by
  rcases List.eq_nil_or_concat l with h | ⟨a, x, h⟩
  · exact Or.inl h
  · exact Or.inr ⟨a, x, by rw [h, List.concat_eq_append]⟩

/-- Neutrals stand side by side at the end only. -/
def Blocky (e : Class) (D : List Class) (F : List Scrap) : Prop :=
  ∃ P N, F = P ++ N ∧ (∀ s ∈ N, s.clz = cNI) ∧ Linked (NotNI e D) (P ++ N.take 1)

theorem Blocky.of {e : Class} {D : List Class} {F : List Scrap} (h : Linked (NotNI e D) F) : Blocky e D F :=
  ⟨F, [], by simp, by simp, by simpa using h⟩

theorem Blocky.cut {e : Class} {D : List Class} {F : List Scrap} {h : Scrap} (hb : Blocky e D (F ++ [h])) : Blocky e D F := by
  obtain ⟨P, N, e1, e2, e3⟩ := hb
  rcases nil_or_last N with rfl | ⟨N1, x, rfl⟩
  · rw [List.append_nil] at e1
    rw [List.take_nil, List.append_nil, ← e1, linked_append] at e3
    exact Blocky.of e3.1
  · rw [← List.append_assoc] at e1
    obtain ⟨e4, -⟩ := List.append_inj' e1 rfl
    refine ⟨P, N1, e4, fun s hs => e2 s (by simp [hs]), ?_⟩
    cases N1 with
    | nil =>
      rw [linked_append] at e3
      simpa using e3.1
    | cons y N1 => exact e3

theorem Blocky.strong {e : Class} {D : List Class} {F : List Scrap} (hb : Blocky e D F) (h : ∀ x ∈ F.getLast?, x.clz ≠ cNI) : Linked (NotNI e D) F := by
  obtain ⟨P, N, e1, e2, e3⟩ := hb
  rcases nil_or_last N with rfl | ⟨N1, x, rfl⟩
  · rw [e1, List.append_nil]
    simpa using e3
  · exact absurd (e2 x (by simp)) (h x (by rw [e1]; simp))

theorem Blocky.push {e : Class} {D : List Class} {F : List Scrap} {x f : Scrap} (hb : Blocky e D F) (hx : F.getLast? = some x) (hxn : x.clz = cNI) (hf : f.clz = cNI) :
    Blocky e D (F ++ [f]) := by
  obtain ⟨P, N, e1, e2, e3⟩ := hb
  cases N with
  | nil =>
    rw [List.append_nil] at e1
    rw [List.take_nil, List.append_nil, ← e1] at e3
    rcases nil_or_last F with rfl | ⟨F1, y, rfl⟩
    · cases hx
    · have : y = x := by simpa using hx
      subst this
      refine ⟨F1, [y, f], by simp, ?_, by simpa using e3⟩
      intro s hs
      simp only [List.mem_cons, List.not_mem_nil, or_false] at hs
      rcases hs with rfl | rfl
      · exact hxn
      · exact hf
  | cons y N =>
    refine ⟨P, (y :: N) ++ [f], by rw [e1, List.append_assoc], ?_, e3⟩
    intro s hs
    rw [List.mem_append, List.mem_singleton] at hs
    rcases hs with hs | rfl
    · exact e2 s hs
    · exact hf

/-- Neutrals side by side are at the end, and will be joined. -/
def Mergeable (e : Class) (D : List Class) (F R : List Scrap) : Prop :=
  Blocky e D F ∧ (Linked (NotNI e D) F ∨ Leads (w5 cON (byteClasses R)))

theorem Mergeable.of {e : Class} {D : List Class} {F R : List Scrap} (h : Linked (NotNI e D) F) : Mergeable e D F R := ⟨Blocky.of h, Or.inl h⟩

/-- Neutrals which stand side by side before the position will be joined. -/
def Joined (e : Class) (D : List Class) (pre suf : List Scrap) : Prop :=
  (∀ s t, suf = s :: t → s.clz = cNI → Mergeable e D (pre ++ [s]) t) ∧ ((∀ s ∈ suf.head?, s.clz ≠ cNI) → Mergeable e D pre suf)

theorem joined_neutral {e : Class} {D : List Class} {pre t : List Scrap} {s : Scrap} (hs : s.clz = cNI) (h : Mergeable e D (pre ++ [s]) t) : Joined e D pre (s :: t) := by
  refine ⟨fun s' t' e' _ => ?_, fun hh => absurd hs (hh s rfl)⟩
  injection e' with e1 e2
  subst e1 e2
  exact h

theorem joined_other {e : Class} {D : List Class} {pre t : List Scrap} {s : Scrap} (hs : s.clz ≠ cNI) (h : Mergeable e D pre (s :: t)) : Joined e D pre (s :: t) := by
  refine ⟨fun s' t' e' hh => ?_, fun _ => h⟩
  injection e' with e1 e2
  subst e1
  exact absurd hh hs

theorem leads_neutral {s : Scrap} {t : List Scrap} (hs : s.clz = cNI) (hl : s.l < s.r) : Leads (w5 cON (byteClasses (s :: t))) := by
  obtain ⟨k, hk⟩ : ∃ k, s.r - s.l = k + 1 := ⟨s.r - s.l - 1, by omega⟩
  rw [bytes_cons, hk, hs, List.replicate_succ, List.cons_append, w5_other (by decide), leads_other (by decide)]
  decide

theorem leads_not {s : Scrap} {t : List Scrap} (hs : s.clz ∈ [cL, cR, cEN]) (hl : s.l < s.r) : ¬ Leads (w5 cON (byteClasses (s :: t))) := by
  obtain ⟨k, hk⟩ : ∃ k, s.r - s.l = k + 1 := ⟨s.r - s.l - 1, by omega⟩
  simp only [List.mem_cons, List.not_mem_nil, or_false] at hs
  rw [bytes_cons, hk, List.replicate_succ, List.cons_append]
  rcases hs with hs | hs | hs <;> rw [hs, w5_other (by decide), leads_other (by decide)] <;> decide

theorem joined_back {e : Class} {D : List Class} {pre suf : List Scrap} {x : Scrap} (hpos : ∀ s ∈ suf, s.l < s.r) (h : Joined e D (pre ++ [x]) suf) : Joined e D pre (x :: suf) := by
  -- what stands before
  have hb : Blocky e D (pre ++ [x]) ∧ (Linked (NotNI e D) (pre ++ [x]) ∨ Leads (w5 cON (byteClasses suf))) := by
    cases suf with
    | nil => exact h.2 (by simp)
    | cons s t =>
      by_cases hs : s.clz = cNI
      · exact ⟨(h.1 s t rfl hs).1.cut, Or.inr (leads_neutral hs (hpos s (by simp)))⟩
      · exact h.2 (by intro y hy; rw [List.head?_cons, Option.mem_def, Option.some.injEq] at hy; rw [← hy]; exact hs)
  by_cases hx : x.clz = cNI
  · exact joined_neutral hx hb
  · refine joined_other hx (Mergeable.of ?_)
    have := hb.1.strong (by intro y hy; rw [List.getLast?_append, List.getLast?_singleton, Option.some_or, Option.mem_def, Option.some.injEq] at hy; rw [← hy]; exact hx)
    rw [linked_append] at this
    exact this.1

/-- After a change which is no concern of neutrals. -/
theorem joined_replace {e : Class} {D : List Class} {pre post t : List Scrap} {s f : Scrap} (h : Joined e D pre (s :: t)) (hs : s.clz ≠ cNI)
    (hl : ¬ Leads (w5 cON (byteClasses (s :: t)))) (hf : f.clz ≠ cNI) : Joined e D pre (f :: post) := by
  refine joined_other hf (Mergeable.of ?_)
  have := h.2 (by intro y hy; rw [List.head?_cons, Option.mem_def, Option.some.injEq] at hy; rw [← hy]; exact hs)
  rcases this.2 with k | k
  · exact k
  · exact absurd k hl

/-- Everything that pass 1 keeps. -/
def Pass1 (len : Nat) (e : Class) (D : List Class) (pre suf : List Scrap) : Prop := (Good1 True len pre suf ∧ Ex1 e D pre suf) ∧ Joined e D pre suf

theorem pass1_back {len : Nat} {e : Class} {D : List Class} {pre suf : List Scrap} {x : Scrap} (h : Pass1 len e D (pre ++ [x]) suf) : Pass1 len e D pre (x :: suf) := by
  refine ⟨⟨(good1_inv True 0 len).back h.1.1, ?_⟩, joined_back (fun s hs => (h.1.2.cls s (by simp [hs])).2.2) h.2⟩
  obtain ⟨c, v, a, b⟩ := h.1.2
  exact ⟨by simpa using c, by simpa using v, by simpa using a, by simpa using b⟩

/-- Pass 1 -/
theorem ex1_inv (len : Nat) (e : Class) (D : List Class) : Inv1B (Pass1 len e D) where
  known h := (good1_inv True 0 len).known h.1.1
  closed h := (good1_inv True 0 len).closed h.1.1
  number h := (good1_inv True 0 len).number h.1.1
  walk := by
    intro pre s t h hp
    obtain ⟨c, v, a, b⟩ := h.1.2
    refine ⟨⟨(good1_inv True 0 len).walk h.1.1 hp, by simpa using c, by simpa using v, by simpa using a, by simpa using b⟩, ?_⟩
    by_cases hs : s.clz = cNI
    · have hm := h.2.1 s t rfl hs
      refine ⟨fun y t' e1 hy => ?_, fun _ => hm⟩
      subst e1
      rw [hs, List.getElem?_cons_zero, Option.map_some, hy] at hp
      exact absurd hp (by simp [pick1, cNI, cEN, cAN, cET, cES, cCS])
    · have hsc := c s (by simp)
      obtain ⟨n1, n2, n3, n4⟩ := pick1_none hp
      have hlr : s.clz ∈ [cL, cR, cEN] := by
        have := hsc.1
        simp only [List.mem_cons, List.not_mem_nil, or_false] at this ⊢
        rcases this with k | k | k | k | k | k | k
        · exact Or.inl k
        · exact Or.inr (Or.inl k)
        · exact absurd k hs
        · exact absurd k n1
        · exact absurd k n2
        · exact absurd k n3
        · exact absurd k n4
      have hlk : Linked (NotNI e D) pre := by
        have := h.2.2 (by intro y hy; rw [List.head?_cons, Option.mem_def, Option.some.injEq] at hy; rw [← hy]; exact hs)
        rcases this.2 with k | k
        · exact k
        · exact absurd k (leads_not hlr hsc.2.2)
      have hlk2 : Linked (NotNI e D) (pre ++ [s]) := by
        rw [linked_append]
        refine ⟨hlk, trivial, ?_⟩
        intro x _ y hy _ k
        rw [List.head?_cons, Option.mem_def, Option.some.injEq] at hy
        rw [← hy] at k
        exact absurd k hs
      refine ⟨fun y t' e1 hy => Mergeable.of ?_, fun _ => Mergeable.of hlk2⟩
      rw [linked_append]
      refine ⟨hlk2, trivial, ?_⟩
      intro x hx z _ k _
      rw [List.getLast?_append, List.getLast?_singleton, Option.some_or, Option.mem_def, Option.some.injEq] at hx
      rw [← hx] at k
      exact absurd k hs
  fuse := by
    intro pre s t post rule h hp hne hl
    have hgood := (good1_inv True 0 len).fuse h.1.1 hp hne hl
    obtain ⟨⟨g1, g2⟩, gj⟩ := h
    have hw := g1.2.2.2
    have htl := g1.2.2.1 trivial
    have hcls := g2.cls s (by simp)
    have han : s.clz ≠ cAN := by rintro hh; rw [hh] at hcls; exact absurd hcls.1 (by decide)
    obtain ⟨m, htp, htl⟩ := tiles_append.mp htl
    rcases pick1_shape han hp hne with ⟨k1, k2, k3, k4, k5⟩ | ⟨k1, k2⟩ | ⟨k1, k2, k3, k4⟩
    · rw [k1] at hl
      match t, hl with
      | [u, v], _ =>
        rw [k2] at hgood ⊢
        simp only [List.cons_append, List.nil_append, List.getElem?_cons_zero, List.getElem?_cons_succ, Option.map_some, Option.some.injEq] at k4 k5
        refine steps_back (P := Pass1 len e D) pass1_back _ _ _ (by omega) ⟨⟨hgood, ex1_three g2 hw htl.2.1 htl.2.2.1 k3 k4 k5⟩, ?_⟩
        exact joined_replace gj (by rw [k3]; decide) (leads_not (by rw [k3]; decide) hcls.2.2) (by show cEN ≠ cNI; decide)
    · rw [k1] at hl
      match t, hl with
      | [u], _ =>
        simp only [List.cons_append, List.nil_append, List.getElem?_cons_zero, Option.map_some, Option.some.injEq] at k2
        have hu := g2.cls u (by simp)
        obtain ⟨x1, x2⟩ := ex1_two (c := target rule) g2 hw htl.2.1 (k2.imp id (Or.imp id fun ⟨a, b, c, _⟩ => ⟨a, b, c⟩))
        have hpos : (Bidi.fuse (target rule) [s, u]).l < (Bidi.fuse (target rule) [s, u]).r := by
          have := htl.2.1
          show s.l < u.r
          omega
        have hnum : ∀ (_ : s.clz ≠ cNI) (_ : target rule = cEN), Pass1 len e D (pre.take (pre.length - min (stepBack rule) pre.length))
            (pre.drop (pre.length - min (stepBack rule) pre.length) ++ Bidi.fuse (target rule) [s, u] :: post) := by
          intro n1 n2
          refine steps_back (P := Pass1 len e D) pass1_back _ _ _ (by omega) ⟨⟨hgood, x1⟩, ?_⟩
          refine joined_replace (t := u :: post) gj n1 ?_ (by show target rule ≠ cNI; rw [n2]; decide)
          rw [show w5 cON (byteClasses (s :: u :: post)) = _ from x2]
          exact leads_not (by show target rule ∈ _; rw [n2]; decide) hpos
        rcases k2 with ⟨k3, -, k4⟩ | ⟨k3, -, k4⟩ | ⟨k3, k4, k5, k6⟩
        · exact hnum (by rw [k3]; decide) k4
        · exact hnum (by rw [k3]; decide) k4
        · rw [k6]
          have hm := gj.1 s (u :: post) rfl k3
          rcases nil_or_last pre with rfl | ⟨pre1, x, rfl⟩
          · refine ⟨⟨hgood, x1⟩, joined_neutral (by exact k5) (Mergeable.of trivial)⟩
          · have e1 : (pre1 ++ [x]).length - min 1 (pre1 ++ [x]).length = pre1.length := by simp
            rw [e1, List.take_left, List.drop_left]
            have hx := g2.cls x (by simp)
            have hback : Good1 True len pre1 ([x] ++ Bidi.fuse (target rule) [s, u] :: post) ∧ Ex1 e D pre1 ([x] ++ Bidi.fuse (target rule) [s, u] :: post) := by
              refine ⟨(good1_inv True 0 len).back hgood, ?_⟩
              obtain ⟨c, v, a, b⟩ := x1
              exact ⟨by simpa using c, by simpa using v, by simpa using a, by simpa using b⟩
            refine ⟨hback, ?_⟩
            have hbl : Blocky e D (pre1 ++ [x]) := hm.1.cut
            by_cases hxn : x.clz = cNI
            · exact joined_neutral hxn ⟨hbl, Or.inr (leads_neutral (by exact k5) hpos)⟩
            · refine joined_other hxn (Mergeable.of ?_)
              have := hbl.strong (by intro y hy; rw [List.getLast?_append, List.getLast?_singleton, Option.some_or, Option.mem_def, Option.some.injEq] at hy; rw [← hy]; exact hxn)
              rw [linked_append] at this
              exact this.1
    · rw [k1] at hl
      match t, hl with
      | [], _ =>
        rw [k2] at hgood ⊢
        have hlen := bytes_tiles pre 0 m htp (fun x hx => Nat.le_of_lt (g2.cls x (by simp [hx])).2.2)
        obtain ⟨x1, x2, x3⟩ := ex1_neutral g2 hw (by rw [htl.1]; omega) k3 (by
          rw [List.head?_eq_getElem?]
          exact k4)
        have hsn : s.clz ≠ cNI := by
          intro hh
          rw [hh] at k3
          exact absurd k3 (by decide)
        have hm := gj.2 (by intro y hy; rw [List.singleton_append, List.head?_cons, Option.mem_def, Option.some.injEq] at hy; rw [← hy]; exact hsn)
        refine steps_back (P := Pass1 len e D) pass1_back _ _ _ (by omega) ⟨⟨hgood, x1⟩, joined_neutral (by rfl) ?_⟩
        cases hlast : pre.getLast? with
        | none =>
          rw [List.getLast?_eq_none_iff.mp hlast]
          exact Mergeable.of trivial
        | some x =>
          by_cases hxn : x.clz = cNI
          · refine ⟨hm.1.push hlast hxn rfl, ?_⟩
            rcases hm.2 with k | k
            · rcases x3 x hlast hxn with g | g
              · left
                rw [linked_append]
                refine ⟨k, trivial, ?_⟩
                intro y hy z hz _ _
                rw [List.head?_cons, Option.mem_def, Option.some.injEq] at hz
                rw [← hz]
                exact g
              · exact Or.inr g
            · exact Or.inr (x2 k)
          · have := hm.1.strong (by intro y hy; rw [hlast, Option.mem_def, Option.some.injEq] at hy; rw [← hy]; exact hxn)
            refine Mergeable.of ?_
            rw [linked_append]
            refine ⟨this, trivial, ?_⟩
            intro y hy z _ k _
            rw [hlast, Option.mem_def, Option.some.injEq] at hy
            rw [← hy] at k
            exact absurd k hxn
  w7 := by
    intro pre s t h he hne
    have hcls := h.1.2.cls s (by simp)
    refine ⟨⟨(good1_inv True 0 len).w7 h.1.1 he hne, ex1_number h.1.2 h.1.1.2.2.2 he ?_⟩, ?_⟩
    · rw [List.head?_eq_getElem?]
      exact hne
    · exact joined_replace h.2 (by rw [he]; decide) (leads_not (by rw [he]; decide) hcls.2.2) (by show cL ≠ cNI; decide)

/-! ### Pass 2 -/

/-- What pass 2 keeps, apart from the scrap for the beginning of the run. -/
structure Ex2 (lo len : Nat) (e : Class) (D : List Class) (pre suf : List Scrap) : Prop where
  cls : ∀ s ∈ pre ++ suf, (s.clz = cL ∨ s.clz = cR ∨ s.clz = cNI) ∧ s.e = e ∧ s.l < s.r
  tiles : Tiles lo len (pre ++ suf)
  strong : ∀ s ∈ pre, s.clz ≠ cNI
  val : n12 e e ((byteClasses (pre ++ suf)).map settle) = D.drop lo
  joined : Linked (NotNI e D) (pre ++ suf)
  blocked : ∀ s t, suf = s :: t → s.clz = cNI → ∀ x ∈ pre.getLast?, ∀ y ∈ t.head?, x.clz = y.clz → D[y.l - 1]? = some e

theorem ex2_pass {lo len : Nat} {e : Class} {D : List Class} {pre t : List Scrap} {s : Scrap} (h : Ex2 lo len e D pre (s :: t)) (hn : s.clz ≠ cNI)
    (hb : ∀ u z zs, t = u :: z :: zs → u.clz = cNI → s.clz = z.clz → D[z.l - 1]? = some e) : Ex2 lo len e D (pre ++ [s]) t := by
  obtain ⟨c, tl, st, v, j, b⟩ := h
  refine ⟨by simpa using c, by simpa using tl, ?_, by simpa using v, by simpa using j, ?_⟩
  · intro x hx
    rw [List.mem_append, List.mem_singleton] at hx
    rcases hx with hx | rfl
    · exact st x hx
    · exact hn
  · intro u t' ht hu x hx y hy hxy
    subst ht
    rw [List.getLast?_append, List.getLast?_singleton, Option.some_or, Option.mem_def, Option.some.injEq] at hx
    subst hx
    cases t' with
    | nil => cases hy
    | cons z zs =>
      rw [List.head?_cons, Option.mem_def, Option.some.injEq] at hy
      subst hy
      exact hb u z zs rfl hu hxy

theorem ex2_walk {lo len : Nat} {e : Class} {D : List Class} {pre t : List Scrap} {s : Scrap} (h : Ex2 lo len e D pre (s :: t))
    (hp : pick2 s.clz (t[0]?.map (·.clz)) (t[1]?.map (·.clz)) = none) : Ex2 lo len e D (pre ++ [s]) t := by
  refine ex2_pass h ?_ ?_
  · intro hn
    rw [hn] at hp
    exact absurd hp (by simp [pick2, cNI, cL, cR, cAN, cEN])
  · intro u z zs ht hu hxy
    subst ht
    simp only [List.getElem?_cons_zero, List.getElem?_cons_succ, Option.map_some, hu, ← hxy] at hp
    rcases (h.cls s (by simp)).1 with k | k | k
    · rw [k] at hp; exact absurd hp (by simp [pick2])
    · rw [k] at hp; exact absurd hp (by simp [pick2, cR, cL])
    · rw [k] at hp; exact absurd hp (by simp [pick2, cNI, cL, cR, cAN, cEN])

theorem ex2_back {lo len : Nat} {e : Class} {D : List Class} {pre suf : List Scrap} {x : Scrap} (h : Ex2 lo len e D (pre ++ [x]) suf) :
    Ex2 lo len e D pre (x :: suf) := by
  obtain ⟨c, tl, st, v, j, b⟩ := h
  refine ⟨by simpa using c, by simpa using tl, fun s hs => st s (by simp [hs]), by simpa using v, by simpa using j, ?_⟩
  intro s t ht hs
  rw [List.cons.injEq] at ht
  rw [← ht.1] at hs
  exact absurd hs (st x (by simp))

/-- Some scraps are replaced by one with a direction. -/
theorem ex2_replace {lo len : Nat} {e : Class} {D : List Class} {pre m post : List Scrap} {f : Scrap} (h : Ex2 lo len e D pre (m ++ post))
    (hf : f.clz = cL ∨ f.clz = cR) (he : f.e = e) (hl : f.l < f.r) (ht : Tiles lo len (pre ++ f :: post))
    (hv : n12 e e ((byteClasses (pre ++ (m ++ post))).map settle) = n12 e e ((byteClasses (pre ++ f :: post)).map settle)) :
    Ex2 lo len e D pre (f :: post) := by
  obtain ⟨c, tl, st, v, j, b⟩ := h
  have hfn : f.clz ≠ cNI := by rcases hf with h | h <;> rw [h] <;> decide
  refine ⟨?_, ht, st, hv ▸ v, ?_, ?_⟩
  · intro s hs
    rw [List.mem_append, List.mem_cons] at hs
    rcases hs with hs | rfl | hs
    · exact c s (List.mem_append_left _ hs)
    · exact ⟨hf.imp id Or.inl, he, hl⟩
    · exact c s (by rw [List.mem_append, List.mem_append]; exact Or.inr (Or.inr hs))
  · rw [linked_append, linked_append] at j
    rw [← List.singleton_append, linked_append, linked_append]
    refine ⟨j.1, ⟨trivial, j.2.1.2.1, ?_⟩, ?_⟩
    · intro x hx y hy k _
      rw [List.getLast?_singleton, Option.mem_def, Option.some.injEq] at hx
      rw [← hx] at k; exact absurd k hfn
    · intro x hx y hy _ k
      rw [List.singleton_append, List.head?_cons, Option.mem_def, Option.some.injEq] at hy
      rw [← hy] at k; exact absurd k hfn
  · intro s t ht hs
    rw [List.cons.injEq] at ht
    rw [← ht.1] at hs
    exact absurd hs hfn

theorem settle_strong {c : Class} (h : c = cL ∨ c = cR) : settle c = c := by rcases h with rfl | rfl <;> rfl

theorem ex2_n1 {lo len : Nat} {e : Class} {D : List Class} {pre post : List Scrap} {a b d : Scrap} {c : Class} (h : Ex2 lo len e D pre (a :: b :: d :: post))
    (hc : c = cL ∨ c = cR) (ha : a.clz = c) (hb : b.clz = cNI) (hd : d.clz = c) : Ex2 lo len e D pre (fuse c [a, b, d] :: post) := by
  obtain ⟨-, ea, pa⟩ := h.cls a (by simp)
  obtain ⟨-, -, pb⟩ := h.cls b (by simp)
  obtain ⟨-, -, pd⟩ := h.cls d (by simp)
  obtain ⟨m, t1, t2⟩ := tiles_append.mp h.tiles
  have t3 := t2
  obtain ⟨-, tb, td, -⟩ := t3
  have hl : (fuse c [a, b, d]).r - (fuse c [a, b, d]).l = (a.r - a.l) + (b.r - b.l) + (d.r - d.l) := by
    show d.r - a.l = _
    omega
  refine ex2_replace (m := [a, b, d]) h hc ea (by show a.l < d.r; omega) (tiles_append.mpr ⟨m, t1, tiles_fuse a [b, d] post t2⟩) ?_
  rw [bytes_append pre ([a, b, d] ++ post), bytes_append pre (_ :: post), List.map_append, List.map_append]
  have e1 : (byteClasses ([a, b, d] ++ post)).map settle = List.replicate (a.r - a.l) c ++ (List.replicate (b.r - b.l) cON ++
      (List.replicate (d.r - d.l) c ++ (byteClasses post).map settle)) := by
    show (byteClasses (a :: b :: d :: post)).map settle = _
    rw [bytes_cons, bytes_cons, bytes_cons, ha, hb, hd]
    simp only [List.map_append, List.map_replicate, settle_strong hc]
    rfl
  have e2 : (byteClasses (fuse c [a, b, d] :: post)).map settle = List.replicate ((a.r - a.l) + (b.r - b.l) + (d.r - d.l)) c ++ (byteClasses post).map settle := by
    rw [bytes_cons, hl, List.map_append, List.map_replicate]
    rw [show settle (fuse c [a, b, d]).clz = c from settle_strong hc]
  rw [e1, e2]
  refine n12_congr e ?_ (fun b' => ?_) _ _
  · rw [sideOf_rep e hc (by omega), sideOf_rep e hc (by omega)]
  · exact n12_between e hc _ _ _ (by omega) (by omega) _ b'

theorem ex2_same {lo len : Nat} {e : Class} {D : List Class} {pre post : List Scrap} {a b : Scrap} {c : Class} (h : Ex2 lo len e D pre (a :: b :: post))
    (hc : c = cL ∨ c = cR) (ha : a.clz = c) (hb : b.clz = c) : Ex2 lo len e D pre (fuse c [a, b] :: post) := by
  obtain ⟨-, ea, pa⟩ := h.cls a (by simp)
  obtain ⟨-, -, pb⟩ := h.cls b (by simp)
  obtain ⟨m, t1, t2⟩ := tiles_append.mp h.tiles
  have t3 := t2
  obtain ⟨-, tb, -⟩ := t3
  have hl : (fuse c [a, b]).r - (fuse c [a, b]).l = (a.r - a.l) + (b.r - b.l) := by
    show b.r - a.l = _
    omega
  refine ex2_replace (m := [a, b]) h hc ea (by show a.l < b.r; omega) (tiles_append.mpr ⟨m, t1, tiles_fuse a [b] post t2⟩) ?_
  have e1 : byteClasses ([a, b] ++ post) = byteClasses (fuse c [a, b] :: post) := by
    show byteClasses (a :: b :: post) = _
    rw [bytes_cons, bytes_cons, bytes_cons, ha, hb, hl, ← List.append_assoc, List.replicate_append_replicate]
    rfl
  rw [bytes_append pre ([a, b] ++ post), bytes_append pre (_ :: post), e1]

/-- The direction before does not matter if it is not the one behind. -/
theorem n12_before (e : Class) : ∀ (ys : List Class) (b : Class), (b = sideOf e ys → b = e) → n12 e b ys = n12 e e ys
  | [], _, _ => rfl
  | c :: ys, b, h => by
    by_cases hc : neutral c = true
    · have hs : sideOf e (c :: ys) = sideOf e ys := by unfold sideOf; rw [List.dropWhile_cons_of_pos hc]
      rw [hs] at h
      rw [n12, n12, if_pos hc, if_pos hc, n12_before e ys b h]
      congr 1
      rw [ite_self]
      split
      · rename_i hh; exact h hh
      · rfl
    · rw [n12, n12, if_neg hc, if_neg hc]

theorem ex2_n2 {lo len : Nat} {e : Class} (he : e = cL ∨ e = cR) {D : List Class} {pre t : List Scrap} {s : Scrap} (h : Ex2 lo len e D pre (s :: t))
    (hs : s.clz = cNI) : Ex2 lo len e D pre ({ s with clz := s.e } :: t) := by
  obtain ⟨-, es, ps⟩ := h.cls s (by simp)
  have hpt : ∀ x ∈ t, x.l < x.r := fun x hx => (h.cls x (by simp [hx])).2.2
  have hpp : ∀ x ∈ pre, x.l < x.r := fun x hx => (h.cls x (by simp [hx])).2.2
  have htl : Tiles lo len (pre ++ { s with clz := s.e } :: t) := by
    obtain ⟨m, t1, t2⟩ := tiles_append.mp h.tiles
    exact tiles_append.mpr ⟨m, t1, t2⟩
  refine ex2_replace (m := [s]) h (by show s.e = cL ∨ s.e = cR; rw [es]; exact he) es ps htl ?_
  have hp : (byteClasses pre).map settle = byteClasses pre ∧ ∀ c ∈ byteClasses pre, c = cL ∨ c = cR := by
    have : ∀ c ∈ byteClasses pre, c = cL ∨ c = cR := by
      intro c hc
      obtain ⟨x, hx, rfl⟩ := bytes_mem hc
      rcases (h.cls x (by simp [hx])).1 with k | k | k
      · exact Or.inl k
      · exact Or.inr k
      · exact absurd k (h.strong x hx)
    refine ⟨?_, this⟩
    conv => rhs; rw [← List.map_id (byteClasses pre)]
    exact List.map_congr_left fun c hc => settle_strong (this c hc)
  show n12 e e ((byteClasses (pre ++ s :: t)).map settle) = _
  rw [bytes_append, bytes_append, List.map_append, List.map_append, bytes_cons, bytes_cons, List.map_append, List.map_append, List.map_replicate,
    List.map_replicate, hs, hp.1, n12_strong _ _ _ _ hp.2, n12_strong _ _ _ _ hp.2]
  congr 1
  have hlast : (List.replicate (s.r - s.l) e).getLast? = some e := by rw [List.getLast?_replicate, if_neg (by omega)]
  show n12 e _ (List.replicate (s.r - s.l) cON ++ _) = n12 e _ (List.replicate (s.r - s.l) (settle s.e) ++ _)
  rw [es, settle_strong he, n12_neutrals, n12_strong e (List.replicate (s.r - s.l) e) _ _ (by
    intro c hc; rw [List.eq_of_mem_replicate hc]; exact he), hlast, Option.getD_some, bytes_last hpp]
  -- the direction is the one of the paragraph
  have hdir : (pre.getLast?.map (·.clz)).getD e = sideOf e ((byteClasses t).map settle) → (pre.getLast?.map (·.clz)).getD e = e := by
    intro hb
    cases hl : pre.getLast? with
    | none => rfl
    | some x =>
      rw [hl] at hb
      change x.clz = _ at hb
      show x.clz = e
      cases t with
      | nil => exact hb
      | cons y ys =>
        obtain ⟨hyc, -, hyp⟩ := h.cls y (by simp)
        obtain ⟨k, hk⟩ : ∃ k, y.r - y.l = k + 1 := ⟨y.r - y.l - 1, by omega⟩
        by_cases hyn : y.clz = cNI
        · have hj := h.joined
          rw [linked_append] at hj
          have hD := hj.2.1.1 hs hyn
          have hv := h.val
          obtain ⟨m, t1, t2⟩ := tiles_append.mp h.tiles
          have hm := bytes_tiles pre lo m t1 (fun x hx => Nat.le_of_lt (hpp x hx))
          have hyl : y.l = lo + ((byteClasses pre).length + (s.r - s.l)) := by
            have := t2.1; have := t2.2.1; omega
          rw [bytes_append, List.map_append, hp.1, n12_strong _ _ _ _ hp.2, bytes_last hpp, hl, bytes_cons, List.map_append, List.map_replicate, hs] at hv
          change byteClasses pre ++ n12 e x.clz (List.replicate (s.r - s.l) cON ++ _) = D.drop lo at hv
          rw [n12_neutrals] at hv
          rw [hyl, ← List.getElem?_drop, ← hv, List.getElem?_append_right (by omega), List.getElem?_append_right (by simp)] at hD
          simp only [List.length_replicate, Nat.add_sub_cancel_left, Nat.sub_self] at hD
          rw [bytes_cons, hyn, hk, List.map_append, List.map_replicate] at hb hD
          change x.clz = sideOf e (List.replicate (k + 1) cON ++ _) at hb
          change (n12 e x.clz (List.replicate (k + 1) cON ++ _))[0]? = _ at hD
          rw [sideOf_neutrals] at hb
          rw [n12_neutrals, ← hb, if_pos rfl, List.replicate_succ] at hD
          exact Option.some.inj hD
        · have hyc : y.clz = cL ∨ y.clz = cR := by
            rcases hyc with k | k | k
            · exact Or.inl k
            · exact Or.inr k
            · exact absurd k hyn
          rw [bytes_cons, List.map_append, List.map_replicate, settle_strong hyc, sideOf_rep e hyc (by omega)] at hb
          have hD := h.blocked s (y :: ys) rfl hs x hl y rfl hb
          have hv := h.val
          obtain ⟨m, t1, t2⟩ := tiles_append.mp h.tiles
          have hm := bytes_tiles pre lo m t1 (fun x hx => Nat.le_of_lt (hpp x hx))
          have hyl : y.l - 1 = lo + ((byteClasses pre).length + (s.r - s.l - 1)) := by
            have := t2.1; have := t2.2.1; omega
          rw [bytes_append, List.map_append, hp.1, n12_strong _ _ _ _ hp.2, bytes_last hpp, hl, bytes_cons, List.map_append, List.map_replicate, hs] at hv
          change byteClasses pre ++ n12 e x.clz (List.replicate (s.r - s.l) cON ++ _) = D.drop lo at hv
          rw [n12_neutrals, bytes_cons, List.map_append, List.map_replicate, settle_strong hyc, sideOf_rep e hyc (by omega), if_pos hb] at hv
          rw [hyl, ← List.getElem?_drop, ← hv, List.getElem?_append_right (by omega), Nat.add_sub_cancel_left, List.getElem?_append_left (by simp; omega),
            List.getElem?_replicate, if_pos (by omega)] at hD
          exact Option.some.inj hD
  rw [n12_before e _ _ hdir]
  congr 2
  split
  · rename_i hh; exact hdir hh
  · rfl

/-- Neighbours among the scraps which have been passed have different classes. -/
def Apart (pre suf : List Scrap) : Prop := Linked (fun a b : Scrap => a.clz ≠ b.clz) (pre ++ suf.take 1)

theorem apart_walk {lo len : Nat} {e : Class} {D : List Class} {pre t : List Scrap} {s : Scrap} (h : Ex2 lo len e D pre (s :: t)) (ha : Apart pre (s :: t))
    (hp : pick2 s.clz (t[0]?.map (·.clz)) (t[1]?.map (·.clz)) = none) : Apart (pre ++ [s]) t := by
  unfold Apart at ha ⊢
  rw [List.take_succ_cons, List.take_zero] at ha
  rw [linked_append]
  refine ⟨ha, by cases t <;> trivial, ?_⟩
  intro x hx y hy hxy
  rw [List.getLast?_append, List.getLast?_singleton, Option.some_or, Option.mem_def, Option.some.injEq] at hx
  subst hx
  cases t with
  | nil => cases hy
  | cons z zs =>
    rw [List.take_succ_cons, List.head?_cons, Option.mem_def, Option.some.injEq] at hy
    subst hy
    rw [List.getElem?_cons_zero, Option.map_some, ← hxy] at hp
    rcases (h.cls s (by simp)).1 with k | k | k <;> rw [k] at hp
    · exact absurd hp (by simp [pick2, cL, cNI])
    · exact absurd hp (by simp [pick2, cR, cL, cNI])
    · exact absurd hp (by simp [pick2, cNI, cL, cR, cAN, cEN])

theorem apart_back {pre suf : List Scrap} {x : Scrap} (h : Apart (pre ++ [x]) suf) : Apart pre (x :: suf) := by
  unfold Apart at h ⊢
  rw [linked_append] at h
  rw [List.take_succ_cons, List.take_zero]
  exact h.1

theorem apart_replace {pre t t' : List Scrap} {s x : Scrap} (h : Apart pre (s :: t)) (hx : x.clz = s.clz) : Apart pre (x :: t') := by
  unfold Apart at h ⊢
  rw [List.take_succ_cons, List.take_zero, linked_append] at h ⊢
  refine ⟨h.1, trivial, ?_⟩
  intro a ha b hb
  rw [List.head?_cons, Option.mem_def, Option.some.injEq] at hb
  rw [← hb, hx]
  exact h.2.2 a ha s (by simp)

/-- The scraps of pass 2 with the one for the beginning of the run. -/
def Shape (lo len : Nat) (e : Class) (D : List Class) (i : Scrap) (pre suf : List Scrap) : Prop :=
  (pre = [] ∧ ∃ ys, suf = i :: ys ∧ Ex2 lo len e D [] ys) ∨ ∃ pre', pre = i :: pre' ∧ Ex2 lo len e D pre' suf ∧ Apart pre' suf

theorem shape_at {lo len : Nat} {e : Class} {D : List Class} {i s : Scrap} {pre t : List Scrap} (h : Shape lo len e D i pre (s :: t)) (hs : s.clz ≠ i.clz) :
    ∃ pre', pre = i :: pre' ∧ Ex2 lo len e D pre' (s :: t) ∧ Apart pre' (s :: t) := by
  rcases h with ⟨-, ys, h1, -⟩ | h
  · rw [List.cons.injEq] at h1
    exact absurd (by rw [h1.1]) hs
  · exact h

theorem shape_inv {σ : Type} {E : Env σ} {G : σ → Prop} (hG : Brackets E G) (start lo len : Nat) {e : Class} (he : e = cL ∨ e = cR) (D : List Class) {i : Scrap}
    (hi : i.clz = cLRI ∨ i.clz = cRLI) : Inv2 E (fun pre suf => Good2At True start len pre suf ∧ Shape lo len e D i pre suf) G where
  known h := (good2_inv hG True start len).known h.1
  closed h := (good2_inv hG True start len).closed h.1
  emb h := (good2_inv hG True start len).emb h.1
  walk := by
    intro pre s t h hb hp
    refine ⟨(good2_inv hG True start len).walk h.1 hb hp, ?_⟩
    rcases h.2 with ⟨rfl, ys, h1, h2⟩ | ⟨pre', rfl, h2, h3⟩
    · rw [List.cons.injEq] at h1
      obtain ⟨rfl, rfl⟩ := h1
      exact Or.inr ⟨[], rfl, h2, by unfold Apart; cases t <;> trivial⟩
    · exact Or.inr ⟨pre' ++ [s], rfl, ex2_walk h2 hp, apart_walk h2 h3 hp⟩
  back := by
    intro pre x suf h
    refine ⟨(good2_inv hG True start len).back h.1, ?_⟩
    rcases h.2 with ⟨h1, -⟩ | ⟨pre', h1, h2, h3⟩
    · simp at h1
    · cases pre with
      | nil =>
        simp only [List.nil_append, List.cons.injEq] at h1
        obtain ⟨rfl, rfl⟩ := h1
        exact Or.inl ⟨rfl, suf, rfl, h2⟩
      | cons y pre =>
        simp only [List.cons_append, List.cons.injEq] at h1
        obtain ⟨rfl, rfl⟩ := h1
        exact Or.inr ⟨pre, rfl, ex2_back h2, apart_back h3⟩
  n1 := by
    intro pre a b d post c h hc ha hb hd
    refine ⟨(good2_inv hG True start len).n1 h.1 hc ha hb hd, ?_⟩
    obtain ⟨pre', h1, h2, h3⟩ := shape_at h.2 (by rw [ha]; rcases hc with rfl | rfl <;> rcases hi with hi | hi <;> rw [hi] <;> decide)
    exact Or.inr ⟨pre', h1, ex2_n1 h2 hc ha hb hd, apart_replace h3 ha.symm⟩
  same := by
    intro pre a b post c h hc ha hb
    refine ⟨(good2_inv hG True start len).same h.1 hc ha hb, ?_⟩
    obtain ⟨pre', h1, h2, h3⟩ := shape_at h.2 (by rw [ha]; rcases hc with rfl | rfl <;> rcases hi with hi | hi <;> rw [hi] <;> decide)
    exact Or.inr ⟨pre', h1, ex2_same h2 hc ha hb, apart_replace h3 ha.symm⟩
  absorb := by
    intro pre a b d post h ha hb hd
    exfalso
    obtain ⟨pre', h1, h2, -⟩ := shape_at h.2 (by rw [ha]; rcases hi with hi | hi <;> rw [hi] <;> decide)
    have := (h2.cls d (by simp)).1
    rw [hd] at this
    exact absurd this (by decide)
  n2 := by
    intro pre s t h hs
    obtain ⟨g1, g2⟩ := (good2_inv hG True start len).n2 h.1 hs
    obtain ⟨pre', h1, h2, h3⟩ := shape_at h.2 (by rw [hs]; rcases hi with hi | hi <;> rw [hi] <;> decide)
    refine ⟨fun h0 => (by rw [h1] at h0; cases h0), fun pre1 x hx => ⟨g2 pre1 x hx, ?_⟩⟩
    have h4 := ex2_n2 he h2 hs
    rw [h1] at hx
    rcases List.eq_nil_or_concat pre' with rfl | ⟨q, y, rfl⟩
    · obtain ⟨rfl, k⟩ := List.append_inj' (show [] ++ [i] = pre1 ++ [x] from hx) rfl
      rw [List.cons.injEq] at k
      exact Or.inl ⟨rfl, _, by rw [← k.1], h4⟩
    · rw [List.concat_eq_append] at h3 h4 hx
      obtain ⟨rfl, k⟩ := List.append_inj' (show (i :: q) ++ [y] = pre1 ++ [x] from hx) rfl
      rw [List.cons.injEq] at k
      rw [← k.1]
      refine Or.inr ⟨q, rfl, ex2_back h4, ?_⟩
      unfold Apart at h3 ⊢
      rw [linked_append] at h3
      rw [List.take_succ_cons, List.take_zero]
      exact h3.1
  skip := by
    intro pre s t h hs
    exfalso
    obtain ⟨pre', h1, h2, -⟩ := shape_at h.2 (by rw [hs]; rcases hi with hi | hi <;> rw [hi] <;> decide)
    have := (h2.cls s (by simp)).1
    rw [hs] at this
    exact absurd this (by decide)
  opening := by
    intro pre s t env pr h g hs hp
    exfalso
    obtain ⟨pre', h1, h2, -⟩ := shape_at h.2 (by rw [hs]; rcases hi with hi | hi <;> rw [hi] <;> decide)
    have := (h2.cls s (by simp)).1
    rw [hs] at this
    exact absurd this (by decide)
  closing := by
    intro pre s t env pr h g hs hp
    exfalso
    obtain ⟨pre', h1, h2, -⟩ := shape_at h.2 (by rw [hs]; rcases hi with hi | hi <;> rw [hi] <;> decide)
    have := (h2.cls s (by simp)).1
    rw [hs] at this
    exact absurd this (by decide)
  alone := by
    intro pre s t h hs
    exfalso
    obtain ⟨pre', h1, h2, -⟩ := shape_at h.2 (by rw [hs]; rcases hi with hi | hi <;> rw [hi] <;> decide)
    have := (h2.cls s (by simp)).1
    rw [hs] at this
    exact absurd this (by decide)
  pair := hG.pair

/-! ### The result -/

/-- The direction at a byte of scraps which tile the text. -/
theorem find_bytes : ∀ (ys : List Scrap) (l r pos : Nat), Tiles l r ys → (∀ s ∈ ys, s.l < s.r) → l ≤ pos → pos < r →
    ∃ s, ys.find? (fun s => s.l ≤ pos && pos < s.r) = some s ∧ (byteClasses ys)[pos - l]? = some s.clz := by
  intro ys
  induction ys with
  | nil =>
    intro l r pos h _ h1 h2
    have : l = r := h
    omega
  | cons y ys ih =>
    intro l r pos h hp h1 h2
    obtain ⟨rfl, h⟩ := h
    have hy := hp y (List.mem_cons_self ..)
    by_cases hlt : pos < y.r
    · refine ⟨y, ?_, ?_⟩
      · rw [List.find?_cons_of_pos]
        simp [h1, hlt]
      · rw [bytes_cons, List.getElem?_append_left (by rw [List.length_replicate]; omega), List.getElem?_replicate, if_pos (by omega)]
    · obtain ⟨s, s1, s2⟩ := ih y.r r pos h (fun s hs => hp s (List.mem_cons_of_mem _ hs)) (by omega) h2
      refine ⟨s, ?_, ?_⟩
      · rw [List.find?_cons_of_neg, s1]
        simp [hlt]
      · rw [bytes_cons, List.getElem?_append_right (by rw [List.length_replicate]; omega), List.length_replicate, ← s2]
        congr 1
        omega

/-- The class of a byte of a character. -/
theorem spread_get : ∀ (pre : List Char) (c : Char) (post : List Char) (xs : List Class) (k : Nat), xs.length = (pre ++ c :: post).length →
    k < (utf8 [c]).length → (spread (pre ++ c :: post) xs)[(utf8 pre).length + k]? = xs[pre.length]? := by
  intro pre
  induction pre with
  | nil =>
    intro c post xs k hl hk
    cases xs with
    | nil => simp at hl
    | cons x xs =>
      rw [List.nil_append, spread_cons, show (utf8 []).length = 0 from rfl, Nat.zero_add, List.getElem?_append_left (by rw [List.length_replicate]; exact hk),
        List.getElem?_replicate, if_pos hk]
      rfl
  | cons d pre ih =>
    intro c post xs k hl hk
    cases xs with
    | nil => simp at hl
    | cons x xs =>
      rw [List.cons_append, spread_cons, utf8_len d pre, List.getElem?_append_right (by rw [List.length_replicate]; omega), List.length_replicate]
      have : (utf8 [d]).length + (utf8 pre).length + k - (utf8 [d]).length = (utf8 pre).length + k := by omega
      rw [this, ih c post xs k (by simpa using hl) hk]
      rfl

theorem lastStrong_left : ∀ (pre : List Class) (e : Class), lastStrong e pre = cL → lastStrong cL pre = cL := by
  intro pre
  induction pre with
  | nil => intros; rfl
  | cons c pre ih =>
    intro e h
    unfold lastStrong at h ih ⊢
    rw [List.foldl_cons] at h ⊢
    by_cases hc : c = cL ∨ c = cR ∨ c = cAL
    · rw [strongAfter, if_pos hc] at h ⊢
      exact h
    · rw [strongAfter, if_neg hc] at h ⊢
      exact ih e h

theorem numbersLTR_left {e : Class} {cs : List Class} (h : NumbersLTR e cs) : NumbersLTR cL cs :=
  fun pre post he => ⟨lastStrong_left _ _ (h pre post he).1, (h pre post he).2⟩

theorem resolved_length {T : Tables} {o : Options} {t : List Char} {e : Class} (he : e = cL ∨ e = cR) (h1 : PlainClasses (classes T o t))
    (h3 : NumbersLTR e (classes T o t)) : (resolved e (classes T o t)).length = t.length := by
  obtain ⟨hw2, -, -⟩ := plain_scanned he h1 h3
  have w4l : ∀ (xs : List Class) (q : Class), (w4 q xs).length = xs.length := by
    intro xs
    induction xs with
    | nil => intro _; rfl
    | cons x xs ih => intro q; rw [w4, List.length_cons, ih, List.length_cons]
  have w7l : ∀ (xs : List Class) (q : Class), (w7 q xs).length = xs.length := by
    intro xs
    induction xs with
    | nil => intro _; rfl
    | cons x xs ih => intro q; rw [w7, List.length_cons, ih, List.length_cons]
  unfold resolved weak w6 w3
  rw [n12_length, w7l, List.length_map, w5_length, w4l, List.length_map, hw2, w1_length]
  unfold classes
  rw [List.length_map]

/-- The classes of the bytes after resolution. -/
theorem resolve_bytes {T : Tables} {o : Options} (hT : KnownClasses T) (ho : o.markup = none) (sched : Nat → Nat) (t : List Char)
    (h1 : PlainClasses (classes T o (firstParagraph T o t))) (h2 : (classes T o (firstParagraph T o t)).head? ≠ some cNSM)
    (h3 : NumbersLTR (outer o) (classes T o (firstParagraph T o t)))
    (h4 : SeparatorsSettled (outer o) (w5 cON (w4 cON (w3 (w2 (outer o) (w1 (outer o) (classes T o (firstParagraph T o t)))))))
      (resolved (outer o) (classes T o (firstParagraph T o t)))) (hT0 : ∀ r, T.cls r ≠ cNULL) :
    ∃ N p ys, resolveParagraph T o sched (utf8 t) N = .returns (levelsOf o p.stack, p) ∧ p.stack = initialOuterScrap o true :: ys ∧
      Tiles 0 (utf8 (firstParagraph T o t)).length ys ∧ (∀ s ∈ ys, (s.clz = cL ∨ s.clz = cR) ∧ s.l < s.r ∧ s.children = []) ∧
      Linked (fun a b : Scrap => a.clz ≠ b.clz) ys ∧
      byteClasses ys = spread (firstParagraph T o t) (resolved (outer o) (classes T o (firstParagraph T o t))) := by
  have he : outer o = cL ∨ outer o = cR := by unfold outer; split <;> simp
  have hlen : (classes T o (firstParagraph T o t)).length = (firstParagraph T o t).length := by unfold classes; rw [List.length_map]
  have hiso : Spec.NoIsolates (classes T o (firstParagraph T o t)) := by
    intro c hc hm
    have := h1 c hc
    simp only [List.mem_cons, List.not_mem_nil, or_false] at this
    rcases this with rfl | rfl | rfl | rfl | rfl | rfl | rfl | rfl | rfl | rfl | rfl <;> exact absurd hm (by decide)
  have han : cAN ∉ classes T o (firstParagraph T o t) := fun hm => absurd (h1 _ hm) (by decide)
  have hal : NoALBeforeEN (classes T o (firstParagraph T o t)) := fun pre post h => (h3 pre post h).2
  have hg := good_text hT t True hiso (numbersLTR_left h3) (fun _ => ⟨han, h2⟩)
  obtain ⟨hb, htl⟩ := scraps_bytes hT t hiso h2 hal (outer o) he
  have hpar := paragraph_text T o t
  have hlk := emit_linked (T := T) (o := o) (e := outer o) (paragraph T o (runesOf (utf8 t))) (initialOuterScrap o false) none [] rfl rfl
    (by show cNULL ≠ cAL; decide) rfl (by
      intro x hx
      rw [hpar, List.mem_map] at hx
      obtain ⟨c, hc, rfl⟩ := hx
      dsimp only
      rw [runeClass_char]
      have := h1 _ (List.mem_map_of_mem (f := charClass T o) hc)
      intro hm
      simp only [List.mem_cons, List.not_mem_nil, or_false] at this
      rcases this with k | k | k | k | k | k | k | k | k | k | k <;> rw [k] at hm <;> exact absurd hm (by decide))
  change (∀ s ∈ scrapsOf T o (utf8 t), s.e = outer o) ∧ Linked _ (scrapsOf T o (utf8 t)) ∧ _ at hlk
  have hval := resolved_bytes he h1 h3 (firstParagraph T o t) hlen
  have hap := aside_bytes he h1 h3 (firstParagraph T o t) hlen (resolved_length he h1 h3) h4
  rw [← hb] at hval hap
  have hpos : ∀ s ∈ scrapsOf T o (utf8 t), s.l < s.r := by
    intro s hs
    have := hg.1 s (by simpa using hs)
    rcases (this.1.2.2.2 trivial).2 with h | h
    · rw [this.2] at h; cases h.1
    · exact h
  have hex : Ex1 (outer o) (spread (firstParagraph T o t) (resolved (outer o) (classes T o (firstParagraph T o t)))) [] (scrapsOf T o (utf8 t)) := by
    refine ⟨?_, hval.symm, hap, ?_⟩
    · intro s hs
      rw [List.nil_append] at hs
      refine ⟨?_, hlk.1 s hs, hpos s hs⟩
      have := mem_bytes hs (hpos s hs)
      rw [hb] at this
      unfold spread at this
      rw [List.mem_flatMap] at this
      obtain ⟨x, hx, hm⟩ := this
      rw [List.eq_of_mem_replicate hm]
      have hx2 := (List.of_mem_zip hx).2
      rw [List.mem_map] at hx2
      obtain ⟨d, hd, hd2⟩ := hx2
      rw [← hd2]
      have := (plain_scanned he h1 h3).2.2 d hd
      simp only [List.mem_cons, List.not_mem_nil, or_false] at this
      rcases this with rfl | rfl | rfl | rfl | rfl | rfl | rfl | rfl | rfl <;> decide
    · have : ∀ l : List Scrap, Linked (fun s s' : Scrap => s.clz ≠ s'.clz) l → Linked NotTwice l := by
        intro l hl
        have := linked_map (R := fun s s' : Scrap => s.clz ≠ s'.clz) (S := NotTwice) id (fun x y h hh => absurd hh h) l hl
        rwa [List.map_id] at this
      exact this _ hlk.2.1
  have hjoin : ∀ e D (l : List Scrap), Joined e D [] l := by
    intro e D l
    exact ⟨fun s t _ _ => Mergeable.of trivial, fun _ => Mergeable.of trivial⟩
  have hic : (initialOuterScrap o true).clz = cLRI ∨ (initialOuterScrap o true).clz = cRLI := by
    unfold initialOuterScrap
    dsimp only
    cases o.outerR2L <;> simp
  obtain ⟨fin, f1, f2, f3⟩ := scanner_feeds ho hT0 sched (utf8 t)
  have hn : NoIsolates (scrapsOf T o (utf8 t)) := fun s hs => (hg.1 s (by simpa using hs)).2
  have hbegin : ∀ ys, Pass1 (utf8 (firstParagraph T o t)).length (outer o) (spread (firstParagraph T o t) (resolved (outer o) (classes T o (firstParagraph T o t)))) ys [] →
      Good2 True (utf8 (firstParagraph T o t)).length [] (initialOuterScrap o true :: ys) ∧
      Shape 0 (utf8 (firstParagraph T o t)).length (outer o) (spread (firstParagraph T o t) (resolved (outer o) (classes T o (firstParagraph T o t)))) (initialOuterScrap o true) [] (initialOuterScrap o true :: ys) := by
    intro ys ⟨hy, hyj⟩
    have hi := initial_fine True o
    refine ⟨⟨?_, fun _ => ⟨hi.2.2.1, ?_⟩, by simp⟩, Or.inl ⟨rfl, ys, rfl, ?_⟩⟩
    · intro s hs
      simp only [List.nil_append, List.mem_cons] at hs
      rcases hs with rfl | hs
      · exact ⟨hi.1, hi.2.1⟩
      · refine ⟨(hy.1.1 s (by simpa using hs)).1, ?_⟩
        intro he
        have := hy.1.2.2.2 s hs
        simp [weakClass, he] at this
    · have := hy.1.2.2.1 trivial
      rw [hi.2.2.2]
      simpa using this
    · obtain ⟨hy1, c, v, a, b⟩ := hy
      rw [List.append_nil] at c v
      have j : Linked (NotNI (outer o) _) ys := (hyj.2 (by simp)).2.resolve_right leads_nil
      refine ⟨?_, ?_, by simp, ?_, j, ?_⟩
      · intro s hs
        rw [List.nil_append] at hs
        refine ⟨?_, (c s hs).2⟩
        have hw := hy1.2.2.2 s hs
        simp only [weakClass, Bool.or_eq_false_iff, beq_eq_false_iff_ne] at hw
        have := (c s hs).1
        simp only [List.mem_cons, List.not_mem_nil, or_false] at this
        rcases this with k | k | k | k | k | k | k
        · exact Or.inl k
        · exact Or.inr (Or.inl k)
        · exact Or.inr (Or.inr k)
        · exact absurd k hw.1.1.1
        · exact absurd k hw.1.1.2
        · exact absurd k hw.1.2
        · exact absurd k hw.2
      · have := hy1.2.2.1 trivial
        simpa using this
      · have := w5_pre (pre := ys) (suf := []) hy1.2.2.2
        rw [List.append_nil, show w5 cON (byteClasses []) = [] from rfl, List.append_nil] at this
        rw [this] at v
        exact v
      · intro s t _ _ x hx
        cases hx
  obtain ⟨N, p, e1, ⟨e2, e3⟩, -⟩ := wholeBack (o := o) f1 ((ex1_inv _ (outer o) _).keeps noKids_keeps1)
    ((shape_inv (atRest_brackets T o sched) 0 0 (utf8 (firstParagraph T o t)).length he
      (spread (firstParagraph T o t) (resolved (outer o) (classes T o (firstParagraph T o t)))) hic).keeps (noKids_keeps2 _))
    ⟨⟨⟨hg, hex⟩, hjoin _ _ _⟩, by simpa [AllOf] using scraps_noKids T o (utf8 t)⟩
    (fun ys hy => ⟨hbegin ys hy.1, by
      intro s hs
      rw [List.nil_append, List.mem_cons] at hs
      rcases hs with rfl | hs
      · rfl
      · exact hy.2 s (by simpa using hs)⟩) (fun h => by simpa using h.1.1.2.2) ⟨⟨ended_atRest f2, by
      intro x hx
      rw [f3 hn, List.mem_singleton] at hx
      subst hx
      intro p hp
      exact ⟨Or.inr ((pairUp_openings _ _ _ _ {} ⟨by simp, by simp⟩).2 p hp), trivial⟩⟩, trivial⟩
  rcases e2.2 with ⟨-, ys, h, -⟩ | ⟨ys, h, hx, hap2⟩
  · cases h
  · obtain ⟨c, tl, st, v, -, -⟩ := hx
    rw [List.append_nil] at c tl v
    rw [List.drop_zero] at v
    have hst : ∀ s ∈ ys, (s.clz = cL ∨ s.clz = cR) ∧ s.l < s.r ∧ s.children = [] := by
      intro s hs
      refine ⟨?_, (c s hs).2.2, e3 s (by rw [h]; simp [hs])⟩
      rcases (c s hs).1 with k | k | k
      · exact Or.inl k
      · exact Or.inr k
      · exact absurd k (st s hs)
    refine ⟨N, p, ys, e1, h, tl, hst, by simpa [Apart] using hap2, ?_⟩
    have hm : ∀ c ∈ byteClasses ys, c = cL ∨ c = cR := by
      intro c hc
      obtain ⟨x, hx, rfl⟩ := bytes_mem hc
      exact (hst x hx).1
    have hid : (byteClasses ys).map settle = byteClasses ys := by
      conv => rhs; rw [← List.map_id (byteClasses ys)]
      exact List.map_congr_left fun c hc => settle_strong (hm c hc)
    rw [hid] at v
    have := n12_strong (outer o) (byteClasses ys) [] (outer o) hm
    rw [List.append_nil, show n12 (outer o) _ [] = [] from rfl, List.append_nil] at this
    rw [← v, this]

end Uax.Bidi
