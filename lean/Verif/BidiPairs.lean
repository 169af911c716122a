import Verif.BidiPaint

/-
Directions of texts with bracket pairs: what the scanner gives to the parser.
-/
namespace Uax.Bidi
open Spec

/-! ### Neighbours -/

theorem emit_neighbours {T : Tables} {o : Options} {e : Class} : ∀ (inp : List (Nat × Nat)) (cur : Scrap) (a : Option Nat) (st : List DirContext),
    isIsolate cur = false → cur.clz ≠ cAL → cur.e = e →
    (∀ x ∈ inp, runeClass T o x.1 ∉ [cLRI, cRLI, cFSI, cPDI, cNULL]) →
    (∀ s ∈ emit T o inp cur a st, s.e = e) ∧ Linked (fun s s' : Scrap => s.clz ≠ s'.clz ∨ IsBr s.clz) (emit T o inp cur a st) ∧
    (cur.clz ≠ cNULL → ∃ x rest, emit T o inp cur a st = x :: rest ∧ x.clz = cur.clz) := by
  intro inp
  induction inp with
  | nil =>
    intro cur a st _ _ he _
    rw [emit]
    by_cases hz : cur.clz = cNULL
    · rw [if_pos hz]
      exact ⟨by simp, trivial, fun h => absurd hz h⟩
    · rw [if_neg hz]
      exact ⟨by simpa using he, trivial, fun _ => ⟨cur, [], rfl, rfl⟩⟩
  | cons x rest ih =>
    obtain ⟨r, n⟩ := x
    intro cur a st hi hal he hin
    have hin' : ∀ x ∈ rest, runeClass T o x.1 ∉ [cLRI, cRLI, cFSI, cPDI, cNULL] := fun x hx => hin x (List.mem_cons_of_mem _ hx)
    have hc := hin (r, n) (List.mem_cons_self ..)
    dsimp only at hc
    rw [emit]
    dsimp only
    generalize runeClass T o r = c at hc ⊢
    simp only [List.mem_cons, List.not_mem_nil, or_false, not_or] at hc
    obtain ⟨c1, c2, c3, c4, c7⟩ := hc
    have hrc : rulesW1to3 c cur ∈ [cLRI, cRLI, cFSI, cPDI, cAL] → False := by
      have hi' := hi
      simp only [isIsolate, Bool.or_eq_false_iff, beq_eq_false_iff_ne] at hi'
      intro hm
      simp only [List.mem_cons, List.not_mem_nil, or_false] at hm
      rcases rules_cases c cur with h | ⟨-, h | h⟩ | ⟨-, -, h⟩ | ⟨-, h⟩ | h
      · rw [h] at hm
        rcases hm with hm | hm | hm | hm | hm
        · exact c1 hm
        · exact c2 hm
        · exact c3 hm
        · exact c4 hm
        · rw [hm] at h
          exact absurd (show cR = cAL from h) (by decide)
      · rw [h] at hm
        rcases hm with hm | hm | hm | hm | hm
        · exact hi'.1.1.1 hm
        · exact hi'.1.1.2 hm
        · exact hi'.1.2 hm
        · exact hi'.2 hm
        · exact hal hm
      · rw [hi] at h; cases h
      all_goals (rw [h] at hm; revert hm; decide)
    simp only [List.mem_cons, List.not_mem_nil, or_false, imp_false, not_or] at hrc
    obtain ⟨d1, d2, d3, d4, d7⟩ := hrc
    have hnull : rulesW1to3 c cur = cNULL → cur.clz = cNULL := by
      intro h0
      rcases rules_cases c cur with h | ⟨-, h | h⟩ | ⟨-, -, h⟩ | ⟨-, h⟩ | h
      · exact absurd (h.symm.trans h0) c7
      · exact h.symm.trans h0
      · rw [hi] at h; cases h
      all_goals (rw [h] at h0; exact absurd h0 (by decide))
    have hla : isIsolate (nextScrap cur c n) = false := by
      simp only [isIsolate, Bool.or_eq_false_iff, beq_eq_false_iff_ne]
      exact ⟨⟨⟨d1, d2⟩, d3⟩, d4⟩
    by_cases hbr : breaks cur c = true
    · rw [if_pos hbr, switch_plain hi hla]
      dsimp only
      obtain ⟨-, -, i3, -⟩ := inherit_eq (nextScrap cur c n) cur a hla hi hal
      have icl := inherit_clz (nextScrap cur c n) cur a
      change (inheritStrongTypes (nextScrap cur c n) cur a).clz = rulesW1to3 c cur at icl
      generalize inheritStrongTypes (nextScrap cur c n) cur a = new at i3 icl ⊢
      obtain ⟨r1, r2, r3⟩ := ih new (if c = cAL then some (nextScrap cur c n).l else a) st
        (by simp only [isIsolate, Bool.or_eq_false_iff, beq_eq_false_iff_ne, icl]; exact ⟨⟨⟨d1, d2⟩, d3⟩, d4⟩)
        (by rw [icl]; exact d7) (i3.trans he) hin'
      by_cases hz : cur.clz = cNULL
      · rw [if_pos hz]
        exact ⟨r1, r2, fun h => absurd hz h⟩
      · rw [if_neg hz]
        refine ⟨?_, ?_, fun _ => ⟨cur, _, rfl, rfl⟩⟩
        · intro s hs
          rw [List.mem_cons] at hs
          rcases hs with rfl | hs
          · exact he
          · exact r1 s hs
        · obtain ⟨x, xs, e1, e2⟩ := r3 (fun h => hz (hnull (icl ▸ h)))
          rw [e1] at r2 ⊢
          refine ⟨?_, r2⟩
          show cur.clz ≠ x.clz ∨ IsBr cur.clz
          rw [e2, icl]
          by_cases hb : isBracket cur = true
          · right
            simp only [isBracket, Bool.or_eq_true, beq_iff_eq] at hb
            exact hb
          · left
            simpa [breaks, hz, hb, hi] using hbr
    · rw [if_neg hbr]
      have hz : cur.clz ≠ cNULL := by
        intro hz
        simp [breaks, hz] at hbr
      obtain ⟨r1, r2, r3⟩ := ih (collapse cur (nextScrap cur c n) cur.clz) a st hi hal he hin'
      exact ⟨r1, r2, fun _ => r3 hz⟩

/-! ### Brackets in lists of classes -/

theorem perChar_length (d : Nat → Option Class) : ∀ (t : List Char) (p : Nat), (perChar d p t).length = t.length
  | [], _ => rfl
  | _ :: t, p => by rw [perChar, List.length_cons, perChar_length d t, List.length_cons]

theorem set_length : ∀ {ks : List (Option Class)} {xs : List Class}, ks.length = xs.length → (setBrackets ks xs).length = xs.length
  | [], [], _ => rfl
  | _ :: _, _ :: _, h => by
    rw [setBrackets, List.length_cons, List.length_cons, set_length (by simpa using h)]

theorem perChar_get (d : Nat → Option Class) : ∀ (pre : List Char) (c : Char) (post : List Char) (p : Nat),
    (perChar d p (pre ++ c :: post))[pre.length]? = some (d (p + (utf8 pre).length))
  | [], _, _, _ => rfl
  | x :: pre, c, post, p => by
    rw [List.cons_append, perChar, List.length_cons, List.getElem?_cons_succ, perChar_get d pre c post, utf8_len x pre, Nat.add_assoc]

theorem setBr_get : ∀ {ks : List (Option Class)} {xs : List Class} {i : Nat} {k : Option Class} {x : Class}, ks[i]? = some k → xs[i]? = some x →
    (setBrackets ks xs)[i]? = some (if x = cBRACKO ∨ x = cBRACKC then k.getD cON else x)
  | [], _, _, _, _, h, _ => by simp at h
  | _ :: _, [], _, _, _, _, h => by simp at h
  | k :: ks, x :: xs, 0, _, _, h1, h2 => by
    rw [List.getElem?_cons_zero, Option.some.injEq] at h1 h2
    subst h1 h2
    rfl
  | k :: ks, x :: xs, i + 1, _, _, h1, h2 => by
    rw [List.getElem?_cons_succ] at h1 h2
    rw [setBrackets, List.getElem?_cons_succ, setBr_get h1 h2]

/-- Directions or nothing. -/
def Dirs (ks : List (Option Class)) : Prop := ∀ k ∈ ks, k.getD cON ∈ [cON, cL, cR]

theorem set_iff {ks : List (Option Class)} (hk : Dirs ks) {k : Option Class} (h : k ∈ ks) (x : Class) {c : Class} (hc : c ∈ [cEN, cAN, cES, cET, cCS]) :
    (if x = cBRACKO ∨ x = cBRACKC then k.getD cON else x) = c ↔ x = c := by
  have := hk k h
  simp only [List.mem_cons, List.not_mem_nil, or_false] at this hc
  split
  · rename_i hx
    constructor
    · intro e
      exfalso
      rw [e] at this
      rcases hc with rfl | rfl | rfl | rfl | rfl <;> exact absurd this (by decide)
    · intro e
      exfalso
      rw [e] at hx
      rcases hc with rfl | rfl | rfl | rfl | rfl <;> exact absurd hx (by decide)
  · rfl

theorem set_head {ks : List (Option Class)} {xs : List Class} (hk : Dirs ks) (hl : ks.length = xs.length) {c : Class} (hc : c ∈ [cEN, cAN, cES, cET, cCS]) :
    (setBrackets ks xs).head? = some c ↔ xs.head? = some c := by
  match ks, xs, hl with
  | [], [], _ => rfl
  | k :: ks, x :: xs, _ =>
    rw [setBrackets, List.head?_cons, List.head?_cons, Option.some.injEq, Option.some.injEq]
    exact set_iff hk (List.mem_cons_self ..) x hc

theorem set_drop : ∀ {ks : List (Option Class)} {xs : List Class}, Dirs ks → ks.length = xs.length →
    (((setBrackets ks xs).dropWhile (· = cET)).head? = some cEN ↔ (xs.dropWhile (· = cET)).head? = some cEN)
  | [], [], _, _ => Iff.rfl
  | k :: ks, x :: xs, hk, hl => by
    have h := set_iff hk (List.mem_cons_self ..) x (c := cET) (by decide)
    have h2 := set_iff hk (List.mem_cons_self ..) x (c := cEN) (by decide)
    have ih := set_drop (fun k hkk => hk k (List.mem_cons_of_mem _ hkk)) (show ks.length = xs.length by simpa using hl)
    rw [setBrackets]
    generalize (if x = cBRACKO ∨ x = cBRACKC then k.getD cON else x) = z at h h2 ⊢
    by_cases hx : x = cET
    · have hz := h.mpr hx
      simp only [List.dropWhile_cons, hx, hz, decide_true, if_true]
      exact ih
    · have hz : z ≠ cET := fun hh => hx (h.mp hh)
      simp only [List.dropWhile_cons, hx, hz, decide_false]
      simpa using h2

theorem set_w4 : ∀ {ks : List (Option Class)} {xs : List Class} {p p' : Class}, Dirs ks → ks.length = xs.length →
    (∀ c ∈ [cEN, cAN], p = c ↔ p' = c) → setBrackets ks (w4 p xs) = w4 p' (setBrackets ks xs)
  | [], [], _, _, _, _, _ => rfl
  | k :: ks, x :: xs, p, p', hk, hl, hp => by
    have hk' : Dirs ks := fun k hkk => hk k (List.mem_cons_of_mem _ hkk)
    have hl' : ks.length = xs.length := by simpa using hl
    have hx := fun c hc => set_iff hk (List.mem_cons_self ..) x (c := c) hc
    rw [w4, setBrackets, setBrackets, w4]
    refine List.cons_eq_cons.mpr ⟨?_, set_w4 hk' hl' fun c hc => ?_⟩
    · have h1 := hx cES (by decide)
      have h2 := hx cCS (by decide)
      have e1 := hp cEN (by decide)
      have e2 := hp cAN (by decide)
      have hh1 := set_head hk' hl' (c := cEN) (by decide)
      have hh2 := set_head hk' hl' (c := cAN) (by decide)
      by_cases c1 : x = cES ∧ p = cEN ∧ xs.head? = some cEN
      · have c1' := And.intro (h1.mpr c1.1) (And.intro (e1.mp c1.2.1) (hh1.mpr c1.2.2))
        rw [if_pos c1'] 
        simp only [if_pos c1]
        exact if_neg (by decide)
      · have c1' := fun hh : _ ∧ p' = cEN ∧ (setBrackets ks xs).head? = some cEN => c1 ⟨h1.mp hh.1, e1.mpr hh.2.1, hh1.mp hh.2.2⟩
        rw [if_neg c1']
        simp only [if_neg c1]
        have hpp : p = cEN ∨ p = cAN → p = p' := by
          rintro (q | q)
          · rw [q, e1.mp q]
          · rw [q, e2.mp q]
        have hh3 : p = cEN ∨ p = cAN → ((setBrackets ks xs).head? = some p ↔ xs.head? = some p) := by
          rintro (q | q)
          · rw [q]; exact hh1
          · rw [q]; exact hh2
        by_cases c2 : x = cCS ∧ (p = cEN ∨ p = cAN) ∧ xs.head? = some p
        · have q := hpp c2.2.1
          have c2' : (if x = cBRACKO ∨ x = cBRACKC then k.getD cON else x) = cCS ∧ (p' = cEN ∨ p' = cAN) ∧ (setBrackets ks xs).head? = some p' := by
            rw [← q]
            exact ⟨h2.mpr c2.1, c2.2.1, (hh3 c2.2.1).mpr c2.2.2⟩
          simp only [if_pos c2, if_pos c2']
          rw [← q]
          refine if_neg ?_
          rcases c2.2.1 with k | k <;> rw [k] <;> decide
        · have c2' : ¬ ((if x = cBRACKO ∨ x = cBRACKC then k.getD cON else x) = cCS ∧ (p' = cEN ∨ p' = cAN) ∧ (setBrackets ks xs).head? = some p') := by
            rintro ⟨k1, k2, k3⟩
            have k2' := k2.imp e1.mpr e2.mpr
            have q := hpp k2'
            exact c2 ⟨h2.mp k1, k2', (hh3 k2').mp (q.symm ▸ k3)⟩
          rw [if_neg c2']
          simp only [if_neg c2]
    · refine (hx c ?_).symm
      simp only [List.mem_cons, List.not_mem_nil, or_false] at hc ⊢
      rcases hc with rfl | rfl <;> simp

theorem set_w5 : ∀ {ks : List (Option Class)} {xs : List Class} {p p' : Class}, Dirs ks → ks.length = xs.length →
    (p = cEN ↔ p' = cEN) → setBrackets ks (w5 p xs) = w5 p' (setBrackets ks xs)
  | [], [], _, _, _, _, _ => rfl
  | k :: ks, x :: xs, p, p', hk, hl, hp => by
    have hk' : Dirs ks := fun k hkk => hk k (List.mem_cons_of_mem _ hkk)
    have hl' : ks.length = xs.length := by simpa using hl
    have h1 := set_iff hk (List.mem_cons_self ..) x (c := cET) (by decide)
    have h2 := set_iff hk (List.mem_cons_self ..) x (c := cEN) (by decide)
    have hd := set_drop hk' hl'
    rw [w5_cons, setBrackets, setBrackets, w5_cons]
    simp only [h1, hd, ← hp]
    by_cases c : x = cET ∧ (p = cEN ∨ (xs.dropWhile (· = cET)).head? = some cEN)
    · rw [if_pos c, if_pos c, if_neg (by decide), set_w5 hk' hl' Iff.rfl]
    · rw [if_neg c, if_neg c, set_w5 hk' hl' h2.symm]

theorem set_map {f : Class → Class} (hf : ∀ c, c ∈ [cBRACKO, cBRACKC, cON, cL, cR] → f c = c) (hn : ∀ c, f c = cBRACKO ∨ f c = cBRACKC → c = f c) :
    ∀ {ks : List (Option Class)} {xs : List Class}, Dirs ks → ks.length = xs.length → setBrackets ks (xs.map f) = (setBrackets ks xs).map f
  | [], [], _, _ => rfl
  | k :: ks, x :: xs, hk, hl => by
    rw [List.map_cons, setBrackets, setBrackets, List.map_cons, set_map hf hn (fun k hkk => hk k (List.mem_cons_of_mem _ hkk)) (by simpa using hl)]
    refine List.cons_eq_cons.mpr ⟨?_, rfl⟩
    by_cases h : x = cBRACKO ∨ x = cBRACKC
    · have hfx : f x = x := hf x (by rcases h with rfl | rfl <;> decide)
      rw [hfx, if_pos h]
      have := hk k (List.mem_cons_self ..)
      exact (hf _ (by
        simp only [List.mem_cons, List.not_mem_nil, or_false] at this ⊢
        exact Or.inr (Or.inr this))).symm
    · rw [if_neg h, if_neg]
      intro hh
      exact h (by rw [hn x hh]; exact hh)

/-! ### The rules -/

theorem pair_scanned {e : Class} (he : e = cL ∨ e = cR) {cs : List Class} (hp : PairClasses cs) (hn : NumbersLTR e cs) :
    w2 e (w1 e cs) = w1 e cs ∧ NumL e (w3 (w2 e (w1 e cs))) ∧ ∀ c ∈ w3 (w2 e (w1 e cs)), c ∈ [cL, cR, cEN, cES, cET, cCS, cS, cWS, cON, cBRACKO, cBRACKC] := by
  have hei : e ∉ [cLRI, cRLI, cFSI, cPDI] := by rcases he with rfl | rfl <;> decide
  have hei2 : e ≠ cAL := by rcases he with rfl | rfl <;> decide
  have hni : Spec.NoIsolates cs := by
    intro c hc
    have := hp c hc
    simp only [List.mem_cons, List.not_mem_nil, or_false] at this
    rcases this with rfl | rfl | rfl | rfl | rfl | rfl | rfl | rfl | rfl | rfl | rfl | rfl <;> decide
  have hal : NoALBeforeEN cs := fun pre post h => (hn pre post h).2
  have h2 := w2_same cs e e (Or.inl ⟨hei2, hei2, hal⟩) hni hei
  refine ⟨h2, ?_, ?_⟩
  · rw [h2]
    unfold w3
    refine numL_map ?_ ?_ rfl _ e e id ?_
    · intro c h
      split at h
      · exact absurd h (by decide)
      · exact h
    · intro s c
      by_cases hc : c = cAL
      · right; right; rw [hc]; simp [strongAfter, cAL, cL]
      · rw [if_neg hc]
        by_cases h : strongAfter s c = cL
        · exact Or.inr (Or.inl h)
        · exact Or.inr (Or.inr h)
    · refine numL_w1 cs e e hei hni ?_ (fun _ => rfl) (numbersLTR_numL cs e hn)
      rcases he with rfl | rfl
      · intro _; rfl
      · intro h; exact absurd h (by decide)
  · rw [h2]
    intro c hc
    unfold w3 at hc
    rw [List.mem_map] at hc
    obtain ⟨d, hd, rfl⟩ := hc
    rcases w1_mem cs e hei hni d hd with h | ⟨h, h'⟩
    · rw [h]
      rcases he with rfl | rfl <;> decide
    · have := hp d h
      simp only [List.mem_cons, List.not_mem_nil, or_false] at this
      rcases this with rfl | rfl | rfl | rfl | rfl | rfl | rfl | rfl | rfl | rfl | rfl | rfl <;> first | decide | exact absurd rfl h'

theorem set_mem : ∀ {ks : List (Option Class)} {xs : List Class} {c : Class}, Dirs ks → c ∈ setBrackets ks xs →
    c ∈ [cON, cL, cR] ∨ (c ∈ xs ∧ c ≠ cBRACKO ∧ c ≠ cBRACKC)
  | [], _, _, _, h => by simp [setBrackets] at h
  | _ :: _, [], _, _, h => by simp [setBrackets] at h
  | k :: ks, x :: xs, c, hk, h => by
    rw [setBrackets, List.mem_cons] at h
    rcases h with h | h
    · split at h
      · left; rw [h]; exact hk k (List.mem_cons_self ..)
      · rename_i hx
        rw [not_or] at hx
        right; rw [h]; exact ⟨List.mem_cons_self .., hx⟩
    · rcases set_mem (fun k hkk => hk k (List.mem_cons_of_mem _ hkk)) h with h | h
      · exact Or.inl h
      · exact Or.inr ⟨List.mem_cons_of_mem _ h.1, h.2⟩

theorem w4_length : ∀ (xs : List Class) (q : Class), (w4 q xs).length = xs.length
  | [], _ => rfl
  | x :: xs, q => by rw [w4, List.length_cons, w4_length xs, List.length_cons]

/-- The rules for the classes `X`, byte by byte. -/
theorem settled_bytes (e : Class) {X : List Class} (hm : ∀ c ∈ X, c ∈ [cL, cR, cEN, cES, cET, cCS, cS, cWS, cON]) (t : List Char) (hlen : X.length = t.length) :
    spread t (n12 e e ((w5 cON (w4 cON X)).map settle)) = n12 e e ((w5 cON (spread t (X.map oneNeutral))).map settle) := by
  have han : cAN ∉ X := fun h => absurd (hm _ h) (by decide)
  rw [spread_w5 _ _ _ (by rw [List.length_map, hlen]), spread_map, spread_n12 _ _ _ _ (by rw [List.length_map, w5_length, List.length_map, hlen])]
  have hcon : w5 cON (X.map oneNeutral) = (w5 cON X).map oneNeutral := by
    rw [← w5_map_neutral X cON]
    exact w5_state _ (Or.inl (by decide))
  rw [hcon, List.map_map]
  have hcomp : settle ∘ oneNeutral = settle := funext settle_neutral
  rw [hcomp, ← w4_same e X cON cON cON e han (by decide) (by intro h; exact absurd h (by decide)) (Or.inl rfl)]

theorem w45_mem {X : List Class} (hm : ∀ c ∈ X, c ∈ [cL, cR, cEN, cES, cET, cCS, cS, cWS, cON]) : ∀ c ∈ w5 cON (w4 cON X), c ∈ [cL, cR, cEN, cES, cET, cCS, cS, cWS, cON] := by
  have han : cAN ∉ X := fun h => absurd (hm _ h) (by decide)
  intro c hc
  rcases w5_mem _ _ c hc with h | h
  · rcases w4_mem X cON (by decide) han c h with h | h
    · exact hm c h
    · rw [h]; decide
  · rw [h]; decide

/-- What the rules give, with brackets set. -/
theorem pairs_settled {e : Class} (he : e = cL ∨ e = cR) {cs : List Class} (hp : PairClasses cs) (hn : NumbersLTR e cs) {ks : List (Option Class)} (hk : Dirs ks)
    (hl : ks.length = cs.length) :
    resolvedPairs e ks cs = n12 e e ((w5 cON (w4 cON (setBrackets ks (w3 (w2 e (w1 e cs)))))).map settle) := by
  obtain ⟨h2, hN, hm⟩ := pair_scanned he hp hn
  have hlen : ks.length = (w3 (w2 e (w1 e cs))).length := by
    rw [h2]; unfold w3; rw [List.length_map, w1_length, hl]
  unfold resolvedPairs weak
  generalize w3 (w2 e (w1 e cs)) = X at *
  have han : cAN ∉ X := fun h => absurd (hm _ h) (by decide)
  have hN5 : NumL e (w5 cON (w4 cON X)) :=
    numL_w5 _ e cON (by intro h; exact absurd h (by decide)) (numL_w4 X e cON (by intro h; exact absurd h (by decide)) (by decide) han hN)
  have hN6 : NumL e (w6 (w5 cON (w4 cON X))) := by
    unfold w6
    refine numL_map ?_ ?_ rfl _ e e id hN5
    · intro c h
      split at h
      · exact absurd h (by decide)
      · exact h
    · intro s c
      by_cases hc : c = cES ∨ c = cET ∨ c = cCS
      · rw [if_pos hc]
        have : strongAfter s c = strongAfter s cON := by rcases hc with rfl | rfl | rfl <;> rfl
        rw [this]
        by_cases h : strongAfter s cON = cL
        · exact Or.inr (Or.inl h)
        · exact Or.inr (Or.inr h)
      · rw [if_neg hc]
        by_cases h : strongAfter s c = cL
        · exact Or.inr (Or.inl h)
        · exact Or.inr (Or.inr h)
  rw [w7_numL _ _ hN6, w6, List.map_map]
  have hl5 : ks.length = (w5 cON (w4 cON X)).length := by rw [w5_length, w4_length, hlen]
  rw [set_map (by
      intro c hc
      simp only [List.mem_cons, List.not_mem_nil, or_false] at hc
      rcases hc with rfl | rfl | rfl | rfl | rfl <;> decide) (by
      intro c hc
      simp only [Function.comp] at hc ⊢
      by_cases h1 : c = cES ∨ c = cET ∨ c = cCS
      · rw [if_pos h1] at hc
        exact absurd hc (by decide)
      · rw [if_neg h1] at hc ⊢
        by_cases h2 : c = cEN
        · rw [if_pos h2] at hc
          exact absurd hc (by decide)
        · rw [if_neg h2]) hk hl5,
    set_w5 hk (by rw [w4_length, hlen]) Iff.rfl, set_w4 hk hlen (fun _ _ => Iff.rfl)]
  have hm5 := w45_mem (X := setBrackets ks X) (by
    intro c hc
    rcases set_mem hk hc with h | ⟨h, h1, h2⟩
    · simp only [List.mem_cons, List.not_mem_nil, or_false] at h ⊢
      rcases h with rfl | rfl | rfl <;> simp
    · have := hm c h
      simp only [List.mem_cons, List.not_mem_nil, or_false] at this ⊢
      rcases this with k | k | k | k | k | k | k | k | k | k | k <;> first | contradiction | (rw [k]; decide))
  refine n12_pointwise e _ _ _ e ?_
  intro c hc
  have := hm5 c hc
  simp only [List.mem_cons, List.not_mem_nil, or_false] at this
  rcases this with rfl | rfl | rfl | rfl | rfl | rfl | rfl | rfl | rfl <;> decide

/-- Separators, byte by byte. -/
theorem aside_settled {e : Class} {X ds : List Class} (hm : ∀ c ∈ X, c ∈ [cL, cR, cEN, cES, cET, cCS, cS, cWS, cON]) (t : List Char)
    (hlen : X.length = t.length) (hd : ds.length = t.length) (ha : SeparatorsSettled e (w5 cON (w4 cON X)) ds) :
    Aside e cL (w5 cON (spread t (X.map oneNeutral))) (spread t ds) := by
  have han : cAN ∉ X := fun h => absurd (hm _ h) (by decide)
  have hne : ∀ c ∈ w5 cON (w4 cON X), c ≠ cNI := by
    intro c hc
    have := w45_mem hm c hc
    rintro rfl
    exact absurd this (by decide)
  have h3 : Aside e cL (w5 cL (w4 cON X)) ds := by
    rw [← show w5 cON (w4 cON X) = w5 cL (w4 cON X) from w5_state _ (Or.inl (by decide))]
    exact settled_aside ha hne (by decide)
  have h4 := aside_w4 X ds cON cL cL han (by decide) (by intro h; exact absurd h (by decide)) (Or.inl rfl) h3
  have h5 : Aside e cL ((w5 cL X).map oneNeutral) ds := aside_map _ _ cL h4
  rw [spread_w5 _ _ _ (by rw [List.length_map, hlen])]
  have hcon : w5 cON (X.map oneNeutral) = (w5 cL X).map oneNeutral := by
    rw [← w5_map_neutral X cL]
    exact w5_state _ (Or.inl (by decide))
  rw [hcon]
  exact spread_aside t _ _ cL (by rw [List.length_map, w5_length, hlen]) hd h5

/-! ### The scraps with brackets set -/

theorem char_at : ∀ (t : List Char) (i : Nat), i < (utf8 t).length → ∃ pre c post k, t = pre ++ c :: post ∧ k < (utf8 [c]).length ∧ i = (utf8 pre).length + k
  | [], i, h => absurd h (Nat.not_lt_zero i)
  | x :: t, i, h => by
    rw [utf8_len x t] at h
    by_cases hi : i < (utf8 [x]).length
    · exact ⟨[], x, t, i, rfl, hi, by show i = 0 + i; omega⟩
    · obtain ⟨pre, c, post, k, h1, h2, h3⟩ := char_at t (i - (utf8 [x]).length) (by omega)
      refine ⟨x :: pre, c, post, k, by rw [h1]; rfl, h2, ?_⟩
      rw [utf8_len x pre]
      omega

/-- Two characters with a byte in common are the same. -/
theorem char_overlap : ∀ {u w u' w' : List Char} {c c' : Char} {i : Nat}, u ++ c :: w = u' ++ c' :: w' → (utf8 u).length ≤ i → i < (utf8 u).length + (utf8 [c]).length →
    (utf8 u').length ≤ i → i < (utf8 u').length + (utf8 [c']).length → u = u'
  | [], _, [], _, _, _, _, _, _, _, _, _ => rfl
  | [], w, y :: u', w', c, c', i, h, _, h2, h3, _ => by
    rw [List.nil_append, List.cons_append, List.cons.injEq] at h
    rw [utf8_len y u', ← h.1] at h3
    rw [show (utf8 []).length = 0 from rfl] at h2
    omega
  | x :: u, w, [], w', c, c', i, h, h1, _, _, h4 => by
    rw [List.nil_append, List.cons_append, List.cons.injEq] at h
    rw [utf8_len x u, h.1] at h1
    rw [show (utf8 []).length = 0 from rfl] at h4
    omega
  | x :: u, w, y :: u', w', c, c', i, h, h1, h2, h3, h4 => by
    rw [List.cons_append, List.cons_append, List.cons.injEq] at h
    obtain ⟨rfl, h⟩ := h
    rw [utf8_len x u] at h1 h2
    rw [utf8_len x u'] at h3 h4
    rw [char_overlap (i := i - (utf8 [x]).length) h (by omega) (by omega) (by omega) (by omega)]

theorem tiles_painted {d : Nat → Option Class} : ∀ {ss : List Scrap} {l r : Nat}, Tiles l r ss → Tiles l r (ss.map (painted d))
  | [], _, _, h => h
  | s :: ss, l, r, h => by
    refine ⟨(painted_l d s).1.trans h.1, ?_⟩
    rw [(painted_l d s).2.1]
    exact tiles_painted h.2

theorem numOk_painted {d : Nat → Option Class} (hd : Strongs d) : ∀ {ss : List Scrap}, NumOk ss → NumOk (ss.map (painted d))
  | [], _ => trivial
  | s :: ss, h => by
    have hl : ∀ l : List Scrap, LeadsEN (l.map (painted d)) → LeadsEN l := by
      intro l
      induction l with
      | nil => exact id
      | cons x l ih =>
        rintro (k | ⟨k1, k2⟩)
        · exact Or.inl ((painted_iff hd x (by decide) (by decide) (by unfold IsBr; decide)).mp k)
        · exact Or.inr ⟨(painted_iff hd x (by decide) (by decide) (by unfold IsBr; decide)).mp k1, ih k2⟩
    refine ⟨fun k => ?_, numOk_painted hd h.2⟩
    rw [(painted_l d s).2.2.2.1]
    exact h.1 (hl (s :: ss) k)

theorem good1_painted {d : Nat → Option Class} (hd : Strongs d) {len : Nat} {ss : List Scrap} (h : Good1 True len [] ss) : Good1 True len [] (ss.map (painted d)) := by
  obtain ⟨h1, h2, h3, -⟩ := h
  rw [List.nil_append] at h1 h2 h3
  refine ⟨?_, by simpa using numOk_painted hd h2, fun ht => by simpa using tiles_painted (h3 ht), by simp⟩
  intro s hs
  rw [List.nil_append, List.mem_map] at hs
  obtain ⟨x, hx, rfl⟩ := hs
  by_cases hb : IsBr x.clz
  · obtain ⟨⟨f1, f2, f3, f4⟩, f5⟩ := h1 x hx
    have hk := hd x.l
    have hp := (f4 trivial).2
    rw [painted_bracket hb]
    generalize (d x.l).getD cL = k at hk
    have hlt : x.l < x.r := by
      rcases hp with ⟨hp, -⟩ | hp
      · rw [f5] at hp; cases hp
      · exact hp
    rcases hk with rfl | rfl
    · exact ⟨⟨by show cL < 28; decide, f2, by show cL ≠ cPDI; decide, fun _ => ⟨by show cL ≠ cAN; decide, Or.inr hlt⟩⟩, rfl⟩
    · exact ⟨⟨by show cR < 28; decide, f2, by show cR ≠ cPDI; decide, fun _ => ⟨by show cR ≠ cAN; decide, Or.inr hlt⟩⟩, rfl⟩
  · rw [painted_other hb]
    exact h1 x hx

/-- The scrap at a byte of a character. -/
theorem scrap_at {ss : List Scrap} {t : List Char} {Z : List Class} (hlen : Z.length = t.length) (hb : byteClasses ss = spread t Z) (ht : Tiles 0 (utf8 t).length ss)
    (hp : ∀ s ∈ ss, s.l < s.r) {pre post : List Char} {c : Char} (htt : t = pre ++ c :: post) {k : Nat} (hk : k < (utf8 [c]).length) :
    ∃ s ∈ ss, s.l ≤ (utf8 pre).length + k ∧ (utf8 pre).length + k < s.r ∧ ss.find? (fun s => s.l ≤ (utf8 pre).length + k && (utf8 pre).length + k < s.r) = some s ∧
      Z[pre.length]? = some s.clz := by
  have hpos : (utf8 pre).length + k < (utf8 t).length := by
    rw [htt, utf8_append, utf8_len c post]; omega
  obtain ⟨s, s1, s2⟩ := find_bytes ss 0 _ _ ht hp (Nat.zero_le _) hpos
  have hs := List.find?_some s1
  simp only [Bool.and_eq_true, decide_eq_true_eq] at hs
  refine ⟨s, List.mem_of_find?_eq_some s1, hs.1, hs.2, s1, ?_⟩
  rw [hb, Nat.sub_zero, htt, spread_get pre c post Z k (by rw [← htt]; exact hlen) hk] at s2
  exact s2

theorem painted_bytes {d : Nat → Option Class} {ss : List Scrap} {t : List Char} {X : List Class} (hlen : X.length = t.length)
    (hb : byteClasses ss = spread t (X.map oneNeutral)) (ht : Tiles 0 (utf8 t).length ss) (hp : ∀ s ∈ ss, s.l < s.r)
    (hbr : ∀ s ∈ ss, IsBr s.clz → ∃ u c w, t = u ++ c :: w ∧ s.l = (utf8 u).length ∧ s.r = (utf8 u).length + (utf8 [c]).length)
    (hk : ∀ s ∈ ss, IsBr s.clz → d s.l = some cL ∨ d s.l = some cR) :
    byteClasses (ss.map (painted d)) = spread t ((setBrackets (perChar d 0 t) X).map oneNeutral) := by
  have hl2 : (setBrackets (perChar d 0 t) X).length = t.length := by rw [set_length (by rw [perChar_length, hlen]), hlen]
  have hpp : ∀ s ∈ ss.map (painted d), s.l < s.r := by
    intro s hs
    rw [List.mem_map] at hs
    obtain ⟨x, hx, rfl⟩ := hs
    rw [(painted_l d x).1, (painted_l d x).2.1]
    exact hp x hx
  have hbl : (byteClasses (ss.map (painted d))).length = (utf8 t).length := by
    have := bytes_tiles _ _ _ (tiles_painted (d := d) ht) (fun s hs => Nat.le_of_lt (hpp s hs))
    omega
  refine List.ext_getElem? fun i => ?_
  by_cases hi : i < (utf8 t).length
  · obtain ⟨pre, c, post, k, h1, h2, h3⟩ := char_at t i hi
    subst h3
    obtain ⟨s, s0, s1, s2, s3, s4⟩ := scrap_at (by rw [List.length_map, hlen]) hb ht hp h1 h2
    obtain ⟨s', s5, s6⟩ := find_bytes (ss.map (painted d)) 0 _ _ (tiles_painted ht) hpp (Nat.zero_le _) hi
    have hs' : s' = painted d s := by
      rw [List.find?_map] at s5
      have : ((fun s : Scrap => decide (s.l ≤ (utf8 pre).length + k) && decide ((utf8 pre).length + k < s.r)) ∘ painted d) =
          (fun s : Scrap => decide (s.l ≤ (utf8 pre).length + k) && decide ((utf8 pre).length + k < s.r)) := by
        funext x
        simp only [Function.comp, (painted_l d x).1, (painted_l d x).2.1]
      rw [this, s3, Option.map_some, Option.some.injEq] at s5
      exact s5.symm
    rw [Nat.sub_zero] at s6
    rw [s6, hs', h1, spread_get pre c post _ k (by rw [List.length_map, ← h1]; exact hl2) h2, ← h1, List.getElem?_map]
    rw [List.getElem?_map] at s4
    cases hX : X[pre.length]? with
    | none => rw [hX] at s4; cases s4
    | some x =>
      rw [hX, Option.map_some, Option.some.injEq] at s4
      have hg := perChar_get d pre c post 0
      rw [← h1, Nat.zero_add] at hg
      rw [setBr_get hg hX, Option.map_some]
      congr 1
      by_cases hbx : x = cBRACKO ∨ x = cBRACKC
      · have hox : oneNeutral x = x := by rcases hbx with rfl | rfl <;> rfl
        have hsb : IsBr s.clz := by rw [← s4, hox]; exact hbx
        obtain ⟨u, c', w, u1, u2, u3⟩ := hbr s s0 hsb
        have hu : pre = u := char_overlap (h1.symm.trans u1) (i := (utf8 pre).length + k) (by omega) (by omega) (by omega) (by omega)
        rw [painted_bracket hsb, if_pos hbx, u2, hu]
        have := hk s s0 hsb
        rw [u2] at this
        rcases this with k | k <;> rw [k] <;> rfl
      · rw [if_neg hbx, s4, painted_other]
        intro hsb
        rw [← s4] at hsb
        unfold oneNeutral at hsb
        split at hsb
        · exact absurd hsb (by unfold IsBr; decide)
        · exact hbx hsb
  · rw [List.getElem?_eq_none (by omega), List.getElem?_eq_none]
    rw [spread_length _ _ (by rw [List.length_map]; exact hl2)]
    omega

theorem linked_of {α : Type} {R : α → α → Prop} : ∀ {l : List α}, (∀ p x y q, l = p ++ x :: y :: q → R x y) → Linked R l
  | [], _ => trivial
  | [_], _ => trivial
  | x :: y :: l, h => ⟨h [] x y l rfl, linked_of fun p a b q e => h (x :: p) a b q (by rw [e]; rfl)⟩

theorem tiles_overlap {l r i : Nat} {ss : List Scrap} (ht : Tiles l r ss) (hp : ∀ s ∈ ss, s.l < s.r) {a b : Scrap} (ha : a ∈ ss) (hb : b ∈ ss)
    (h1 : a.l ≤ i) (h2 : i < a.r) (h3 : b.l ≤ i) (h4 : i < b.r) : a = b := tiles_unique ht (fun s hs => Nat.le_of_lt (hp s hs)) ha hb (by omega) (by omega)

/-- Neutrals directly before brackets. -/
theorem before_start {e : Class} {ss : List Scrap} {t : List Char} {X ds : List Class} (hlen : X.length = t.length) (hds : ds.length = t.length)
    (hb : byteClasses ss = spread t (X.map oneNeutral)) (ht : Tiles 0 (utf8 t).length ss) (hp : ∀ s ∈ ss, s.l < s.r)
    (hbr : ∀ s ∈ ss, IsBr s.clz → ∃ u c w, t = u ++ c :: w ∧ s.l = (utf8 u).length ∧ s.r = (utf8 u).length + (utf8 [c]).length)
    (hX : cNI ∉ X) (hN : NeutralsBefore e X ds) : Linked (Before e (spread t ds)) ss := by
  have hunion : ∀ x : Class, oneNeutral x ∈ [cNI, cES, cET, cCS] → x ≠ cNI → x ∈ [cS, cWS, cON, cES, cET, cCS] := by
    intro x hx hn
    unfold oneNeutral at hx
    split at hx
    · rename_i h; rcases h with rfl | rfl | rfl <;> decide
    · simp only [List.mem_cons, List.not_mem_nil, or_false] at hx ⊢
      rcases hx with hx | hx | hx | hx
      · exact absurd hx hn
      all_goals (rw [hx]; simp)
  have hbrx : ∀ x : Class, IsBr (oneNeutral x) → IsBr x := by
    intro x hx
    unfold oneNeutral at hx
    split at hx
    · exact absurd hx (by unfold IsBr; decide)
    · exact hx
  refine linked_of fun p x y q hss hxc hyb => ?_
  have hx : x ∈ ss := by rw [hss]; simp
  have hy : y ∈ ss := by rw [hss]; simp
  obtain ⟨u, c, w, u1, u2, u3⟩ := hbr y hy hyb
  have hxy : y.l = x.r := by
    rw [hss] at ht
    obtain ⟨m, -, h⟩ := tiles_append.mp ht
    exact tiles_two h
  have hlx := hp x hx
  rcases nil_or_last u with rfl | ⟨u0, c0, rfl⟩
  · rw [u2, show (utf8 []).length = 0 from rfl] at hxy
    omega
  · have hc0 := utf8_pos c0
    have hc := utf8_pos c
    have hul : (utf8 (u0 ++ [c0])).length = (utf8 u0).length + (utf8 [c0]).length := utf8_append _ _
    have t1 : t = u0 ++ c0 :: (c :: w) := by rw [u1]; simp
    have hX2 : (X.map oneNeutral).length = t.length := by rw [List.length_map, hlen]
    obtain ⟨a, a0, a1, a2, -, a4⟩ := scrap_at hX2 hb ht hp t1 (k := (utf8 [c0]).length - 1) (by omega)
    obtain ⟨b, b0, b1, b2, -, b4⟩ := scrap_at hX2 hb ht hp u1 (k := 0) (by omega)
    have hle : ∀ s ∈ ss, s.l ≤ s.r := fun s hs => Nat.le_of_lt (hp s hs)
    have ea : a = x := by
      exact tiles_overlap ht hp a0 hx (i := y.l - 1) (by omega) (by omega) (by omega) (by omega)
    have eb : b = y := tiles_overlap ht hp b0 hy (i := (utf8 (u0 ++ [c0])).length) (by omega) (by omega) (by omega) (by omega)
    rw [ea] at a4
    rw [eb, List.length_append, List.length_singleton] at b4
    rw [List.getElem?_map] at a4 b4
    cases h1 : X[u0.length]? with
    | none => rw [h1] at a4; cases a4
    | some x' =>
      cases h2 : X[u0.length + 1]? with
      | none => rw [h2] at b4; cases b4
      | some y' =>
        rw [h1, Option.map_some, Option.some.injEq] at a4
        rw [h2, Option.map_some, Option.some.injEq] at b4
        have := hN _ _ _ h1 h2 (hunion x' (a4 ▸ hxc) (fun hh => hX (hh ▸ List.mem_of_getElem? h1))) (hbrx y' (b4 ▸ hyb))
        have hi : y.l - 1 = (utf8 u0).length + ((utf8 [c0]).length - 1) := by omega
        rw [hi, t1, spread_get u0 c0 (c :: w) ds _ (by rw [← t1]; exact hds) (by omega)]
        exact this

end Uax.Bidi
