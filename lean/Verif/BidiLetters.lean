import Verif.BidiResolve
import Verif.BidiChars
import Verif.BidiScan
import Verif.BidiEndless

/-
Letters keep their direction: a strong scrap is never lost or changed by the rules.
-/
namespace Uax.Bidi

open Spec (Tiles NumbersLTR)

/-- The byte at `p` belongs to a scrap of class `c`. -/
def StrongAt (p : Nat) (c : Class) (pre suf : List Scrap) : Prop := ∃ s ∈ pre ++ suf, s.l ≤ p ∧ p < s.r ∧ s.clz = c

theorem strongAt_replace {p : Nat} {c : Class} {pre m post : List Scrap} {x : Scrap} (h : StrongAt p c pre (m ++ post))
    (hx : ∀ s ∈ m, s.l ≤ p → p < s.r → s.clz = c → x.l ≤ p ∧ p < x.r ∧ x.clz = c) : StrongAt p c pre (x :: post) := by
  obtain ⟨s, hs, h1, h2, h3⟩ := h
  rw [List.mem_append, List.mem_append] at hs
  rcases hs with hs | hs | hs
  · exact ⟨s, by simp [hs], h1, h2, h3⟩
  · exact ⟨x, by simp, hx s hs h1 h2 h3⟩
  · exact ⟨s, by simp [hs], h1, h2, h3⟩

theorem strongAt_class {p : Nat} {c d : Class} {pre t : List Scrap} {s : Scrap} (h : StrongAt p c pre (s :: t)) (hs : s.clz ≠ c) : StrongAt p c pre ({ s with clz := d } :: t) :=
  strongAt_replace (m := [s]) h fun x hx _ _ hc => by
    rw [List.mem_singleton] at hx
    subst hx
    exact absurd hc hs

/-- Rules of pass 1 are not about letters. -/
theorem pick1_weak {s : Scrap} {t post : List Scrap} {rule : Rule}
    (hp : pick1 s.clz ((t ++ post)[0]?.map (·.clz)) ((t ++ post)[1]?.map (·.clz)) = some rule) (hne : rule ≠ .W7)
    (hl : rule.lhsLen = (s :: t).length) : ∀ x ∈ s :: t, x.clz ≠ cL ∧ x.clz ≠ cR := by
  have key : ∀ c : Class, c = cEN ∨ c = cAN ∨ c = cET ∨ c = cES ∨ c = cCS ∨ c = cNI → c ≠ cL ∧ c ≠ cR := by
    intro c hc
    rcases hc with rfl | rfl | rfl | rfl | rfl | rfl <;> decide
  unfold pick1 at hp
  match t, hl with
  | [], hl =>
    intro x hx
    rw [List.mem_singleton] at hx
    subst hx
    refine key _ ?_
    repeat' split at hp
    all_goals first | (cases hp; done) | simp [*]
  | [y], hl =>
    simp only [List.cons_append, List.nil_append, List.getElem?_cons_zero, List.getElem?_cons_succ, Option.map_some, Option.some.injEq] at hp
    intro x hx
    simp only [List.mem_cons, List.not_mem_nil, or_false] at hx
    refine key _ ?_
    repeat' split at hp
    all_goals first
      | (cases hp; done)
      | (injection hp with hp; subst hp; exact (hne rfl).elim)
      | (injection hp with hp; subst hp; simp [Rule.lhsLen, Rule.lhs] at hl; done)
      | (rcases hx with rfl | rfl <;> simp [*])
  | [y, z], hl =>
    simp only [List.cons_append, List.nil_append, List.getElem?_cons_zero, List.getElem?_cons_succ, Option.map_some, Option.some.injEq] at hp
    intro x hx
    simp only [List.mem_cons, List.not_mem_nil, or_false] at hx
    refine key _ ?_
    repeat' split at hp
    all_goals first
      | (cases hp; done)
      | (injection hp with hp; subst hp; exact (hne rfl).elim)
      | (injection hp with hp; subst hp; simp [Rule.lhsLen, Rule.lhs] at hl; done)
      | (rcases hx with rfl | rfl | rfl <;> simp [*])
  | y :: z :: w :: t', hl =>
    exfalso
    have : rule.lhsLen ≤ 3 := by cases rule <;> decide
    rw [hl] at this
    simp at this

/-- The scraps are in order. They need not tile the text. -/
def Orderly (ss : List Scrap) : Prop := ss.Pairwise (fun a b => a.r ≤ b.l) ∧ ∀ s ∈ ss, s.l ≤ s.r

theorem orderly_replace {pre m post : List Scrap} {x a z : Scrap} (h : Orderly (pre ++ (m ++ post))) (ha : a ∈ m) (hz : z ∈ m) (h1 : x.l = a.l) (h2 : x.r = z.r)
    (h3 : x.l ≤ x.r) : Orderly (pre ++ x :: post) := by
  obtain ⟨hp, hl⟩ := h
  rw [List.pairwise_append, List.pairwise_append] at hp
  obtain ⟨p1, ⟨-, p3, p4⟩, p5⟩ := hp
  refine ⟨?_, ?_⟩
  · rw [List.pairwise_append, List.pairwise_cons]
    refine ⟨p1, ⟨fun y hy => by rw [h2]; exact p4 z hz y hy, p3⟩, ?_⟩
    intro y hy w hw
    rw [List.mem_cons] at hw
    rcases hw with rfl | hw
    · rw [h1]; exact p5 y hy a (List.mem_append_left _ ha)
    · exact p5 y hy w (List.mem_append_right _ hw)
  · intro s hs
    rw [List.mem_append, List.mem_cons] at hs
    rcases hs with hs | rfl | hs
    · exact hl s (List.mem_append_left _ hs)
    · exact h3
    · exact hl s (by simp [hs])

theorem orderly_class {pre t : List Scrap} {s : Scrap} {d : Class} (h : Orderly (pre ++ s :: t)) : Orderly (pre ++ { s with clz := d } :: t) :=
  orderly_replace (m := [s]) h (List.mem_singleton.mpr rfl) (List.mem_singleton.mpr rfl) rfl rfl (h.2 s (by simp))

theorem orderly_fuse {pre t post : List Scrap} {s : Scrap} {d : Class} (h : Orderly (pre ++ ((s :: t) ++ post))) : Orderly (pre ++ fuse d (s :: t) :: post) := by
  have hm : (s :: t).getLast?.getD s ∈ s :: t := by
    rw [List.getLast?_eq_some_getLast (List.cons_ne_nil s t), Option.getD_some]
    exact List.getLast_mem _
  refine orderly_replace h (List.mem_cons_self ..) hm rfl rfl ?_
  show s.l ≤ ((s :: t).getLast?.getD s).r
  have hs := h.2 s (by simp)
  have hz := h.2 _ (List.mem_append_right pre (List.mem_append_left post hm))
  rw [List.mem_cons] at hm
  rcases hm with e | hm
  · rw [e]; exact hs
  · have := h.1
    rw [List.pairwise_append, List.cons_append, List.pairwise_cons] at this
    have := this.2.1.1 _ (List.mem_append_left post hm)
    omega

/-- What holds for a letter during both passes. -/
def Letter (p : Nat) (c : Class) (pre suf : List Scrap) : Prop := Orderly (pre ++ suf) ∧ StrongAt p c pre suf

theorem letter1_inv {p : Nat} {c : Class} (hc : c = cL ∨ c = cR) {P : List Scrap → List Scrap → Prop} (hP : Inv1 P) : Inv1 (fun pre suf => P pre suf ∧ Letter p c pre suf) where
  known h := hP.known h.1
  closed h := hP.closed h.1
  number h := hP.number h.1
  walk h hp := ⟨hP.walk h.1 hp, by simpa [Letter, StrongAt] using h.2⟩
  back h := ⟨hP.back h.1, by simpa [Letter, StrongAt] using h.2⟩
  fuse := by
    intro pre s t post rule h hp hne hl
    refine ⟨hP.fuse h.1 hp hne hl, orderly_fuse h.2.1, strongAt_replace h.2.2 fun x hx _ _ hxc => ?_⟩
    have := pick1_weak hp hne hl x hx
    rcases hc with rfl | rfl
    · exact absurd hxc this.1
    · exact absurd hxc this.2
  w7 h he ht := ⟨hP.w7 h.1 he ht, orderly_class h.2.1, strongAt_class h.2.2 (by rw [he]; rcases hc with rfl | rfl <;> decide)⟩

theorem letter2_inv {σ : Type} {E : Env σ} {G : σ → Prop} {p : Nat} {c : Class} (hc : c = cL ∨ c = cR) {Q : List Scrap → List Scrap → Prop} (hQ : Inv2 E Q G) :
    Inv2 E (fun pre suf => Q pre suf ∧ Letter p c pre suf) G where
  known h := hQ.known h.1
  closed h := hQ.closed h.1
  emb h := hQ.emb h.1
  walk h hb hp := ⟨hQ.walk h.1 hb hp, by simpa [Letter, StrongAt] using h.2⟩
  back h := ⟨hQ.back h.1, by simpa [Letter, StrongAt] using h.2⟩
  n1 := by
    intro pre a b d post k h hk ha hb hd
    refine ⟨hQ.n1 h.1 hk ha hb hd, orderly_fuse (t := [b, d]) h.2.1, strongAt_replace (m := [a, b, d]) h.2.2 ?_⟩
    have hp := h.2.1.1
    rw [List.pairwise_append, List.pairwise_cons] at hp
    have g0 := hp.2.1.1 d (by simp)
    have g1 := h.2.1.2 a (by simp)
    have g3 := h.2.1.2 d (by simp)
    intro x hx x1 x2 x3
    show a.l ≤ p ∧ p < d.r ∧ k = c
    simp only [List.mem_cons, List.not_mem_nil, or_false] at hx
    rcases hx with rfl | rfl | rfl
    · exact ⟨by omega, by omega, by rw [← ha, x3]⟩
    · rw [hb] at x3; rcases hc with rfl | rfl <;> exact absurd x3 (by decide)
    · exact ⟨by omega, by omega, by rw [← hd, x3]⟩
  same := by
    intro pre a b post k h hk ha hb
    refine ⟨hQ.same h.1 hk ha hb, orderly_fuse (t := [b]) h.2.1, strongAt_replace (m := [a, b]) h.2.2 ?_⟩
    have hp := h.2.1.1
    rw [List.pairwise_append, List.pairwise_cons] at hp
    have g0 := hp.2.1.1 b (by simp)
    have g1 := h.2.1.2 a (by simp)
    have g2 := h.2.1.2 b (by simp)
    intro x hx x1 x2 x3
    show a.l ≤ p ∧ p < b.r ∧ k = c
    simp only [List.mem_cons, List.not_mem_nil, or_false] at hx
    rcases hx with rfl | rfl
    · exact ⟨by omega, by omega, by rw [← ha, x3]⟩
    · exact ⟨by omega, by omega, by rw [← hb, x3]⟩
  absorb := by
    intro pre a b d post h ha hb hd
    refine ⟨hQ.absorb h.1 ha hb hd, ?_, ?_⟩
    · have : Orderly ((pre ++ [a]) ++ ([b, d] ++ post)) := by simpa using h.2.1
      exact orderly_replace (x := { b with clz := cAN, children := b.children ++ d.children }) this (a := b) (z := b) (by simp) (by simp) rfl rfl (h.2.1.2 b (by simp))
    · have : StrongAt p c (pre ++ [a]) ([b, d] ++ post) := by simpa [StrongAt] using h.2.2
      refine strongAt_replace this fun x hx _ _ hxc => ?_
      simp only [List.mem_cons, List.not_mem_nil, or_false] at hx
      rcases hx with rfl | rfl
      · rw [hb] at hxc; rcases hc with rfl | rfl <;> exact absurd hxc (by decide)
      · rw [hd] at hxc; rcases hc with rfl | rfl <;> exact absurd hxc (by decide)
  n2 := by
    intro pre s t h hs
    obtain ⟨h1, h2⟩ := hQ.n2 h.1 hs
    have h3 : Letter p c pre ({ s with clz := s.e } :: t) := ⟨orderly_class h.2.1, strongAt_class h.2.2 (by rw [hs]; rcases hc with rfl | rfl <;> decide)⟩
    exact ⟨fun e => ⟨h1 e, h3⟩, fun pre' x e => ⟨h2 pre' x e, by subst e; simpa [Letter, StrongAt] using h3⟩⟩
  skip h hs := ⟨hQ.skip h.1 hs, by simpa [Letter, StrongAt] using h.2⟩
  opening h hg hs hp := ⟨⟨(hQ.opening h.1 hg hs hp).1, orderly_class h.2.1, strongAt_class h.2.2 (by rw [hs]; rcases hc with rfl | rfl <;> decide)⟩,
    (hQ.opening h.1 hg hs hp).2⟩
  closing h hg hs hp := ⟨hQ.closing h.1 hg hs hp, orderly_class h.2.1, strongAt_class h.2.2 (by rw [hs]; rcases hc with rfl | rfl <;> decide)⟩
  alone := by
    intro pre s t h hs
    have : Letter p c pre ({ s with clz := cNI } :: t) := ⟨orderly_class h.2.1, strongAt_class h.2.2 (by rw [hs]; rcases hc with rfl | rfl <;> decide)⟩
    exact ⟨hQ.alone h.1 hs, by simpa [Letter, StrongAt] using this⟩
  pair := hQ.pair

/-- The scrap of a byte is found. -/
theorem orderly_find {p : Nat} {s : Scrap} (h1 : s.l ≤ p) (h2 : p < s.r) : ∀ ss : List Scrap, Orderly ss → s ∈ ss → ss.find? (fun x => x.l ≤ p && p < x.r) = some s := by
  intro ss
  induction ss with
  | nil => intro _ hs; cases hs
  | cons x xs ih =>
    intro ho hs
    have hp := List.pairwise_cons.mp ho.1
    by_cases hx : x = s
    · subst hx
      exact List.find?_cons_of_pos (by simp [h1, h2])
    · have hs : s ∈ xs := by
        rcases List.mem_cons.mp hs with h | h
        · exact absurd h.symm hx
        · exact h
      rw [List.find?_cons_of_neg, ih ⟨hp.2, fun y hy => ho.2 y (List.mem_cons_of_mem _ hy)⟩ hs]
      simp only [Bool.and_eq_true, decide_eq_true_eq, not_and]
      intro _
      have := hp.1 s hs
      omega

/-- The next character is a letter of direction `c`, or a mark after such a letter. -/
def lettered (c : Class) (b : Bool) (k : Class) : Bool := k == c || (c == cR && k == cAL) || (b && k == cNSM)

/-- The byte at `p` belongs to a letter of the text which begins at `off`, or to a mark after a letter. `b`: the text comes after a letter and its marks. -/
def LetterAt (T : Tables) (o : Options) (c : Class) (p : Nat) : Bool → Nat → List (Nat × Nat) → Prop
  | _, _, [] => False
  | b, off, (r, n) :: rest => (off ≤ p ∧ p < off + n ∧ lettered c b (runeClass T o r) = true) ∨ LetterAt T o c p (lettered c b (runeClass T o r)) (off + n) rest

theorem rules_letter {c k : Class} {cur : Scrap} {b : Bool} (hc : c = cL ∨ c = cR) (hi : isIsolate cur = false) (hb : b = true → cur.clz = c) (h : lettered c b k = true) :
    rulesW1to3 k cur = c := by
  simp only [lettered, Bool.or_eq_true, Bool.and_eq_true, beq_iff_eq] at h
  rcases h with (rfl | ⟨rfl, rfl⟩) | ⟨h, rfl⟩
  · rcases hc with rfl | rfl <;> rfl
  · rfl
  · rcases rules_cases cNSM cur with e | ⟨-, e | e⟩ | ⟨e, -⟩ | ⟨e, -⟩ | e
    · unfold rulesW1to3 at e ⊢
      simp only [isIsolate, Bool.or_eq_false_iff, beq_eq_false_iff_ne] at hi
      rw [if_pos rfl, if_neg hi.1.1.1, if_neg hi.1.1.2, if_neg hi.2]
      exact hb h
    · rw [e]; exact hb h
    · rw [hi] at e; cases e
    · exact absurd e (by decide)
    · exact absurd e (by decide)
    · unfold rulesW1to3
      simp only [isIsolate, Bool.or_eq_false_iff, beq_eq_false_iff_ne] at hi
      rw [if_pos rfl, if_neg hi.1.1.1, if_neg hi.1.1.2, if_neg hi.2]
      exact hb h

/-- The scanner finds letters and keeps the order. -/
theorem emit_letter {T : Tables} {o : Options} {c : Class} {p : Nat} (hc : c = cL ∨ c = cR) : ∀ (inp : List (Nat × Nat)) (cur : Scrap) (a : Option Nat) (st : List DirContext) (b : Bool),
    (∀ x ∈ inp, runeClass T o x.1 ∉ [cLRI, cRLI, cFSI, cPDI]) → isIsolate cur = false → cur.clz ≠ cAL → cur.l ≤ cur.r → (b = true → cur.clz = c) →
    (Orderly (emit T o inp cur a st) ∧ ∀ s ∈ emit T o inp cur a st, cur.l ≤ s.l) ∧
    ((cur.clz = c ∧ cur.l ≤ p ∧ p < cur.r) ∨ LetterAt T o c p b cur.r inp → ∃ s ∈ emit T o inp cur a st, s.l ≤ p ∧ p < s.r ∧ s.clz = c) := by
  have hcz : c ≠ cNULL := by rcases hc with rfl | rfl <;> decide
  intro inp
  induction inp with
  | nil =>
    intro cur a st b _ _ _ hle _
    rw [emit]
    split
    · rename_i hz
      refine ⟨⟨⟨List.Pairwise.nil, by simp⟩, by simp⟩, ?_⟩
      rintro (⟨h, -⟩ | h)
      · exact absurd (h.symm.trans hz) hcz
      · exact h.elim
    · refine ⟨⟨⟨List.pairwise_singleton .., by simpa using hle⟩, by simp⟩, ?_⟩
      rintro (⟨h, h1, h2⟩ | h)
      · exact ⟨cur, by simp, h1, h2, h⟩
      · exact h.elim
  | cons x rest ih =>
    obtain ⟨r, n⟩ := x
    intro cur a st b hx hi hal hle hbc
    have hx' := fun y hy => hx y (List.mem_cons_of_mem _ hy)
    have hk := hx (r, n) (List.mem_cons_self ..)
    dsimp only at hk
    have hrl : lettered c b (runeClass T o r) = true → rulesW1to3 (runeClass T o r) cur = c := rules_letter hc hi hbc
    rw [emit]
    dsimp only
    unfold LetterAt
    generalize runeClass T o r = k at hk hrl ⊢
    have hni : isIsolate (nextScrap cur k n) = false ∧ rulesW1to3 k cur ≠ cAL := by
      have hi' := hi
      simp only [List.mem_cons, List.not_mem_nil, or_false, not_or] at hk
      simp only [isIsolate, Bool.or_eq_false_iff, beq_eq_false_iff_ne] at hi' ⊢
      show (((rulesW1to3 k cur ≠ cLRI ∧ rulesW1to3 k cur ≠ cRLI) ∧ rulesW1to3 k cur ≠ cFSI) ∧ rulesW1to3 k cur ≠ cPDI) ∧ rulesW1to3 k cur ≠ cAL
      rcases rules_cases k cur with e | ⟨-, e | e⟩ | ⟨-, -, e⟩ | ⟨-, e⟩ | e
      · have : k ≠ cAL := by
          rintro rfl
          exact absurd e (by show cR ≠ cAL; decide)
        rw [e]
        exact ⟨⟨⟨⟨hk.1, hk.2.1⟩, hk.2.2.1⟩, hk.2.2.2⟩, this⟩
      · rw [e]; exact ⟨hi', hal⟩
      · rw [hi] at e; cases e
      · rw [e]; decide
      · rw [e]; decide
      · rw [e]; decide
    by_cases hb : breaks cur k = true
    · rw [if_pos hb, switch_plain hi hni.1]
      dsimp only
      obtain ⟨i1, i2, -, -⟩ := inherit_eq (nextScrap cur k n) cur a hni.1 hi hal
      have icl := inherit_clz (nextScrap cur k n) cur a
      have hnewi : isIsolate (inheritStrongTypes (nextScrap cur k n) cur a) = false := by
        have := hni.1
        unfold isIsolate at this ⊢
        rw [icl]; exact this
      change (inheritStrongTypes (nextScrap cur k n) cur a).l = cur.r at i1
      change (inheritStrongTypes (nextScrap cur k n) cur a).r = cur.r + n at i2
      change (inheritStrongTypes (nextScrap cur k n) cur a).clz = rulesW1to3 k cur at icl
      obtain ⟨⟨r1, r2⟩, r3⟩ := ih (inheritStrongTypes (nextScrap cur k n) cur a) (if k = cAL then some (nextScrap cur k n).l else a) st (lettered c b k) hx' hnewi (by rw [icl]; exact hni.2) (by rw [i1, i2]; omega)
        (fun h => by rw [icl]; exact hrl h)
      rw [i1] at r2
      rw [i1, i2, icl] at r3
      have r4 : (cur.r ≤ p ∧ p < cur.r + n ∧ lettered c b k = true) ∨ LetterAt T o c p (lettered c b k) (cur.r + n) rest → ∃ s ∈ emit T o rest (inheritStrongTypes (nextScrap cur k n) cur a)
          (if k = cAL then some (nextScrap cur k n).l else a) st, s.l ≤ p ∧ p < s.r ∧ s.clz = c := by
        rintro (⟨h1, h2, h3⟩ | h)
        · exact r3 (Or.inl ⟨hrl h3, h1, h2⟩)
        · exact r3 (Or.inr h)
      split
      · rename_i hz
        refine ⟨⟨r1, fun s hs => by have := r2 s hs; omega⟩, ?_⟩
        rintro (⟨h, -⟩ | h)
        · exact absurd (h.symm.trans hz) hcz
        · exact r4 h
      · refine ⟨⟨⟨List.pairwise_cons.mpr ⟨r2, r1.1⟩, ?_⟩, ?_⟩, ?_⟩
        · intro s hs
          rcases List.mem_cons.mp hs with rfl | hs
          · exact hle
          · exact r1.2 s hs
        · intro s hs
          rcases List.mem_cons.mp hs with rfl | hs
          · exact Nat.le_refl _
          · have := r2 s hs; omega
        · rintro (⟨h, h1, h2⟩ | h)
          · exact ⟨cur, by simp, h1, h2, h⟩
          · obtain ⟨s, s1, s2⟩ := r4 h
            exact ⟨s, List.mem_cons_of_mem _ s1, s2⟩
    · rw [if_neg hb]
      have hb' : breaks cur k = false := by simpa using hb
      simp only [breaks, Bool.or_eq_false_iff, decide_eq_false_iff_not, ne_eq, Decidable.not_not] at hb'
      obtain ⟨⟨⟨-, b2⟩, -⟩, -⟩ := hb'
      obtain ⟨r1, r3⟩ := ih (collapse cur (nextScrap cur k n) cur.clz) a st (lettered c b k) hx' hi hal (by show cur.l ≤ cur.r + n; omega) (fun h => b2.trans (hrl h))
      refine ⟨r1, ?_⟩
      change (cur.clz = c ∧ cur.l ≤ p ∧ p < cur.r + n) ∨ LetterAt T o c p (lettered c b k) (cur.r + n) rest → _ at r3
      rintro (⟨h, h1, h2⟩ | ⟨h1, h2, h3⟩ | h)
      · exact r3 (Or.inl ⟨h, h1, by omega⟩)
      · exact r3 (Or.inl ⟨b2.trans (hrl h3), by omega, h2⟩)
      · exact r3 (Or.inr h)

/-- Marks after a letter. -/
theorem letterAt_marks {T : Tables} {o : Options} {c : Class} {y : Char} {post : List Char} {k : Nat} (hk : k < (utf8 [y]).length) (hy : Spec.charClass T o y = cNSM) :
    ∀ (marks : List Char) (off : Nat), (∀ m ∈ marks, Spec.charClass T o m = cNSM) →
    LetterAt T o c (off + ((utf8 marks).length + k)) true off ((marks ++ y :: post).map fun c => (c.toNat, (utf8 [c]).length)) := by
  intro marks
  induction marks with
  | nil =>
    intro off _
    refine Or.inl ⟨Nat.le_add_right .., ?_, ?_⟩
    · show off + (0 + k) < off + (utf8 [y]).length; omega
    · rw [runeClass_char, hy]; simp [lettered]
  | cons m ms ih =>
    intro off hm
    refine Or.inr ?_
    have := ih (off + (utf8 [m]).length) (fun z hz => hm z (List.mem_cons_of_mem _ hz))
    rw [show off + (utf8 [m]).length + ((utf8 ms).length + k) = off + ((utf8 (m :: ms)).length + k) by rw [utf8_len m ms]; omega] at this
    rw [runeClass_char, hm m (List.mem_cons_self ..), show lettered c true cNSM = true by simp [lettered]]
    exact this

theorem letterAt_text {T : Tables} {o : Options} {c : Class} {x : Char} {marks post : List Char} {k : Nat} (hk : k < (utf8 (x :: marks)).length)
    (hx : Spec.charClass T o x = c ∨ (c = cR ∧ Spec.charClass T o x = cAL)) (hm : ∀ m ∈ marks, Spec.charClass T o m = cNSM) : ∀ (pre : List Char) (off : Nat) (b : Bool),
    LetterAt T o c (off + ((utf8 pre).length + k)) b off ((pre ++ x :: (marks ++ post)).map fun c => (c.toNat, (utf8 [c]).length)) := by
  intro pre
  induction pre with
  | nil =>
    intro off b
    have hl : lettered c b (runeClass T o x.toNat) = true := by
      rw [runeClass_char]
      simp only [lettered, Bool.or_eq_true, Bool.and_eq_true, beq_iff_eq]
      exact Or.inl hx
    by_cases h0 : k < (utf8 [x]).length
    · exact Or.inl ⟨Nat.le_add_right .., by show off + (0 + k) < off + (utf8 [x]).length; omega, hl⟩
    · refine Or.inr ?_
      rw [hl]
      obtain ⟨ms, y, qs, k', e1, e2, e3⟩ : ∃ ms y qs k', marks = ms ++ y :: qs ∧ k = (utf8 [x]).length + ((utf8 ms).length + k') ∧ k' < (utf8 [y]).length := by
        rw [utf8_len x marks] at hk
        have : ∀ (marks : List Char) (j : Nat), j < (utf8 marks).length → ∃ ms y qs k', marks = ms ++ y :: qs ∧ j = (utf8 ms).length + k' ∧ k' < (utf8 [y]).length := by
          intro marks
          induction marks with
          | nil => intro j hj; exact absurd hj (Nat.not_lt_zero _)
          | cons m ms ih =>
            intro j hj
            rw [utf8_len m ms] at hj
            by_cases hj0 : j < (utf8 [m]).length
            · exact ⟨[], m, ms, j, rfl, by show j = 0 + j; omega, hj0⟩
            · obtain ⟨a, y, q, k', i1, i2, i3⟩ := ih (j - (utf8 [m]).length) (by omega)
              exact ⟨m :: a, y, q, k', by rw [i1]; rfl, by rw [utf8_len m a]; omega, i3⟩
        obtain ⟨ms, y, qs, k', i1, i2, i3⟩ := this marks (k - (utf8 [x]).length) (by omega)
        exact ⟨ms, y, qs, k', i1, by omega, i3⟩
      subst e1
      have := letterAt_marks (T := T) (o := o) (c := c) (post := qs ++ post) e3 (hm y (by simp)) ms (off + (utf8 [x]).length) (fun m h => hm m (by simp [h]))
      rw [show off + (utf8 [x]).length + ((utf8 ms).length + k') = off + ((utf8 ([] : List Char)).length + k) by
        rw [e2]; show _ = off + (0 + _); omega] at this
      rw [List.append_assoc]
      exact this
  | cons y ys ih =>
    intro off b
    refine Or.inr ?_
    have := ih (off + (utf8 [y]).length) (lettered c b (runeClass T o y.toNat))
    rw [show off + (utf8 [y]).length + ((utf8 ys).length + k) = off + ((utf8 (y :: ys)).length + k) by rw [utf8_len y ys]; omega] at this
    exact this

/-- DirectionAt gives for a byte of a letter the direction of the letter. -/
theorem resolve_letter {T : Tables} {o : Options} (hT : Spec.KnownClasses T) (ho : o.markup = none) (sched : Nat → Nat) (t : List Char)
    (h1 : Spec.NoIsolates (Spec.classes T o (Spec.firstParagraph T o t))) (h2 : NumbersLTR cL (Spec.classes T o (Spec.firstParagraph T o t)))
    {pre marks post : List Char} {x : Char} (he : Spec.firstParagraph T o t = pre ++ x :: (marks ++ post)) {k : Nat} (hk : k < (utf8 (x :: marks)).length)
    (hm : ∀ m ∈ marks, Spec.charClass T o m = cNSM) {c : Class} (hc : c = cL ∨ c = cR) (hx : Spec.charClass T o x = c ∨ (c = cR ∧ Spec.charClass T o x = cAL)) :
    ∃ N p, resolveParagraph T o sched (utf8 t) N = .returns (levelsOf o p.stack, p) ∧
      (levelsOf o p.stack).directionAt ((utf8 pre).length + k) = (if c = cL then .ltr else .rtl) := by
  have hg := good_text hT t False h1 h2 (fun h => h.elim)
  obtain ⟨⟨g1, g2⟩, g3⟩ := emit_letter (T := T) (o := o) (p := (utf8 pre).length + k) hc (paragraph T o (runesOf (utf8 t))) (initialOuterScrap o false) none [] false (by
      intro y hy
      rw [paragraph_text, List.mem_map] at hy
      obtain ⟨z, hz, rfl⟩ := hy
      dsimp only
      rw [runeClass_char]
      exact h1 _ (List.mem_map_of_mem hz)) rfl (by show cNULL ≠ cAL; decide) (Nat.le_refl _) (fun h => by cases h)
  obtain ⟨s0, s1, s2⟩ := g3 (Or.inr (by
    have := letterAt_text (T := T) (o := o) (post := post) hk hx hm pre 0 false
    rw [Nat.zero_add] at this
    rw [paragraph_text, he]
    exact this))
  obtain ⟨fin, f1, f2, f3⟩ := scanner_feeds ho (known_notNull hT) sched (utf8 t)
  have hn : NoIsolates (scrapsOf T o (utf8 t)) := fun s hs => (hg.1 s (by simpa using hs)).2
  obtain ⟨N, p, e1, ⟨-, e2, z, z1, z2, z3, z4⟩, -⟩ := whole (o := o) f1 (letter1_inv (p := (utf8 pre).length + k) hc (good1_inv False 0 (utf8 (Spec.firstParagraph T o t)).length))
    (letter2_inv (p := (utf8 pre).length + k) hc (good2_inv (atRest_brackets T o sched) False 0 (utf8 (Spec.firstParagraph T o t)).length)) ⟨hg, g1, s0, s1, s2⟩ (by
      intro ys hy
      obtain ⟨z, z1, z2⟩ := hy.2.2
      have ho := hy.2.1
      rw [List.append_nil] at ho z1
      refine ⟨good2_start o hy.1, ⟨List.pairwise_cons.mpr ⟨fun y _ => Nat.zero_le _, ho.1⟩, ?_⟩, z, List.mem_cons_of_mem _ z1, z2⟩
      intro s hs
      rcases List.mem_cons.mp hs with rfl | hs
      · exact Nat.le_refl _
      · exact ho.2 s hs) (fun h => by simpa using h.1.2.2) ⟨ended_atRest f2, by
    intro x hx
    rw [f3 hn, List.mem_singleton] at hx
    subst hx
    intro p hp
    exact ⟨Or.inr ((pairUp_openings _ _ _ _ {} ⟨by simp, by simp⟩).2 p hp), trivial⟩⟩
  refine ⟨N, p, e1, ?_⟩
  rw [List.append_nil] at z1 e2
  have hf := orderly_find z2 z3 p.stack e2 z1
  unfold Levels.directionAt levelsOf
  dsimp only
  rw [List.find?_append, hf]
  show directionOf z .ltr = _
  unfold directionOf
  rw [z4]
  rcases hc with rfl | rfl <;> rfl

end Uax.Bidi
