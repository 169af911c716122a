import Verif.BidiLetters
import Verif.BidiPairs

/-
European numbers are read from left to right: a number is joined with others and with its
separators in pass 1, becomes left-to-right text, and stays so in pass 2.
-/
namespace Uax.Bidi

open Spec (Tiles NumbersLTR)

/-- The byte at `p` belongs to a number or to left-to-right text. -/
def NumAt (p : Nat) (pre suf : List Scrap) : Prop := Orderly (pre ++ suf) ∧ ∃ s ∈ pre ++ suf, s.l ≤ p ∧ p < s.r ∧ (s.clz = cEN ∨ s.clz = cL)

/-- Rules of pass 1 make a number of what contains a number. -/
theorem pick1_number {s : Scrap} {t post : List Scrap} {rule : Rule}
    (hp : pick1 s.clz ((t ++ post)[0]?.map (·.clz)) ((t ++ post)[1]?.map (·.clz)) = some rule) (hne : rule ≠ .W7)
    (hl : rule.lhsLen = (s :: t).length) : ∀ x ∈ s :: t, x.clz = cEN → target rule = cEN := by
  intro x hx hxe
  have hnc : target rule = cEN ∨ (rule = .W4_3 ∨ rule = .W6_1 ∨ rule = .W6_2 ∨ rule = .W6_3 ∨ rule = .W6x) := by
    unfold pick1 at hp
    repeat' split at hp
    all_goals first
      | (cases hp; done)
      | (injection hp with hp; subst hp; exact (hne rfl).elim)
      | (injection hp with hp; subst hp; simp [target])
  rcases hnc with h | h
  · exact h
  · exfalso
    have hlhs : rule.lhs = (s :: t).map (·.clz) := by
      unfold pick1 at hp
      match t, hl with
      | [], hl =>
        repeat' split at hp
        all_goals first
          | (cases hp; done)
          | (injection hp with hp; subst hp; simp at h; done)
          | (injection hp with hp; subst hp; simp [Rule.lhsLen, Rule.lhs] at hl; done)
          | (injection hp with hp; subst hp; simp [Rule.lhs, *])
      | [y], hl =>
        simp only [List.cons_append, List.nil_append, List.getElem?_cons_zero, List.getElem?_cons_succ, Option.map_some, Option.some.injEq] at hp
        repeat' split at hp
        all_goals first
          | (cases hp; done)
          | (injection hp with hp; subst hp; simp at h; done)
          | (injection hp with hp; subst hp; simp [Rule.lhsLen, Rule.lhs] at hl; done)
          | (injection hp with hp; subst hp; simp [Rule.lhs, *])
      | [y, z], hl =>
        simp only [List.cons_append, List.nil_append, List.getElem?_cons_zero, List.getElem?_cons_succ, Option.map_some, Option.some.injEq] at hp
        repeat' split at hp
        all_goals first
          | (cases hp; done)
          | (injection hp with hp; subst hp; simp at h; done)
          | (injection hp with hp; subst hp; simp [Rule.lhsLen, Rule.lhs] at hl; done)
          | (injection hp with hp; subst hp; simp [Rule.lhs, *])
      | y :: z :: w :: t', hl =>
        exfalso
        have : rule.lhsLen ≤ 3 := by cases rule <;> decide
        rw [hl] at this
        simp at this
    have hm : cEN ∈ rule.lhs := by rw [hlhs, ← hxe]; exact List.mem_map_of_mem hx
    rcases h with rfl | rfl | rfl | rfl | rfl <;> exact absurd hm (by decide)

theorem fuse_covers {s x : Scrap} {t : List Scrap} {d : Class} (h : Orderly (s :: t)) (hx : x ∈ s :: t) : (fuse d (s :: t)).l ≤ x.l ∧ x.r ≤ (fuse d (s :: t)).r := by
  show s.l ≤ x.l ∧ x.r ≤ ((s :: t).getLast?.getD s).r
  have hs := h.2 s (by simp)
  have hp := List.pairwise_cons.mp h.1
  refine ⟨?_, ?_⟩
  · rcases List.mem_cons.mp hx with rfl | hx
    · exact Nat.le_refl _
    · have := hp.1 x hx; omega
  · rw [List.getLast?_eq_some_getLast (List.cons_ne_nil s t), Option.getD_some]
    have e := List.dropLast_concat_getLast (List.cons_ne_nil s t)
    have hz := h.2 _ (List.getLast_mem (List.cons_ne_nil s t))
    have hq := h.1
    generalize (s :: t).getLast (List.cons_ne_nil s t) = z at *
    rw [← e] at hx hq
    rcases List.mem_append.mp hx with hx | hx
    · have := (List.pairwise_append.mp hq).2.2 x hx z (by simp); omega
    · rw [List.mem_singleton.mp hx]; exact Nat.le_refl _

theorem orderly_part {pre m post : List Scrap} (h : Orderly (pre ++ (m ++ post))) : Orderly m :=
  ⟨(List.pairwise_append.mp (List.pairwise_append.mp h.1).2.1).1, fun s hs => h.2 s (by simp [hs])⟩

theorem number1_inv {p : Nat} {P : List Scrap → List Scrap → Prop} (hP : Inv1 P) : Inv1 (fun pre suf => P pre suf ∧ NumAt p pre suf) where
  known h := hP.known h.1
  closed h := hP.closed h.1
  number h := hP.number h.1
  walk h hp := ⟨hP.walk h.1 hp, by simpa [NumAt] using h.2⟩
  back h := ⟨hP.back h.1, by simpa [NumAt] using h.2⟩
  fuse := by
    intro pre s t post rule h hp hne hl
    refine ⟨hP.fuse h.1 hp hne hl, orderly_fuse h.2.1, ?_⟩
    obtain ⟨x, hx, x1, x2, x3⟩ := h.2.2
    rw [List.mem_append, List.mem_append] at hx
    rcases hx with hx | hx | hx
    · exact ⟨x, by simp [hx], x1, x2, x3⟩
    · have he : x.clz = cEN := x3.resolve_right (pick1_weak hp hne hl x hx).1
      have hc := fuse_covers (d := target rule) (orderly_part h.2.1) hx
      exact ⟨fuse (target rule) (s :: t), by simp, by omega, by omega, Or.inl (pick1_number hp hne hl x hx he)⟩
    · exact ⟨x, by simp [hx], x1, x2, x3⟩
  w7 := by
    intro pre s t h he ht
    refine ⟨hP.w7 h.1 he ht, orderly_class h.2.1, ?_⟩
    obtain ⟨x, hx, x1, x2, x3⟩ := h.2.2
    rw [List.mem_append, List.mem_cons] at hx
    rcases hx with hx | rfl | hx
    · exact ⟨x, by simp [hx], x1, x2, x3⟩
    · exact ⟨{ x with clz := cL }, by simp, x1, x2, Or.inr rfl⟩
    · exact ⟨x, by simp [hx], x1, x2, x3⟩

/-- What W1 to W3 do to numbers which do not come after Arabic letters. -/
theorem weak_number : ∀ (cs : List Class) (a b : Class) (i : Nat), cs[i]? = some cEN → a ≠ cAL → b ≠ cAL → cAL ∉ cs.take i →
    ((Spec.w3 (Spec.w2 a (Spec.w1 b cs))).map Spec.oneNeutral)[i]? = some cEN := by
  intro cs
  induction cs with
  | nil => intro a b i h; simp at h
  | cons x xs ih =>
    intro a b i h ha hb hn
    cases i with
    | zero =>
      simp only [List.getElem?_cons_zero, Option.some.injEq] at h
      subst h
      show some (Spec.oneNeutral (if (if cEN = cEN ∧ a = cAL then cAN else cEN) = cAL then cR else (if cEN = cEN ∧ a = cAL then cAN else cEN))) = some cEN
      have e : (if cEN = cEN ∧ a = cAL then cAN else cEN) = cEN := if_neg (fun hh => ha hh.2)
      rw [e]
      rfl
    | succ i =>
      simp only [List.getElem?_cons_succ] at h
      rw [List.take_succ_cons, List.mem_cons, not_or] at hn
      have hx : (if x = cNSM then (if b ∈ [cLRI, cRLI, cFSI, cPDI] then cON else b) else x) ≠ cAL := by
        split
        · split
          · decide
          · exact hb
        · exact fun hh => hn.1 hh.symm
      refine ih _ _ i h ?_ hx hn.2
      have key : ∀ y : Class, y ≠ cAL → Spec.strongAfter a y ≠ cAL := by
        intro y hy
        unfold Spec.strongAfter
        split
        · exact hy
        · exact ha
      exact key _ hx

theorem strong_length : ∀ (cs : List Class) (a b : Class), (Spec.w2 a (Spec.w1 b cs)).length = cs.length
  | [], _, _ => rfl
  | _ :: cs, _, _ => congrArg (· + 1) (strong_length cs _ _)

theorem tiles_orderly : ∀ (ss : List Scrap) (l r : Nat), Tiles l r ss → (∀ s ∈ ss, s.l < s.r) → Orderly ss ∧ ∀ s ∈ ss, l ≤ s.l := by
  intro ss
  induction ss with
  | nil => intro l r _ _; exact ⟨⟨.nil, by simp⟩, by simp⟩
  | cons x xs ih =>
    intro l r ht hp
    have hx := hp x (by simp)
    have e := ht.1
    obtain ⟨⟨i1, i2⟩, i3⟩ := ih _ _ ht.2 (fun s hs => hp s (by simp [hs]))
    refine ⟨⟨List.pairwise_cons.mpr ⟨i3, i1⟩, ?_⟩, ?_⟩
    · intro s hs
      rcases List.mem_cons.mp hs with rfl | hs
      · omega
      · exact i2 s hs
    · intro s hs
      rcases List.mem_cons.mp hs with rfl | hs
      · omega
      · have := i3 s hs; omega

/-- DirectionAt gives left-to-right for a byte of a number. -/
theorem resolve_number {T : Tables} {o : Options} (hT : Spec.KnownClasses T) (ho : o.markup = none) (sched : Nat → Nat) (t : List Char)
    (h1 : Spec.NoIsolates (Spec.classes T o (Spec.firstParagraph T o t))) (h2 : NumbersLTR cL (Spec.classes T o (Spec.firstParagraph T o t)))
    (h3 : cAN ∉ Spec.classes T o (Spec.firstParagraph T o t)) (h4 : (Spec.classes T o (Spec.firstParagraph T o t)).head? ≠ some cNSM)
    {pre post : List Char} {x : Char} (he : Spec.firstParagraph T o t = pre ++ x :: post) {k : Nat} (hk : k < (utf8 [x]).length)
    (hx : Spec.charClass T o x = cEN) :
    ∃ N p, resolveParagraph T o sched (utf8 t) N = .returns (levelsOf o p.stack, p) ∧ (levelsOf o p.stack).directionAt ((utf8 pre).length + k) = .ltr := by
  have hg := good_text hT t True h1 h2 (fun _ => ⟨h3, h4⟩)
  have hal : Spec.NoALBeforeEN (Spec.classes T o (Spec.firstParagraph T o t)) := fun pre post h => (h2 pre post h).2
  obtain ⟨hb, htl⟩ := scraps_bytes hT t h1 h4 hal cL (Or.inl rfl)
  have hlen : ((Spec.w3 (Spec.w2 cL (Spec.w1 cL (Spec.classes T o (Spec.firstParagraph T o t))))).map Spec.oneNeutral).length = (Spec.firstParagraph T o t).length := by
    rw [List.length_map]
    unfold Spec.w3
    rw [List.length_map, strong_length]
    unfold Spec.classes
    rw [List.length_map]
  have hpos : ∀ s ∈ scrapsOf T o (utf8 t), s.l < s.r := by
    intro s hs
    have := hg.1 s (by simpa using hs)
    rcases (this.1.2.2.2 trivial).2 with h | h
    · rw [this.2] at h; cases h.1
    · exact h
  obtain ⟨s0, s1, s2, s3, -, s5⟩ := scrap_at hlen hb htl hpos he hk
  have hcl : Spec.classes T o (Spec.firstParagraph T o t) = Spec.classes T o pre ++ cEN :: Spec.classes T o post := by
    unfold Spec.classes
    rw [he, List.map_append, List.map_cons, hx]
  have s6 := weak_number (Spec.classes T o (Spec.firstParagraph T o t)) cL cL pre.length (by rw [hcl]; simp [Spec.classes]) (by decide) (by decide) (by
    rw [hcl, show pre.length = (Spec.classes T o pre).length by simp [Spec.classes], List.take_left]
    exact hal _ _ hcl)
  rw [s6, Option.some.injEq] at s5
  obtain ⟨fin, f1, f2, f3⟩ := scanner_feeds ho (known_notNull hT) sched (utf8 t)
  have hn : NoIsolates (scrapsOf T o (utf8 t)) := fun s hs => (hg.1 s (by simpa using hs)).2
  obtain ⟨N, p, e1, ⟨-, e2, z, z1, z2, z3, z4⟩, -⟩ := whole (o := o) f1 (number1_inv (p := (utf8 pre).length + k) (good1_inv True 0 (utf8 (Spec.firstParagraph T o t)).length))
    (letter2_inv (p := (utf8 pre).length + k) (Or.inl rfl) (good2_inv (atRest_brackets T o sched) True 0 (utf8 (Spec.firstParagraph T o t)).length))
    ⟨hg, (tiles_orderly _ _ _ htl hpos).1, s0, s1, s2, s3, Or.inl s5.symm⟩ (by
      intro ys hy
      obtain ⟨z, z1, z2, z3, z4⟩ := hy.2.2
      have ho := hy.2.1
      rw [List.append_nil] at ho z1
      have hw := hy.1.2.2.2 z z1
      have zl : z.clz = cL := z4.resolve_left (fun h => by simp [weakClass, h] at hw)
      refine ⟨good2_start o hy.1, ⟨List.pairwise_cons.mpr ⟨fun y _ => Nat.zero_le _, ho.1⟩, ?_⟩, z, List.mem_cons_of_mem _ z1, z2, z3, zl⟩
      intro s hs
      rcases List.mem_cons.mp hs with rfl | hs
      · exact Nat.le_refl _
      · exact ho.2 s hs) (fun h => by simpa using h.1.2.2) ⟨ended_atRest f2, by
    intro x hx
    rw [f3 hn, List.mem_singleton] at hx
    subst hx
    intro p hp
    exact ⟨Or.inr ((pairUp_openings _ _ _ _ {} ⟨by simp, by simp⟩).2 p hp), trivial⟩⟩
  refine ⟨N, p, e1, ?_⟩
  rw [List.append_nil] at z1 e2
  unfold Levels.directionAt levelsOf
  dsimp only
  rw [List.find?_append, orderly_find z2 z3 p.stack e2 z1]
  show directionOf z .ltr = _
  unfold directionOf
  rw [z4]
  rfl

end Uax.Bidi
