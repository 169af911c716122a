import Verif.BidiPass2
import Verif.BidiConform

/-
Pass 2 leaves no two neighbours which are both L or both R.
-/
namespace Uax.Bidi

/-- Not both L and not both R. -/
def Differ (a b : Scrap) : Prop := ¬ (a.clz = b.clz ∧ (a.clz = cL ∨ a.clz = cR))

/-- Among the scraps which have been passed, and the next one, no neighbours are both L or both R. -/
def Unlike (pre suf : List Scrap) : Prop := Linked Differ (pre ++ suf.take 1)

theorem unlike_left {pre suf : List Scrap} (h : Unlike pre suf) : Linked Differ pre := (linked_append.mp h).1

theorem unlike_next {pre suf : List Scrap} (h : Linked Differ pre) (hn : ∀ x ∈ pre.getLast?, ∀ y ∈ suf.head?, Differ x y) : Unlike pre suf :=
  linked_append.mpr ⟨h, by rcases suf with _ | ⟨a, t⟩ <;> trivial, fun x hx y hy => hn x hx y (by cases suf <;> simpa using hy)⟩

theorem unlike_head {pre t t' : List Scrap} {s x : Scrap} (h : Unlike pre (s :: t)) (hx : x.clz = s.clz) : Unlike pre (x :: t') := by
  refine unlike_next (unlike_left h) fun a ha b hb => ?_
  rw [List.head?_cons, Option.mem_def, Option.some.injEq] at hb
  subst hb
  have := (linked_append.mp h).2.2 a ha s (by simp)
  unfold Differ at this ⊢
  rw [hx]
  exact this

/-- The next one has a class of its own kind. -/
theorem unlike_on {pre t : List Scrap} {s : Scrap} (h : Linked Differ (pre ++ [s])) (hs : s.clz ≠ cL ∧ s.clz ≠ cR) : Unlike (pre ++ [s]) t := by
  refine unlike_next h fun a ha b hb hd => ?_
  rw [List.getLast?_append, List.getLast?_singleton, Option.some_or, Option.mem_def, Option.some.injEq] at ha
  subst ha
  exact hd.2.elim hs.1 hs.2

/-- After going back. -/
theorem unlike_backs {pre : List Scrap} (h : Linked Differ pre) (b : Nat) (hb : 0 < b) (s : Scrap) (t : List Scrap) :
    Unlike (pre.take (pre.length - min b pre.length)) (pre.drop (pre.length - min b pre.length) ++ s :: t) := by
  by_cases h0 : pre = []
  · subst h0
    simp [Unlike, Linked]
  · have hpos : 0 < pre.length := List.length_pos_iff.mpr h0
    generalize hm : pre.length - min b pre.length = m
    have hm' : m < pre.length := by omega
    have e : pre = pre.take m ++ ([pre[m]] ++ pre.drop (m + 1)) := by
      rw [List.singleton_append, ← List.drop_eq_getElem_cons hm', List.take_append_drop]
    rw [e, ← List.append_assoc, linked_append] at h
    unfold Unlike
    rw [List.drop_eq_getElem_cons hm', List.cons_append, List.take_succ_cons, List.take_zero]
    exact h.1

theorem Inv2B.unlike {σ : Type} {E : Env σ} {J : List Scrap → List Scrap → σ → Prop} (hQ : Inv2B E J) :
    Inv2B E (fun pre suf env => J pre suf env ∧ Unlike pre suf) where
  known h := hQ.known h.1
  closed h := hQ.closed h.1
  emb h := hQ.emb h.1
  walk := by
    intro pre s t env h hb hp
    refine ⟨hQ.walk h.1 hb hp, unlike_next h.2 fun a ha b hb' hd => ?_⟩
    rw [List.getLast?_append, List.getLast?_singleton, Option.some_or, Option.mem_def, Option.some.injEq] at ha
    subst ha
    cases t with
    | nil => cases hb'
    | cons z zs =>
      rw [List.head?_cons, Option.mem_def, Option.some.injEq] at hb'
      subst hb'
      rw [List.getElem?_cons_zero, Option.map_some, ← hd.1] at hp
      rcases hd.2 with k | k <;> rw [k] at hp
      · exact absurd hp (by simp [pick2, cL, cNI])
      · exact absurd hp (by simp [pick2, cR, cL, cNI])
  back := by
    intro pre x suf env h
    refine ⟨hQ.back h.1, ?_⟩
    unfold Unlike
    rw [List.take_succ_cons, List.take_zero]
    exact unlike_left h.2
  n1 h hc ha hb hd := ⟨hQ.n1 h.1 hc ha hb hd, unlike_head h.2 ha.symm⟩
  same h hc ha hb := ⟨hQ.same h.1 hc ha hb, unlike_head h.2 ha.symm⟩
  absorb := by
    intro pre a b d post env h ha hb hd
    refine ⟨hQ.absorb h.1 ha hb hd, unlike_next h.2 fun x hx y hy hd => ?_⟩
    rw [List.head?_cons, Option.mem_def, Option.some.injEq] at hy
    subst hy
    rcases hd with ⟨e, e' | e'⟩
    · exact absurd (e.symm.trans e') (by decide : cAN ≠ cL)
    · exact absurd (e.symm.trans e') (by decide : cAN ≠ cR)
  n2 := by
    intro pre s t env h hs
    obtain ⟨h1, h2⟩ := hQ.n2 h.1 hs
    refine ⟨fun e => ⟨h1 e, by subst e; exact (trivial : Linked Differ [_])⟩, fun pre' x e => ⟨h2 pre' x e, ?_⟩⟩
    subst e
    unfold Unlike
    rw [List.take_succ_cons, List.take_zero]
    exact unlike_left h.2
  skip h hs hp := ⟨hQ.skip h.1 hs hp, unlike_on h.2 ⟨by rw [hs]; decide, by rw [hs]; decide⟩⟩
  opening := by
    intro pre s t env pr h hs hp b hb
    have hpos : 0 < b := by
      unfold openingClass at hb
      split at hb
      · simp at hb; omega
      · split at hb
        · split at hb <;> (simp at hb; omega)
        · simp at hb; omega
    exact ⟨hQ.opening h.1 hs hp b hb, unlike_backs (unlike_left h.2) b hpos _ _⟩
  closing := by
    intro pre s t env pr h hs hp
    exact ⟨fun hn => ⟨(hQ.closing h.1 hs hp).1 hn, unlike_backs (unlike_left h.2) 2 (by omega) _ _⟩, (hQ.closing h.1 hs hp).2⟩
  neutral := by
    intro pre s t env pr h hs hp hni
    exact ⟨hQ.neutral h.1 hs hp hni, unlike_on (by
      have := unlike_left h.2
      refine linked_append.mpr ⟨this, trivial, fun x hx y hy hd => ?_⟩
      rw [List.head?_cons, Option.mem_def, Option.some.injEq] at hy
      subst hy
      rcases hd with ⟨e, e' | e'⟩
      · exact absurd (e.symm.trans e') (by decide : cNI ≠ cL)
      · exact absurd (e.symm.trans e') (by decide : cNI ≠ cR)) (by show cNI ≠ cL ∧ cNI ≠ cR; decide)⟩
  alone := by
    intro pre s t env h hs hp
    exact ⟨hQ.alone h.1 hs hp, unlike_on (by
      have := unlike_left h.2
      refine linked_append.mpr ⟨this, trivial, fun x hx y hy hd => ?_⟩
      rw [List.head?_cons, Option.mem_def, Option.some.injEq] at hy
      subst hy
      rcases hd with ⟨e, e' | e'⟩
      · exact absurd (e.symm.trans e') (by decide : cNI ≠ cL)
      · exact absurd (e.symm.trans e') (by decide : cNI ≠ cR)) (by show cNI ≠ cL ∧ cNI ≠ cR; decide)⟩

theorem Inv2.unlike {σ : Type} {E : Env σ} {Q : List Scrap → List Scrap → Prop} {G : σ → Prop} (hQ : Inv2 E Q G) :
    Inv2B E (fun pre suf env => (Q pre suf ∧ G env) ∧ Unlike pre suf) := hQ.joint.weak.unlike

end Uax.Bidi
