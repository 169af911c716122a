import Verif.BidiIsoShown
import Verif.BidiNestDirections
import Verif.SpecIsoVisual

/-
Where isolates are in the scraps of a text.
-/
namespace Uax.Bidi
open Spec

/-- Where the class changes, a character begins. -/
theorem widen_edge : ∀ (ws : List Nat) (xs : List Class) (p : Nat), ws.length = xs.length → (∀ w ∈ ws, 0 < w) → p < (widen ws xs).length →
    (p = 0 ∨ (widen ws xs)[p - 1]? ≠ (widen ws xs)[p]?) → ∃ i, i < ws.length ∧ p = (ws.take i).sum := by
  intro ws
  induction ws with
  | nil =>
    intro xs p _ _ h
    cases xs <;> simp [widen] at h
  | cons w ws ih =>
    intro xs p hl hw hp h
    cases xs with
    | nil => simp at hl
    | cons x xs =>
      rw [widen_cons] at hp h
      rcases h with h | h
      · exact ⟨0, by simp, by simp [h]⟩
      · by_cases hpw : p < w
        · refine absurd ?_ h
          rw [List.getElem?_append_left (by rw [List.length_replicate]; omega), List.getElem?_append_left (by rw [List.length_replicate]; omega), List.getElem?_replicate,
            List.getElem?_replicate, if_pos (by omega), if_pos hpw]
        · rw [List.length_append, List.length_replicate] at hp
          obtain ⟨i, h1, h2⟩ := ih xs (p - w) (by simpa using hl) (fun v hv => hw v (List.mem_cons_of_mem _ hv)) (by omega) (by
            by_cases he : p = w
            · exact Or.inl (by omega)
            · refine Or.inr ?_
              rw [List.getElem?_append_right (by rw [List.length_replicate]; omega), List.getElem?_append_right (by rw [List.length_replicate]; omega), List.length_replicate] at h
              rw [show p - w - 1 = p - 1 - w by omega]
              exact h)
          refine ⟨i + 1, by rw [List.length_cons]; omega, ?_⟩
          rw [List.take_succ_cons, List.sum_cons, ← h2]
          omega

theorem edge_left {a len : Nat} {ys : List Scrap} (ht : Tiles a len ys) (hp : ∀ s ∈ ys, s.l < s.r) (hk : Linked (fun a b : Scrap => a.clz ≠ b.clz) ys) {y : Scrap} (hy : y ∈ ys) :
    a ≤ y.l ∧ (y.l = a ∨ (a < y.l ∧ (byteClasses ys)[y.l - 1 - a]? ≠ some y.clz)) := by
  obtain ⟨pre, post, rfl⟩ := List.append_of_mem hy
  obtain ⟨m, t1, t2⟩ := tiles_append.mp ht
  have hm : y.l = m := t2.1
  have ham := (inW_tiles (W := []) List.Pairwise.nil _ _ _ t1 (fun s hs => hp s (List.mem_append_left _ hs))).1
  refine ⟨by omega, ?_⟩
  rcases List.eq_nil_or_concat pre with rfl | ⟨pre', u, rfl⟩
  · have : a = m := t1
    exact Or.inl (by omega)
  · rw [List.concat_eq_append] at *
    obtain ⟨m', t3, t4⟩ := tiles_append.mp t1
    have hu : u ∈ pre' ++ [u] ++ y :: post := by simp
    have hul := hp u hu
    have ham' := (inW_tiles (W := []) List.Pairwise.nil _ _ _ t3 (fun s hs => hp s (by simp [hs]))).1
    have h1 : u.l = m' := t4.1
    have h2 : u.r = m := t4.2
    refine Or.inr ⟨by omega, ?_⟩
    rw [(bytes_at _ _ _ (y.l - 1) u ht hp hu (by omega) (by omega)).2.2]
    intro h
    exact (linked_append.mp hk).2.2 u (by simp) y (by simp) (Option.some.inj h)

theorem edge_right {a len : Nat} {ys : List Scrap} (ht : Tiles a len ys) (hp : ∀ s ∈ ys, s.l < s.r) (hk : Linked (fun a b : Scrap => a.clz ≠ b.clz) ys) {y : Scrap} (hy : y ∈ ys) :
    y.r ≤ len ∧ (y.r = len ∨ (byteClasses ys)[y.r - a]? ≠ some y.clz) := by
  obtain ⟨pre, post, rfl⟩ := List.append_of_mem hy
  obtain ⟨m, t1, t2⟩ := tiles_append.mp ht
  have hm : y.l = m := t2.1
  have hpost := (inW_tiles (W := []) List.Pairwise.nil _ _ _ t2.2 (fun s hs => hp s (by simp [hs]))).1
  refine ⟨hpost, ?_⟩
  cases post with
  | nil => exact Or.inl t2.2
  | cons u post =>
    have hu : u ∈ pre ++ y :: u :: post := by simp
    have hul := hp u hu
    have h1 : u.l = y.r := t2.2.1
    refine Or.inr ?_
    rw [(bytes_at _ _ _ y.r u ht hp hu (by omega) (by omega)).2.2]
    intro h
    exact (linked_append.mp hk).2.1.1 (Option.some.inj h).symm

/-! ### Isolates, one after the other -/

/-- The position is in this isolate. -/
def InIso (ch : List Scrap) (q : Nat) : Prop := ∃ a ∈ ch.head?, ∃ b ∈ ch.getLast?, a.l ≤ q ∧ q < b.r

/-- Isolates in their order, from `a` on. -/
def Chain (W : List (Nat × Nat)) : Nat → List (List Scrap) → Prop
  | _, [] => True
  | a, ch :: more => ∃ first mid last P Q, ch = first :: (mid ++ [last]) ∧ IsoOk W first mid last P Q ∧ a ≤ P ∧ (P = 0 → first.clz = cRLI) ∧ Chain W (Q + 1) more

theorem iso_span {W : List (Nat × Nat)} {first last : Scrap} {mid : List Scrap} {P Q : Nat} (h : IsoOk W first mid last P Q) : first.l = P ∧ last.r = Q ∧ P < Q := by
  obtain ⟨-, -, -, -, t, h1, h2, h3, -⟩ := h
  obtain ⟨t1, t2⟩ := t
  obtain ⟨m, t3, t4⟩ := tiles_append.mp t2
  have := (inW_tiles (W := []) List.Pairwise.nil _ _ _ t3 (fun s hs => (h3 s hs).2.1)).1
  have h4 : last.l = m := t4.1
  have h5 : last.r = Q := t4.2
  exact ⟨t1, h5, by omega⟩

theorem chain_weaken {W : List (Nat × Nat)} {a b : Nat} {chs : List (List Scrap)} (h : Chain W a chs) (hb : b ≤ a) : Chain W b chs := by
  cases chs with
  | nil => trivial
  | cons ch more =>
    obtain ⟨first, mid, last, P, Q, e, h1, h2, h3⟩ := h
    exact ⟨first, mid, last, P, Q, e, h1, Nat.le_trans hb h2, h3⟩

theorem chain_left {W : List (Nat × Nat)} : ∀ (c1 c2 : List (List Scrap)) (a : Nat), Chain W a (c1 ++ c2) → Chain W a c1 := by
  intro c1
  induction c1 with
  | nil => intros; trivial
  | cons ch more ih =>
    intro c2 a h
    obtain ⟨first, mid, last, P, Q, e, h1, h2, h3, h4⟩ := h
    exact ⟨first, mid, last, P, Q, e, h1, h2, h3, ih c2 _ h4⟩

theorem chain_right {W : List (Nat × Nat)} : ∀ (c1 c2 : List (List Scrap)) (a : Nat), Chain W a (c1 ++ c2) → Chain W a c2 := by
  intro c1
  induction c1 with
  | nil => intro c2 a h; exact h
  | cons ch more ih =>
    intro c2 a h
    obtain ⟨first, mid, last, P, Q, e, h1, h2, h3, h4⟩ := h
    have := (iso_span h1).2.2
    exact chain_weaken (ih c2 _ h4) (by omega)

/-- All isolates are after the position. -/
theorem chain_after {W : List (Nat × Nat)} : ∀ (chs : List (List Scrap)) (a q : Nat), Chain W a chs → (∃ ch ∈ chs, InIso ch q) → a ≤ q := by
  intro chs
  induction chs with
  | nil => rintro a q _ ⟨ch, h, -⟩; cases h
  | cons ch more ih =>
    rintro a q h ⟨c, hc, hq⟩
    obtain ⟨first, mid, last, P, Q, rfl, h1, h2, h3, h4⟩ := h
    obtain ⟨e1, e2, e3⟩ := iso_span h1
    rw [List.mem_cons] at hc
    rcases hc with rfl | hc
    · obtain ⟨u, hu, v, hv, k1, k2⟩ := hq
      cases hu
      omega
    · have := ih _ q h4 ⟨c, hc, hq⟩
      omega

/-- Isolates in their order are arranged in a scrap. -/
theorem arranged_of_chain {W : List (Nat × Nat)} {len : Nat} : ∀ (chs : List (List Scrap)) (a l r : Nat), Chain W a chs → l ≤ r →
    (∀ ch ∈ chs.head?, ∀ s ∈ ch.head?, l < s.l ∨ (l = 0 ∧ s.l = 0)) → (chs = [] → l < r ∨ r = len) →
    (∀ ch ∈ chs, ∀ s ∈ ch.getLast?, s.r ≤ r ∧ (s.r < r ∨ r = len)) →
    (∀ x ∈ W, l ≤ x.1 → x.1 < r → x.2 = 0 ∨ ∃ ch ∈ chs, InIso ch x.1) → Arranged W len l r chs := by
  intro chs
  induction chs with
  | nil =>
    intro a l r _ h1 _ h3 _ h5
    refine ⟨h1, h3 rfl, fun x hx k1 k2 => ?_⟩
    rcases h5 x hx k1 k2 with k | ⟨ch, k, -⟩
    · exact k
    · cases k
  | cons ch more ih =>
    intro a l r h h1 h2 h3 h4 h5
    obtain ⟨first, mid, last, P, Q, rfl, g1, g2, g3, g4⟩ := h
    obtain ⟨e1, e2, e3⟩ := iso_span g1
    have hlast : (first :: (mid ++ [last])).getLast? = some last := by rw [← List.cons_append, List.getLast?_concat]
    have hQ := h4 _ (List.mem_cons_self ..) last hlast
    have hf := h2 _ rfl first rfl
    refine ⟨first, mid, last, P, Q, rfl, g1, by omega, ?_, ?_, by omega, ih (Q + 1) Q r g4 (by omega) ?_ ?_ ?_ ?_⟩
    · rcases hf with k | ⟨-, k⟩
      · exact Or.inl (by omega)
      · exact Or.inr ⟨by omega, g3 (by omega)⟩
    · intro x hx k1 k2
      rcases h5 x hx k1 (by omega) with k | ⟨c, hc, k⟩
      · exact k
      · rw [List.mem_cons] at hc
        rcases hc with rfl | hc
        · obtain ⟨u, hu, v, hv, k1, k2⟩ := k
          cases hu
          omega
        · have := chain_after more _ _ g4 ⟨c, hc, k⟩
          omega
    · intro c hc s hs
      cases more with
      | nil => cases hc
      | cons c' more =>
        cases hc
        obtain ⟨f', m', l', P', Q', rfl, i1, i2, -⟩ := g4
        cases hs
        have := (iso_span i1).1
        exact Or.inl (by omega)
    · intro _
      rw [e2] at hQ
      exact hQ.2
    · exact fun c hc => h4 c (List.mem_cons_of_mem _ hc)
    · intro x hx k1 k2
      rcases h5 x hx (by omega) k2 with k | ⟨c, hc, k⟩
      · exact Or.inl k
      · rw [List.mem_cons] at hc
        rcases hc with rfl | hc
        · obtain ⟨u, hu, v, hv, k3, k4⟩ := k
          rw [hlast] at hv
          cases hv
          omega
        · exact Or.inr ⟨c, hc, k⟩

/-- The text around an isolate is from left to right. -/
def AroundL (D : List Class) (len : Nat) (ch : List Scrap) : Prop :=
  ∀ a ∈ ch.head?, ∀ b ∈ ch.getLast?, (∀ p, a.l ≤ p → p < b.r → D[p]? = some cL) ∧ (a.l = 0 ∨ D[a.l - 1]? = some cL) ∧ (b.r = len ∨ D[b.r]? = some cL)

theorem outer_ok {W : List (Nat × Nat)} {len : Nat} {ys : List Scrap} (ht : Tiles 0 len ys) (hp : ∀ s ∈ ys, (s.clz = cL ∨ s.clz = cR) ∧ s.l < s.r)
    (hk : Linked (fun a b : Scrap => a.clz ≠ b.clz) ys) (hw : ∀ s ∈ ys, Within s) (hc : Chain W 0 (nestedRuns ys)) (hd : ∀ ch ∈ nestedRuns ys, AroundL (byteClasses ys) len ch)
    (hG : ∀ x ∈ W, (∃ c, (byteClasses ys)[x.1]? = some c ∧ x.2 = Spec.level cL c) ∨ ∃ ch ∈ nestedRuns ys, InIso ch x.1)
    (hst : ∀ p, p < len → (p = 0 ∨ (byteClasses ys)[p - 1]? ≠ (byteClasses ys)[p]?) → ∃ x ∈ W, x.1 = p) : ∀ y ∈ ys, OuterOk W len y := by
  intro y hy
  have hp' : ∀ s ∈ ys, s.l < s.r := fun s hs => (hp s hs).2
  have hyr := hp' y hy
  obtain ⟨-, el⟩ := edge_left ht hp' hk hy
  obtain ⟨er0, er⟩ := edge_right ht hp' hk hy
  have hat : ∀ p, y.l ≤ p → p < y.r → (byteClasses ys)[p]? = some y.clz := by
    intro p k1 k2
    have := (bytes_at _ _ _ p y ht hp' hy k1 k2).2.2
    rwa [Nat.sub_zero] at this
  rw [Nat.sub_zero] at el er
  -- its isolates
  have hch : Chain W 0 y.children := by
    obtain ⟨pre, post, e⟩ := List.append_of_mem hy
    have : nestedRuns ys = nestedRuns pre ++ (y.children ++ nestedRuns post) := by rw [e]; simp [nestedRuns]
    rw [this] at hc
    exact chain_left _ _ _ (chain_right _ _ _ hc)
  have hmem : ∀ ch ∈ y.children, ch ∈ nestedRuns ys := fun ch h => List.mem_flatMap.mpr ⟨y, hy, h⟩
  have hshape : ∀ (chs : List (List Scrap)) (a : Nat), Chain W a chs → ∀ ch ∈ chs, ∃ first mid last P Q, ch = first :: (mid ++ [last]) ∧ IsoOk W first mid last P Q := by
    intro chs
    induction chs with
    | nil => intro a _ ch h; cases h
    | cons c more ih =>
      intro a h ch hc
      obtain ⟨first, mid, last, P, Q, e, h1, -, -, h4⟩ := h
      rw [List.mem_cons] at hc
      rcases hc with rfl | hc
      · exact ⟨first, mid, last, P, Q, e, h1⟩
      · exact ih _ h4 ch hc
  have hin : ∀ s ∈ ys, ∀ ch ∈ s.children, ∀ a ∈ ch.head?, ∀ b ∈ ch.getLast?, s.l ≤ a.l ∧ b.r ≤ s.r ∧ a.l < b.r := by
    intro s hs ch hc' a ha b hb
    obtain ⟨first, mid, last, P, Q, rfl, h1⟩ := hshape _ _ hc ch (List.mem_flatMap.mpr ⟨s, hs, hc'⟩)
    obtain ⟨l, r, h2, h3, h4⟩ := hw s hs _ hc'
    obtain ⟨e1, e2, e3⟩ := iso_span h1
    rw [← List.cons_append, List.getLast?_concat] at hb
    rw [List.head?_cons, Option.mem_def, Option.some.injEq] at ha
    rw [Option.mem_def, Option.some.injEq] at hb
    subst ha
    subst hb
    have h5 : first.l = l := h4.1
    obtain ⟨m, -, h6⟩ := tiles_append.mp h4.2
    have h7 : last.r = r := h6.2
    exact ⟨by omega, by omega, by omega⟩
  have hx : ∀ x ∈ W, y.l ≤ x.1 → x.1 < y.r → x.2 = Spec.level cL y.clz ∨ ∃ ch ∈ y.children, InIso ch x.1 := by
    intro x hx k1 k2
    rcases hG x hx with ⟨c, h1, h2⟩ | ⟨ch, h1, h2⟩
    · rw [hat _ k1 k2] at h1
      cases h1
      exact Or.inl h2
    · obtain ⟨z, hz, hzc⟩ := List.mem_flatMap.mp h1
      obtain ⟨a, ha, b, hb, q1, q2⟩ := h2
      obtain ⟨i1, i2, -⟩ := hin z hz ch hzc a ha b hb
      have : z = y := tiles_unique ht (fun s hs => Nat.le_of_lt (hp' s hs)) hz hy (by omega) (by omega)
      subst this
      exact Or.inr ⟨ch, hzc, a, ha, b, hb, q1, q2⟩
  refine ⟨hyr, hst _ (by omega) ?_, ?_⟩
  · rcases el with k | ⟨k1, k2⟩
    · exact Or.inl k
    · refine Or.inr ?_
      rw [hat y.l (Nat.le_refl _) hyr]
      exact k2
  · rcases (hp y hy).1 with hL | hR
    · refine Or.inl ⟨hL, arranged_of_chain y.children 0 y.l y.r hch (Nat.le_of_lt hyr) ?_ (fun _ => Or.inl hyr) ?_ ?_⟩
      · intro ch h1 s hs
        have hcm := List.mem_of_mem_head? h1
        obtain ⟨first, mid, last, P, Q, rfl, h2⟩ := hshape _ _ hch ch hcm
        have hlast : (first :: (mid ++ [last])).getLast? = some last := by rw [← List.cons_append, List.getLast?_concat]
        obtain ⟨i1, i2, -⟩ := hin y hy _ hcm s hs last hlast
        obtain ⟨-, d2, -⟩ := hd _ (hmem _ hcm) s hs last hlast
        rcases Nat.lt_or_ge y.l s.l with k | k
        · exact Or.inl k
        · have : y.l = s.l := by omega
          rcases d2 with d2 | d2
          · exact Or.inr ⟨by omega, d2⟩
          · rcases el with e | ⟨e1, e2⟩
            · exact Or.inr ⟨e, by omega⟩
            · rw [this, d2, hL] at e2
              exact absurd rfl e2
      · intro ch h1 s hs
        obtain ⟨first, mid, last, P, Q, rfl, h2⟩ := hshape _ _ hch ch h1
        obtain ⟨i1, i2, -⟩ := hin y hy _ h1 first rfl s hs
        obtain ⟨-, -, d3⟩ := hd _ (hmem _ h1) first rfl s hs
        refine ⟨i2, ?_⟩
        rcases Nat.lt_or_ge s.r y.r with k | k
        · exact Or.inl k
        · have : s.r = y.r := by omega
          rcases d3 with d3 | d3
          · exact Or.inr (by omega)
          · rcases er with e | e
            · exact Or.inr e
            · rw [← this, d3, hL] at e
              exact absurd rfl e
      · intro x h1 k1 k2
        have := hx x h1 k1 k2
        rw [hL] at this
        exact this
    · have hno : y.children = [] := by
        cases hcs : y.children with
        | nil => rfl
        | cons ch more =>
          have hcm : ch ∈ y.children := by rw [hcs]; simp
          obtain ⟨first, mid, last, P, Q, rfl, h2⟩ := hshape _ _ hch ch hcm
          have hlast : (first :: (mid ++ [last])).getLast? = some last := by rw [← List.cons_append, List.getLast?_concat]
          obtain ⟨i1, i2, i3⟩ := hin y hy _ hcm first rfl last hlast
          obtain ⟨d1, -⟩ := hd _ (hmem _ hcm) first rfl last hlast
          have := d1 first.l (Nat.le_refl _) i3
          rw [hat first.l i1 (by omega), hR] at this
          exact absurd (Option.some.inj this) (by decide)
      refine Or.inr ⟨hR, hno, fun x h1 k1 k2 => ?_⟩
      rcases hx x h1 k1 k2 with k | ⟨ch, k, -⟩
      · rw [k, hR]; rfl
      · rw [hno] at k; cases k

end Uax.Bidi
