import Verif.BidiVisual
import Verif.SpecNested

/-
Rule L2 for texts with isolates.
-/
namespace Uax.Bidi
open Spec

theorem flip_cut {α : Type} (p : α → Bool) : ∀ (a acc b : List α), (∀ x ∈ b.head?, p x = false) → flipBlocks p acc (a ++ b) = flipBlocks p acc a ++ flipBlocks p [] b := by
  intro a
  induction a with
  | nil =>
    intro acc b h
    cases b with
    | nil => simp [flipBlocks]
    | cons x b =>
      have := h x rfl
      simp [flipBlocks, this]
  | cons x a ih =>
    intro acc b h
    rw [List.cons_append, flipBlocks, flipBlocks]
    split
    · exact ih _ b h
    · rw [ih _ b h, List.append_assoc, List.cons_append]

theorem flip_cut' {α : Type} (p : α → Bool) (b : List α) : ∀ (a acc : List α), a ≠ [] → (∀ x ∈ a.getLast?, p x = false) →
    flipBlocks p acc (a ++ b) = flipBlocks p acc a ++ flipBlocks p [] b := by
  intro a
  induction a with
  | nil => intro _ h; exact absurd rfl h
  | cons x a ih =>
    intro acc _ h
    rw [List.cons_append, flipBlocks, flipBlocks]
    by_cases ha : a = []
    · subst ha
      rw [h x rfl]
      simp [flipBlocks]
    · have h' : ∀ y ∈ a.getLast?, p y = false := by
        intro y hy
        refine h y ?_
        rw [List.getLast?_cons, Option.mem_def, ← Option.mem_def.mp hy]
        cases hq : a.getLast? with
        | none => rw [hq] at hy; cases hy
        | some z => rfl
      split
      · exact ih _ ha h'
      · rw [ih _ ha h', List.append_assoc, List.cons_append]

theorem flip_head {α : Type} (p : α → Bool) (b : List α) (h : ∀ x ∈ b.head?, p x = false) : (flipBlocks p [] b).head? = b.head? := by
  cases b with
  | nil => rfl
  | cons x b => rw [flipBlocks, h x rfl]; rfl

theorem flip_last {α : Type} (p : α → Bool) (a : List α) (h : ∀ x ∈ a.getLast?, p x = false) : (flipBlocks p [] a).getLast? = a.getLast? := by
  rcases List.eq_nil_or_concat a with rfl | ⟨a, x, rfl⟩
  · rfl
  · rw [List.concat_eq_append] at *
    have hx : p x = false := h x (by simp)
    rw [flip_cut p a [] [x] (by simpa using hx)]
    simp [flipBlocks, hx]

/-- Elements at level 0 divide a text. -/
theorem from_cut {α : Type} : ∀ (k : Nat) (a b : List (α × Nat)), (∀ x ∈ b.head?, x.2 = 0) ∨ (∀ x ∈ a.getLast?, x.2 = 0) →
    reverseFrom k (a ++ b) = reverseFrom k a ++ reverseFrom k b := by
  intro k
  induction k with
  | zero => intros; rfl
  | succ k ih =>
    intro a b h
    rw [reverseFrom, reverseFrom, reverseFrom]
    have hp : ∀ x : α × Nat, x.2 = 0 → decide (k + 1 ≤ x.2) = false := by intro x h; simp [h]
    rcases h with h | h
    · unfold reverseAbove
      rw [flip_cut _ a [] b (fun x hx => hp x (h x hx))]
      refine ih _ _ (Or.inl ?_)
      rw [flip_head _ b (fun x hx => hp x (h x hx))]
      exact h
    · by_cases ha : a = []
      · subst ha
        rw [List.nil_append]
        exact (ih [] _ (Or.inr (fun x hx => by cases hx)))
      unfold reverseAbove
      rw [flip_cut' _ b a [] ha (fun x hx => hp x (h x hx))]
      refine ih _ _ (Or.inr ?_)
      rw [flip_last _ a (fun x hx => hp x (h x hx))]
      exact h

theorem from_low {α : Type} : ∀ (k : Nat) (l : List (α × Nat)), (∀ x ∈ l, x.2 = 0) → reverseFrom k l = l := by
  intro k
  induction k with
  | zero => intros; rfl
  | succ k ih =>
    intro l h
    rw [reverseFrom, above_low _ _ (fun x hx => by rw [h x hx]; omega)]
    exact ih l h

theorem from_one {α : Type} (l : List (α × Nat)) (h : ∀ x ∈ l, x.2 = 1) : reverseFrom 3 l = l.reverse := by
  rw [reverseFrom, reverseFrom, reverseFrom, reverseFrom, above_low 3 _ (fun x hx => by rw [h x hx]; omega), above_low 2 _ (fun x hx => by rw [h x hx]; omega),
    above_all 1 _ (fun x hx => by rw [h x hx]; omega)]

/-- Levels up to 3. -/
theorem visualOrder_three {α : Type} (l : List (α × Nat)) (h : ∀ x ∈ l, x.2 ≤ 3) : visualOrder l = (reverseFrom 3 l).map (·.1) := by
  unfold visualOrder
  have hm : ∀ x ∈ l, x.2 ≤ (l.map (·.2)).foldr max 0 := fun x hx => foldr_max _ _ (List.mem_map_of_mem hx)
  have hle : (l.map (·.2)).foldr max 0 ≤ 3 := foldr_max_le _ _ (by
    intro x hx
    rw [List.mem_map] at hx
    obtain ⟨y, hy, rfl⟩ := hx
    exact h y hy)
  have := reverseFrom_high l _ hm (3 - (l.map (·.2)).foldr max 0)
  rw [Nat.add_sub_cancel' hle] at this
  rw [← this]

/-! ### Text with isolates -/

/-- The elements in an interval. -/
def inW (W : List (Nat × Nat)) (l r : Nat) : List (Nat × Nat) := W.filter fun x => decide (l ≤ x.1 ∧ x.1 < r)

theorem mem_inW {W : List (Nat × Nat)} {l r : Nat} {x : Nat × Nat} : x ∈ inW W l r ↔ x ∈ W ∧ l ≤ x.1 ∧ x.1 < r := by
  unfold inW
  rw [List.mem_filter, decide_eq_true_eq]

theorem inW_cut {W : List (Nat × Nat)} (hs : W.Pairwise fun a b => a.1 < b.1) {l m r : Nat} (h1 : l ≤ m) (h2 : m ≤ r) : inW W l r = inW W l m ++ inW W m r := by
  induction W with
  | nil => rfl
  | cons x W ih =>
    rw [List.pairwise_cons] at hs
    have ih := ih hs.2
    unfold inW at ih ⊢
    rw [List.filter_cons, List.filter_cons, List.filter_cons, ih]
    by_cases c1 : l ≤ x.1 ∧ x.1 < m
    · rw [if_pos (by simp; omega), if_pos (by simpa using c1), if_neg (by simp; omega)]; rfl
    · by_cases c2 : m ≤ x.1 ∧ x.1 < r
      · have h0 : W.filter (fun x => decide (l ≤ x.1 ∧ x.1 < m)) = [] := by
          rw [List.filter_eq_nil_iff]
          intro y hy
          have := hs.1 y hy
          simp; omega
        rw [if_pos (by simp; omega), if_neg (by simpa using c1), if_pos (by simpa using c2), h0]; rfl
      · rw [if_neg (by simp; omega), if_neg (by simpa using c1), if_neg (by simpa using c2)]

theorem inW_empty (W : List (Nat × Nat)) (l : Nat) : inW W l l = [] := by
  unfold inW
  rw [List.filter_eq_nil_iff]
  intro x _
  simp

theorem inW_fst (W : List (Nat × Nat)) (l r : Nat) : (inW W l r).map (·.1) = within l r (W.map (·.1)) := by
  unfold inW within
  rw [List.filter_map]
  rfl

/-- The level of text in an isolate in a left-to-right paragraph. -/
def isoLevel (c d : Class) : Nat := if c = cRLI then (if d = cR then 1 else 2) else (if d = cR then 3 else 2)

/-- What is shown for scraps of classes L and R. -/
def seg (st : List Nat) (s : Scrap) : List Nat := shownSegment st (if s.clz = cL then .ltr else .rtl) s

def midShown (st : List Nat) (c : Class) (mid : List Scrap) : List Nat := if c = cRLI then mid.reverse.flatMap (seg st) else mid.flatMap (seg st)

/-- An isolate from `a` to `z`. -/
def IsoOk (W : List (Nat × Nat)) (first : Scrap) (mid : List Scrap) (last : Scrap) (a z : Nat) : Prop :=
  (first.clz = cLRI ∨ first.clz = cRLI) ∧ first.children = [] ∧ last.clz = cPDI ∧ last.children = [] ∧
  Tiles a z (first :: (mid ++ [last])) ∧ first.l < first.r ∧ last.l < last.r ∧
  (∀ m ∈ mid, (m.clz = cL ∨ m.clz = cR) ∧ m.l < m.r ∧ m.children = [] ∧ (∃ x ∈ W, x.1 = m.l) ∧ ∀ x ∈ W, m.l ≤ x.1 → x.1 < m.r → x.2 = isoLevel first.clz m.clz) ∧
  Linked (fun a b : Scrap => a.clz ≠ b.clz) mid ∧ inW W first.l first.r = [(first.l, 0)] ∧ inW W last.l last.r = [(last.l, 0)]

/-- The isolates in a scrap of class L. -/
def Arranged (W : List (Nat × Nat)) (len : Nat) : Nat → Nat → List (List Scrap) → Prop
  | l, r, [] => l ≤ r ∧ (l < r ∨ r = len) ∧ ∀ x ∈ W, l ≤ x.1 → x.1 < r → x.2 = 0
  | l, r, ch :: more => ∃ first mid last a z, ch = first :: (mid ++ [last]) ∧ IsoOk W first mid last a z ∧ l ≤ a ∧ (l < a ∨ (a = 0 ∧ first.clz = cRLI)) ∧
      (∀ x ∈ W, l ≤ x.1 → x.1 < a → x.2 = 0) ∧ z ≤ r ∧ Arranged W len z r more

/-- What is shown for such a scrap. -/
def shownIn (st : List Nat) (l r : Nat) : List (List Scrap) → List Nat
  | [] => within l r st
  | [] :: more => shownIn st l r more
  | (first :: rest) :: more =>
    within l first.l st ++ (first.l :: midShown st first.clz rest.dropLast ++ [(rest.getLast?.getD {}).l]) ++ shownIn st (rest.getLast?.getD {}).r r more

theorem linked_class {ys : List Scrap} (h : Linked (fun a b : Scrap => a.clz ≠ b.clz) ys) (c : Class) :
    Linked (fun a b : Scrap => ¬ (decide (a.clz = c) = true ∧ decide (b.clz = c) = true)) ys := by
  have := linked_map (R := fun a b : Scrap => a.clz ≠ b.clz) (S := fun a b : Scrap => ¬ (decide (a.clz = c) = true ∧ decide (b.clz = c) = true)) id
    (fun x y h hh => by simp only [decide_eq_true_eq] at hh; exact h (hh.1.trans hh.2.symm)) ys h
  rwa [List.map_id] at this

theorem inW_tiles {W : List (Nat × Nat)} (hs : W.Pairwise fun a b => a.1 < b.1) : ∀ (ys : List Scrap) (a b : Nat), Tiles a b ys → (∀ s ∈ ys, s.l < s.r) →
    a ≤ b ∧ inW W a b = ys.flatMap fun y => inW W y.l y.r := by
  intro ys
  induction ys with
  | nil => intro a b h _; have h : a = b := h; subst h; exact ⟨Nat.le_refl _, inW_empty W a⟩
  | cons y ys ih =>
    intro a b h hp
    obtain ⟨rfl, h⟩ := h
    obtain ⟨h1, h2⟩ := ih _ _ h (fun s hs => hp s (List.mem_cons_of_mem _ hs))
    have := hp y (List.mem_cons_self ..)
    refine ⟨by omega, ?_⟩
    rw [List.flatMap_cons, ← h2]
    exact inW_cut hs (by omega) h1

/-- Rule L2 for the text of an isolate. -/
theorem from_mid {W : List (Nat × Nat)} (c : Class) (hc : c = cLRI ∨ c = cRLI) (mid : List Scrap)
    (h : ∀ m ∈ mid, (m.clz = cL ∨ m.clz = cR) ∧ m.l < m.r ∧ m.children = [] ∧ (∃ x ∈ W, x.1 = m.l) ∧ ∀ x ∈ W, m.l ≤ x.1 → x.1 < m.r → x.2 = isoLevel c m.clz)
    (hl : Linked (fun a b : Scrap => a.clz ≠ b.clz) mid) :
    (reverseFrom 3 (mid.flatMap fun y => inW W y.l y.r)).map (·.1) = midShown (W.map (·.1)) c mid := by
  have hne : ∀ m ∈ mid, inW W m.l m.r ≠ [] := by
    intro m hm h0
    obtain ⟨-, h1, -, ⟨x, hx, e⟩, -⟩ := h m hm
    have : x ∈ inW W m.l m.r := mem_inW.mpr ⟨hx, by omega, by omega⟩
    rw [h0] at this
    cases this
  have hlev : ∀ m ∈ mid, ∀ x ∈ inW W m.l m.r, x.2 = isoLevel c m.clz := by
    intro m hm x hx
    obtain ⟨x1, x2, x3⟩ := mem_inW.mp hx
    exact (h m hm).2.2.2.2 x x1 x2 x3
  have hmem : ∀ x ∈ mid.flatMap (fun y => inW W y.l y.r), ∃ m ∈ mid, x.2 = isoLevel c m.clz := by
    intro x hx
    rw [List.mem_flatMap] at hx
    obtain ⟨m, hm, hx⟩ := hx
    exact ⟨m, hm, hlev m hm x hx⟩
  rw [reverseFrom, reverseFrom, reverseFrom, reverseFrom]
  rcases hc with rfl | rfl
  · -- left to right: levels 2 and 3
    have h3 : reverseAbove (2 + 1) (mid.flatMap fun y => inW W y.l y.r) = mid.flatMap fun y => if decide (y.clz = cR) = true then (inW W y.l y.r).reverse else inW W y.l y.r := by
      have := flip_scraps (fun x : Nat × Nat => decide (3 ≤ x.2)) (fun y => decide (y.clz = cR)) (fun y => inW W y.l y.r) mid [] (by
        intro y hy
        refine ⟨hne y hy, fun x hx => ?_⟩
        rw [hlev y hy x hx]
        unfold isoLevel
        by_cases hc : y.clz = cR <;> simp [hc, cLRI, cRLI]) (linked_class hl cR) (Or.inl rfl)
      rwa [List.nil_append] at this
    have hge : ∀ x ∈ reverseAbove (2 + 1) (mid.flatMap fun y => inW W y.l y.r), 2 ≤ x.2 := by
      intro x hx
      have hx2 := (flipBlocks_perm _ _ _).mem_iff.mp hx
      rw [List.nil_append] at hx2
      obtain ⟨m, -, e⟩ := hmem x hx2
      rw [e]
      unfold isoLevel
      rw [if_neg (by decide)]
      split <;> omega
    rw [above_all (1 + 1) _ hge, above_all (0 + 1) _ (fun x hx => by have := hge x (by simpa using hx); omega), List.reverse_reverse, h3, List.map_flatMap]
    unfold midShown
    rw [if_neg (by decide)]
    have : ∀ zs : List Scrap, (∀ z ∈ zs, z ∈ mid) → zs.flatMap (fun y => (if decide (y.clz = cR) = true then (inW W y.l y.r).reverse else inW W y.l y.r).map (·.1)) =
        zs.flatMap (seg (W.map (·.1))) := by
      intro zs
      induction zs with
      | nil => intros; rfl
      | cons z zs ih =>
        intro hz
        rw [List.flatMap_cons, List.flatMap_cons, ih fun x hx => hz x (List.mem_cons_of_mem _ hx)]
        congr 1
        unfold seg shownSegment
        rw [← inW_fst]
        rcases (h z (hz z (List.mem_cons_self ..))).1 with hc | hc <;> simp [hc, cL, cR]
    exact this mid fun _ h => h
  · have hle : ∀ x ∈ mid.flatMap (fun y => inW W y.l y.r), x.2 < 3 ∧ 1 ≤ x.2 := by
      intro x hx
      obtain ⟨m, -, e⟩ := hmem x hx
      rw [e]
      unfold isoLevel
      rw [if_pos rfl]
      split <;> omega
    rw [above_low (2 + 1) _ (fun x hx => (hle x hx).1)]
    have h2 : reverseAbove (1 + 1) (mid.flatMap fun y => inW W y.l y.r) = mid.flatMap fun y => if decide (y.clz = cL) = true then (inW W y.l y.r).reverse else inW W y.l y.r := by
      have := flip_scraps (fun x : Nat × Nat => decide (2 ≤ x.2)) (fun y => decide (y.clz = cL)) (fun y => inW W y.l y.r) mid [] (by
        intro y hy
        refine ⟨hne y hy, fun x hx => ?_⟩
        rw [hlev y hy x hx]
        unfold isoLevel
        rcases (h y hy).1 with hc | hc <;> simp [hc, cL, cR]) (linked_class hl cL) (Or.inl rfl)
      rwa [List.nil_append] at this
    rw [above_all (0 + 1) _ (by
      intro x hx
      have hx2 := (flipBlocks_perm _ _ _).mem_iff.mp hx
      rw [List.nil_append] at hx2
      exact (hle x hx2).2), h2, List.map_reverse, List.map_flatMap, List.reverse_flatMap]
    unfold midShown
    rw [if_pos rfl]
    have : ∀ zs : List Scrap, (∀ z ∈ zs, z ∈ mid) →
        zs.flatMap (List.reverse ∘ fun y => (if decide (y.clz = cL) = true then (inW W y.l y.r).reverse else inW W y.l y.r).map (·.1)) = zs.flatMap (seg (W.map (·.1))) := by
      intro zs
      induction zs with
      | nil => intros; rfl
      | cons z zs ih =>
        intro hz
        rw [List.flatMap_cons, List.flatMap_cons, ih fun x hx => hz x (List.mem_cons_of_mem _ hx)]
        congr 1
        unfold seg shownSegment
        rw [← inW_fst]
        rcases (h z (hz z (List.mem_cons_self ..))).1 with hc | hc <;> simp [hc, cL, cR]
    exact this mid.reverse fun z hz => by simpa using hz

/-- Rule L2 for an isolate with initiator and PDI. -/
theorem from_iso {W : List (Nat × Nat)} (hs : W.Pairwise fun a b => a.1 < b.1) {first last : Scrap} {mid : List Scrap} {a z : Nat} (h : IsoOk W first mid last a z) :
    a = first.l ∧ z = last.r ∧ a ≤ z ∧ (inW W a z).head? = some (first.l, 0) ∧ (inW W a z).getLast? = some (last.l, 0) ∧
    (reverseFrom 3 (inW W a z)).map (·.1) = first.l :: midShown (W.map (·.1)) first.clz mid ++ [last.l] := by
  obtain ⟨h1, -, -, -, ht, hf, hl, hm, hk, hwf, hwl⟩ := h
  have hpos : ∀ s ∈ first :: (mid ++ [last]), s.l < s.r := by
    intro s hsm
    rw [List.mem_cons, List.mem_append, List.mem_singleton] at hsm
    rcases hsm with rfl | hsm | rfl
    · exact hf
    · exact (hm s hsm).2.1
    · exact hl
  obtain ⟨hle, hw⟩ := inW_tiles hs _ _ _ ht hpos
  rw [List.flatMap_cons, List.flatMap_append, List.flatMap_cons, List.flatMap_nil, List.append_nil, hwf, hwl] at hw
  have e1 : a = first.l := ht.1.symm
  have e2 : z = last.r := by
    obtain ⟨m, -, k⟩ := tiles_append.mp ht.2
    have : last.r = z := k.2
    omega
  refine ⟨e1, e2, hle, by rw [hw]; rfl, by rw [hw, ← List.append_assoc, List.getLast?_append]; rfl, ?_⟩
  rw [hw, from_cut 3 [(first.l, 0)] _ (Or.inr (by simp)), from_cut 3 _ [(last.l, 0)] (Or.inl (by simp)), List.map_append, List.map_append, from_mid first.clz h1 mid hm hk,
    from_low 3 [(first.l, 0)] (by simp), from_low 3 [(last.l, 0)] (by simp)]
  rfl

/-- Rule L2 for a part of class L with isolates. -/
theorem from_arranged {W : List (Nat × Nat)} (hs : W.Pairwise fun a b => a.1 < b.1) {len : Nat} : ∀ (chs : List (List Scrap)) (l r : Nat), Arranged W len l r chs →
    l ≤ r ∧ (∀ x ∈ (inW W l r).head?, x.2 = 0) ∧ (∀ x ∈ (inW W l r).getLast?, x.2 = 0) ∧ (reverseFrom 3 (inW W l r)).map (·.1) = shownIn (W.map (·.1)) l r chs := by
  intro chs
  induction chs with
  | nil =>
    intro l r h
    obtain ⟨h1, -, h2⟩ := h
    have hz : ∀ x ∈ inW W l r, x.2 = 0 := by
      intro x hx
      obtain ⟨x1, x2, x3⟩ := mem_inW.mp hx
      exact h2 x x1 x2 x3
    refine ⟨h1, fun x hx => hz x (List.mem_of_mem_head? hx), fun x hx => hz x (List.mem_of_mem_getLast? hx), ?_⟩
    rw [from_low 3 _ hz, inW_fst]
    rfl
  | cons ch more ih =>
    intro l r h
    obtain ⟨first, mid, last, a, z, e, h1, h2, -, h3, h4, h5⟩ := h
    obtain ⟨i1, i2, i3, i4, i5, i6⟩ := from_iso hs h1
    obtain ⟨k1, k2, k3, k4⟩ := ih z r h5
    have hz : ∀ x ∈ inW W l a, x.2 = 0 := by
      intro x hx
      obtain ⟨x1, x2, x3⟩ := mem_inW.mp hx
      exact h3 x x1 x2 x3
    have hw : inW W l r = inW W l a ++ (inW W a z ++ inW W z r) := by
      rw [← inW_cut hs i3 k1]
      exact inW_cut hs h2 (Nat.le_trans i3 k1)
    refine ⟨by omega, ?_, ?_, ?_⟩
    · intro x hx
      rw [hw, List.head?_append, List.head?_append, i4] at hx
      cases hq : (inW W l a).head? with
      | none => rw [hq] at hx; cases hx; rfl
      | some y => rw [hq] at hx; cases hx; exact hz _ (List.mem_of_mem_head? hq)
    · intro x hx
      rw [hw, List.getLast?_append, List.getLast?_append, i5] at hx
      cases hq : (inW W z r).getLast? with
      | none => rw [hq] at hx; cases hx; rfl
      | some y => rw [hq] at hx; cases hx; exact k3 _ hq
    · rw [hw, from_cut 3 _ _ (Or.inr fun x hx => hz x (List.mem_of_mem_getLast? hx)), from_cut 3 _ _ (Or.inr (by rw [i5]; intro x hx; cases hx; rfl)), List.map_append, List.map_append,
        i6, k4, from_low 3 _ hz, inW_fst, e, shownIn, List.dropLast_concat, List.getLast?_concat, Option.getD_some, ← i1, ← i2]
      simp

/-- What is shown for a scrap of the text outside of isolates. -/
def outerShown (st : List Nat) (y : Scrap) : List Nat := if y.clz = cL then shownIn st y.l y.r y.children else seg st y

/-- A scrap of the text outside of isolates. -/
def OuterOk (W : List (Nat × Nat)) (len : Nat) (y : Scrap) : Prop :=
  y.l < y.r ∧ (∃ x ∈ W, x.1 = y.l) ∧
  ((y.clz = cL ∧ Arranged W len y.l y.r y.children) ∨ (y.clz = cR ∧ y.children = [] ∧ ∀ x ∈ W, y.l ≤ x.1 → x.1 < y.r → x.2 = 1))

/-- Rule L2 for a text with isolates. -/
theorem from_outer {W : List (Nat × Nat)} (hs : W.Pairwise fun a b => a.1 < b.1) {len : Nat} : ∀ (ys : List Scrap) (a : Nat), Tiles a len ys → (∀ y ∈ ys, OuterOk W len y) →
    Linked (fun a b : Scrap => a.clz ≠ b.clz) ys → (reverseFrom 3 (inW W a len)).map (·.1) = ys.flatMap (outerShown (W.map (·.1))) := by
  intro ys
  induction ys with
  | nil => intro a h _ _; have h : a = len := h; subst h; rw [inW_empty]; rfl
  | cons y ys ih =>
    intro a h hy hl
    obtain ⟨rfl, h⟩ := h
    have hpos : ∀ s ∈ ys, s.l < s.r := fun s hs => (hy s (List.mem_cons_of_mem _ hs)).1
    have hend := (inW_tiles hs _ _ _ h hpos).1
    obtain ⟨y1, -, y3⟩ := hy y (List.mem_cons_self ..)
    have hl' : Linked (fun a b : Scrap => a.clz ≠ b.clz) ys := by
      cases ys with
      | nil => trivial
      | cons b bs => exact hl.2
    have ih := ih y.r h (fun z hz => hy z (List.mem_cons_of_mem _ hz)) hl'
    rw [inW_cut hs (Nat.le_of_lt y1) hend, List.flatMap_cons, ← ih]
    rcases y3 with ⟨c, ha⟩ | ⟨c, -, hw⟩
    · obtain ⟨-, -, k3, k4⟩ := from_arranged hs _ _ _ ha
      rw [from_cut 3 _ _ (Or.inr k3), List.map_append, k4, outerShown, if_pos c]
    · have hz : ∀ x ∈ inW W y.l y.r, x.2 = 1 := by
        intro x hx
        obtain ⟨x1, x2, x3⟩ := mem_inW.mp hx
        exact hw x x1 x2 x3
      have hh : ∀ x ∈ (inW W y.r len).head?, x.2 = 0 := by
        cases ys with
        | nil =>
          have h : y.r = len := h
          rw [h, inW_empty]
          intro x hx; cases hx
        | cons b bs =>
          obtain ⟨b1, ⟨w, w1, w2⟩, b3⟩ := hy b (by simp)
          have hbl : b.l = y.r := h.1
          have hb : b.clz = cL ∧ Arranged W len b.l b.r b.children := by
            rcases b3 with b3 | ⟨b3, -⟩
            · exact b3
            · exact absurd (c.trans b3.symm) hl.1
          obtain ⟨-, k2, -, -⟩ := from_arranged hs _ _ _ hb.2
          have hbe := (inW_tiles hs _ _ _ h.2 (fun s hs => hpos s (List.mem_cons_of_mem _ hs))).1
          rw [← hbl, inW_cut hs (Nat.le_of_lt b1) hbe, List.head?_append]
          cases hq : (inW W b.l b.r).head? with
          | none =>
            rw [List.head?_eq_none_iff] at hq
            have : w ∈ inW W b.l b.r := mem_inW.mpr ⟨w1, by omega, by omega⟩
            rw [hq] at this
            cases this
          | some q => intro x hx; cases hx; exact k2 _ hq
      rw [from_cut 3 _ _ (Or.inl hh), List.map_append, from_one _ hz, List.map_reverse, inW_fst, outerShown, if_neg (by rw [c]; decide), seg, if_neg (by rw [c]; decide), shownSegment,
        if_neg (by simp)]

end Uax.Bidi
