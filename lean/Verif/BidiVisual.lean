import Verif.SpecVisual
import Verif.BidiReorderProofs
import Verif.BidiDirections
import Verif.BidiRunsProofs

/-
From a text to the runs in visual order.
-/
namespace Uax.Bidi
open Spec

/-! ### Runs of scraps whose directions alternate -/

theorem flip_single {α : Type} (p : α → Bool) : ∀ (l : List α), Linked (fun a b => ¬ (p a = true ∧ p b = true)) l → flipBlocks p [] l = l
  | [], _ => rfl
  | [a], _ => by simp [flipBlocks]
  | a :: b :: rest, h => by
    have ih := flip_single p (b :: rest) h.2
    by_cases ha : p a = true
    · have hb : ¬ p b = true := fun hb => h.1 ⟨ha, hb⟩
      rw [flipBlocks, if_neg hb] at ih
      rw [flipBlocks, if_pos ha, flipBlocks, if_neg hb]
      simpa using ih
    · rw [flipBlocks, if_neg ha, ih]
      rfl

theorem flatten_apart (e : Dir) : ∀ (ys : List Scrap) (runs : List VRun), (∀ s ∈ ys, (s.clz = cL ∨ s.clz = cR) ∧ s.l < s.r ∧ s.children = []) →
    Linked (fun a b : Scrap => a.clz ≠ b.clz) ys → (∀ y ∈ ys.head?, ∀ x ∈ runs.getLast?, 0 < x.length → x.dir ≠ directionOf y e) →
    (runs ≠ [] → 0 < (lastRun runs).length) → ∀ z : Scrap, z.len = 0 → z.children = [] → flattenLoop e (ys ++ [z]) runs = some (runs ++ ys.map fun y => vrun y e) := by
  intro ys
  induction ys with
  | nil =>
    intro runs _ _ _ _ z hz hc
    obtain ⟨c, l, r, x, ch⟩ := z
    simp only at hc
    subst hc
    rw [List.nil_append, flattenLoop, if_pos rfl]
    unfold extendRuns
    rw [if_pos hz]
    dsimp only
    rw [flattenLoop]
    simp
  | cons y ys ih =>
    intro runs hs hl hr hpos z hz hc
    obtain ⟨y1, y2, y3⟩ := hs y (List.mem_cons_self ..)
    have hlen : y.len ≠ 0 := by
      unfold Scrap.len
      rw [if_neg (by rcases y1 with h | h <;> rw [h] <;> decide)]
      omega
    have hext : extendRuns y runs e = some (runs ++ [vrun y e]) := by
      unfold extendRuns
      dsimp only
      rw [if_neg hlen]
      by_cases h0 : runs = []
      · subst h0; rfl
      · have hp := hpos h0
        rw [if_neg (by omega), if_neg]
        obtain ⟨x, hx⟩ : ∃ x, runs.getLast? = some x := ⟨_, List.getLast?_eq_some_getLast h0⟩
        have : lastRun runs = x := by unfold lastRun; rw [hx]; rfl
        rw [this] at hp ⊢
        exact hr y rfl x hx hp
    have hgo := ih (runs ++ [vrun y e]) (fun s hm => hs s (List.mem_cons_of_mem _ hm)) (by cases ys with | nil => trivial | cons a b => exact hl.2) (by
      intro a ha x hx _
      rw [List.getLast?_append, List.getLast?_singleton, Option.some_or, Option.mem_def, Option.some.injEq] at hx
      subst hx
      cases ys with
      | nil => cases ha
      | cons b bs =>
        rw [List.head?_cons, Option.mem_def, Option.some.injEq] at ha
        subst ha
        obtain ⟨b1, -, -⟩ := hs b (by simp)
        have hne : y.clz ≠ b.clz := hl.1
        show directionOf y e ≠ directionOf b e
        unfold directionOf
        rcases y1 with h | h <;> rcases b1 with k | k <;> rw [h, k] at hne ⊢ <;> first | exact absurd rfl hne | simp [cL, cR, cLRI, cRLI]) (by
      intro _
      unfold lastRun
      rw [List.getLast?_append, List.getLast?_singleton, Option.some_or, Option.getD_some]
      show 0 < y.len
      omega) z hz hc
    obtain ⟨c, l, r, x, ch⟩ := y
    simp only at y3
    subst y3
    rw [List.cons_append, flattenLoop, if_pos rfl, hext]
    dsimp only
    rw [hgo]
    simp

/-- The direction of the text around a paragraph. -/
def outerDir (o : Options) : Dir := if o.outerR2L then .rtl else .ltr

theorem directionOf_initial (o : Options) (d : Dir) : directionOf (initialOuterScrap o true) d = outerDir o := by
  unfold directionOf initialOuterScrap outerDir
  dsimp only
  cases o.outerR2L <;> rfl

/-- Reordering scraps of alternating directions leaves them as they are, and each becomes a run. -/
theorem reorder_apart (o : Options) (ys : List Scrap) (h1 : ∀ s ∈ ys, (s.clz = cL ∨ s.clz = cR) ∧ s.l < s.r ∧ s.children = [])
    (h2 : Linked (fun a b : Scrap => a.clz ≠ b.clz) ys) :
    (levelsOf o (initialOuterScrap o true :: ys)).reorder = some (ys.map fun y => vrun y (outerDir o)) := by
  have hic : (initialOuterScrap o true).clz = cLRI ∨ (initialOuterScrap o true).clz = cRLI := by
    unfold initialOuterScrap
    dsimp only
    cases o.outerR2L <;> simp
  generalize hz : ({ l := ((initialOuterScrap o true :: ys).getLast?.getD {}).r, r := ((initialOuterScrap o true :: ys).getLast?.getD {}).r, clz := cPDI } : Scrap) = z
  have hz1 : z.clz = cPDI := by rw [← hz]
  have hz2 : z.children = [] := by rw [← hz]
  have hz3 : z.len = 0 := by rw [← hz]; unfold Scrap.len; simp
  have hlev : levelsOf o (initialOuterScrap o true :: ys) = ⟨outerDir o, initialOuterScrap o true :: (ys ++ [z])⟩ := by
    unfold levelsOf
    rw [hz, directionOf_initial]
    rfl
  rw [hlev]
  have hkids : ∀ (d : Dir) (l : List Scrap), (∀ s ∈ l, s.children = []) → reorderKids d l = some l := by
    intro d l
    induction l with
    | nil => intro _; rw [reorderKids]
    | cons s rest ih =>
      intro h
      have h0 := h s (by simp)
      obtain ⟨c, l, r, x, ch⟩ := s
      simp only at h0
      subst h0
      rw [reorderKids, reorderChildren, ih (fun t ht => h t (by simp [ht]))]
      simp only
      split <;> rfl
  have hre : reorder (outerDir o) (initialOuterScrap o true :: (ys ++ [z])) = some (initialOuterScrap o true :: (ys ++ [z])) := by
    rw [reorder, hkids, Option.map_some, reorderFlat_eq, flip_single]
    · -- no two scraps which are moved are neighbours
      have hno : ∀ s : Scrap, s.clz = cLRI ∨ s.clz = cRLI ∨ s.clz = cPDI → level s (outerDir o) = 0 := by
        intro s hs
        unfold level
        rcases hs with h | h | h <;> rw [h] <;> simp [cLRI, cRLI, cPDI, cEN, cAN, cL, cR]
      rw [← List.singleton_append, ← List.append_assoc, linked_append]
      refine ⟨?_, trivial, ?_⟩
      · rw [linked_append]
        refine ⟨trivial, ?_, ?_⟩
        · have : ∀ l : List Scrap, (∀ s ∈ l, s.clz = cL ∨ s.clz = cR) → Linked (fun a b : Scrap => a.clz ≠ b.clz) l →
              Linked (fun a b : Scrap => ¬ (decide (0 < level a (outerDir o)) = true ∧ decide (0 < level b (outerDir o)) = true)) l := by
            intro l
            induction l with
            | nil => intros; trivial
            | cons a l ih =>
              cases l with
              | nil => intros; trivial
              | cons b l =>
                intro hc hl
                refine ⟨?_, ih (fun s hs => hc s (List.mem_cons_of_mem _ hs)) hl.2⟩
                have ha := hc a (by simp)
                have hb := hc b (by simp)
                have hne : a.clz ≠ b.clz := hl.1
                rintro ⟨k1, k2⟩
                simp only [decide_eq_true_eq] at k1 k2
                unfold level at k1 k2
                generalize outerDir o = d at k1 k2
                rcases ha with h | h <;> rcases hb with k | k <;> rw [h] at k1 hne <;> rw [k] at k2 hne <;> cases d <;>
                  first | exact absurd rfl hne | (simp [cL, cR, cEN, cAN] at k1 k2)
          exact this ys (fun s hs => (h1 s hs).1) h2
        · rintro a ha b hb ⟨k1, -⟩
          rw [List.getLast?_singleton, Option.mem_def, Option.some.injEq] at ha
          rw [← ha, hno _ (hic.imp id Or.inl)] at k1
          simp at k1
      · rintro a ha b hb ⟨-, k1⟩
        rw [List.head?_cons, Option.mem_def, Option.some.injEq] at hb
        rw [← hb, hno _ (Or.inr (Or.inr hz1))] at k1
        simp at k1
    · intro s hs
      simp only [List.mem_cons, List.mem_append, List.not_mem_nil, or_false] at hs
      rcases hs with rfl | hs | rfl
      · rcases hic with h | h <;> rw [h] <;> decide
      · rcases (h1 s hs).1 with h | h <;> rw [h] <;> decide
      · rw [hz1]; decide
    · intro s hs
      simp only [List.mem_cons, List.mem_append, List.not_mem_nil, or_false] at hs
      rcases hs with rfl | hs | rfl
      · rfl
      · exact (h1 s hs).2.2
      · exact hz2
  unfold Levels.reorder
  dsimp only
  rw [hre, Option.bind_some]
  unfold flatten
  dsimp only
  have hiso : isIsolate (initialOuterScrap o true) = true := by
    unfold isIsolate
    rcases hic with h | h <;> rw [h] <;> rfl
  rw [if_pos hiso, directionOf_initial]
  have hi : flattenLoop (outerDir o) (initialOuterScrap o true :: (ys ++ [z])) [] = flattenLoop (outerDir o) (ys ++ [z]) [] := by
    have : initialOuterScrap o true = ⟨(initialOuterScrap o true).clz, 0, 0, (initialOuterScrap o true).ctx, []⟩ := rfl
    rw [this, flattenLoop, if_pos rfl]
    unfold extendRuns Scrap.len
    simp
  rw [hi, flatten_apart (outerDir o) ys [] h1 h2 (by simp) (by simp) z hz3 hz2]
  simp

/-! ### Characters -/

theorem starts_mem : ∀ (t : List Char) (pos p : Nat), p ∈ starts pos t ↔ ∃ pre c post, t = pre ++ c :: post ∧ p = pos + (utf8 pre).length := by
  intro t
  induction t with
  | nil => intro pos p; simp [starts]
  | cons c t ih =>
    intro pos p
    rw [starts, List.mem_cons, ih]
    constructor
    · rintro (rfl | ⟨pre, d, post, rfl, rfl⟩)
      · exact ⟨[], c, t, rfl, rfl⟩
      · exact ⟨c :: pre, d, post, rfl, by rw [utf8_len c pre]; omega⟩
    · rintro ⟨pre, d, post, h1, h2⟩
      cases pre with
      | nil => left; rw [h2]; rfl
      | cons x pre =>
        right
        simp only [List.cons_append, List.cons.injEq] at h1
        obtain ⟨rfl, rfl⟩ := h1
        exact ⟨pre, d, post, rfl, by rw [h2, utf8_len c pre]; omega⟩

theorem starts_sorted : ∀ (t : List Char) (pos : Nat), (starts pos t).Pairwise (· < ·) ∧ ∀ p ∈ starts pos t, pos ≤ p ∧ p < pos + (utf8 t).length := by
  intro t
  induction t with
  | nil => intro pos; simp [starts]
  | cons c t ih =>
    intro pos
    obtain ⟨h1, h2⟩ := ih (pos + (utf8 [c]).length)
    have hc := utf8_pos c
    have hl := utf8_len c t
    rw [starts, List.pairwise_cons]
    refine ⟨⟨fun p hp => ?_, h1⟩, ?_⟩
    · have := h2 p hp; omega
    · intro p hp
      rw [List.mem_cons] at hp
      rcases hp with rfl | hp
      · omega
      · have := h2 p hp; omega

theorem sorted_cut {l : List Nat} (m : Nat) (h : l.Pairwise (· < ·)) : l.filter (fun p => decide (p < m)) ++ l.filter (fun p => decide (m ≤ p)) = l := by
  induction l with
  | nil => rfl
  | cons x xs ih =>
    rw [List.pairwise_cons] at h
    by_cases hx : x < m
    · rw [List.filter_cons_of_pos (by simpa using hx), List.filter_cons_of_neg (by simpa using hx), List.cons_append, ih h.2]
    · have h0 : (x :: xs).filter (fun p => decide (p < m)) = [] := by
        rw [List.filter_eq_nil_iff]
        intro p hp
        rw [List.mem_cons] at hp
        rcases hp with rfl | hp
        · simpa using hx
        · have := h.1 p hp
          simp; omega
      rw [h0, List.nil_append, List.filter_eq_self]
      intro p hp
      rw [List.mem_cons] at hp
      rcases hp with rfl | hp
      · simpa using hx
      · have := h.1 p hp
        simp; omega

/-- Positions in ascending order are those in the first interval, those in the second and so on. -/
theorem sorted_tiles : ∀ (ys : List Scrap) (a b : Nat) (l : List Nat), l.Pairwise (· < ·) → (∀ p ∈ l, a ≤ p ∧ p < b) → Tiles a b ys → (∀ s ∈ ys, s.l < s.r) →
    ys.flatMap (fun y => within y.l y.r l) = l := by
  intro ys
  induction ys with
  | nil =>
    intro a b l _ h2 h3 _
    cases l with
    | nil => rfl
    | cons p l =>
      have := h2 p (by simp)
      have h3 : a = b := h3
      omega
  | cons y ys ih =>
    intro a b l h1 h2 ⟨h3, h4⟩ h5
    subst h3
    rw [List.flatMap_cons]
    have hf : within y.l y.r l = l.filter (fun p => decide (p < y.r)) := by
      unfold within
      refine List.filter_congr fun p hp => ?_
      have := h2 p hp
      simp only [decide_eq_decide]
      omega
    have hr := ih y.r b (l.filter fun p => decide (y.r ≤ p)) (h1.filter _) (by
      intro p hp
      rw [List.mem_filter] at hp
      have := h2 p hp.1
      simp at hp
      omega) h4 (fun s hs => h5 s (List.mem_cons_of_mem _ hs))
    have hrest : ys.flatMap (fun y => within y.l y.r l) = ys.flatMap (fun y' => within y'.l y'.r (l.filter fun p => decide (y.r ≤ p))) := by
      have : ∀ (zs : List Scrap) (c : Nat), y.r ≤ c → Tiles c b zs → (∀ s ∈ zs, s.l < s.r) →
          zs.flatMap (fun y => within y.l y.r l) = zs.flatMap (fun y' => within y'.l y'.r (l.filter fun p => decide (y.r ≤ p))) := by
        intro zs
        induction zs with
        | nil => intros; rfl
        | cons z zs ihz =>
          intro c hc ⟨t1, t2⟩ hp
          have := hp z (List.mem_cons_self ..)
          rw [List.flatMap_cons, List.flatMap_cons, ihz z.r (by omega) t2 (fun s hs => hp s (List.mem_cons_of_mem _ hs))]
          congr 1
          unfold within
          rw [List.filter_filter]
          refine List.filter_congr fun p _ => ?_
          rw [Bool.eq_iff_iff]
          simp
          omega
      exact this ys y.r (Nat.le_refl _) h4 (fun s hs => h5 s (List.mem_cons_of_mem _ hs))
    rw [hrest, hr, hf]
    exact sorted_cut y.r h1

theorem locate : ∀ (t : List Char) (pos : Nat), pos < (utf8 t).length →
    ∃ pre c post k, t = pre ++ c :: post ∧ pos = (utf8 pre).length + k ∧ k < (utf8 [c]).length := by
  intro t
  induction t with
  | nil => intro pos h; exact absurd h (Nat.not_lt_zero _)
  | cons c t ih =>
    intro pos h
    rw [utf8_len c t] at h
    by_cases hc : pos < (utf8 [c]).length
    · exact ⟨[], c, t, pos, rfl, by show pos = 0 + pos; omega, hc⟩
    · obtain ⟨pre, d, post, k, rfl, h2, h3⟩ := ih (pos - (utf8 [c]).length) (by omega)
      exact ⟨c :: pre, d, post, k, rfl, by rw [utf8_len c pre]; omega, h3⟩

theorem bytes_at : ∀ (ys : List Scrap) (l r p : Nat) (y : Scrap), Tiles l r ys → (∀ s ∈ ys, s.l < s.r) → y ∈ ys → y.l ≤ p → p < y.r →
    l ≤ y.l ∧ y.r ≤ r ∧ (byteClasses ys)[p - l]? = some y.clz := by
  intro ys
  induction ys with
  | nil => intro l r p y _ _ h; cases h
  | cons s ys ih =>
    intro l r p y h hp hy h1 h2
    obtain ⟨rfl, h⟩ := h
    have hs := hp s (List.mem_cons_self ..)
    have hend := (tiles_pos h (fun x hx => hp x (List.mem_cons_of_mem _ hx))).1
    rw [List.mem_cons] at hy
    rcases hy with rfl | hy
    · refine ⟨Nat.le_refl _, hend, ?_⟩
      rw [bytes_cons, List.getElem?_append_left (by rw [List.length_replicate]; omega), List.getElem?_replicate, if_pos (by omega)]
    · obtain ⟨k1, k2, k3⟩ := ih s.r r p y h (fun x hx => hp x (List.mem_cons_of_mem _ hx)) hy h1 h2
      refine ⟨by omega, k2, ?_⟩
      rw [bytes_cons, List.getElem?_append_right (by rw [List.length_replicate]; omega), List.length_replicate, ← k3]
      congr 1
      omega

/-- Where the class of the bytes changes, a character begins. -/
theorem scrap_starts {t : List Char} {cs : List Class} {ys : List Scrap} (hl : cs.length = t.length) (ht : Tiles 0 (utf8 t).length ys)
    (hp : ∀ s ∈ ys, s.l < s.r) (ha : Linked (fun a b : Scrap => a.clz ≠ b.clz) ys) (hb : byteClasses ys = Spec.spread t cs) (y : Scrap) (hy : y ∈ ys) :
    y.l ∈ starts 0 t := by
  obtain ⟨a, b, rfl⟩ := List.append_of_mem hy
  obtain ⟨y1, y2, y3⟩ := bytes_at _ _ _ y.l y ht hp hy (Nat.le_refl _) (hp y hy)
  obtain ⟨pre, c, post, k, t1, t2, t3⟩ := locate t y.l (by have := hp y hy; omega)
  rw [starts_mem]
  refine ⟨pre, c, post, t1, ?_⟩
  rw [t2]
  suffices k = 0 by omega
  refine Classical.byContradiction fun hk => ?_
  rcases List.eq_nil_or_concat a with rfl | ⟨a', x, rfl⟩
  · have h0 : y.l = 0 := ht.1
    omega
  · rw [List.concat_eq_append] at *
    have hx : x ∈ (a' ++ [x]) ++ y :: b := by simp
    have hxr : x.r = y.l := by
      obtain ⟨m, k1, k2⟩ := tiles_append.mp ht
      obtain ⟨m', -, k3⟩ := tiles_append.mp k1
      have e1 : x.r = m := k3.2
      have e2 : y.l = m := k2.1
      omega
    have hxp := hp x hx
    obtain ⟨x1, x2, x3⟩ := bytes_at _ _ _ (y.l - 1) x ht hp hx (by omega) (by omega)
    rw [linked_append] at ha
    have hne : x.clz ≠ y.clz := ha.2.2 x (by simp) y (by simp)
    rw [hb, Nat.sub_zero] at x3 y3
    have g1 := spread_get pre c post cs k (by rw [← t1]; exact hl) t3
    have g2 := spread_get pre c post cs (k - 1) (by rw [← t1]; exact hl) (by omega)
    rw [← t1] at g1 g2
    rw [show y.l = (utf8 pre).length + k from t2, g1] at y3
    rw [show y.l - 1 = (utf8 pre).length + (k - 1) by omega, g2, y3, Option.some.injEq] at x3
    exact hne x3.symm

theorem starts_zip : ∀ (t : List Char) (cs : List Class) (pos : Nat), cs.length = t.length →
    (starts pos t).zip cs = (starts pos t).map fun p => (p, ((Spec.spread t cs)[p - pos]?).getD 0) := by
  intro t
  induction t with
  | nil => intro cs pos _; rfl
  | cons c t ih =>
    intro cs pos h
    cases cs with
    | nil => simp at h
    | cons x xs =>
      have hc := utf8_pos c
      rw [starts, List.zip_cons_cons, List.map_cons, ih xs _ (by simpa using h)]
      congr 1
      · rw [Nat.sub_self, spread_cons, List.getElem?_append_left (by rw [List.length_replicate]; omega), List.getElem?_replicate, if_pos hc]
        rfl
      · refine List.map_congr_left fun p hp => ?_
        have := ((starts_sorted t _).2 p hp).1
        rw [spread_cons, List.getElem?_append_right (by rw [List.length_replicate]; omega), List.length_replicate]
        congr 3
        omega

/-- The characters with their classes, scrap by scrap. -/
theorem zip_scraps {t : List Char} {cs : List Class} {ys : List Scrap} (hl : cs.length = t.length) (ht : Tiles 0 (utf8 t).length ys)
    (hp : ∀ s ∈ ys, s.l < s.r) (hb : byteClasses ys = Spec.spread t cs) :
    (starts 0 t).zip cs = ys.flatMap fun y => (within y.l y.r (starts 0 t)).map fun p => (p, y.clz) := by
  obtain ⟨h1, h2⟩ := starts_sorted t 0
  rw [starts_zip t cs 0 hl]
  have h3 := sorted_tiles ys 0 (utf8 t).length (starts 0 t) h1 (fun p hp => by have := h2 p hp; omega) ht hp
  conv => lhs; rw [← h3]
  rw [List.map_flatMap]
  have : ∀ zs : List Scrap, (∀ z ∈ zs, z ∈ ys) → zs.flatMap (fun a => (within a.l a.r (starts 0 t)).map fun p => (p, ((Spec.spread t cs)[p - 0]?).getD 0)) =
      zs.flatMap fun y => (within y.l y.r (starts 0 t)).map fun p => (p, y.clz) := by
    intro zs
    induction zs with
    | nil => intros; rfl
    | cons z zs ih =>
      intro hz
      rw [List.flatMap_cons, List.flatMap_cons, ih fun x hx => hz x (List.mem_cons_of_mem _ hx)]
      congr 1
      refine List.map_congr_left fun p hpp => ?_
      unfold within at hpp
      rw [List.mem_filter] at hpp
      have hpp := hpp.2
      simp only [decide_eq_true_eq] at hpp
      rw [← hb, (bytes_at ys 0 _ p z ht hp (hz z (List.mem_cons_self ..)) hpp.1 hpp.2).2.2]
      rfl
  exact this ys fun _ h => h

/-! ### Rule L2 -/

theorem flip_all {α : Type} (p : α → Bool) : ∀ (xs acc rest : List α), (∀ x ∈ xs, p x = true) →
    flipBlocks p acc (xs ++ rest) = flipBlocks p (xs.reverse ++ acc) rest := by
  intro xs
  induction xs with
  | nil => intros; rfl
  | cons x xs ih =>
    intro acc rest h
    rw [List.cons_append, flipBlocks, if_pos (h x (by simp)), ih _ _ (fun y hy => h y (by simp [hy]))]
    simp

theorem flip_none {α : Type} (p : α → Bool) : ∀ (xs acc rest : List α), xs ≠ [] → (∀ x ∈ xs, p x = false) →
    flipBlocks p acc (xs ++ rest) = acc ++ xs ++ flipBlocks p [] rest := by
  intro xs
  induction xs with
  | nil => intro _ _ h; exact absurd rfl h
  | cons x xs ih =>
    intro acc rest _ h
    rw [List.cons_append, flipBlocks, if_neg (by rw [h x (by simp)]; simp)]
    by_cases hx : xs = []
    · subst hx; simp
    · rw [ih [] rest hx (fun y hy => h y (by simp [hy]))]
      simp

/-- Reversing blocks of the elements of scraps, when no two scraps to be reversed are neighbours. -/
theorem flip_scraps {α : Type} (p : α → Bool) (P : Scrap → Bool) (f : Scrap → List α) : ∀ (ys : List Scrap) (acc : List α),
    (∀ y ∈ ys, f y ≠ [] ∧ ∀ x ∈ f y, p x = P y) → Linked (fun a b => ¬ (P a = true ∧ P b = true)) ys → (acc = [] ∨ ∀ y ∈ ys.head?, P y = false) →
    flipBlocks p acc (ys.flatMap f) = acc ++ ys.flatMap fun y => if P y = true then (f y).reverse else f y := by
  intro ys
  induction ys with
  | nil => intro acc _ _ _; simp [flipBlocks]
  | cons y ys ih =>
    intro acc h1 h2 h3
    obtain ⟨y1, y2⟩ := h1 y (List.mem_cons_self ..)
    have h1' : ∀ y ∈ ys, f y ≠ [] ∧ ∀ x ∈ f y, p x = P y := fun z hz => h1 z (List.mem_cons_of_mem _ hz)
    have h2' : Linked (fun a b => ¬ (P a = true ∧ P b = true)) ys := by
      cases ys with
      | nil => trivial
      | cons a b => exact h2.2
    rw [List.flatMap_cons, List.flatMap_cons]
    by_cases hy : P y = true
    · have hacc : acc = [] := by
        rcases h3 with h | h
        · exact h
        · rw [h y rfl] at hy; cases hy
      subst hacc
      rw [flip_all p _ _ _ (fun x hx => by rw [y2 x hx]; exact hy), if_pos hy, ih _ h1' h2']
      · simp
      · right
        intro z hz
        cases ys with
        | nil => cases hz
        | cons a b =>
          rw [List.head?_cons, Option.mem_def, Option.some.injEq] at hz
          subst hz
          refine Classical.byContradiction fun hc => ?_
          exact h2.1 ⟨hy, by simpa using hc⟩
    · rw [flip_none p _ _ _ y1 (fun x hx => by rw [y2 x hx]; simpa using hy), if_neg hy, ih _ h1' h2' (Or.inl rfl)]
      simp

theorem reverseFrom_high {α : Type} (l : List (α × Nat)) (m : Nat) (h : ∀ x ∈ l, x.2 ≤ m) : ∀ k, reverseFrom (m + k) l = reverseFrom m l := by
  intro k
  induction k with
  | zero => rfl
  | succ k ih =>
    rw [← Nat.add_assoc, reverseFrom]
    have : reverseAbove (m + k + 1) l = l := by
      unfold reverseAbove
      rw [flip_single]
      have : ∀ (q : List (α × Nat)), (∀ x ∈ q, x.2 ≤ m) → Linked (fun a b => ¬ (decide (m + k + 1 ≤ a.2) = true ∧ decide (m + k + 1 ≤ b.2) = true)) q := by
        intro q
        induction q with
        | nil => intros; trivial
        | cons a q ih =>
          intro hq
          cases q with
          | nil => trivial
          | cons b q =>
            refine ⟨?_, ih fun x hx => hq x (List.mem_cons_of_mem _ hx)⟩
            have := hq a (by simp)
            simp
            omega
      exact this l h
    rw [this, ih]

theorem foldr_max : ∀ (l : List Nat) (x : Nat), x ∈ l → x ≤ l.foldr max 0 := by
  intro l
  induction l with
  | nil => intro x h; cases h
  | cons y l ih =>
    intro x h
    rw [List.foldr_cons]
    rw [List.mem_cons] at h
    rcases h with rfl | h
    · exact Nat.le_max_left _ _
    · exact Nat.le_trans (ih x h) (Nat.le_max_right _ _)

theorem foldr_max_le (l : List Nat) (m : Nat) (h : ∀ x ∈ l, x ≤ m) : l.foldr max 0 ≤ m := by
  induction l with
  | nil => exact Nat.zero_le _
  | cons y l ih =>
    rw [List.foldr_cons]
    exact Nat.max_le.mpr ⟨h y (by simp), ih fun x hx => h x (by simp [hx])⟩

/-- Levels up to 2. -/
theorem visualOrder_two {α : Type} (l : List (α × Nat)) (h : ∀ x ∈ l, x.2 ≤ 2) : visualOrder l = (reverseAbove 1 (reverseAbove 2 l)).map (·.1) := by
  unfold visualOrder
  have hm : ∀ x ∈ l, x.2 ≤ (l.map (·.2)).foldr max 0 := fun x hx => foldr_max _ _ (List.mem_map_of_mem hx)
  have hle : (l.map (·.2)).foldr max 0 ≤ 2 := foldr_max_le _ _ (by
    intro x hx
    rw [List.mem_map] at hx
    obtain ⟨y, hy, rfl⟩ := hx
    exact h y hy)
  have := reverseFrom_high l _ hm (2 - (l.map (·.2)).foldr max 0)
  rw [Nat.add_sub_cancel' hle] at this
  rw [← this]
  rfl

theorem above_low {α : Type} (k : Nat) (l : List (α × Nat)) (h : ∀ x ∈ l, x.2 < k) : reverseAbove k l = l := by
  unfold reverseAbove
  cases l with
  | nil => rfl
  | cons a l =>
    have := flip_none (fun x : α × Nat => decide (k ≤ x.2)) (a :: l) [] [] (by simp) (fun x hx => by have := h x hx; simp; omega)
    simpa [flipBlocks] using this

theorem above_all {α : Type} (k : Nat) (l : List (α × Nat)) (h : ∀ x ∈ l, k ≤ x.2) : reverseAbove k l = l.reverse := by
  unfold reverseAbove
  have := flip_all (fun x : α × Nat => decide (k ≤ x.2)) l [] [] (fun x hx => by simpa using h x hx)
  simpa [flipBlocks] using this

/-- What is displayed for scraps of alternating directions, each taken as a run. -/
theorem shown_scraps {o : Options} {t : List Char} {cs : List Class} {ys : List Scrap} (hl : cs.length = t.length) (ht : Tiles 0 (utf8 t).length ys)
    (hs : ∀ s ∈ ys, (s.clz = cL ∨ s.clz = cR) ∧ s.l < s.r ∧ s.children = []) (ha : Linked (fun a b : Scrap => a.clz ≠ b.clz) ys)
    (hb : byteClasses ys = Spec.spread t cs) :
    shown (starts 0 t) (outerDir o) (ys.map fun y => vrun y (outerDir o)) = visualOrder ((starts 0 t).zip (cs.map (Spec.level (outer o)))) := by
  have hp : ∀ s ∈ ys, s.l < s.r := fun s h => (hs s h).2.1
  have hz : (starts 0 t).zip (cs.map (Spec.level (outer o))) =
      ys.flatMap fun y => (within y.l y.r (starts 0 t)).map fun p => (p, Spec.level (outer o) y.clz) := by
    rw [List.zip_map_right, zip_scraps hl ht hp hb, List.map_flatMap]
    congr 1
    funext y
    rw [List.map_map]
    rfl
  have hne : ∀ y ∈ ys, within y.l y.r (starts 0 t) ≠ [] := by
    intro y hy h0
    have h1 := scrap_starts hl ht hp ha hb y hy
    have : y.l ∈ within y.l y.r (starts 0 t) := by
      unfold within
      rw [List.mem_filter]
      exact ⟨h1, by simpa using hp y hy⟩
    rw [h0] at this
    cases this
  have hlev : ∀ s : Scrap, s.clz = cL ∨ s.clz = cR → Spec.level (outer o) s.clz = if outer o = cL then (if s.clz = cR then 1 else 0) else (if s.clz = cL then 2 else 1) := by
    intro s h
    unfold Spec.level
    rcases h with h | h <;> rw [h] <;> split <;> rfl
  have hdir : ∀ s : Scrap, s.clz = cL ∨ s.clz = cR → ∀ d, directionOf s d = if s.clz = cL then .ltr else .rtl := by
    intro s h d
    unfold directionOf
    rcases h with h | h <;> rw [h] <;> rfl
  have hmem : ∀ x ∈ (ys.flatMap fun y => (within y.l y.r (starts 0 t)).map fun p => (p, Spec.level (outer o) y.clz)), ∃ y ∈ ys, x.2 = Spec.level (outer o) y.clz := by
    intro x hx
    rw [List.mem_flatMap] at hx
    obtain ⟨y, hy, hx⟩ := hx
    rw [List.mem_map] at hx
    obtain ⟨p, -, rfl⟩ := hx
    exact ⟨y, hy, rfl⟩
  have hlink : ∀ c : Class, Linked (fun a b : Scrap => ¬ (decide (a.clz = c) = true ∧ decide (b.clz = c) = true)) ys := by
    intro c
    have := linked_map (R := fun a b : Scrap => a.clz ≠ b.clz) (S := fun a b : Scrap => ¬ (decide (a.clz = c) = true ∧ decide (b.clz = c) = true)) id
      (fun x y h hh => by simp only [decide_eq_true_eq] at hh; exact h (hh.1.trans hh.2.symm)) ys ha
    rwa [List.map_id] at this
  rw [hz, visualOrder_two _ (by
    intro x hx
    obtain ⟨y, hy, e⟩ := hmem x hx
    rw [e, hlev y (hs y hy).1]
    repeat' split
    all_goals omega)]
  by_cases hd : o.outerR2L = true
  · have ho : outer o = cR := by unfold outer; rw [if_pos hd]
    have hod : outerDir o = .rtl := by unfold outerDir; rw [if_pos hd]
    have h2 : reverseAbove 2 (ys.flatMap fun y => (within y.l y.r (starts 0 t)).map fun p => (p, Spec.level (outer o) y.clz)) =
        ys.flatMap fun y => if decide (y.clz = cL) = true then ((within y.l y.r (starts 0 t)).map fun p => (p, Spec.level (outer o) y.clz)).reverse
          else (within y.l y.r (starts 0 t)).map fun p => (p, Spec.level (outer o) y.clz) := by
      have := flip_scraps (fun x : Nat × Nat => decide (2 ≤ x.2)) (fun y => decide (y.clz = cL))
        (fun y => (within y.l y.r (starts 0 t)).map fun p => (p, Spec.level (outer o) y.clz)) ys [] (by
          intro y hy
          refine ⟨by simpa using hne y hy, ?_⟩
          intro x hx
          rw [List.mem_map] at hx
          obtain ⟨p, -, rfl⟩ := hx
          dsimp only
          rw [hlev y (hs y hy).1, ho, if_neg (by decide)]
          by_cases hc : y.clz = cL <;> simp [hc]) (hlink cL) (Or.inl rfl)
      rw [List.nil_append] at this
      exact this
    rw [h2, above_all 1 _ (by
      intro x hx
      rw [← h2] at hx
      have hx2 := (flipBlocks_perm _ _ _).mem_iff.mp hx
      rw [List.nil_append] at hx2
      obtain ⟨y, hy, e⟩ := hmem x hx2
      rw [e, hlev y (hs y hy).1, ho, if_neg (by decide)]
      split <;> omega)]
    unfold shown
    rw [hod, if_neg (by simp), List.map_reverse, List.map_flatMap, List.reverse_flatMap, ← List.map_reverse, List.flatMap_map]
    have : ∀ zs : List Scrap, (∀ z ∈ zs, z ∈ ys) → zs.flatMap (fun a => (vrun a .rtl).scraps.reverse.flatMap (shownSegment (starts 0 t) (vrun a .rtl).dir)) =
        zs.flatMap fun y => ((if decide (y.clz = cL) = true then ((within y.l y.r (starts 0 t)).map fun p => (p, Spec.level (outer o) y.clz)).reverse
          else (within y.l y.r (starts 0 t)).map fun p => (p, Spec.level (outer o) y.clz)).map (·.1)).reverse := by
      intro zs
      induction zs with
      | nil => intros; rfl
      | cons z zs ih =>
        intro hz
        rw [List.flatMap_cons, List.flatMap_cons, ih fun x hx => hz x (List.mem_cons_of_mem _ hx)]
        congr 1
        have hzc := (hs z (hz z (List.mem_cons_self ..))).1
        show [z].reverse.flatMap (shownSegment (starts 0 t) (directionOf z .rtl)) = _
        rw [hdir z hzc, List.reverse_singleton, List.flatMap_cons, List.flatMap_nil, List.append_nil]
        unfold shownSegment
        by_cases hc : z.clz = cL
        · simp [hc, Function.comp_def]
        · simp [hc, Function.comp_def]
    exact this ys.reverse fun z hz => by simpa using hz
  · have ho : outer o = cL := by unfold outer; rw [if_neg hd]
    have hod : outerDir o = .ltr := by unfold outerDir; rw [if_neg hd]
    rw [above_low 2 _ (by
      intro x hx
      obtain ⟨y, hy, e⟩ := hmem x hx
      rw [e, hlev y (hs y hy).1, ho, if_pos rfl]
      split <;> omega)]
    have h2 := flip_scraps (fun x : Nat × Nat => decide (1 ≤ x.2)) (fun y => decide (y.clz = cR))
        (fun y => (within y.l y.r (starts 0 t)).map fun p => (p, Spec.level (outer o) y.clz)) ys [] (by
          intro y hy
          refine ⟨by simpa using hne y hy, ?_⟩
          intro x hx
          rw [List.mem_map] at hx
          obtain ⟨p, -, rfl⟩ := hx
          dsimp only
          rw [hlev y (hs y hy).1, ho, if_pos rfl]
          by_cases hc : y.clz = cR <;> simp [hc]) (hlink cR) (Or.inl rfl)
    unfold reverseAbove
    rw [h2, List.nil_append]
    unfold shown
    rw [hod, if_pos rfl, List.map_flatMap, List.flatMap_map]
    have : ∀ zs : List Scrap, (∀ z ∈ zs, z ∈ ys) → zs.flatMap (fun a => (vrun a .ltr).scraps.flatMap (shownSegment (starts 0 t) (vrun a .ltr).dir)) =
        zs.flatMap fun y => (if decide (y.clz = cR) = true then ((within y.l y.r (starts 0 t)).map fun p => (p, Spec.level (outer o) y.clz)).reverse
          else (within y.l y.r (starts 0 t)).map fun p => (p, Spec.level (outer o) y.clz)).map (·.1) := by
      intro zs
      induction zs with
      | nil => intros; rfl
      | cons z zs ih =>
        intro hz
        rw [List.flatMap_cons, List.flatMap_cons, ih fun x hx => hz x (List.mem_cons_of_mem _ hx)]
        congr 1
        have hzc := (hs z (hz z (List.mem_cons_self ..))).1
        show [z].flatMap (shownSegment (starts 0 t) (directionOf z .ltr)) = _
        rw [hdir z hzc, List.flatMap_cons, List.flatMap_nil, List.append_nil]
        unfold shownSegment
        rcases hzc with hc | hc
        · simp [hc, cL, cR, Function.comp_def]
        · simp [hc, cL, cR, Function.comp_def]
    exact this ys fun z hz => hz

end Uax.Bidi
