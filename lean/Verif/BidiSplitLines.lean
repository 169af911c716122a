import Verif.SpecSplit
import Verif.BidiVisual
import Verif.BidiSplitProofs

/-
Lines of a paragraph: splitting the levels of a paragraph and reordering each line.
-/
namespace Uax.Bidi
open Spec

/-! ### Reordering a line -/

theorem flattenLoop_zero (e : Dir) (z : Scrap) (h1 : z.len = 0) (h2 : z.children = []) : ∀ (ys : List Scrap) (runs : List VRun),
    flattenLoop e (ys ++ [z]) runs = flattenLoop e ys runs := by
  intro ys
  induction ys with
  | nil =>
    intro runs
    obtain ⟨c, l, r, x, ch⟩ := z
    simp only at h2
    subst h2
    rw [List.nil_append, flattenLoop, flattenLoop, if_pos rfl]
    unfold extendRuns
    rw [if_pos h1]
    dsimp only
    rw [flattenLoop]
  | cons y ys ih =>
    intro runs
    obtain ⟨c, l, r, x, ch⟩ := y
    rw [List.cons_append, flattenLoop, flattenLoop]
    simp only [ih]

/-- What remains of levels of a text with alternating directions: scraps of alternating directions, perhaps followed by an empty one. -/
def Alternating (ys tail : List Scrap) : Prop :=
  (∀ s ∈ ys, (s.clz = cL ∨ s.clz = cR) ∧ s.l < s.r ∧ s.children = []) ∧ Linked (fun a b : Scrap => a.clz ≠ b.clz) (ys ++ tail) ∧
  (tail = [] ∨ ∃ x, tail = [x] ∧ (x.clz = cL ∨ x.clz = cR ∨ x.clz = cPDI) ∧ x.l = x.r ∧ x.children = [])

theorem reorder_line (o : Options) (d : Dir) {ys tail : List Scrap} (h : Alternating ys tail) :
    Levels.reorder ⟨d, initialOuterScrap o true :: (ys ++ tail)⟩ = some (ys.map fun y => vrun y (outerDir o)) := by
  obtain ⟨h1, h2, h3⟩ := h
  have hic : (initialOuterScrap o true).clz = cLRI ∨ (initialOuterScrap o true).clz = cRLI := by
    unfold initialOuterScrap
    dsimp only
    cases o.outerR2L <;> simp
  have hall : ∀ s ∈ ys ++ tail, (s.clz = cL ∨ s.clz = cR ∨ s.clz = cPDI) ∧ s.children = [] := by
    intro s hs
    rw [List.mem_append] at hs
    rcases hs with hs | hs
    · exact ⟨(h1 s hs).1.imp id Or.inl, (h1 s hs).2.2⟩
    · rcases h3 with rfl | ⟨x, rfl, x1, x2, x3⟩
      · cases hs
      · rw [List.mem_singleton] at hs; subst hs; exact ⟨x1, x3⟩
  have hkids : ∀ (d : Dir) (l : List Scrap), (∀ s ∈ l, s.children = []) → reorderKids d l = some l := by
    intro d l
    induction l with
    | nil => intro _; rw [reorderKids]
    | cons s rest ih =>
      intro h
      have h0 := h s (by simp)
      obtain ⟨c, l, r, x, ch⟩ := s
      simp only at h0
      subst h0
      rw [reorderKids, reorderChildren, ih (fun t ht => h t (by simp [ht]))]
      simp only
      split <;> rfl
  have hlink : ∀ l : List Scrap, (∀ s ∈ l, s.clz = cL ∨ s.clz = cR ∨ s.clz = cPDI) → Linked (fun a b : Scrap => a.clz ≠ b.clz) l →
      Linked (fun a b : Scrap => ¬ (decide (0 < level a d) = true ∧ decide (0 < level b d) = true)) l := by
    intro l
    induction l with
    | nil => intros; trivial
    | cons a l ih =>
      cases l with
      | nil => intros; trivial
      | cons b l =>
        intro hc hl
        refine ⟨?_, ih (fun s hs => hc s (List.mem_cons_of_mem _ hs)) hl.2⟩
        have ha := hc a (by simp)
        have hb := hc b (by simp)
        have hne : a.clz ≠ b.clz := hl.1
        rintro ⟨k1, k2⟩
        simp only [decide_eq_true_eq] at k1 k2
        unfold level at k1 k2
        rcases ha with h | h | h <;> rcases hb with k | k | k <;> rw [h] at k1 hne <;> rw [k] at k2 hne <;> cases d <;>
          first | exact absurd rfl hne | (simp [cL, cR, cEN, cAN, cPDI] at k1 k2)
  have hre : reorder d (initialOuterScrap o true :: (ys ++ tail)) = some (initialOuterScrap o true :: (ys ++ tail)) := by
    rw [reorder, hkids, Option.map_some, reorderFlat_eq, flip_single]
    · rw [← List.singleton_append, linked_append]
      refine ⟨trivial, hlink _ (fun s hs => (hall s hs).1) h2, ?_⟩
      rintro a ha b hb ⟨k1, -⟩
      rw [List.getLast?_singleton, Option.mem_def, Option.some.injEq] at ha
      rw [← ha] at k1
      unfold level at k1
      rcases hic with h | h <;> rw [h] at k1 <;> simp [cLRI, cRLI, cEN, cAN, cL, cR] at k1
    · intro s hs
      rw [List.mem_cons] at hs
      rcases hs with rfl | hs
      · rcases hic with h | h <;> rw [h] <;> decide
      · rcases (hall s hs).1 with h | h | h <;> rw [h] <;> decide
    · intro s hs
      rw [List.mem_cons] at hs
      rcases hs with rfl | hs
      · rfl
      · exact (hall s hs).2
  unfold Levels.reorder
  dsimp only
  rw [hre, Option.bind_some]
  unfold flatten
  dsimp only
  have hiso : isIsolate (initialOuterScrap o true) = true := by
    unfold isIsolate
    rcases hic with h | h <;> rw [h] <;> rfl
  rw [if_pos hiso, directionOf_initial]
  have hi : flattenLoop (outerDir o) (initialOuterScrap o true :: (ys ++ tail)) [] = flattenLoop (outerDir o) (ys ++ tail) [] := by
    have : initialOuterScrap o true = ⟨(initialOuterScrap o true).clz, 0, 0, (initialOuterScrap o true).ctx, []⟩ := rfl
    rw [this, flattenLoop, if_pos rfl]
    unfold extendRuns Scrap.len
    simp
  have hl := (linked_append.mp h2).1
  have hend : flattenLoop (outerDir o) (ys ++ tail) [] = flattenLoop (outerDir o) ys [] := by
    rcases h3 with rfl | ⟨x, rfl, x1, x2, x3⟩
    · rw [List.append_nil]
    · exact flattenLoop_zero _ x (by unfold Scrap.len; rw [x2]; simp) x3 ys []
  have := flatten_apart (outerDir o) ys [] h1 hl (by simp) (by simp) { clz := cPDI } rfl rfl
  rw [flattenLoop_zero _ _ rfl rfl] at this
  rw [hi, hend, this]
  simp

/-! ### Splitting -/

/-- Levels of a line with the given classes of its bytes. -/
def LineLevels (o : Options) (rl : Levels) (bs : List Class) : Prop :=
  ∃ ys tail, rl.scraps = initialOuterScrap o true :: (ys ++ tail) ∧ Alternating ys tail ∧ Tiles 0 bs.length ys ∧ byteClasses ys = bs

/-- The same with a PDI at the end. -/
def RestLevels (o : Options) (rl : Levels) (bs : List Class) : Prop :=
  ∃ ys z, rl.scraps = initialOuterScrap o true :: (ys ++ [z]) ∧ Alternating ys [z] ∧ Tiles 0 bs.length ys ∧ byteClasses ys = bs ∧
    z.clz = cPDI ∧ z.r = bs.length

theorem RestLevels.line {o : Options} {rl : Levels} {bs : List Class} (h : RestLevels o rl bs) : LineLevels o rl bs := by
  obtain ⟨ys, z, h1, h2, h3, h4, -⟩ := h
  exact ⟨ys, [z], h1, h2, h3, h4⟩

/-- Where the loop of split finds the position. -/
theorem splitLoop_tiles (n : Nat) (z : Scrap) : ∀ (ys : List Scrap) (a e : Nat), Tiles a e ys → (∀ s ∈ ys, (s.clz = cL ∨ s.clz = cR) ∧ s.l < s.r ∧ s.children = []) →
    a ≤ n → n < e → ∃ pre s post, ys = pre ++ s :: post ∧ s.l ≤ n ∧ n < s.r ∧ Tiles a s.l pre ∧ Tiles s.r e post ∧
      splitLoop n (ys ++ [z]) = some (pre, ⟨s.clz, s.l, n, s.ctx, []⟩, ⟨s.clz, n, s.r, {}, []⟩, post ++ [z]) := by
  intro ys
  induction ys with
  | nil => intro a e h _ h1 h2; have : a = e := h; omega
  | cons y ys ih =>
    intro a e h hs h1 h2
    obtain ⟨rfl, h⟩ := h
    have h3 := (hs y (by simp)).2.2
    have hlt := (hs y (by simp)).2.1
    obtain ⟨c, l, r, x, ch⟩ := y
    simp only at h3 h h1 hlt
    subst h3
    by_cases hr : n < r
    · refine ⟨[], ⟨c, l, r, x, []⟩, ys, rfl, h1, hr, rfl, h, ?_⟩
      rw [List.cons_append, splitLoop, if_pos ⟨h1, hr⟩, splitChildren]
    · obtain ⟨pre, s, post, e1, e2, e3, e4, e5, e6⟩ := ih r e h (fun s hm => hs s (List.mem_cons_of_mem _ hm)) (by omega) h2
      refine ⟨⟨c, l, r, x, []⟩ :: pre, s, post, by rw [e1]; rfl, e2, e3, ⟨rfl, e4⟩, e5, ?_⟩
      rw [List.cons_append, splitLoop, if_neg (by omega), e6]

theorem validCharpos_sub (p d : Nat) : validCharpos p d = p - d := by unfold validCharpos; split <;> omega

theorem shift_tiles (n : Nat) : ∀ (ys : List Scrap) (a e : Nat), n ≤ a → Tiles a e ys → (∀ s ∈ ys, s.l ≤ s.r) → Tiles (a - n) (e - n) (shiftZero ys n) := by
  intro ys
  induction ys with
  | nil => intro a e _ h _; have : a = e := h; subst this; rfl
  | cons y ys ih =>
    intro a e ha h hp
    obtain ⟨rfl, h⟩ := h
    have hy := hp y (by simp)
    exact ⟨validCharpos_sub _ _, by
      have := ih y.r e (by omega) h (fun s hs => hp s (List.mem_cons_of_mem _ hs))
      show Tiles (validCharpos y.r n) _ _
      rw [validCharpos_sub]
      exact this⟩

theorem shift_bytes (n : Nat) (ys : List Scrap) (h : ∀ s ∈ ys, n ≤ s.l) : byteClasses (shiftZero ys n) = byteClasses ys := by
  unfold byteClasses shiftZero
  rw [List.flatMap_map]
  induction ys with
  | nil => rfl
  | cons y ys ih =>
    rw [List.flatMap_cons, List.flatMap_cons, ih (fun s hs => h s (List.mem_cons_of_mem _ hs))]
    dsimp only
    rw [validCharpos_sub, validCharpos_sub]
    have := h y (by simp)
    congr 2
    omega

theorem tiles_ge : ∀ (ys : List Scrap) (a e : Nat), Tiles a e ys → (∀ s ∈ ys, s.l ≤ s.r) → ∀ s ∈ ys, a ≤ s.l := by
  intro ys
  induction ys with
  | nil => intro _ _ _ _ s hs; cases hs
  | cons y ys ih =>
    intro a e h hp s hs
    obtain ⟨rfl, h⟩ := h
    rw [List.mem_cons] at hs
    rcases hs with rfl | hs
    · exact Nat.le_refl _
    · have := ih _ _ h (fun s hs => hp s (List.mem_cons_of_mem _ hs)) s hs
      have := hp y (by simp)
      omega

theorem linked_shift (n : Nat) (ys : List Scrap) (h : Linked (fun a b : Scrap => a.clz ≠ b.clz) ys) : Linked (fun a b : Scrap => a.clz ≠ b.clz) (shiftZero ys n) :=
  linked_map (S := fun a b : Scrap => a.clz ≠ b.clz) (fun s : Scrap => { s with l := validCharpos s.l n, r := validCharpos s.r n }) (fun _ _ h => h) ys h

/-- Splitting off a line. -/
theorem split_line {o : Options} {rl : Levels} {bs cs : List Class} (h : RestLevels o rl (bs ++ cs)) (hc : cs ≠ []) :
    ∃ line rest, rl.split bs.length true = some (line, rest) ∧ LineLevels o line bs ∧ RestLevels o rest cs := by
  obtain ⟨ys, z, h1, ⟨a1, a2, a3⟩, h3, h4, h5, h6⟩ := h
  have hcl : 0 < cs.length := List.length_pos_iff.mpr hc
  rw [List.length_append] at h3 h6
  obtain ⟨z1, z2⟩ : z.l = z.r ∧ z.children = [] := by
    rcases a3 with h | ⟨x, h, -, x1, x2⟩
    · cases h
    · rw [List.cons.injEq] at h; rw [h.1]; exact ⟨x1, x2⟩
  obtain ⟨pre, s, post, e1, e2, e3, e4, e5, e6⟩ := splitLoop_tiles bs.length z ys 0 _ h3 a1 (Nat.zero_le _) (by omega)
  have hi0 : initialOuterScrap o true = ⟨(initialOuterScrap o true).clz, 0, 0, (initialOuterScrap o true).ctx, []⟩ := rfl
  have hic : isIsolate (initialOuterScrap o true) = true := by
    unfold isIsolate initialOuterScrap
    dsimp only
    cases o.outerR2L <;> rfl
  have hsl : splitLoop bs.length rl.scraps = some (initialOuterScrap o true :: pre, ⟨s.clz, s.l, bs.length, s.ctx, []⟩, ⟨s.clz, bs.length, s.r, {}, []⟩, post ++ [z]) := by
    rw [h1, hi0, splitLoop, if_neg (by omega), e6]
  have hcon : irsContains rl.scraps bs.length = some true := by
    unfold irsContains
    rw [h1, List.head?_cons, ← List.cons_append, List.getLast?_append, List.getLast?_singleton, Option.some_or]
    have : (initialOuterScrap o true).l = 0 := rfl
    simp [this, h6, hcl]
  have hsplit : rl.split bs.length true = some (⟨.ltr, initialOuterScrap o true :: (pre ++ [⟨s.clz, s.l, bs.length, s.ctx, []⟩])⟩,
      ⟨.ltr, shiftZero (initialOuterScrap o true :: ⟨s.clz, bs.length, s.r, {}, []⟩ :: (post ++ [z])) bs.length⟩) := by
    unfold Levels.split Bidi.split
    rw [hcon, hsl, h1]
    dsimp only [List.head?_cons, Option.map_some]
    unfold splitResult
    rw [if_pos hic, if_pos rfl]
    rfl
  obtain ⟨s1, s2, s3⟩ := a1 s (by rw [e1]; simp)
  have hpre : ∀ x ∈ pre, (x.clz = cL ∨ x.clz = cR) ∧ x.l < x.r ∧ x.children = [] := fun x hx => a1 x (by rw [e1]; simp [hx])
  have hpost : ∀ x ∈ post, (x.clz = cL ∨ x.clz = cR) ∧ x.l < x.r ∧ x.children = [] := fun x hx => a1 x (by rw [e1]; simp [hx])
  have hb : byteClasses pre ++ List.replicate (bs.length - s.l) s.clz = bs ∧ List.replicate (s.r - bs.length) s.clz ++ byteClasses post = cs := by
    have hlen := bytes_tiles pre 0 s.l e4 (fun x hx => Nat.le_of_lt (hpre x hx).2.1)
    have : (byteClasses pre ++ List.replicate (bs.length - s.l) s.clz) ++ (List.replicate (s.r - bs.length) s.clz ++ byteClasses post) = bs ++ cs := by
      rw [← h4, e1]
      unfold byteClasses
      rw [List.flatMap_append, List.flatMap_cons, List.append_assoc]
      congr 1
      rw [← List.append_assoc, List.replicate_append_replicate]
      congr 2
      omega
    exact List.append_inj this (by rw [List.length_append, List.length_replicate]; omega)
  rw [e1, List.append_assoc, List.cons_append, linked_append] at a2
  obtain ⟨l1, l2, l3⟩ := a2
  refine ⟨_, _, hsplit, ?_, ?_⟩
  · by_cases he : s.l = bs.length
    · refine ⟨pre, [⟨s.clz, s.l, bs.length, s.ctx, []⟩], rfl, ⟨hpre, ?_, Or.inr ⟨_, rfl, s1.imp id Or.inl, he, rfl⟩⟩, he ▸ e4, ?_⟩
      · rw [linked_append]
        exact ⟨l1, trivial, fun x hx y hy => by
          rw [List.head?_cons, Option.mem_def, Option.some.injEq] at hy
          rw [← hy]
          exact l3 x hx s rfl⟩
      · have := hb.1
        rw [he, Nat.sub_self, List.replicate_zero, List.append_nil] at this
        exact this
    · refine ⟨pre ++ [⟨s.clz, s.l, bs.length, s.ctx, []⟩], [], by rw [List.append_nil], ⟨?_, ?_, Or.inl rfl⟩, ?_, ?_⟩
      · intro x hx
        rw [List.mem_append, List.mem_singleton] at hx
        rcases hx with hx | rfl
        · exact hpre x hx
        · exact ⟨s1, by dsimp only; omega, rfl⟩
      · rw [List.append_nil, linked_append]
        exact ⟨l1, trivial, fun x hx y hy => by
          rw [List.head?_cons, Option.mem_def, Option.some.injEq] at hy
          rw [← hy]
          exact l3 x hx s rfl⟩
      · rw [tiles_append]
        exact ⟨s.l, e4, rfl, rfl⟩
      · unfold byteClasses
        rw [List.flatMap_append, List.flatMap_cons, List.flatMap_nil, List.append_nil]
        exact hb.1
  · have hge := tiles_ge post s.r _ e5 (fun x hx => Nat.le_of_lt (hpost x hx).2.1)
    have hcons : ∀ x ∈ (⟨s.clz, bs.length, s.r, {}, []⟩ : Scrap) :: post, (x.clz = cL ∨ x.clz = cR) ∧ x.l < x.r ∧ x.children = [] := by
      intro x hx
      rw [List.mem_cons] at hx
      rcases hx with rfl | hx
      · exact ⟨s1, e3, rfl⟩
      · exact hpost x hx
    have hge2 : ∀ x ∈ (⟨s.clz, bs.length, s.r, {}, []⟩ : Scrap) :: post, bs.length ≤ x.l := by
      intro x hx
      rw [List.mem_cons] at hx
      rcases hx with rfl | hx
      · exact Nat.le_refl _
      · have := hge x hx; omega
    have htl : Tiles bs.length (bs.length + cs.length) ((⟨s.clz, bs.length, s.r, {}, []⟩ : Scrap) :: post) := ⟨rfl, e5⟩
    refine ⟨shiftZero ((⟨s.clz, bs.length, s.r, {}, []⟩ : Scrap) :: post) bs.length, { z with l := validCharpos z.l bs.length, r := validCharpos z.r bs.length }, ?_, ⟨?_, ?_, ?_⟩, ?_, ?_, h5, ?_⟩
    · unfold shiftZero
      rw [List.map_cons, List.map_cons, List.map_append, List.map_cons, List.map_nil]
      have h0 : validCharpos 0 bs.length = 0 := by rw [validCharpos_sub]; omega
      rw [show ({ initialOuterScrap o true with l := validCharpos (initialOuterScrap o true).l bs.length, r := validCharpos (initialOuterScrap o true).r bs.length } : Scrap) =
        initialOuterScrap o true from by
          show ({ initialOuterScrap o true with l := validCharpos 0 bs.length, r := validCharpos 0 bs.length } : Scrap) = _
          rw [h0]
          rfl]
      rfl
    · intro x hx
      unfold shiftZero at hx
      rw [List.mem_map] at hx
      obtain ⟨y, hy, rfl⟩ := hx
      obtain ⟨y1, y2, y3⟩ := hcons y hy
      have := hge2 y hy
      exact ⟨y1, by dsimp only; rw [validCharpos_sub, validCharpos_sub]; omega, y3⟩
    · have : Linked (fun a b : Scrap => a.clz ≠ b.clz) ((⟨s.clz, bs.length, s.r, {}, []⟩ : Scrap) :: (post ++ [z])) := by
        cases hp : post ++ [z] with
        | nil => trivial
        | cons b l => rw [hp] at l2; exact ⟨l2.1, l2.2⟩
      have := linked_shift bs.length _ this
      unfold shiftZero at this ⊢
      rwa [List.map_cons, List.map_append, List.map_cons, List.map_nil] at this
    · exact Or.inr ⟨_, rfl, Or.inr (Or.inr h5), by dsimp only; rw [z1], z2⟩
    · have := shift_tiles bs.length _ _ _ (Nat.le_refl _) htl (fun x hx => Nat.le_of_lt (hcons x hx).2.1)
      rwa [Nat.sub_self, Nat.add_sub_cancel_left] at this
    · rw [shift_bytes _ _ hge2]
      unfold byteClasses
      rw [List.flatMap_cons]
      exact hb.2
    · dsimp only
      rw [validCharpos_sub, h6]
      omega

/-! ### A line -/

theorem line_direction {o : Options} {rl : Levels} {bs : List Class} (h : LineLevels o rl bs) {pos : Nat} {c : Class} (hc : bs[pos]? = some c) :
    rl.directionAt pos = if c = cL then .ltr else .rtl := by
  obtain ⟨ys, tail, h1, ⟨a1, -, -⟩, h3, h4⟩ := h
  have hp : pos < bs.length := (List.getElem?_eq_some_iff.mp hc).1
  obtain ⟨s, s1, s2⟩ := find_bytes ys 0 _ pos h3 (fun s hs => (a1 s hs).2.1) (Nat.zero_le _) hp
  unfold Levels.directionAt
  rw [h1, List.find?_cons_of_neg, List.find?_append, s1]
  · rw [Nat.sub_zero, h4, hc, Option.some.injEq] at s2
    rw [s2]
    show directionOf s _ = _
    unfold directionOf
    rcases (a1 s (List.mem_of_find?_eq_some s1)).1 with h | h <;> rw [h] <;> rfl
  · have : (initialOuterScrap o true).r = 0 := rfl
    rw [this]
    simp

theorem line_shown {o : Options} {rl : Levels} {t : List Char} {cs : List Class} (hl : cs.length = t.length) (h : LineLevels o rl (Spec.spread t cs)) :
    ∃ runs, rl.reorder = some runs ∧ shown (starts 0 t) (outerDir o) runs = visualOrder ((starts 0 t).zip (cs.map (Spec.level (outer o)))) := by
  obtain ⟨ys, tail, h1, ha, h3, h4⟩ := h
  rw [spread_length t cs hl] at h3
  obtain ⟨d, scraps⟩ := rl
  simp only at h1
  subst h1
  exact ⟨_, reorder_line o d ha, shown_scraps hl h3 ha.1 (linked_append.mp ha.2.1).1 h4⟩

theorem spread_append : ∀ (u v : List Char) (cs ds : List Class), cs.length = u.length → Spec.spread (u ++ v) (cs ++ ds) = Spec.spread u cs ++ Spec.spread v ds
  | [], v, cs, ds, h => by
    have : cs = [] := List.length_eq_zero_iff.mp h
    subst this
    rfl
  | c :: u, v, [], ds, h => by simp at h
  | c :: u, v, x :: cs, ds, h => by
    rw [List.cons_append, List.cons_append, spread_cons, spread_cons, spread_append u v cs ds (by simpa using h), List.append_assoc]

/-- Splitting levels line by line. -/
theorem split_lines (o : Options) : ∀ (lines : List (List Char)) (line : List Char) (rl : Levels) (cs : List Class), (∀ l ∈ line :: lines, l ≠ []) →
    cs.length = (line ++ lines.flatten).length → RestLevels o rl (Spec.spread (line ++ lines.flatten) cs) →
    ∃ rls, splitLines rl ((line :: lines).dropLast.map fun l => (utf8 l).length) = some rls ∧ rls.length = (line :: lines).length ∧
      ∀ ls l ls', line :: lines = ls ++ l :: ls' → ∃ r, rls[ls.length]? = some r ∧ LineLevels o r (Spec.spread l ((cs.drop ls.flatten.length).take l.length)) := by
  intro lines
  induction lines with
  | nil =>
    intro line rl cs _ hl h
    rw [List.flatten_nil, List.append_nil] at hl h
    refine ⟨[rl], rfl, rfl, ?_⟩
    intro ls l ls' e
    cases ls with
    | cons x xs => simp at e
    | nil =>
      rw [List.nil_append, List.cons.injEq] at e
      obtain ⟨rfl, -⟩ := e
      refine ⟨rl, rfl, ?_⟩
      rw [List.flatten_nil, List.length_nil, List.drop_zero, List.take_of_length_le (by omega)]
      exact h.line
  | cons next lines ih =>
    intro line rl cs hne hl h
    rw [List.flatten_cons] at hl h
    have e : cs = cs.take line.length ++ cs.drop line.length := (List.take_append_drop _ _).symm
    have hl1 : (cs.take line.length).length = line.length := by
      rw [List.length_take]; simp only [List.length_append] at hl; omega
    have hl2 : (cs.drop line.length).length = (next ++ lines.flatten).length := by
      rw [List.length_drop]; simp only [List.length_append] at hl ⊢; omega
    rw [e, spread_append _ _ _ _ hl1] at h
    have hn : next ≠ [] := hne next (by simp)
    obtain ⟨l, r, s1, s2, s3⟩ := split_line h (by
      intro h0
      have := congrArg List.length h0
      rw [spread_length _ _ hl2] at this
      cases next with
      | nil => exact hn rfl
      | cons c w =>
        rw [List.cons_append, utf8_len c, List.length_nil] at this
        have := utf8_pos c
        omega)
    rw [spread_length _ _ hl1] at s1
    obtain ⟨rls, t1, t2, t3⟩ := ih next r _ (fun x hx => hne x (List.mem_cons_of_mem _ hx)) hl2 s3
    refine ⟨l :: rls, ?_, by rw [List.length_cons, t2]; rfl, ?_⟩
    · rw [List.dropLast_cons_of_ne_nil (by simp), List.map_cons, splitLines, s1]
      dsimp only
      rw [t1]
      rfl
    · intro ls k ls' e
      cases ls with
      | nil =>
        rw [List.nil_append, List.cons.injEq] at e
        obtain ⟨rfl, -⟩ := e
        exact ⟨l, rfl, s2⟩
      | cons x xs =>
        rw [List.cons_append, List.cons.injEq] at e
        obtain ⟨rfl, e⟩ := e
        obtain ⟨r', r1, r2⟩ := t3 xs k ls' e
        refine ⟨r', r1, ?_⟩
        rw [List.drop_drop, ← List.length_append, ← List.flatten_cons] at r2
        exact r2

end Uax.Bidi
