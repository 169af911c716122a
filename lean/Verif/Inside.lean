import Verif.SpecInside
import Verif.Regroup
import Verif.SimpleWordProofs

/-! Word boundaries are grapheme boundaries, if the classes go together. -/

namespace Uax

/-! ### Pieces of pieces -/

theorem pieces_inside {α : Type} (m1 m2 : α → Bool) : ∀ (l acc : List α) (done : List (List α)), (∀ x ∈ l, m1 x = true → m2 x = true) →
    (l = [] → done = [] ∧ acc = []) → (∀ x, l.getLast? = some x → m1 x = true) →
    ∃ groups : List (List (List α)), pieces m1 (done.flatten ++ acc) l = groups.map List.flatten ∧ done ++ pieces m2 acc l = groups.flatten
  | [], acc, done, _, h, _ => by
    obtain ⟨rfl, rfl⟩ := h rfl
    exact ⟨[], rfl, rfl⟩
  | a :: l, acc, done, hs, _, hl => by
    have hs' : ∀ x ∈ l, m1 x = true → m2 x = true := fun x hx => hs x (List.mem_cons_of_mem _ hx)
    have hl' : ∀ x, l.getLast? = some x → m1 x = true := by
      intro x hx
      cases l with
      | nil => cases hx
      | cons b l => exact hl x (by rw [List.getLast?_cons_cons]; exact hx)
    have hlast : l = [] → m1 a = true := fun e => hl a (by rw [e]; rfl)
    by_cases h1 : m1 a = true
    · have h2 := hs a (List.mem_cons_self ..) h1
      obtain ⟨gs, e1, e2⟩ := pieces_inside m1 m2 l [] [] hs' (fun _ => ⟨rfl, rfl⟩) hl'
      refine ⟨(done ++ [acc ++ [a]]) :: gs, ?_, ?_⟩
      · rw [pieces, if_pos h1, List.map_cons, ← e1]
        simp
      · rw [pieces, if_pos h2, List.flatten_cons, ← e2]
        simp
    · have hne : l ≠ [] := fun e => h1 (hlast e)
      by_cases h2 : m2 a = true
      · obtain ⟨gs, e1, e2⟩ := pieces_inside m1 m2 l [] (done ++ [acc ++ [a]]) hs' (fun e => absurd e hne) hl'
        refine ⟨gs, ?_, ?_⟩
        · rw [pieces, if_neg h1, ← e1]
          simp
        · rw [pieces, if_pos h2, ← e2]
          simp
      · obtain ⟨gs, e1, e2⟩ := pieces_inside m1 m2 l (acc ++ [a]) done hs' (fun e => absurd e hne) hl'
        refine ⟨gs, ?_, ?_⟩
        · rw [pieces, if_neg h1, ← e1, List.append_assoc]
        · rw [pieces, if_neg h2, ← e2]

theorem cutAfter_inside (c1 c2 : Nat → Bool) (text : List Int) (h : ∀ i, i < text.length → c1 i = true → c2 i = true) (hl : ∀ i, i + 1 = text.length → c1 i = true) :
    MadeOf (cutAfter c1 text) (cutAfter c2 text) := by
  have key : ∀ (m : Int × (Bool × Bool) → Bool) (c : Nat → Bool), (∀ (i : Nat) (r : Int), m (r, c1 i, c2 i) = c i) →
      cutAfter c text = (pieces m [] (text.mapIdx fun i r => (r, c1 i, c2 i))).map (·.map (·.1)) := by
    intro m c hm
    unfold cutAfter
    have := pieces_map (fun x : Int × (Bool × Bool) => (x.1, m x)) m (·.2) (fun _ => rfl) (text.mapIdx fun i r => (r, c1 i, c2 i)) []
    have e0 : (text.mapIdx fun i r => (r, c1 i, c2 i)).map (fun x : Int × (Bool × Bool) => (x.1, m x)) = text.mapIdx fun i r => (r, m (r, c1 i, c2 i)) := by
      apply List.ext_getElem? 
      intro i
      rw [List.getElem?_map, List.getElem?_mapIdx, List.getElem?_mapIdx]
      cases text[i]? <;> rfl
    rw [List.map_nil, e0] at this
    have e : (text.mapIdx fun i r => (r, m (r, c1 i, c2 i))) = text.mapIdx fun i r => (r, c i) := by
      congr 1
      funext i r
      rw [hm]
    rw [e] at this
    rw [this, List.map_map]
    refine List.map_congr_left fun p _ => ?_
    rw [Function.comp_apply, List.map_map]
    rfl
  obtain ⟨gs, e1, e2⟩ := pieces_inside (fun x : Int × (Bool × Bool) => x.2.1) (fun x => x.2.2) (text.mapIdx fun i r => (r, c1 i, c2 i)) [] [] (by
      intro x hx
      rw [List.mem_mapIdx] at hx
      obtain ⟨i, hi, rfl⟩ := hx
      exact h i hi)
    (fun _ => ⟨rfl, rfl⟩) (by
      intro x hx
      rw [List.getLast?_eq_getElem?, List.length_mapIdx, List.getElem?_mapIdx, Option.map_eq_some_iff] at hx
      obtain ⟨r, hr, rfl⟩ := hx
      obtain ⟨hlt, -⟩ := List.getElem?_eq_some_iff.mp hr
      exact hl _ (by omega))
  refine ⟨gs.map (·.map (·.map (·.1))), ?_, ?_⟩
  · rw [key (fun x => x.2.1) c1 (fun _ _ => rfl)]
    rw [List.flatten_nil, List.nil_append] at e1
    rw [e1, List.map_map, List.map_map]
    refine List.map_congr_left fun g _ => ?_
    simp only [Function.comp_apply, List.map_flatten]
  · rw [key (fun x => x.2.2) c2 (fun _ _ => rfl)]
    rw [List.nil_append] at e2
    rw [e2, List.map_flatten]

/-! ### The rules -/

open SpecWord

/-- What is said about a character by its grapheme break property goes together with its word break property. -/
def Agree (g : GClass) (w : WChar) : Prop :=
  (g = .CR → w.wb = .CR) ∧ (g = .LF → w.wb = .LF) ∧ (w.wb ∈ [WClass.Newline, .CR, .LF] → g.isCtl = true) ∧
  (g ∈ [GClass.L, .V, .T, .LV, .LVT] → w.wb = .ALetter) ∧ (g ∈ [GClass.Extend, .ZWJ, .SpacingMark] → ignorable w = true) ∧
  (g = .ZWJ → w.wb = .ZWJ) ∧ (g = .RI ↔ w.wb = .RI)

theorem not_newline {g : GClass} {w : WChar} (h : Agree g w) (hg : g.isCtl = false) : w.wb ∉ [WClass.Newline, .CR, .LF] := fun hm => by
  rw [h.2.2.1 hm] at hg
  cases hg

theorem filter_head {α : Type} (ig : α → Bool) : ∀ (r : List α) (y : α) (ys : List α), r.filter (fun x => !ig x) = y :: ys →
    ∃ mid post, r = mid ++ y :: post ∧ ∀ z ∈ mid, ig z = true
  | [], _, _, h => by cases h
  | a :: r, y, ys, h => by
    by_cases ha : ig a = true
    · rw [List.filter_cons, if_neg (by simp [ha])] at h
      obtain ⟨mid, post, e, hm⟩ := filter_head ig r y ys h
      refine ⟨a :: mid, post, by rw [e]; rfl, ?_⟩
      intro z hz
      rcases List.mem_cons.mp hz with rfl | hz
      · exact ha
      · exact hm z hz
    · rw [List.filter_cons, if_pos (by simp [ha])] at h
      obtain ⟨rfl, -⟩ := List.cons.inj h
      exact ⟨[], r, rfl, fun z hz => by cases hz⟩

/-- Flags: both standards count the same regional indicators. -/
theorem flags_count {α : Type} (ri ig : α → Bool) (hd : ∀ x, ri x = true → ig x = false) : ∀ (l : List α) (a : α), ri a = true →
    (∀ pre x mid y post, a :: l = pre ++ x :: (mid ++ y :: post) → ri x = true → ri y = true → (∀ z ∈ mid, ig z = true) → mid = []) →
    (((a :: l).filter fun x => !ig x).takeWhile ri) = (a :: l).takeWhile ri
  | [], a, ha, _ => by
    rw [List.filter_cons, if_pos (by simp [hd a ha])]
    rfl
  | b :: l, a, ha, h => by
    rw [List.filter_cons, if_pos (by simp [hd a ha]), List.takeWhile_cons, if_pos ha, List.takeWhile_cons, if_pos ha]
    congr 1
    by_cases hb : ri b = true
    · exact flags_count ri ig hd l b hb fun pre x mid y post e => h (a :: pre) x mid y post (by rw [e]; rfl)
    · rw [List.takeWhile_cons, if_neg hb]
      cases hf : (b :: l).filter fun x => !ig x with
      | nil => rfl
      | cons y ys =>
        obtain ⟨mid, post, e, hm⟩ := filter_head ig _ y ys hf
        rw [List.takeWhile_cons, if_neg]
        intro hy
        have := h [] a mid y post (by rw [e]; rfl) ha hy hm
        subst this
        obtain ⟨rfl, -⟩ := List.cons.inj e
        exact hb hy

theorem ite_keep {p : Prop} [Decidable p] {x : Bool} (h : x = false) : (if p then false else x) = false := by
  split
  · rfl
  · exact h

def hangul : List GClass := [.L, .V, .T, .LV, .LVT]

theorem hangul_left {c : GClass} : (c = .L ∨ c ∈ [GClass.LV, .V] ∨ c ∈ [GClass.LVT, .T]) → c ∈ hangul := by
  cases c <;> decide

theorem hangul_right {c : GClass} : (c ∈ [GClass.L, .V, .LV, .LVT] ∨ c ∈ [GClass.V, .T] ∨ c = .T) → c ∈ hangul := by
  cases c <;> decide

theorem marks {c : GClass} : (c ∈ [GClass.Extend, .ZWJ] ∨ c = .SpacingMark) → c ∈ [GClass.Extend, .ZWJ, .SpacingMark] := by
  cases c <;> decide

/-- GB6, GB7, GB8. -/
def HangulPair (a b : GClass) : Prop :=
  (a = .L ∧ b ∈ [GClass.L, .V, .LV, .LVT]) ∨ (a ∈ [GClass.LV, .V] ∧ b ∈ [GClass.V, .T]) ∨ (a ∈ [GClass.LVT, .T] ∧ b = .T)

theorem gBoundary_false {a b : GClass} {bef aft : List GClass} (h : gBoundary false (a :: bef) (b :: aft) = false) :
    (a = .CR ∧ b = .LF) ∨ (a.isCtl = false ∧ b.isCtl = false ∧ ((a ∈ hangul ∧ b ∈ hangul ∧ HangulPair a b) ∨ b ∈ [GClass.Extend, .ZWJ, .SpacingMark] ∨
      (a = .ZWJ ∧ b = .Pict) ∨ (b = .RI ∧ ((a :: bef).takeWhile (· == .RI)).length % 2 = 1))) := by
  rw [gBoundary] at h
  by_cases h1 : a = .CR ∧ b = .LF
  · exact .inl h1
  rw [if_neg h1] at h
  by_cases h2 : a.isCtl = true
  · rw [if_pos h2] at h; cases h
  rw [if_neg h2] at h
  by_cases h3 : b.isCtl = true
  · rw [if_pos h3] at h; cases h
  rw [if_neg h3] at h
  refine .inr ⟨by simpa using h2, by simpa using h3, ?_⟩
  by_cases h4 : a = .L ∧ b ∈ [GClass.L, .V, .LV, .LVT]
  · exact .inl ⟨hangul_left (.inl h4.1), hangul_right (.inl h4.2), .inl h4⟩
  rw [if_neg h4] at h
  by_cases h5 : a ∈ [GClass.LV, .V] ∧ b ∈ [GClass.V, .T]
  · exact .inl ⟨hangul_left (.inr (.inl h5.1)), hangul_right (.inr (.inl h5.2)), .inr (.inl h5)⟩
  rw [if_neg h5] at h
  by_cases h6 : a ∈ [GClass.LVT, .T] ∧ b = .T
  · exact .inl ⟨hangul_left (.inr (.inr h6.1)), hangul_right (.inr (.inr h6.2)), .inr (.inr h6)⟩
  rw [if_neg h6] at h
  by_cases h7 : b ∈ [GClass.Extend, .ZWJ]
  · exact .inr (.inl (marks (.inl h7)))
  rw [if_neg h7] at h
  by_cases h8 : b = .SpacingMark
  · exact .inr (.inl (marks (.inr h8)))
  rw [if_neg h8, if_neg (fun e => by cases e.1)] at h
  by_cases h9 : (bef.dropWhile (· == .Extend)).head? = some .Pict ∧ a = .ZWJ ∧ b = .Pict
  · exact .inr (.inr (.inl h9.2))
  rw [if_neg h9] at h
  by_cases h10 : b = .RI ∧ ((a :: bef).takeWhile (· == .RI)).length % 2 = 1
  · exact .inr (.inr (.inr h10))
  rw [if_neg h10] at h
  cases h

theorem w_letters (far : Bool) {a b : WChar} (bef aft : List WChar) (ha : a.wb = .ALetter) (hb : b.wb = .ALetter) : wBoundary far (a :: bef) (b :: aft) = false := by
  have hs : strip (a :: bef) = a :: bef := by
    rw [strip, List.dropWhile_cons, if_neg]
    rw [ignorable, ha]
    decide
  rw [wBoundary, hs]
  refine ite_keep ?_
  rw [if_neg (by rw [ha]; decide), if_neg (by rw [hb]; decide)]
  refine ite_keep (ite_keep (ite_keep ?_))
  rw [if_pos]
  refine ⟨?_, by rw [hb]; decide⟩
  show decide (a.wb ∈ AHLetter) = true
  rw [ha]
  rfl

theorem w_ignorable (far : Bool) {a b : WChar} (bef aft : List WChar) (na : a.wb ∉ [WClass.Newline, .CR, .LF]) (nb : b.wb ∉ [WClass.Newline, .CR, .LF])
    (h : ignorable b = true) : wBoundary far (a :: bef) (b :: aft) = false := by
  rw [wBoundary]
  refine ite_keep ?_
  rw [if_neg na, if_neg nb]
  refine ite_keep (ite_keep ?_)
  rw [if_pos h]

theorem w_joined (far : Bool) {a b : WChar} (bef aft : List WChar) (nb : b.wb ∉ [WClass.Newline, .CR, .LF]) (ha : a.wb = .ZWJ) (hb : b.pict = true) :
    wBoundary far (a :: bef) (b :: aft) = false := by
  rw [wBoundary]
  refine ite_keep ?_
  rw [if_neg (by rw [ha]; decide), if_neg nb, if_pos ⟨ha, hb⟩]

theorem w_flags (far : Bool) {a b : WChar} (bef aft : List WChar) (ha : a.wb = .RI) (hb : b.wb = .RI)
    (h : (((a :: bef).filter fun x => !ignorable x).takeWhile fun x => x.wb == .RI).length % 2 = 1) : wBoundary far (a :: bef) (b :: aft) = false := by
  rw [wBoundary]
  refine ite_keep ?_
  rw [if_neg (by rw [ha]; decide), if_neg (by rw [hb]; decide)]
  iterate 17 refine ite_keep ?_
  rw [if_pos ⟨hb, h⟩]

/-- A boundary of words is a boundary of graphemes. -/
theorem boundary_inside (far : Bool) (g : Int → GClass) (ch : Int → WChar) (a b : Int) (bef aft : List Int)
    (ha : Agree (g a) (ch a)) (hb : Agree (g b) (ch b)) (hbef : ∀ x ∈ bef, Agree (g x) (ch x)) (hp : g a = .ZWJ → g b = .Pict → (ch b).pict = true)
    (hf : ∀ pre x mid y post, a :: bef = pre ++ x :: (mid ++ y :: post) → (ch x).wb = .RI → (ch y).wb = .RI → (∀ z ∈ mid, ignorable (ch z) = true) → mid = [])
    (h : gBoundary false ((a :: bef).map g) ((b :: aft).map g) = false) : wBoundary far ((a :: bef).map ch) ((b :: aft).map ch) = false := by
  rw [List.map_cons, List.map_cons] at h ⊢
  rcases gBoundary_false h with ⟨h1, h2⟩ | ⟨na, nb, hc | hc | hc | hc⟩
  · rw [wBoundary, if_pos ⟨ha.1 h1, hb.2.1 h2⟩]
  · exact w_letters far _ _ (ha.2.2.2.1 hc.1) (hb.2.2.2.1 hc.2.1)
  · exact w_ignorable far _ _ (not_newline ha na) (not_newline hb nb) (hb.2.2.2.2.1 hc)
  · exact w_joined far _ _ (not_newline hb nb) (ha.2.2.2.2.2.1 hc.1) (hp hc.1 hc.2)
  · have hga : g a = .RI := by
      refine Classical.byContradiction fun hn => ?_
      have := hc.2
      rw [List.takeWhile_cons, if_neg (by simpa using hn)] at this
      cases this
    have w1 := ha.2.2.2.2.2.2.1 hga
    have w2 := hb.2.2.2.2.2.2.1 hc.1
    have e1 : ((g a :: bef.map g).takeWhile (· == .RI)).length = ((a :: bef).takeWhile fun x => (ch x).wb == .RI).length := by
      rw [← List.map_cons, List.takeWhile_map, List.length_map]
      congr 1
      have : ∀ l : List Int, (∀ x ∈ l, Agree (g x) (ch x)) → l.takeWhile ((· == GClass.RI) ∘ g) = l.takeWhile fun x => (ch x).wb == .RI := by
        intro l
        induction l with
        | nil => intro _; rfl
        | cons x l ih =>
          intro hl
          have hx := (hl x (List.mem_cons_self ..)).2.2.2.2.2.2
          rw [List.takeWhile_cons, List.takeWhile_cons, ih fun y hy => hl y (List.mem_cons_of_mem _ hy)]
          by_cases e : g x = .RI
          · rw [if_pos (by simp [e]), if_pos (by simp [hx.1 e])]
          · rw [if_neg (by simpa using e), if_neg (by simpa using fun e' => e (hx.2 e'))]
      refine this _ fun x hx => ?_
      rcases List.mem_cons.mp hx with rfl | hx
      · exact ha
      · exact hbef x hx
    have e2 := flags_count (fun x => (ch x).wb == .RI) (fun x => ignorable (ch x)) (by
      intro x hx
      have : (ch x).wb = .RI := by simpa using hx
      rw [ignorable, this]
      decide) bef a (by simp [w1]) (by
      intro pre x mid y post e hx hy
      exact hf pre x mid y post e (by simpa using hx) (by simpa using hy))
    have e3 : (((ch a :: bef.map ch).filter fun x => !ignorable x).takeWhile fun x => x.wb == .RI).length % 2 = 1 := by
      rw [← List.map_cons, List.filter_map, List.takeWhile_map, List.length_map]
      have := hc.2
      rw [e1, ← e2] at this
      exact this
    exact w_flags far _ _ w1 w2 e3

/-- Words end where graphemes end. -/
theorem words_cuts (far : Bool) (g : Int → GClass) (ch : Int → WChar) (text : List Int) (hg : ∀ r ∈ text, Agree (g r) (ch r))
    (hp : ∀ pre a b post, text = pre ++ a :: b :: post → g a = .ZWJ → g b = .Pict → (ch b).pict = true) (hf : FlagsTight ch text) :
    ∀ i, i < text.length → wBoundary far ((text.take (i + 1)).map ch).reverse ((text.drop (i + 1)).map ch) = true →
      gBoundary false ((text.take (i + 1)).map g).reverse ((text.drop (i + 1)).map g) = true := by
  intro i hi h
  by_cases hl : i + 1 = text.length
  · rw [List.drop_eq_nil_of_le (by omega)]
    cases ((text.take (i + 1)).map g).reverse <;> rfl
  · have hi' : i + 1 < text.length := by omega
    have e1 : text.take (i + 1) = text.take i ++ [text[i]] := by rw [List.take_succ_eq_append_getElem hi]
    have e2 : text.drop (i + 1) = text[i + 1] :: text.drop (i + 2) := by rw [List.drop_eq_getElem_cons hi']
    have e0 : text = text.take i ++ text[i] :: text[i + 1] :: text.drop (i + 2) := by
      rw [← e2]
      have := List.take_append_drop (i + 1) text
      rw [e1, List.append_assoc] at this
      exact this.symm
    rw [← List.map_reverse, e1, e2, List.reverse_append, List.reverse_singleton, List.singleton_append] at h ⊢
    refine Classical.byContradiction fun hn => ?_
    rw [Bool.not_eq_true] at hn
    rw [boundary_inside far g ch _ _ _ _ (hg _ (List.getElem_mem ..)) (hg _ (List.getElem_mem ..)) ?_ (hp _ _ _ _ e0) ?_ hn] at h
    · cases h
    · intro x hx
      exact hg x (List.mem_of_mem_take (List.mem_reverse.mp hx))
    · intro pre x mid y post e hx hy hm
      have e' := congrArg List.reverse e
      rw [List.reverse_cons, List.reverse_reverse] at e'
      have := hf post.reverse y mid.reverse x (pre.reverse ++ text.drop (i + 1)) (by
        have e4 := List.take_append_drop (i + 1) text
        rw [e1, e'] at e4
        generalize text.drop (i + 1) = rest at e4
        rw [← e4]
        simp) hy hx (fun z hz => hm z (List.mem_reverse.mp hz))
      exact List.reverse_eq_nil_iff.mp this

/-- Words are made of graphemes. -/
theorem words_madeOf (far : Bool) (g : Int → GClass) (ch : Int → WChar) (text : List Int) (hg : ∀ r ∈ text, Agree (g r) (ch r))
    (hp : ∀ pre a b post, text = pre ++ a :: b :: post → g a = .ZWJ → g b = .Pict → (ch b).pict = true) (hf : FlagsTight ch text) :
    MadeOf (words far ch text) (clusters false g text) := by
  refine cutAfter_inside _ _ text (words_cuts far g ch text hg hp hf) ?_
  intro i hi
  rw [List.drop_eq_nil_of_le (by omega)]
  cases ((text.take (i + 1)).map ch).reverse <;> rfl

end Uax
