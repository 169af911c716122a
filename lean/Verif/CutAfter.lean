import Verif.SpecGrapheme
import Verif.SegmentEarly
import Verif.SimpleWordProofs

/-! From marked places to the pieces of a text: the step that all breakers share. -/

namespace Uax
open Seg

/-- If the places of a text are cut after the runes `i` with `cut i`, and never after the
end-of-text mark, the segments are the pieces of the text. -/
theorem segmentsOf_cutAfter (pl : List Place) (cut : Nat → Bool) (text : List Int) (hr : pl.map (·.r) = text ++ [0])
    (hc : ∀ i, i < text.length → (pl[i]?.map (·.cut)) = some (cut i)) (hl : (pl[text.length]?.map (·.cut)) = some false) :
    (segmentsOf pl).map (·.runes) = cutAfter cut text := by
  unfold segmentsOf cutAfter
  have e := pieces_map (fun p : Place => (p.r, p.cut)) Place.cut (·.2) (fun _ => rfl) pl []
  have hpl : pl.length = text.length + 1 := by
    have := congrArg List.length hr
    rw [List.length_map, List.length_append] at this
    exact this
  have h2 : pl.map (fun p => (p.r, p.cut)) = (text.mapIdx fun i r => (r, cut i)) ++ [(0, false)] := by
    apply List.ext_getElem?
    intro i
    rw [List.getElem?_map]
    have hri : (pl[i]?.map (·.r)) = (text ++ [0])[i]? := by rw [← hr, List.getElem?_map]
    rcases Nat.lt_trichotomy i text.length with h | h | h
    · rw [List.getElem?_append_left (by simpa using h), List.getElem?_mapIdx]
      rw [List.getElem?_append_left h] at hri
      have hci := hc i h
      rw [← hri]
      cases hp : pl[i]? with
      | none => rw [hp] at hci; cases hci
      | some p =>
        rw [hp] at hci
        simp only [Option.map_some, Option.some.injEq] at hci ⊢
        rw [hci]
    · subst h
      rw [List.getElem?_append_right (by simp), List.length_mapIdx, Nat.sub_self]
      rw [List.getElem?_append_right (Nat.le_refl _), Nat.sub_self] at hri
      cases hp : pl[text.length]? with
      | none => rw [hp] at hl; cases hl
      | some p =>
        rw [hp] at hl hri
        simp only [Option.map_some, Option.some.injEq, List.getElem?_cons_zero] at hl hri ⊢
        rw [hl, hri]
    · rw [List.getElem?_eq_none (by omega), List.getElem?_eq_none (by simp; omega)]
      rfl
  rw [h2, List.map_nil, pieces_snoc_unmarked _ _ rfl] at e
  rw [e, List.map_map, List.map_map]
  apply List.map_congr_left
  intro p _
  simp [Function.comp]

/-- The places decided early: cut where there is a time for it. -/
theorem placesEarly_cut {β : Type} (B : Breaker β) (bs : List β) (z0 z1 : Bool) (text : List Int) (i : Nat) (hi : i ≤ text.length) :
    ((placesEarly B bs z0 z1 text)[i]?.map (·.cut)) =
      some (cutTime ⟨z0, z1, decide (1 < bs.length)⟩ (verdicts B bs (text ++ [0])) text.length i).isSome := by
  unfold placesEarly
  simp only
  rw [List.getElem?_mapIdx]
  have hlt : i < (text ++ [0]).length := by rw [List.length_append, List.length_singleton]; omega
  rw [List.getElem?_eq_getElem hlt]
  simp only [Option.map_some]
  cases cutTime _ _ _ _ <;> rfl

/-- The pieces make up the text when it is cut at its end. -/
theorem cutAfter_flatten (cut : Nat → Bool) (text : List Int) (h : ∀ i, i + 1 = text.length → cut i = true) :
    (cutAfter cut text).flatten = text := by
  unfold cutAfter
  have key : ∀ (l : List (Int × Bool)) (acc : List (Int × Bool)), (∀ x, l.getLast? = some x → x.2 = true) → (l = [] → acc = []) →
      (pieces (·.2) acc l).flatten = acc ++ l := by
    intro l
    induction l with
    | nil => intro acc _ h; simp [pieces, h rfl]
    | cons a l ih =>
      intro acc h1 _
      have hl : ∀ x, l.getLast? = some x → x.2 = true := by
        intro x hx
        apply h1
        rw [List.getLast?_cons, hx]; rfl
      rw [pieces]
      split
      · rw [List.flatten_cons, ih [] hl (fun _ => rfl)]; simp
      · rename_i hm
        rw [ih _ hl]
        · simp
        · intro e; subst e; exact absurd (h1 a rfl) hm
  rw [← List.map_flatten, key _ _ ?_ (fun _ => rfl)]
  · simp only [List.nil_append]
    apply List.ext_getElem?
    intro i
    rw [List.getElem?_map, List.getElem?_mapIdx, Option.map_map]
    cases text[i]? <;> rfl
  · intro x hx
    rw [List.getLast?_eq_getElem?, List.getElem?_mapIdx, List.length_mapIdx] at hx
    cases ht : text[text.length - 1]? with
    | none => rw [ht] at hx; cases hx
    | some r =>
      rw [ht] at hx
      simp only [Option.map_some, Option.some.injEq] at hx
      rw [← hx]
      apply h
      have := (List.getElem?_eq_some_iff.mp ht).1
      omega

/-- No piece is empty or longer than the text. -/
theorem cutAfter_lengths (cut : Nat → Bool) (text : List Int) : ∀ p ∈ cutAfter cut text, p ≠ [] ∧ p.length ≤ text.length := by
  intro p hp
  unfold cutAfter at hp
  obtain ⟨q, hq, rfl⟩ := List.mem_map.mp hp
  have key : ∀ (l acc : List (Int × Bool)), ∀ q ∈ pieces (·.2) acc l, q ≠ [] ∧ q.length ≤ acc.length + l.length := by
    intro l
    induction l with
    | nil => intro acc q hq; cases hq
    | cons a l ih =>
      intro acc q hq
      rw [pieces] at hq
      split at hq
      · rcases List.mem_cons.mp hq with rfl | h
        · exact ⟨by simp, by simp⟩
        · obtain ⟨h1, h2⟩ := ih [] q h
          exact ⟨h1, by simp only [List.length_nil, List.length_cons] at h2 ⊢; omega⟩
      · obtain ⟨h1, h2⟩ := ih _ q hq
        exact ⟨h1, by simp only [List.length_append, List.length_cons, List.length_nil] at h2 ⊢; omega⟩
  obtain ⟨h1, h2⟩ := key _ _ q hq
  refine ⟨fun h => h1 (List.map_eq_nil_iff.mp h), ?_⟩
  simpa using h2

variable {β : Type} (B : Breaker β)

/-- Reader input: the text comes out in its pieces, if a steady breaker decides for them. -/
theorem collect_reader_cutAfter {s : Seg β} (hr : Reachable B s) (src : List (Int × Nat)) (n : Nat) (cut : Nat → Bool)
    (hs : Steady ⟨s.zero0, s.zero1, decide (1 < s.brk.length)⟩ (verdicts B s.brk (src.map (·.1) ++ [0])) src.length)
    (hc : ∀ i, i < src.length →
      (cutTime ⟨s.zero0, s.zero1, decide (1 < s.brk.length)⟩ (verdicts B s.brk (src.map (·.1) ++ [0])) src.length i).isSome = cut i)
    (he : cutTime ⟨s.zero0, s.zero1, decide (1 < s.brk.length)⟩ (verdicts B s.brk (src.map (·.1) ++ [0])) src.length src.length = none)
    (hn : src.length + 1 < n) :
    ∃ segs, (s.initReader src none).collect B n = some (segs, true) ∧
      segs.map (·.runes) = (cutAfter cut (src.map (·.1))).map (·.take s.room) := by
  refine ⟨_, collect_reader_early B hr src n hs hn, ?_⟩
  have h := segmentsOf_cutAfter (placesEarly B s.brk s.zero0 s.zero1 (src.map (·.1))) cut (src.map (·.1))
    (placesEarly_runes B _ _ _ _)
    (by
      intro i hi
      rw [placesEarly_cut _ _ _ _ _ _ (by omega)]
      rw [List.length_map] at hi ⊢
      rw [hc i hi])
    (by
      rw [placesEarly_cut _ _ _ _ _ _ (Nat.le_refl _), List.length_map, he]; rfl)
  rw [← h, List.map_map, List.map_map]
  rfl

/-- The same for slice input. -/
theorem collect_slice_cutAfter {s : Seg β} (hr : Reachable B s) (text : List Int) (n : Nat) (cut : Nat → Bool)
    (hs : Steady ⟨s.zero0, s.zero1, decide (1 < s.brk.length)⟩ (verdicts B s.brk (text ++ [0])) text.length)
    (hc : ∀ i, i < text.length →
      (cutTime ⟨s.zero0, s.zero1, decide (1 < s.brk.length)⟩ (verdicts B s.brk (text ++ [0])) text.length i).isSome = cut i)
    (he : cutTime ⟨s.zero0, s.zero1, decide (1 < s.brk.length)⟩ (verdicts B s.brk (text ++ [0])) text.length text.length = none)
    (hn : text.length + 1 < n) :
    ∃ segs, (s.initSlice text).collect B n = some (segs, true) ∧ segs.map (·.runes) = cutAfter cut text := by
  have hl : ((placesEarly B s.brk s.zero0 s.zero1 text)[text.length]?.map (·.cut)) = some false := by
    rw [placesEarly_cut _ _ _ _ _ _ (Nat.le_refl _), he]; rfl
  refine ⟨_, collect_slice_early B hr text n hs ?_ hn, ?_⟩
  · intro p hp
    rw [hp] at hl
    simpa using hl
  · exact segmentsOf_cutAfter _ cut text (placesEarly_runes B _ _ _ _)
      (by
        intro i hi
        rw [placesEarly_cut _ _ _ _ _ _ (by omega), hc i hi]) hl

/-- Taking more than the length. -/
theorem cutAfter_take (cut : Nat → Bool) (text : List Int) (k : Nat) (h : text.length ≤ k) :
    (cutAfter cut text).map (·.take k) = cutAfter cut text := by
  have : ∀ p ∈ cutAfter cut text, p.take k = id p :=
    fun p hp => List.take_of_length_le (Nat.le_trans (cutAfter_lengths cut text p hp).2 h)
  rw [List.map_congr_left this, List.map_id]

end Uax
