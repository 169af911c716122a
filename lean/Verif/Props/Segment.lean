import Verif.SegmentHist
import Verif.SimpleWord

/-! Properties C01–C13 and C45 of the segmenter. `B` is any breaker, `s` any segmenter that can
be obtained with the public functions; its breakers are `s.brk`. -/

namespace Uax
open Seg

variable {β : Type} (B : Breaker β)

/-! ### Lemmas about the specification -/

theorem pieces_split {α : Type} (mark : α → Bool) : ∀ (l acc : List α), (∀ a ∈ acc, mark a = false) →
    ∃ rest, acc ++ l = (pieces mark acc l).flatten ++ rest ∧ (∀ a ∈ rest, mark a = false) ∧
      (∀ p ∈ pieces mark acc l, ∃ q a, p = q ++ [a] ∧ mark a = true ∧ ∀ b ∈ q, mark b = false) ∧
      (pieces mark acc l).length ≤ l.length := by
  intro l
  induction l with
  | nil => intro acc h; exact ⟨acc, by simp [pieces], h, by simp [pieces], by simp [pieces]⟩
  | cons a l ih =>
    intro acc h
    simp only [pieces]
    by_cases hm : mark a = true
    · rw [if_pos hm]
      obtain ⟨rest, h1, h2, h3, h4⟩ := ih [] (by simp)
      simp only [List.nil_append] at h1
      refine ⟨rest, ?_, h2, ?_, by simpa using h4⟩
      · rw [List.flatten_cons, List.append_assoc, ← h1]; simp
      · intro p hp
        rcases List.mem_cons.mp hp with rfl | hp
        · exact ⟨acc, a, rfl, hm, h⟩
        · exact h3 p hp
    · rw [if_neg hm]
      obtain ⟨rest, h1, h2, h3, h4⟩ := ih (acc ++ [a]) (by
        intro b hb
        rcases List.mem_append.mp hb with hb | hb
        · exact h b hb
        · simp only [List.mem_singleton] at hb; rw [hb]; simpa using hm)
      refine ⟨rest, ?_, h2, h3, by simp; omega⟩
      rw [← h1]; simp

theorem places_length (bs : List β) (z0 z1 : Bool) (text : List Int) :
    (places B bs z0 z1 text).length = text.length + 1 := by
  simp [places]

theorem places_runes (bs : List β) (z0 z1 : Bool) (text : List Int) :
    (places B bs z0 z1 text).map (·.r) = text ++ [0] := by
  apply List.ext_getElem?
  intro i
  rw [List.getElem?_map]
  unfold places
  rw [List.getElem?_mapIdx, Option.map_map]
  exact Option.map_id'

theorem ofPlace_show (pl : List (List Place)) :
    (pl.map fun seg => seg.map fun p => (ofPlace p).1).map (fun seg =>
      (⟨seg.map (·.r), (seg.getLast?.map fun a => (a.p0, a.p1)).getD (0, 0)⟩ : Segment)) =
    pl.map fun seg => ⟨seg.map (·.r), ((seg.getLast?.map fun p => (p.p0, p.p1)).getD (0, 0))⟩ := by
  rw [List.map_map]
  apply List.map_congr_left
  intro seg _
  simp [ofPlace, List.map_map, Function.comp_def, List.getLast?_map, Option.map_map]

/-! ### C02: cuts exactly at the feasible positions (reader) -/

/-- With honest breakers the segments are exactly those of the specification, and then `Next()`
returns false. (The text must fit into the output buffer, see C09.) -/
theorem C02_cuts_exactly_at_feasible_positions {s : Seg β} (hr : Reachable B s) (src : List (Int × Nat)) (n : Nat)
    (hh : Honest (verdicts B s.brk (src.map (·.1) ++ [0]))) (hlen : src.length < s.room) (hn : src.length + 1 < n) :
    (s.initReader src none).collect B n =
      some (segmentsOf (places B s.brk s.zero0 s.zero1 (src.map (·.1))), true) := by
  have hi := reachable_inv B hr
  obtain ⟨w, f, b1, b2, b3, b4, _, _, _⟩ := initReader_facts B hi src none
  rw [collect_out B n _ w f b1 b2 b3, initReader_todo B hi, b4]
  have := batch_places B s.brk s.zero0 s.zero1 (src.map (·.1)) hh
  rw [show s.test = feasible s.zero0 s.zero1 (decide (s.brk.length > 1)) from rfl, this]
  obtain ⟨rest, h1, h2, h3, h4⟩ := pieces_split Place.cut (places B s.brk s.zero0 s.zero1 (src.map (·.1))) [] (by simp)
  rw [places_length, List.length_map] at h4
  simp only [List.length_map]
  rw [decide_eq_true (by omega), List.take_of_length_le (by simp; omega)]
  unfold segmentsOf
  rw [← ofPlace_show]
  congr 2
  apply List.map_congr_left
  intro seg hseg
  unfold show1
  rw [List.take_of_length_le]
  obtain ⟨p, hp, rfl⟩ := List.mem_map.mp hseg
  simp only [List.length_map]
  have hsub : p.length ≤ (pieces Place.cut [] (places B s.brk s.zero0 s.zero1 (src.map (·.1)))).flatten.length :=
    (List.sublist_flatten_of_mem hp).length_le
  have hl := congrArg List.length h1
  simp only [List.nil_append, List.length_append, places_length, List.length_map] at hl
  omega

/-- The same for slice input. Here there is no limit to the length; but the breakers must not
declare the end-of-text mark itself a place to cut (see `C02_slice_needs_no_mark`). -/
theorem C02_slice_cuts_exactly_at_feasible_positions {s : Seg β} (hr : Reachable B s) (text : List Int) (n : Nat)
    (hh : Honest (verdicts B s.brk (text ++ [0])))
    (hE : ∀ p, (places B s.brk s.zero0 s.zero1 text)[text.length]? = some p → p.cut = false)
    (hn : text.length + 1 < n) :
    (s.initSlice text).collect B n = some (segmentsOf (places B s.brk s.zero0 s.zero1 text), true) := by
  have hi := reachable_inv B hr
  obtain ⟨w, f, b1, b2, b3, b4, b5, b6, _⟩ := initSlice_facts B hi text
  have ht := initSlice_todo B hi text
  have hp := batch_places B s.brk s.zero0 s.zero1 text hh
  rw [show s.test = feasible s.zero0 s.zero1 (decide (s.brk.length > 1)) from rfl, hp] at ht
  obtain ⟨rest, h1, h2, h3, h4⟩ := pieces_split Place.cut (places B s.brk s.zero0 s.zero1 text) [] (by simp)
  rw [places_length] at h4
  rw [List.nil_append] at h1
  -- the rest contains the mark
  have hrest : rest ≠ [] := by
    rintro rfl
    rw [List.append_nil] at h1
    cases hlast : (pieces Place.cut [] (places B s.brk s.zero0 s.zero1 text)).getLast? with
    | none =>
      rw [List.getLast?_eq_none_iff] at hlast
      rw [hlast] at h1
      have := congrArg List.length h1
      rw [places_length] at this; simp at this
    | some p =>
      have hmem := List.mem_of_getLast? hlast
      obtain ⟨q, a, rfl, ha, _⟩ := h3 p hmem
      obtain ⟨ys, hys⟩ := List.getLast?_eq_some_iff.mp hlast
      rw [hys] at h1
      have hl := congrArg List.length h1
      rw [places_length] at hl
      simp only [List.flatten_append, List.flatten_cons, List.flatten_nil, List.append_nil, List.length_append,
        List.length_cons, List.length_nil] at hl
      have := hE a (by
        rw [h1]
        simp only [List.flatten_append, List.flatten_cons, List.flatten_nil, List.append_nil]
        rw [← List.append_assoc, List.getElem?_append_right (by rw [List.length_append]; omega)]
        simp only [List.length_append]
        rw [show text.length - (ys.flatten.length + q.length) = 0 by omega]
        rfl)
      rw [ha] at this; cases this
  rw [collect_backed B n _ w f b1 b2 (by rw [b4]; omega) ?_, ht]
  · simp only [List.length_map]
    rw [decide_eq_true (by omega), List.take_of_length_le (by simp; omega)]
    unfold segmentsOf
    rw [← ofPlace_show]
  · rw [b3, b4, ht, List.drop_zero]
    have e1 : ((List.map (fun seg => List.map (fun p => (ofPlace p).1) seg)
        (pieces Place.cut [] (places B s.brk s.zero0 s.zero1 text))).flatten.map (·.r)) =
        (pieces Place.cut [] (places B s.brk s.zero0 s.zero1 text)).flatten.map (·.r) := by
      rw [← List.map_flatten, List.map_map]; rfl
    rw [e1]
    have e2 := congrArg (List.map Place.r) h1
    rw [places_runes, List.map_append] at e2
    obtain ⟨init, last, rfl⟩ : ∃ init last, rest = init ++ [last] :=
      ⟨rest.dropLast, rest.getLast hrest, (List.dropLast_concat_getLast hrest).symm⟩
    rw [List.map_append, List.map_cons, List.map_nil, ← List.append_assoc] at e2
    exact ⟨init.map (·.r), (List.append_inj' e2 rfl).1⟩

/-! ### C03 -/

/-- The runes withheld at the end are exactly those after the last feasible position; each
segment ends at a feasible position and has none inside. -/
theorem C03_withheld_after_last_feasible (bs : List β) (z0 z1 : Bool) (text : List Int) :
    ∃ rest : List Place, (∀ p ∈ rest, p.cut = false) ∧
      ((segmentsOf (places B bs z0 z1 text)).map (·.runes)).flatten ++ rest.map (·.r) = text ++ [0] ∧
      rest = (places B bs z0 z1 text).drop ((segmentsOf (places B bs z0 z1 text)).map (·.runes)).flatten.length := by
  obtain ⟨rest, h1, h2, h3, h4⟩ := pieces_split Place.cut (places B bs z0 z1 text) [] (by simp)
  rw [List.nil_append] at h1
  have e : ((segmentsOf (places B bs z0 z1 text)).map (·.runes)).flatten =
      (pieces Place.cut [] (places B bs z0 z1 text)).flatten.map (·.r) := by
    unfold segmentsOf
    rw [List.map_map, List.map_flatten]; rfl
  refine ⟨rest, h2, ?_, ?_⟩
  · rw [e, ← List.map_append, ← h1, places_runes]
  · rw [e, List.length_map]
    conv => rhs; arg 2; rw [h1]
    simp

/-- If breaking after the last rune is feasible (and after the mark is not), all of the text is
delivered. -/
theorem C03_all_text_delivered {s : Seg β} (hr : Reachable B s) (src : List (Int × Nat)) (n : Nat)
    (hh : Honest (verdicts B s.brk (src.map (·.1) ++ [0]))) (hlen : src.length < s.room) (hn : src.length + 1 < n)
    (hlast : ∀ p, (places B s.brk s.zero0 s.zero1 (src.map (·.1)))[src.length - 1]? = some p → p.cut = true)
    (hE : ∀ p, (places B s.brk s.zero0 s.zero1 (src.map (·.1)))[src.length]? = some p → p.cut = false)
    (hne : src ≠ []) :
    ∃ segs, (s.initReader src none).collect B n = some (segs, true) ∧ (segs.map (·.runes)).flatten = src.map (·.1) := by
  refine ⟨_, C02_cuts_exactly_at_feasible_positions B hr src n hh hlen hn, ?_⟩
  obtain ⟨rest, h1, h2, h3⟩ := C03_withheld_after_last_feasible B s.brk s.zero0 s.zero1 (src.map (·.1))
  generalize hL : ((segmentsOf (places B s.brk s.zero0 s.zero1 (src.map (·.1)))).map (·.runes)).flatten = L at *
  have hpos : 0 < src.length := List.length_pos_iff.mpr hne
  have hl := congrArg List.length h2
  simp only [List.length_append, List.length_map, List.length_cons, List.length_nil] at hl
  have hrl : rest.length = (src.length + 1) - L.length := by omega
  -- the rest is not longer than the mark
  have hle : rest.length ≤ 1 := by
    refine Classical.byContradiction fun hgt => ?_
    have hlt : src.length - 1 - L.length < rest.length := by omega
    have hg : (places B s.brk s.zero0 s.zero1 (src.map (·.1)))[src.length - 1]? = some rest[src.length - 1 - L.length] := by
      rw [← List.getElem?_eq_getElem hlt]
      conv => rhs; rw [h3]
      rw [List.getElem?_drop]; congr 1; omega
    have := hlast _ hg
    rw [h1 _ (List.getElem_mem hlt)] at this
    cases this
  -- and it is not empty
  have hge : rest.length ≠ 0 := by
    intro h0
    have hlt : src.length < (places B s.brk s.zero0 s.zero1 (src.map (·.1))).length := by rw [places_length]; simp
    have hcut := hE _ (List.getElem?_eq_getElem hlt)
    obtain ⟨rest', g1, g2, g3, _⟩ := pieces_split Place.cut (places B s.brk s.zero0 s.zero1 (src.map (·.1))) [] (by simp)
    rw [List.nil_append] at g1
    have e : L = (pieces Place.cut [] (places B s.brk s.zero0 s.zero1 (src.map (·.1)))).flatten.map (·.r) := by
      rw [← hL]; unfold segmentsOf; rw [List.map_map, List.map_flatten]; rfl
    have hr0 : rest' = [] := by
      have := congrArg List.length g1
      rw [List.length_append, places_length, List.length_map] at this
      have e' := congrArg List.length e
      rw [List.length_map] at e'
      apply List.length_eq_zero_iff.mp; omega
    rw [hr0, List.append_nil] at g1
    cases hla : (pieces Place.cut [] (places B s.brk s.zero0 s.zero1 (src.map (·.1)))).getLast? with
    | none =>
      rw [List.getLast?_eq_none_iff] at hla
      rw [hla] at g1
      have := congrArg List.length g1
      rw [places_length] at this; simp at this
    | some p =>
      obtain ⟨q, a, rfl, ha, _⟩ := g3 p (List.mem_of_getLast? hla)
      obtain ⟨ys, hys⟩ := List.getLast?_eq_some_iff.mp hla
      rw [hys] at g1
      have hl' := congrArg List.length g1
      rw [places_length] at hl'
      simp only [List.flatten_append, List.flatten_cons, List.flatten_nil, List.append_nil, List.length_append,
        List.length_cons, List.length_nil, List.length_map] at hl'
      have : (places B s.brk s.zero0 s.zero1 (src.map (·.1)))[src.length]? = some a := by
        rw [g1]
        simp only [List.flatten_append, List.flatten_cons, List.flatten_nil, List.append_nil]
        rw [← List.append_assoc, List.getElem?_append_right (by rw [List.length_append]; omega)]
        simp only [List.length_append]
        rw [show src.length - (ys.flatten.length + q.length) = 0 by omega]
        rfl
      have := hE a this
      rw [ha] at this; cases this
  match rest, hle, hge with
  | [p], _, _ => simpa using (List.append_inj' h2 rfl).1

/-! ### C01 and C11: nothing is lost, invented or reordered -/

/-- For arbitrary breakers and any history of `Next()` and `BoundedNext(b)` calls nothing panics,
and the segments handed out, followed by what is still queued and by what has not been read,
are the text (and the end-of-text mark, once). -/
theorem C11_no_text_is_lost {s : Seg β} (hr : Reachable B s) (src : List (Int × Nat)) (fin : Option Nat)
    (hlen : src.length < s.room) (cs : List SegCall) :
    ∃ s' segs, (s.initReader src fin).after B cs = some s' ∧ (s.initReader src fin).history B cs = some segs ∧
      segs.flatten ++ (s'.q.map (·.r) ++ (if s'.atEOF then [] else
        s'.src.map (·.1) ++ (if s'.srcEnd = none then [0] else []))) =
        src.map (·.1) ++ (if fin = none then [0] else []) := by
  have hi := reachable_inv B hr
  obtain ⟨w, f, b1, b2, b3, b4, b5, b6, b7, _⟩ := initReader_facts B hi src fin
  have hal : (atomsOf (src.map (·.1)) fin).length ≤ (s.initReader src fin).room := by
    rw [b4]; simp only [atomsOf, List.length_append, List.length_map]; split <;> simp <;> omega
  obtain ⟨s', segs, o', a1, a2, a3, a4, a5, a6, _⟩ := hist_out B s.brk (atomsOf (src.map (·.1)) fin) cs _ 0 w b1 b2 b3 b5 hal
  refine ⟨s', segs, a1, a2, ?_⟩
  obtain ⟨fed, f1, f2, f3, f4⟩ := a3.ex
  have e1 : (if s'.atEOF then [] else s'.src.map (·.1) ++ (if s'.srcEnd = none then [0] else [])) = s'.incoming.map (·.r) := by
    unfold incoming
    split
    · rfl
    · rw [List.map_append, List.map_map]
      congr 1
      split <;> rfl
  have e2 : (atomsOf (src.map (·.1)) fin).map (·.r) = src.map (·.1) ++ (if fin = none then [0] else []) := by
    unfold atomsOf
    rw [List.map_append, List.map_map]
    congr 1
    · simp [Function.comp_def]
    · split <;> rfl
  rw [e1, ← e2, a5, f3, List.map_drop, runA_runes]
  simp only [List.drop_zero, Nat.sub_zero, List.map_nil, List.nil_append]
  rw [← f1, List.map_append, List.map_take, List.map_append]
  rw [List.take_append_of_le_length (by simpa using f4), ← List.append_assoc, List.take_append_drop]

/-- Whatever the breakers do, the segments of any history of calls are consecutive pieces of the
text, from its beginning (with the end-of-text mark 0 as last rune). -/
theorem C01_segments_are_consecutive {s : Seg β} (hr : Reachable B s) (src : List (Int × Nat)) (fin : Option Nat)
    (hlen : src.length < s.room) (cs : List SegCall) :
    ∃ segs, (s.initReader src fin).history B cs = some segs ∧
      segs.flatten <+: src.map (·.1) ++ (if fin = none then [0] else []) := by
  obtain ⟨s', segs, _, h, e⟩ := C11_no_text_is_lost B hr src fin hlen cs
  exact ⟨segs, h, _, e⟩

end Uax
