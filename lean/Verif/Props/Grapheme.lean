import Verif.GraphemeSpecProofs
import Verif.CutAfter
import Verif.Props.Segment

/-! Properties C22, C23, C24 and C25 for the grapheme breaker. -/

namespace Uax
open Seg Graph

/-- The runes of a breaker's past: nothing, or complete texts, each with its end-of-text mark. -/
def CompletePast (past : List Int) : Prop := past = [] ∨ past.getLast? = some 0

namespace Graph

theorem new_rep : Rep .idle Graph.new := ⟨rfl, rfl, rfl⟩

theorem next_eot (a : GA) : a.next .eot = .idle := by cases a <;> rfl

theorem classOf_zero (T : GTables) : classOf T 0 = .eot := rfl

theorem tabled_ne (c : GClass) (h : c ∈ tabled) : c ≠ .eot := by
  intro e; subst e; revert h; decide

theorem classOf_ne (T : GTables) (r : Int) (h : r ≠ 0) : classOf T r ≠ .eot := by
  unfold classOf classForRune
  rw [if_neg h]
  cases hf : tabled.find? fun c => T.is c r with
  | none => simp only [Option.getD_none, if_true]; split <;> simp
  | some c =>
    have := tabled_ne c (List.mem_of_find?_eq_some hf)
    simp only [Option.getD_some]
    split
    · split <;> simp
    · exact this

theorem past_rep (T : GTables) (past : List Int) (h : CompletePast past) : Rep .idle ((breaker T).run Graph.new past) := by
  have hr := run_rep T past new_rep
  suffices GA.run .idle (past.map (classOf T)) = .idle by rw [this] at hr; exact hr
  rcases h with rfl | h
  · rfl
  · obtain ⟨ys, rfl⟩ := List.getLast?_eq_some_iff.mp h
    unfold GA.run
    rw [List.map_append, List.foldl_append]
    exact next_eot (List.foldl GA.next .idle (ys.map (classOf T)))

/-- The boundary after rune `i` of a text. -/
def cutG (useGB9b : Bool) (cls : Int → GClass) (text : List Int) (i : Nat) : Bool :=
  gBoundary useGB9b ((text.take (i + 1)).map cls).reverse ((text.drop (i + 1)).map cls)

theorem clusters_eq (u : Bool) (cls : Int → GClass) (text : List Int) : clusters u cls text = cutAfter (cutG u cls text) text := rfl

theorem cut_text (T : GTables) (z0 z1 : Bool) {b : GBrk} (h : Rep .idle b) (text : List Int) (ht : ∀ x ∈ text, x ≠ 0) (i : Nat) (hi : i < text.length) :
    (cutTime ⟨z0, z1, false⟩ (verdicts (breaker T) [b] (text ++ [0])) text.length i).isSome = cutG false (classOf T) text i := by
  have hc : ((text ++ [0]).map (classOf T))[i]? = some (classOf T text[i]) := get_cls text i hi
  have hbef : ((text.take (i + 1)).map (classOf T)).reverse = classOf T text[i] :: ((text.take i).map (classOf T)).reverse := by
    rw [List.take_succ_eq_append_getElem hi, List.map_append, List.reverse_append]; rfl
  have hst : GA.run .idle (((text ++ [0]).map (classOf T)).take i) = st ((text.take i).map (classOf T)).reverse := by
    rw [st_run, List.map_append, List.take_append_of_le_length (by simp; omega), List.map_take]
  unfold cutG
  rw [hbef]
  by_cases hj : i + 1 < text.length
  · have hd : ((text ++ [0]).map (classOf T))[i + 1]? = some (classOf T text[i + 1]) := get_cls text (i + 1) hj
    rw [cutTime_X z0 z1 h text i _ _ hc hd, hst, List.drop_eq_getElem_cons hj, List.map_cons,
      ← X_boundary _ _ _ _ (classOf_ne T _ (ht _ (List.getElem_mem _))) (classOf_ne T _ (ht _ (List.getElem_mem _)))]
    split
    · rename_i h1; rw [decide_eq_true h1]; rfl
    · rename_i h1; rw [decide_eq_false h1]; rfl
  · have he : i + 1 = text.length := by omega
    have hd : ((text ++ [0]).map (classOf T))[i + 1]? = some .eot := by
      rw [he, List.getElem?_map, List.getElem?_append_right (Nat.le_refl _), Nat.sub_self]; rfl
    rw [cutTime_X z0 z1 h text i _ _ hc hd, if_pos (X_end _ _), List.drop_of_length_le (by omega)]
    rfl

end Graph

/-! ### C02 for breakers which are steady, but not honest -/

/-- Breakers that never turn a settled "no" into a "yes" (`Steady`) cut the text exactly where, at
some time after the position is settled, the penalties are feasible; the reported penalties are
those at the first such time. -/
theorem C02_steady_breakers {β : Type} (B : Breaker β) {s : Seg β} (hr : Reachable B s) (src : List (Int × Nat)) (n : Nat)
    (hs : Steady ⟨s.zero0, s.zero1, decide (1 < s.brk.length)⟩ (verdicts B s.brk (src.map (·.1) ++ [0])) src.length)
    (hn : src.length + 1 < n) :
    (s.initReader src none).collect B n =
      some ((segmentsOf (placesEarly B s.brk s.zero0 s.zero1 (src.map (·.1)))).map fun seg => ⟨seg.runes.take s.room, seg.pens⟩, true) :=
  collect_reader_early B hr src n hs hn

/-- The grapheme breaker is of this kind. -/
example (T : GTables) (text : List Int) : Steady ⟨false, false, false⟩ (verdicts (breaker T) [Graph.new] (text ++ [0])) text.length :=
  steady false false Graph.new_rep text

/-! ### C22 -/

/-- The class of a rune in the following theorems is the one of the only table in which it is; the
runes in no table are pictographs or others. -/
theorem C22_classes (T : GTables) (r : Int) (hr : r ≠ 0) :
    (∀ c, c ∉ [GClass.Pict, .Any, .eot] → (∀ d, T.is d r = true ↔ d = c) → classOf T r = c) ∧
    ((∀ d, T.is d r = false) → classOf T r = if T.pict r then .Pict else .Any) := by
  unfold classOf classForRune
  rw [if_neg hr]
  constructor
  · intro c hc h
    have hm : c ∈ tabled := by
      cases c <;> first | decide | exact absurd (by decide) hc
    have hf : tabled.find? (fun d => T.is d r) = some c := by
      cases e : tabled.find? (fun d => T.is d r) with
      | none => exact absurd ((h c).mpr rfl) (List.find?_eq_none.mp e c hm)
      | some d => rw [(h d).mp (by simpa using List.find?_some e)]
    rw [hf, Option.getD_some, if_neg]
    rintro rfl
    exact hc (by decide)
  · intro h
    rw [List.find?_eq_none.mpr (fun d _ => by simp [h d])]
    simp

example : classOf { is := fun c r => c == .Extend && r == 0x300, pict := fun r => r == 0x2764 } 0x300 = .Extend ∧
    classOf { is := fun c r => c == .Extend && r == 0x300, pict := fun r => r == 0x2764 } 0x2764 = .Pict := by decide

/-- The breaker never panics: neither its priority queue nor a state function gets into a
situation that the Go code does not handle. -/
theorem C22_never_panics (T : GTables) (rs : List Int) : ∃ b, rs.foldlM (stepO T) Graph.new = some b := by
  suffices h : ∀ (rs : List Int) (a : GA) (b : GBrk), Rep a b → ∃ b', rs.foldlM (stepO T) b = some b' from h rs _ _ new_rep
  intro rs
  induction rs with
  | nil => intro a b _; exact ⟨b, rfl⟩
  | cons r rs ih =>
    intro a b h
    obtain ⟨b', h1, h2, _⟩ := stepO_rep T h r
    rw [List.foldlM_cons, h1]
    exact ih _ _ h2

/-- Reader input, whatever the size of the output buffer. -/
theorem reader_clusters (T : GTables) (past : List Int) (hp : CompletePast past) {s : Seg GBrk}
    (hr : Reachable (breaker T) s) (hb : s.brk = [(breaker T).run Graph.new past]) (src : List (Int × Nat))
    (ht : ∀ x ∈ src, x.1 ≠ 0) (n : Nat) (hn : src.length + 1 < n) :
    ∃ segs, (s.initReader src none).collect (breaker T) n = some (segs, true) ∧
      segs.map (·.runes) = (clusters false (classOf T) (src.map (·.1))).map (·.take s.room) := by
  have h := past_rep T past hp
  have ht' : ∀ x ∈ src.map (·.1), x ≠ 0 := by
    intro x hx
    obtain ⟨y, hy, rfl⟩ := List.mem_map.mp hx
    exact ht y hy
  have hl : (src.map (·.1)).length = src.length := List.length_map _
  obtain ⟨segs, h1, h2⟩ := collect_reader_cutAfter (breaker T) hr src n (cutG false (classOf T) (src.map (·.1)))
    (by rw [hb]; have := steady (T := T) s.zero0 s.zero1 h (src.map (·.1)); rw [hl] at this; exact this)
    (by
      intro i hi
      rw [hb]
      have := cut_text T s.zero0 s.zero1 h (src.map (·.1)) ht' i (by rw [hl]; exact hi)
      rw [hl] at this; exact this)
    (by rw [hb]; have := cutTime_mark (T := T) s.zero0 s.zero1 h (src.map (·.1)); rw [hl] at this; exact this) hn
  exact ⟨segs, h1, by rw [h2, clusters_eq]⟩

/-- Any text is delivered in pieces, with NUL or without. -/
theorem reader_pieces (T : GTables) (past : List Int) (hp : CompletePast past) {s : Seg GBrk}
    (hr : Reachable (breaker T) s) (hb : s.brk = [(breaker T).run Graph.new past]) (src : List (Int × Nat)) :
    ∃ cut : Nat → Bool, (∀ i, i + 1 = src.length → cut i = true) ∧
      ∀ n, src.length + 1 < n → ∃ segs, (s.initReader src none).collect (breaker T) n = some (segs, true) ∧
        segs.map (·.runes) = (cutAfter cut (src.map (·.1))).map (·.take s.room) := by
  have h := past_rep T past hp
  have hl : (src.map (·.1)).length = src.length := List.length_map _
  refine ⟨_, ?_, fun n hn => collect_reader_cutAfter (breaker T) hr src n
    (fun i => (cutTime ⟨s.zero0, s.zero1, decide (1 < s.brk.length)⟩ (verdicts (breaker T) s.brk (src.map (·.1) ++ [0])) src.length i).isSome)
    (by rw [hb]; have := steady (T := T) s.zero0 s.zero1 h (src.map (·.1)); rw [hl] at this; exact this)
    (fun i hi => rfl)
    (by rw [hb]; have := cutTime_mark (T := T) s.zero0 s.zero1 h (src.map (·.1)); rw [hl] at this; exact this) hn⟩
  intro i hi
  have hd : ((src.map (fun x => x.1) ++ [(0 : Int)]).map (classOf T))[i + 1]? = some .eot := by
    rw [hi, List.getElem?_map, List.getElem?_append_right (by rw [hl]), hl, Nat.sub_self]; rfl
  have hc := get_cls (T := T) (src.map (·.1)) i (by omega)
  have := congrArg Option.isSome (cutTime_X (T := T) s.zero0 s.zero1 h (src.map (·.1)) i _ _ hc hd)
  rw [if_pos (X_end _ _), hl] at this
  rw [hb]
  exact this.trans rfl

/-- The segments of a text, for reader input, are its grapheme clusters according to all rules
of UAX#29 but GB9b. Missing: rule GB9b, see `C22_violated`. The text has no NUL, and its clusters
fit into the output buffer, for which see C09. The breaker is new or has processed complete
texts. -/
theorem C22_clusters_without_GB9b_partial (T : GTables) (past : List Int) (hp : CompletePast past) {s : Seg GBrk}
    (hr : Reachable (breaker T) s) (hb : s.brk = [(breaker T).run Graph.new past]) (src : List (Int × Nat))
    (ht : ∀ x ∈ src, x.1 ≠ 0) (hlen : ∀ c ∈ clusters false (classOf T) (src.map (·.1)), c.length ≤ s.room)
    (n : Nat) (hn : src.length + 1 < n) :
    ∃ segs, (s.initReader src none).collect (breaker T) n = some (segs, true) ∧
      segs.map (·.runes) = clusters false (classOf T) (src.map (·.1)) := by
  obtain ⟨segs, h1, h2⟩ := reader_clusters T past hp hr hb src ht n hn
  refine ⟨segs, h1, ?_⟩
  rw [h2]
  conv => rhs; rw [← List.map_id (clusters false (classOf T) (src.map (·.1)))]
  exact List.map_congr_left fun c hc => List.take_of_length_le (hlen c hc)

/-- Slice input, of any length. -/
theorem C22_slice_clusters_without_GB9b_partial (T : GTables) (past : List Int) (hp : CompletePast past) {s : Seg GBrk}
    (hr : Reachable (breaker T) s) (hb : s.brk = [(breaker T).run Graph.new past]) (text : List Int)
    (ht : ∀ x ∈ text, x ≠ 0) (n : Nat) (hn : text.length + 1 < n) :
    ∃ segs, (s.initSlice text).collect (breaker T) n = some (segs, true) ∧
      segs.map (·.runes) = clusters false (classOf T) text := by
  have h := past_rep T past hp
  exact collect_slice_cutAfter (breaker T) hr text n (cutG false (classOf T) text)
    (by rw [hb]; exact steady (T := T) s.zero0 s.zero1 h text)
    (by intro i hi; rw [hb]; exact cut_text T s.zero0 s.zero1 h text ht i hi)
    (by rw [hb]; exact cutTime_mark (T := T) s.zero0 s.zero1 h text) hn

/-- Without Prepend characters, or with all of them at the end of the text or before controls,
GB9b has nothing to say. -/
theorem clusters_no_prepend (cls : Int → GClass) (text : List Int)
    (h : ∀ i x y, text[i]? = some x → text[i + 1]? = some y → cls x = .Prepend → (cls y).isCtl = true ∨ cls y ∈ [.Extend, .ZWJ, .SpacingMark]) :
    clusters true cls text = clusters false cls text := by
  rw [clusters_eq, clusters_eq]
  unfold cutAfter
  congr 2
  apply List.ext_getElem?
  intro i
  rw [List.getElem?_mapIdx, List.getElem?_mapIdx]
  cases hx : text[i]? with
  | none => rfl
  | some x =>
    have hi := (List.getElem?_eq_some_iff.mp hx).1
    have hx' := (List.getElem?_eq_some_iff.mp hx).2
    simp only [Option.map_some, Option.some.injEq, Prod.mk.injEq, true_and]
    unfold cutG
    have hbef : ((text.take (i + 1)).map cls).reverse = cls x :: ((text.take i).map cls).reverse := by
      rw [List.take_succ_eq_append_getElem hi, hx', List.map_append, List.reverse_append]; rfl
    rw [hbef]
    by_cases hj : i + 1 < text.length
    · have hy : text[i + 1]? = some text[i + 1] := List.getElem?_eq_getElem hj
      rw [List.drop_eq_getElem_cons hj, List.map_cons]
      have := h i x _ hx hy
      simp only [gBoundary]
      by_cases hpre : cls x = .Prepend
      · rcases this hpre with h1 | h1
        · rw [hpre, h1]; simp
        · rw [hpre]
          simp only [List.mem_cons, List.not_mem_nil, or_false] at h1
          rcases h1 with h1 | h1 | h1 <;> rw [h1] <;> rfl
      · simp [hpre]
    · rw [List.drop_of_length_le (by omega)]; rfl

/-- Texts in which no Prepend character is followed by anything GB9b applies to are segmented
exactly as UAX#29 wants it (reader input). -/
theorem C22_clusters_no_prepend_partial (T : GTables) (past : List Int) (hp : CompletePast past) {s : Seg GBrk}
    (hr : Reachable (breaker T) s) (hb : s.brk = [(breaker T).run Graph.new past]) (src : List (Int × Nat))
    (ht : ∀ x ∈ src, x.1 ≠ 0) (hlen : ∀ c ∈ clusters true (classOf T) (src.map (·.1)), c.length ≤ s.room)
    (n : Nat) (hn : src.length + 1 < n)
    (hpre : ∀ (i : Nat) x y, (src.map (·.1))[i]? = some x → (src.map (·.1))[i + 1]? = some y → classOf T x = .Prepend →
      (classOf T y).isCtl = true ∨ classOf T y ∈ [.Extend, .ZWJ, .SpacingMark]) :
    ∃ segs, (s.initReader src none).collect (breaker T) n = some (segs, true) ∧
      segs.map (·.runes) = clusters true (classOf T) (src.map (·.1)) := by
  rw [clusters_no_prepend _ _ hpre] at hlen ⊢
  exact C22_clusters_without_GB9b_partial T past hp hr hb src ht hlen n hn

/-- The same for slices. -/
theorem C22_slice_clusters_no_prepend_partial (T : GTables) (past : List Int) (hp : CompletePast past) {s : Seg GBrk}
    (hr : Reachable (breaker T) s) (hb : s.brk = [(breaker T).run Graph.new past]) (text : List Int)
    (ht : ∀ x ∈ text, x ≠ 0) (n : Nat) (hn : text.length + 1 < n)
    (hpre : ∀ (i : Nat) x y, text[i]? = some x → text[i + 1]? = some y → classOf T x = .Prepend →
      (classOf T y).isCtl = true ∨ classOf T y ∈ [.Extend, .ZWJ, .SpacingMark]) :
    ∃ segs, (s.initSlice text).collect (breaker T) n = some (segs, true) ∧
      segs.map (·.runes) = clusters true (classOf T) text := by
  rw [clusters_no_prepend _ _ hpre]
  exact C22_slice_clusters_without_GB9b_partial T past hp hr hb text ht n hn

/-- Tables for examples: the rune itself is its class's number. -/
def numTables : GTables := ⟨fun c r => r == c.num + 20, fun r => r == 33⟩

/-- Rule GB9b does not work: the text Prepend Any is cut in two. -/
theorem C22_violated :
    (((Seg.new [Graph.new]).initReader [(22, 1), (97, 1)] none).collect (breaker numTables) 4).map (·.1.map (·.runes)) = some [[22], [97]] ∧
    clusters true (classOf numTables) [22, 97] = [[22, 97]] := by decide +kernel

/-- A NUL rune in the text is taken for its end: it is joined with a following Extend. -/
theorem C22_needs_nul_free :
    (((Seg.new [Graph.new]).initSlice [97, 0, 24]).collect (breaker numTables) 5).map (·.1.map (·.runes)) = some [[97], [0, 24]] := by
  decide +kernel

/-- All of the text is delivered. -/
theorem C22_clusters_cover_text (u : Bool) (cls : Int → GClass) (text : List Int) : (clusters u cls text).flatten = text := by
  rw [clusters_eq]
  apply cutAfter_flatten
  intro i hi
  unfold cutG
  rw [List.drop_of_length_le (by omega)]
  cases ((text.take (i + 1)).map cls).reverse <;> rfl

/-- The hypotheses of C22 can be met: Pict Extend ZWJ Pict, two flags and CR LF. -/
example : clusters true (classOf numTables) [33, 24, 32, 33, 25, 25, 25, 20, 21] = [[33, 24, 32, 33], [25, 25], [25], [20, 21]] := by
  decide +kernel

example : (((Seg.new [Graph.new]).initSlice [33, 24, 32, 33, 25]).collect (breaker numTables) 7).map (·.1.map (·.runes)) =
    some [[33, 24, 32, 33], [25]] := by decide +kernel

example : Reachable (breaker numTables) (Seg.new [Graph.new]) ∧ (Seg.new [Graph.new]).brk = [(breaker numTables).run Graph.new []] ∧
    CompletePast [] ∧ (Seg.new [Graph.new]).room = 4096 := ⟨Reachable.new _, rfl, Or.inl rfl, rfl⟩

/-! ### C23 -/

/-- CR LF stays together, and there is a boundary before and after each other CR, LF or Control. -/
theorem C23_newlines_and_controls (T : GTables) (past : List Int) (hp : CompletePast past) {s : Seg GBrk}
    (hr : Reachable (breaker T) s) (hb : s.brk = [(breaker T).run Graph.new past]) (text : List Int)
    (ht : ∀ x ∈ text, x ≠ 0) (n : Nat) (hn : text.length + 1 < n) :
    ∃ segs cut, (s.initSlice text).collect (breaker T) n = some (segs, true) ∧ segs.map (·.runes) = cutAfter cut text ∧
      ∀ (i : Nat) x y, text[i]? = some x → text[i + 1]? = some y →
        (classOf T x = .CR ∧ classOf T y = .LF → cut i = false) ∧
        ((classOf T x).isCtl = true ∨ (classOf T y).isCtl = true → ¬ (classOf T x = .CR ∧ classOf T y = .LF) → cut i = true) := by
  obtain ⟨segs, h1, h2⟩ := C22_slice_clusters_without_GB9b_partial T past hp hr hb text ht n hn
  refine ⟨segs, cutG false (classOf T) text, h1, h2, ?_⟩
  intro i x y hx hy
  have hi := (List.getElem?_eq_some_iff.mp hx).1
  have hx' := (List.getElem?_eq_some_iff.mp hx).2
  have hj := (List.getElem?_eq_some_iff.mp hy).1
  have hy' := (List.getElem?_eq_some_iff.mp hy).2
  unfold cutG
  rw [List.take_succ_eq_append_getElem hi, List.drop_eq_getElem_cons hj, hx', hy', List.map_append, List.reverse_append,
    List.map_cons, List.map_cons]
  simp only [List.map_nil, List.reverse_cons, List.reverse_nil, List.nil_append, List.cons_append]
  simp only [gBoundary]
  constructor
  · intro h; rw [if_pos h]
  · intro h h'
    rw [if_neg h']
    rcases h with h | h
    · rw [if_pos h]
    · by_cases h3 : (classOf T x).isCtl = true
      · rw [if_pos h3]
      · rw [if_neg h3, if_pos h]

example : (((Seg.new [Graph.new]).initSlice [97, 20, 21, 21, 24]).collect (breaker numTables) 7).map (·.1.map (·.runes)) =
    some [[97], [20, 21], [21], [24]] := by decide +kernel

/-! ### C24 -/

/-- Number of flags before. -/
theorem flags_before (cls : Int → GClass) (text : List Int) (i : Nat) (hi : i = 0 ∨ ∃ x, text[i - 1]? = some x ∧ cls x ≠ .RI) :
    ∀ (j : Nat), (∀ k, k < j → ∃ x, text[i + k]? = some x ∧ cls x = .RI) →
      ((((text.take (i + j)).map cls).reverse).takeWhile (· == .RI)).length = j := by
  intro j
  induction j with
  | zero =>
    intro _
    rcases hi with rfl | ⟨x, h1, h2⟩
    · rfl
    · cases i with
      | zero => rfl
      | succ i =>
        have hl := (List.getElem?_eq_some_iff.mp h1).1
        have hx := (List.getElem?_eq_some_iff.mp h1).2
        simp only [Nat.add_sub_cancel] at hl hx
        rw [Nat.add_zero, List.take_succ_eq_append_getElem hl, hx, List.map_append, List.reverse_append]
        simp only [List.map_cons, List.map_nil, List.reverse_cons, List.reverse_nil, List.nil_append, List.cons_append]
        rw [List.takeWhile_cons_of_neg (by simpa using h2)]
        rfl
  | succ j ih =>
    intro h
    obtain ⟨x, h1, h2⟩ := h j (by omega)
    have hl := (List.getElem?_eq_some_iff.mp h1).1
    have hx := (List.getElem?_eq_some_iff.mp h1).2
    rw [← Nat.add_assoc, List.take_succ_eq_append_getElem hl, hx, List.map_append, List.reverse_append]
    simp only [List.map_cons, List.map_nil, List.reverse_cons, List.reverse_nil, List.nil_append, List.cons_append]
    rw [List.takeWhile_cons_of_pos (by simpa using h2), List.length_cons, ih fun k hk => h k (by omega)]

/-- In each run of Regional_Indicator characters, which starts at `i`, the text is cut after every
second one and nowhere else. -/
theorem C24_graphemes_flags_paired (T : GTables) (past : List Int) (hp : CompletePast past) {s : Seg GBrk}
    (hr : Reachable (breaker T) s) (hb : s.brk = [(breaker T).run Graph.new past]) (text : List Int)
    (ht : ∀ x ∈ text, x ≠ 0) (n : Nat) (hn : text.length + 1 < n) :
    ∃ segs cut, (s.initSlice text).collect (breaker T) n = some (segs, true) ∧ segs.map (·.runes) = cutAfter cut text ∧
      ∀ (i len : Nat), (i = 0 ∨ ∃ x, text[i - 1]? = some x ∧ classOf T x ≠ .RI) →
        (∀ k, k < len → ∃ x, text[i + k]? = some x ∧ classOf T x = .RI) →
        ∀ k, k + 1 < len → cut (i + k) = decide (k % 2 = 1) := by
  obtain ⟨segs, h1, h2⟩ := C22_slice_clusters_without_GB9b_partial T past hp hr hb text ht n hn
  refine ⟨segs, cutG false (classOf T) text, h1, h2, ?_⟩
  intro i len hi hri k hk
  obtain ⟨x, hx, cx⟩ := hri k (by omega)
  obtain ⟨y, hy, cy⟩ := hri (k + 1) hk
  have hlx := (List.getElem?_eq_some_iff.mp hx).1
  have hx' := (List.getElem?_eq_some_iff.mp hx).2
  have hly := (List.getElem?_eq_some_iff.mp hy).1
  have hy' := (List.getElem?_eq_some_iff.mp hy).2
  have hcount := flags_before (classOf T) text i hi (k + 1) fun k' hk' => hri k' (by omega)
  unfold cutG
  rw [← Nat.add_assoc] at hcount hy hly
  simp only [← Nat.add_assoc] at hy'
  rw [List.drop_eq_getElem_cons hly, hy', List.map_cons, cy]
  rw [List.take_succ_eq_append_getElem hlx, hx', List.map_append, List.reverse_append] at hcount ⊢
  simp only [List.map_cons, List.map_nil, List.reverse_cons, List.reverse_nil, List.nil_append, List.cons_append, cx] at hcount ⊢
  simp only [gBoundary, hcount, GClass.isCtl]
  by_cases hodd : k % 2 = 1
  · rw [decide_eq_true hodd]
    simp [show ¬ (k + 1) % 2 = 1 by omega]
  · rw [decide_eq_false hodd]
    simp [show (k + 1) % 2 = 1 by omega]

example : (((Seg.new [Graph.new]).initSlice [97, 25, 25, 25, 25]).collect (breaker numTables) 7).map (·.1.map (·.runes)) =
    some [[97], [25, 25], [25, 25]] := by decide +kernel

/-! ### C25 -/

/-- After complete texts the breaker reacts to anything that follows like a new one. -/
theorem C25_grapheme_breaker_like_new (T : GTables) (past : List Int) (hp : CompletePast past) (rs : List Int) :
    verdicts (breaker T) [(breaker T).run Graph.new past] rs = verdicts (breaker T) [Graph.new] rs := by
  apply List.ext_getElem?
  intro i
  rw [verdicts_eq T (past_rep T past hp), verdicts_eq T new_rep]

/-- A segmenter that was used to the end of a text delivers the clusters of the next one. -/
theorem C25_grapheme_reuse (T : GTables) (src : List (Int × Nat)) (cs : List SegCall) (s : Seg GBrk)
    (h : ((Seg.new [Graph.new]).initReader src none).after (breaker T) cs = some s) (hE : s.atEOF = true)
    (text : List Int) (ht : ∀ x ∈ text, x ≠ 0) (n : Nat) (hn : text.length + 1 < n) :
    ∃ segs, (s.initSlice text).collect (breaker T) n = some (segs, true) ∧ segs.map (·.runes) = clusters false (classOf T) text := by
  have hr0 : Reachable (breaker T) ((Seg.new [Graph.new]).initReader src none) := Reachable.reader _ _ (Reachable.new _)
  have hr := after_reachable _ cs hr0 h
  exact C22_slice_clusters_without_GB9b_partial T (src.map (·.1) ++ [0]) (Or.inr (by simp)) hr
    (exhausted_brk _ (Reachable.new [Graph.new]) src cs h hE) text ht n hn

example : CompletePast [25, 0] := Or.inr rfl

end Uax
