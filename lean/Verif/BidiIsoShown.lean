import Verif.BidiIsoVisual
import Verif.BidiReturns
import Verif.Props.BidiReorder

/-
What is shown for the runs of a text with isolates.
-/
namespace Uax.Bidi
open Spec

/-- What is shown for runs in a left-to-right paragraph, without hidden characters. -/
def sh (st : List Nat) (vis : Nat → Bool) (runs : List VRun) : List Nat := (runs.flatMap fun r => r.scraps.flatMap (shownSegment st r.dir)).filter vis

theorem sh_append (st : List Nat) (vis : Nat → Bool) (a b : List VRun) : sh st vis (a ++ b) = sh st vis a ++ sh st vis b := by
  unfold sh
  rw [List.flatMap_append, List.filter_append]

/-- The last scrap of runs. -/
def EndsIn (runs : List VRun) (d : Dir) (z : Scrap) : Prop :=
  ∃ init last pre, runs = init ++ [last] ∧ last.dir = d ∧ last.length ≠ 0 ∧ last.scraps = pre ++ [z]

/-- Nothing of it can be seen. -/
def Hid (st : List Nat) (vis : Nat → Bool) (s : Scrap) : Prop := (within s.l s.r st).filter vis = []

/-- The first run is one scrap. -/
def Lead (runs : List VRun) (d : Dir) (a : Nat) : Prop := ∃ c more b, runs = c :: more ∧ c.dir = d ∧ c.length ≠ 0 ∧ c.scraps = [b] ∧ b.l = a ∧ b.l ≤ b.r

theorem within_cut {st : List Nat} (h : st.Pairwise (· < ·)) {l m r : Nat} (h1 : l ≤ m) (h2 : m ≤ r) : within l r st = within l m st ++ within m r st := by
  have hw : (st.map fun p => (p, 0)).Pairwise fun a b => a.1 < b.1 := by
    rw [List.pairwise_map]; exact h
  have := inW_cut hw h1 h2
  have e : (st.map fun p => (p, (0 : Nat))).map (·.1) = st := by simp [Function.comp_def]
  have := congrArg (List.map (·.1)) this
  rw [List.map_append, inW_fst, inW_fst, inW_fst, e] at this
  exact this

theorem segment_join {st : List Nat} (h : st.Pairwise (· < ·)) (vis : Nat → Bool) (d : Dir) (z s : Scrap) (h1 : z.l ≤ z.r) (h2 : s.l ≤ s.r) (h3 : z.r = s.l)
    (hh : d = .rtl → Hid st vis z ∨ Hid st vis s) :
    (shownSegment st d { z with r := s.r }).filter vis = (shownSegment st d z).filter vis ++ (shownSegment st d s).filter vis := by
  have hc := within_cut h (l := z.l) (m := z.r) (r := s.r) h1 (by omega)
  rw [h3] at hc
  unfold shownSegment
  dsimp only
  rw [hc]
  cases d with
  | ltr => rw [if_pos rfl, if_pos rfl, if_pos rfl, h3, List.filter_append]
  | rtl =>
    rw [if_neg (by simp), if_neg (by simp), if_neg (by simp), List.filter_reverse, List.filter_append, List.filter_reverse, List.filter_reverse, h3]
    rcases hh rfl with k | k
    · unfold Hid at k; rw [h3] at k; rw [k]; simp
    · unfold Hid at k; rw [k]; simp

theorem joinScraps_last (z s : Scrap) : ∀ pre : List Scrap, joinScraps (pre ++ [z]) [s] = some (pre ++ if z.r = s.l then [{ z with r := s.r }] else [z, s]) := by
  intro pre
  induction pre with
  | nil => rw [List.nil_append, joinScraps]; split <;> rfl
  | cons a pre ih =>
    cases pre with
    | nil =>
      rw [List.nil_append] at ih
      rw [List.cons_append, List.nil_append, joinScraps, ih]
      · simp
      · intro h; cases h
    | cons b pre =>
      rw [List.cons_append, List.cons_append, joinScraps, ← List.cons_append, ih]
      · simp
      · intro h; cases h

theorem endsIn_last {runs : List VRun} {d : Dir} {z : Scrap} (h : EndsIn runs d z) : runs ≠ [] ∧ (lastRun runs).dir = d ∧ (lastRun runs).length ≠ 0 := by
  obtain ⟨init, last, pre, rfl, h1, h2, h3⟩ := h
  unfold lastRun
  rw [List.getLast?_concat, Option.getD_some]
  exact ⟨by simp, h1, h2⟩

theorem sh_one (st : List Nat) (vis : Nat → Bool) (r : VRun) : sh st vis [r] = r.scraps.flatMap fun s => (shownSegment st r.dir s).filter vis := by
  unfold sh
  rw [List.flatMap_singleton, List.filter_flatMap]

/-- One more scrap. -/
theorem ext_shown {st : List Nat} (hst : st.Pairwise (· < ·)) (vis : Nat → Bool) {s : Scrap} {runs : List VRun} {e d : Dir} (hd : directionOf s e = d) (hlen : s.len ≠ 0) (hl : s.l ≤ s.r)
    (h : runs = [] ∨ ∃ d' z, EndsIn runs d' z ∧ z.l ≤ z.r ∧ (d' = d → d = .rtl → z.r = s.l → Hid st vis z ∨ Hid st vis s)) :
    ∃ runs', extendRuns s runs e = some runs' ∧ sh st vis runs' = sh st vis runs ++ (shownSegment st d s).filter vis ∧
      (∃ z', EndsIn runs' d z' ∧ z'.l ≤ z'.r ∧ z'.r = s.r) ∧
      (∀ d0 a, Lead runs d0 a → (∃ d z, EndsIn runs d z ∧ z.r = s.l) → Lead runs' d0 a) := by
  have hv : (vrun s e).scraps = [s] := rfl
  have hvd : (vrun s e).dir = d := hd
  have hvl : (vrun s e).length = s.len := rfl
  have happ : sh st vis (runs ++ [vrun s e]) = sh st vis runs ++ (shownSegment st d s).filter vis ∧ (∃ z', EndsIn (runs ++ [vrun s e]) d z' ∧ z'.l ≤ z'.r ∧ z'.r = s.r) := by
    refine ⟨?_, s, ⟨runs, _, [], rfl, hvd, by rw [hvl]; exact hlen, hv⟩, hl, rfl⟩
    rw [sh_append, sh_one, hv, hvd]
    simp
  have hlead : ∀ d0 a, Lead runs d0 a → Lead (runs ++ [vrun s e]) d0 a := by
    rintro d0 a ⟨c, more, b, rfl, k⟩
    exact ⟨c, more ++ [vrun s e], b, rfl, k⟩
  unfold extendRuns
  dsimp only
  rw [if_neg hlen]
  rcases h with rfl | ⟨d', z, hz, z1, z2⟩
  · refine ⟨[vrun s e], rfl, happ.1, happ.2, ?_⟩
    rintro d0 a ⟨c, more, b, k, -⟩
    cases k
  · obtain ⟨-, l1, l2⟩ := endsIn_last hz
    rw [if_neg l2, l1, hd]
    by_cases hdd : d' = d
    · subst hdd
      rw [if_pos rfl]
      obtain ⟨init, last, pre, rfl, k1, k2, k3⟩ := hz
      have hlast : lastRun (init ++ [last]) = last := by unfold lastRun; rw [List.getLast?_concat]; rfl
      rw [hlast]
      unfold VRun.concat
      rw [hvl, if_neg hlen, hvd, k1, if_neg (by simp), hv, k3, joinScraps_last, Option.map_some, Option.map_some, List.dropLast_concat]
      refine ⟨_, rfl, ?_, ?_, ?_⟩
      · rw [sh_append, sh_append, sh_one, sh_one, k3]
        dsimp only
        rw [k1]
        split
        · rename_i hj
          rw [List.flatMap_append, List.flatMap_append, List.flatMap_singleton, List.flatMap_singleton,
            segment_join hst vis d' z s z1 hl hj (fun hr => z2 rfl hr hj)]
          simp
        · simp
      · split
        · refine ⟨{ z with r := s.r }, ⟨init, _, pre, rfl, rfl, by dsimp only; omega, rfl⟩, ?_, rfl⟩
          show z.l ≤ s.r
          omega
        · refine ⟨s, ⟨init, _, pre ++ [z], rfl, rfl, by dsimp only; omega, by simp⟩, hl, rfl⟩
      · rintro d0 a ⟨c, more, b, c1, c2, c3, c4, c5, c6⟩ ⟨d2, z2', ⟨i2, l2', p2, q1, q2, q3, q4⟩, q5⟩
        have hlz : last = l2' := by
          have := congrArg List.getLast? q1
          simpa using this
        subst hlz
        have hzz : z = z2' := by
          have := congrArg List.getLast? (k3.symm.trans q4)
          simpa using this
        subst hzz
        cases init with
        | nil =>
          rw [List.nil_append, List.cons.injEq] at c1
          obtain ⟨rfl, rfl⟩ := c1
          rw [c4] at k3
          cases pre with
          | nil =>
            rw [List.nil_append, List.cons.injEq] at k3
            obtain ⟨rfl, -⟩ := k3
            refine ⟨_, [], { b with r := s.r }, rfl, k1.symm.trans c2, by dsimp only; omega, ?_, c5, ?_⟩
            · dsimp only
              rw [if_pos q5]
              rfl
            · show b.l ≤ s.r
              omega
          | cons x pre => simp at k3
        | cons i init =>
          rw [List.cons_append, List.cons.injEq] at c1
          obtain ⟨rfl, rfl⟩ := c1
          exact ⟨i, _, b, rfl, c2, c3, c4, c5, c6⟩
    · rw [if_neg hdd]
      exact ⟨_, rfl, happ.1, happ.2, fun d0 a k _ => hlead d0 a k⟩

/-- Some more scraps of alternating directions. -/
theorem loop_shown {st : List Nat} (hst : st.Pairwise (· < ·)) (vis : Nat → Bool) (e : Dir) : ∀ (ms : List Scrap) (runs : List VRun) (d : Dir) (z : Scrap),
    (∀ m ∈ ms, m.children = [] ∧ m.len ≠ 0 ∧ m.l ≤ m.r) → Linked (fun a b => directionOf a e ≠ directionOf b e) ms →
    EndsIn runs d z → z.l ≤ z.r → (∀ m ∈ ms.head?, directionOf m e = d → Hid st vis z) →
    ∃ runs' d' z', (∀ rest, flattenLoop e (ms ++ rest) runs = flattenLoop e rest runs') ∧
      sh st vis runs' = sh st vis runs ++ (ms.flatMap fun m => shownSegment st (directionOf m e) m).filter vis ∧
      EndsIn runs' d' z' ∧ z'.l ≤ z'.r ∧ (∀ d0 a p q, Lead runs d0 a → z.r = p → Tiles p q ms → Lead runs' d0 a ∧ z'.r = q) := by
  intro ms
  induction ms with
  | nil =>
    intro runs d z _ _ h1 h2 _
    refine ⟨runs, d, z, fun _ => rfl, by simp, h1, h2, ?_⟩
    intro d0 a p q k1 k2 k3
    exact ⟨k1, by rw [k2]; exact k3⟩
  | cons m ms ih =>
    intro runs d z hm hk h1 h2 h3
    obtain ⟨m1, m2, m3⟩ := hm m (List.mem_cons_self ..)
    obtain ⟨runs1, e1, e2, ⟨z1, e3, e4, e5⟩, e6⟩ := ext_shown hst vis (runs := runs) (rfl : directionOf m e = _) m2 m3
      (Or.inr ⟨d, z, h1, h2, fun hd _ _ => Or.inl (h3 m rfl hd.symm)⟩)
    obtain ⟨runs2, d2, z2, f1, f2, f3, f4, f5⟩ := ih runs1 _ z1 (fun x hx => hm x (List.mem_cons_of_mem _ hx)) (by cases ms with | nil => trivial | cons b bs => exact hk.2) e3 e4 (by
      intro b hb hd
      cases ms with
      | nil => cases hb
      | cons b' bs =>
        cases hb
        exact absurd hd.symm hk.1)
    refine ⟨runs2, d2, z2, ?_, ?_, f3, f4, ?_⟩
    · intro rest
      obtain ⟨c, l, r, x, ch⟩ := m
      simp only at m1
      subst m1
      rw [List.cons_append, flattenLoop, if_pos rfl, e1]
      exact f1 rest
    · rw [f2, e2, List.flatMap_cons, List.filter_append, List.append_assoc]
    · intro d0 a p q k1 k2 k3
      obtain ⟨rfl, k3⟩ := k3
      exact f5 d0 a m.r q (e6 d0 a k1 ⟨d, z, h1, k2⟩) e5 k3

theorem endsIn_append {a b : List VRun} {d : Dir} {z : Scrap} (h : EndsIn b d z) : EndsIn (a ++ b) d z := by
  obtain ⟨init, last, pre, rfl, k⟩ := h
  exact ⟨a ++ init, last, pre, by simp, k⟩

def HeadDir (runs : List VRun) (d : Dir) : Prop := ∃ c more, runs = c :: more ∧ c.dir = d

theorem ext_head {s : Scrap} {runs runs' : List VRun} {e d : Dir} (h : extendRuns s runs e = some runs') (hh : HeadDir runs d) : HeadDir runs' d := by
  obtain ⟨c, more, rfl, hc⟩ := hh
  unfold extendRuns at h
  dsimp only at h
  split at h
  · cases h; exact ⟨c, more, rfl, hc⟩
  · split at h
    · cases h; exact ⟨c, more ++ [vrun s e], rfl, hc⟩
    · split at h
      · rw [Option.map_eq_some_iff] at h
        obtain ⟨r, h1, rfl⟩ := h
        cases more with
        | nil =>
          refine ⟨r, [], rfl, ?_⟩
          have hl : lastRun [c] = c := rfl
          rw [hl] at h1
          unfold VRun.concat at h1
          split at h1
          · cases h1; exact hc
          · split at h1
            · cases h1
            · rw [Option.map_eq_some_iff] at h1
              obtain ⟨q, -, rfl⟩ := h1
              exact hc
        | cons b bs => exact ⟨c, (b :: bs).dropLast ++ [r], rfl, hc⟩
      · cases h; exact ⟨c, more ++ [vrun s e], rfl, hc⟩

theorem loop_head {e d : Dir} : ∀ (ms : List Scrap) (runs runs' : List VRun), (∀ m ∈ ms, m.children = []) → flattenLoop e ms runs = some runs' → HeadDir runs d → HeadDir runs' d := by
  intro ms
  induction ms with
  | nil => intro runs runs' _ h hh; rw [flattenLoop] at h; cases h; exact hh
  | cons m ms ih =>
    intro runs runs' hm h hh
    have m1 := hm m (List.mem_cons_self ..)
    obtain ⟨c, l, r, x, ch⟩ := m
    simp only at m1
    subst m1
    rw [flattenLoop, if_pos rfl] at h
    split at h
    · cases h
    · rename_i r1 h1
      exact ih _ _ (fun y hy => hm y (List.mem_cons_of_mem _ hy)) h (ext_head h1 hh)

/-- The runs of an isolate from right to left come after runs from left to right. -/
theorem append_rtl {chruns runs : List VRun} (h : HeadDir chruns .rtl) (hr : runs = [] ∨ ∃ z, EndsIn runs .ltr z) :
    appendRuns chruns runs = some (runs ++ chruns) := by
  obtain ⟨c, more, rfl, c2⟩ := h
  have hd : (lastRun runs).dir = .ltr := by
    rcases hr with rfl | ⟨z, hz⟩
    · rfl
    · exact (endsIn_last hz).2.1
  unfold appendRuns
  dsimp only
  rw [c2, hd, if_neg (by simp)]

/-- The runs of an isolate from left to right come after runs from left to right. -/
theorem append_ltr {st : List Nat} (hst : st.Pairwise (· < ·)) (vis : Nat → Bool) {chruns runs : List VRun} {a : Nat} {z : Scrap} {d : Dir} {w : Scrap} (h : Lead chruns .ltr a)
    (hw : EndsIn chruns d w) (hw2 : w.l ≤ w.r) (hr : EndsIn runs .ltr z) (hz : z.l ≤ z.r) (hza : z.r = a) :
    ∃ runs', appendRuns chruns runs = some runs' ∧ sh st vis runs' = sh st vis runs ++ sh st vis chruns ∧ ∃ d' w', EndsIn runs' d' w' ∧ w'.l ≤ w'.r := by
  obtain ⟨c, more, b, rfl, c2, c3, c4, c5, c6⟩ := h
  obtain ⟨init, last, pre, rfl, k1, k2, k3⟩ := hr
  have hlast : lastRun (init ++ [last]) = last := by unfold lastRun; rw [List.getLast?_concat]; rfl
  unfold appendRuns
  dsimp only
  rw [hlast, k1, c2, if_pos rfl]
  unfold VRun.concat
  rw [if_neg c3, k1, c2, if_neg (by simp), k3, c4, joinScraps_last, Option.map_some]
  dsimp only
  rw [if_neg (by simp), if_neg c3, List.dropLast_concat]
  have hx : extendShared (pre ++ [z]) [b] = pre ++ [{ z with r := b.r }] := by
    unfold extendShared
    rw [List.getLast?_concat, List.head?_cons]
    dsimp only
    rw [if_pos (by omega), List.dropLast_concat]
  rw [hx]
  refine ⟨_, rfl, ?_, ?_⟩
  · have e0 : sh st vis (c :: more) = (shownSegment st .ltr b).filter vis ++ sh st vis more := by
      have := sh_append st vis [c] more
      rw [List.singleton_append] at this
      rw [this, sh_one, c4, c2]
      simp
    rw [e0, sh_append, sh_append, sh_append, sh_one, sh_one, k3, k1]
    dsimp only
    rw [List.flatMap_append, List.flatMap_append, List.flatMap_singleton, List.flatMap_singleton, segment_join hst vis .ltr z b hz c6 (by omega) (fun h => by cases h)]
    simp
  · by_cases hm : more = []
    · subst hm
      refine ⟨.ltr, { z with r := b.r }, ⟨init, { last with scraps := pre ++ [{ z with r := b.r }] }, pre, by simp [k1], k1, k2, rfl⟩, ?_⟩
      show z.l ≤ b.r
      omega
    · obtain ⟨i2, l2, p2, q1, q2, q3, q4⟩ := hw
      cases i2 with
      | nil =>
        rw [List.nil_append, List.cons.injEq] at q1
        exact absurd q1.2 hm
      | cons i i2 =>
        rw [List.cons_append, List.cons.injEq] at q1
        refine ⟨d, w, ?_, hw2⟩
        rw [q1.2]
        exact endsIn_append ⟨i2, l2, p2, rfl, q2, q3, q4⟩

theorem seg_dir {s : Scrap} (h : s.clz = cL ∨ s.clz = cR) (e : Dir) : directionOf s e = if s.clz = cL then .ltr else .rtl := by
  unfold directionOf
  rcases h with h | h <;> rw [h] <;> rfl

theorem segs_shown (st : List Nat) (e : Dir) : ∀ (ms : List Scrap), (∀ m ∈ ms, m.clz = cL ∨ m.clz = cR) → (ms.flatMap fun m => shownSegment st (directionOf m e) m) = ms.flatMap (seg st) := by
  intro ms
  induction ms with
  | nil => intros; rfl
  | cons m ms ih =>
    intro h
    rw [List.flatMap_cons, List.flatMap_cons, ih fun x hx => h x (List.mem_cons_of_mem _ hx), seg_dir (h m (List.mem_cons_self ..))]
    rfl

/-- The order of the scraps in an isolate. -/
theorem listed_same {first last : Scrap} {mid : List Scrap} (hf : first.clz = cLRI ∨ first.clz = cRLI) (hm : ∀ m ∈ mid, m.clz = cL ∨ m.clz = cR)
    (hl : Linked (fun a b : Scrap => a.clz ≠ b.clz) mid) :
    NumbersApart mid ∧ listedIsolate .ltr (first :: (mid ++ [last])) = first :: ((if first.clz = cRLI then mid.reverse else mid) ++ [last]) := by
  have hn : ∀ s ∈ mid, s.clz ≠ cNULL ∧ s.clz ≠ cEN ∧ s.clz ≠ cAN := by
    intro s hs
    rcases hm s hs with h | h <;> rw [h] <;> decide
  have hd : Linked Differ mid := by
    have := linked_map (R := fun a b : Scrap => a.clz ≠ b.clz) (S := Differ) id (fun x y h hh => h hh.1) mid hl
    rwa [List.map_id] at this
  have ha : NumbersApart mid := by
    have : ∀ l : List Scrap, (∀ m ∈ l, m.clz = cL ∨ m.clz = cR) → NumbersApart l := by
      intro l
      induction l with
      | nil => intro _; trivial
      | cons a l ih =>
        intro h
        cases l with
        | nil => trivial
        | cons b l =>
          refine ⟨?_, ih fun x hx => h x (List.mem_cons_of_mem _ hx)⟩
          rintro ⟨k, -⟩
          unfold levelInLtr at k
          rcases h a (List.mem_cons_self ..) with h | h <;> rw [h] at k <;> exact absurd k (by decide)
    exact this mid hm
  refine ⟨ha, ?_⟩
  rw [listedIsolate, List.dropLast_concat, List.getLast?_concat]
  unfold listed leftToRight isolateDir
  rw [if_pos rfl]
  rcases hf with h | h
  · rw [h, if_pos rfl, if_pos rfl, if_neg (by decide), ← flat_ltr mid (fun s hs => (hn s hs).1) ha, reorderFlat_same .ltr hn hd]
    rfl
  · rw [h, if_neg (by decide), if_pos rfl]
    have := flat_rtl mid (fun s hs => (hn s hs).1)
    rw [reorderFlat_same .rtl hn hd] at this
    have this := congrArg List.reverse this
    rw [List.reverse_reverse] at this
    rw [← this]
    rfl

/-- The runs of an isolate. -/
theorem child_shown {W : List (Nat × Nat)} (hst : (W.map (·.1)).Pairwise (· < ·)) (vis : Nat → Bool) {first last : Scrap} {mid : List Scrap} {a z : Nat} (h : IsoOk W first mid last a z)
    (h1 : Hid (W.map (·.1)) vis first) (h2 : Hid (W.map (·.1)) vis last) (e : Dir) (he : e = if first.clz = cRLI then .rtl else .ltr) :
    ∃ chruns d w, flattenLoop e (first :: ((if first.clz = cRLI then mid.reverse else mid) ++ [last])) [] = some chruns ∧ HeadDir chruns e ∧ (first.clz ≠ cRLI → Lead chruns e a) ∧ EndsIn chruns d w ∧ w.l ≤ w.r ∧
      sh (W.map (·.1)) vis chruns = (midShown (W.map (·.1)) first.clz mid).filter vis := by
  obtain ⟨g1, g2, g3, g4, gt, gf, gl, gm, gk, -, -⟩ := h
  have hlen : ∀ s : Scrap, s.clz ≠ cNULL → s.l < s.r → s.len ≠ 0 := by
    intro s k1 k2
    unfold Scrap.len
    rw [if_neg k1]
    omega
  have hfd : directionOf first e = e := by
    rw [he]
    unfold directionOf
    rcases g1 with g | g <;> rw [g] <;> rfl
  have hld : directionOf last e = e := by
    unfold directionOf
    rw [g3]
    rfl
  have hfl := hlen first (by rcases g1 with g | g <;> rw [g] <;> decide) gf
  have hll := hlen last (by rw [g3]; decide) gl
  generalize hms : (if first.clz = cRLI then mid.reverse else mid) = ms
  have hmem : ∀ m ∈ ms, m ∈ mid := by
    intro m hm
    rw [← hms] at hm
    split at hm
    · simpa using hm
    · exact hm
  have hlink : Linked (fun a b => directionOf a e ≠ directionOf b e) ms := by
    have hdir : ∀ l : List Scrap, (∀ m ∈ l, m ∈ mid) → Linked (fun a b : Scrap => a.clz ≠ b.clz) l → Linked (fun a b => directionOf a e ≠ directionOf b e) l := by
      intro l
      induction l with
      | nil => intros; trivial
      | cons x l ih =>
        intro hx hk
        cases l with
        | nil => trivial
        | cons y l =>
          refine ⟨?_, ih (fun m hm => hx m (List.mem_cons_of_mem _ hm)) hk.2⟩
          have hx1 := (gm x (hx x (by simp))).1
          have hy1 := (gm y (hx y (by simp))).1
          have hne : x.clz ≠ y.clz := hk.1
          show directionOf x e ≠ directionOf y e
          rw [seg_dir hx1, seg_dir hy1]
          rcases hx1 with h | h <;> rcases hy1 with k | k <;> rw [h, k] at hne ⊢ <;> first | exact absurd rfl hne | simp [cL, cR]
    refine hdir ms hmem ?_
    rw [← hms]
    split
    · have hrev : ∀ l : List Scrap, Linked (fun a b : Scrap => a.clz ≠ b.clz) l → Linked (fun a b : Scrap => a.clz ≠ b.clz) l.reverse := by
        intro l
        induction l with
        | nil => intros; trivial
        | cons x l ih =>
          intro hk
          rw [List.reverse_cons]
          refine linked_append.mpr ⟨ih (by cases l with | nil => trivial | cons y l => exact hk.2), trivial, ?_⟩
          intro u hu v hv
          cases hv
          cases l with
          | nil => cases hu
          | cons y l =>
            rw [List.getLast?_reverse, List.head?_cons, Option.mem_def, Option.some.injEq] at hu
            subst hu
            exact fun k => hk.1 k.symm
      exact hrev mid gk
    · exact gk
  have h0 : EndsIn [vrun first e] e first := ⟨[], _, [], rfl, hfd, hfl, rfl⟩
  obtain ⟨r1, d1, z1, a1, a2, a3, a4, a5⟩ := loop_shown hst vis e ms [vrun first e] e first
    (fun m hm => by obtain ⟨k1, k2, k3, -⟩ := gm m (hmem m hm); exact ⟨k3, hlen m (by rcases k1 with k | k <;> rw [k] <;> decide) k2, Nat.le_of_lt k2⟩) hlink h0 (Nat.le_of_lt gf) (fun _ _ _ => h1)
  obtain ⟨r2, b1, b2, ⟨z2, b3, b4, -⟩, b6⟩ := ext_shown hst vis (runs := r1) hld hll (Nat.le_of_lt gl) (Or.inr ⟨d1, z1, a3, a4, fun _ _ _ => Or.inr h2⟩)
  have s1 : extendRuns first [] e = some [vrun first e] := by
    unfold extendRuns
    dsimp only
    rw [if_neg hfl]
    rfl
  have hfold : flattenLoop e (first :: (ms ++ [last])) [] = flattenLoop e (ms ++ [last]) [vrun first e] := by
    obtain ⟨c, l, r, x, ch⟩ := first
    simp only at g2
    subst g2
    rw [flattenLoop, if_pos rfl, s1]
  have hflat : flattenLoop e (first :: (ms ++ [last])) [] = some r2 := by
    rw [hfold, a1 [last]]
    obtain ⟨c', l', r', x', ch'⟩ := last
    simp only at g4
    subst g4
    rw [flattenLoop, if_pos rfl, b1]
    dsimp only
    rw [flattenLoop]
  refine ⟨r2, e, z2, hflat, ?_, ?_, b3, b4, ?_⟩
  · rw [hfold] at hflat
    refine loop_head _ _ _ ?_ hflat ⟨vrun first e, [], rfl, hfd⟩
    intro m hm
    rcases List.mem_append.mp hm with hm | hm
    · exact (gm m (hmem m hm)).2.2.1
    · rw [List.mem_singleton] at hm; rw [hm]; exact g4
  · intro hne
    rw [if_neg hne] at hms
    subst hms
    obtain ⟨gt1, gt2⟩ := gt
    obtain ⟨w, q1, q2⟩ := tiles_append.mp gt2
    obtain ⟨f1, f2⟩ := a5 e a first.r w ⟨vrun first e, [], first, rfl, hfd, hfl, rfl, gt1, Nat.le_of_lt gf⟩ rfl q1
    exact b6 e a f1 ⟨d1, z1, a3, by rw [f2, q2.1]⟩
  · rw [b2, a2, sh_one]
    have s2 : (vrun first e).scraps = [first] := rfl
    have hz : ∀ (s : Scrap), Hid (W.map (·.1)) vis s → ∀ d, (shownSegment (W.map (·.1)) d s).filter vis = [] := by
      intro s hs d
      unfold shownSegment
      split
      · exact hs
      · rw [List.filter_reverse, hs]; rfl
    rw [s2, List.flatMap_singleton, hz first h1, hz last h2, List.nil_append, List.append_nil, segs_shown _ _ _ (fun m hm => (gm m (hmem m hm)).1)]
    unfold midShown
    rw [← hms]
    split <;> rfl

theorem hid_first {W : List (Nat × Nat)} {vis : Nat → Bool} {s : Scrap} (h : inW W s.l s.r = [(s.l, 0)]) (hv : vis s.l = false) : Hid (W.map (·.1)) vis s := by
  unfold Hid
  rw [← inW_fst, h]
  simp [hv]

/-- Initiators and terminators of isolates cannot be seen. -/
def MarksHidden (vis : Nat → Bool) (chs : List (List Scrap)) : Prop := ∀ ch ∈ chs, ∀ s ∈ ch, s.clz ≠ cL → s.clz ≠ cR → vis s.l = false

/-- The runs of a scrap of class L with isolates. -/
theorem children_shown {W : List (Nat × Nat)} (hst : (W.map (·.1)).Pairwise (· < ·)) (vis : Nat → Bool) {len : Nat} : ∀ (chs : List (List Scrap)) (l r : Nat) (x : DirContext) (runs : List VRun),
    Arranged W len l r chs → MarksHidden vis chs → (runs = [] ∨ ∃ d z, EndsIn runs d z ∧ z.l ≤ z.r) → (l = 0 → runs = []) →
    ∃ s' runs', flattenChildren .ltr ⟨cL, l, r, x, []⟩ (chs.map (listedIsolate .ltr)) runs = some (s', runs') ∧ s'.clz = cL ∧ s'.children = [] ∧ s'.r = r ∧ s'.l ≤ r ∧ (s'.l < r ∨ r = len) ∧
      (runs' = [] ∨ ∃ d z, EndsIn runs' d z ∧ z.l ≤ z.r) ∧
      sh (W.map (·.1)) vis runs' ++ (within s'.l r (W.map (·.1))).filter vis = sh (W.map (·.1)) vis runs ++ (shownIn (W.map (·.1)) l r chs).filter vis := by
  intro chs
  induction chs with
  | nil =>
    intro l r x runs h hh hr h0
    obtain ⟨h1, h2, -⟩ := h
    exact ⟨⟨cL, l, r, x, []⟩, runs, by rw [List.map_nil, flattenChildren], rfl, rfl, rfl, h1, h2, hr, rfl⟩
  | cons ch more ih =>
    intro l r x runs h hh hr h0
    obtain ⟨first, mid, last, a, z, rfl, hi, h1, h2, -, h3, h4⟩ := h
    have hv1 : vis first.l = false := hh _ (List.mem_cons_self ..) first (List.mem_cons_self ..) (by rcases hi.1 with k | k <;> rw [k] <;> decide) (by rcases hi.1 with k | k <;> rw [k] <;> decide)
    have hv2 : vis last.l = false := hh _ (List.mem_cons_self ..) last (by simp) (by rw [hi.2.2.1]; decide) (by rw [hi.2.2.1]; decide)
    have hh1 : Hid (W.map (·.1)) vis first := hid_first hi.2.2.2.2.2.2.2.2.2.1 hv1
    have hh2 : Hid (W.map (·.1)) vis last := hid_first hi.2.2.2.2.2.2.2.2.2.2 hv2
    have hsame := (listed_same (last := last) hi.1 (fun m hm => (hi.2.2.2.2.2.2.2.1 m hm).1) hi.2.2.2.2.2.2.2.2.1).2
    obtain ⟨chruns, d2, w2, c1, c2, c3, c4, c5, c6⟩ := child_shown hst vis hi hh1 hh2 _ rfl
    have ha : first.l = a := hi.2.2.2.2.1.1
    have hz : last.r = z := by
      have := hi.2.2.2.2.1
      obtain ⟨q, -, q2⟩ := tiles_append.mp this.2
      exact q2.2
    have haz : a < z := by
      have := hi.2.2.2.2.1
      obtain ⟨q, q1, q2⟩ := tiles_append.mp this.2
      have := (inW_tiles (W := []) List.Pairwise.nil mid _ _ q1 (fun m hm => (hi.2.2.2.2.2.2.2.1 m hm).2.1)).1
      have g1 := hi.2.2.2.2.2.1
      have g2 := hi.2.2.2.2.2.2.1
      have := q2.1
      have := q2.2
      have : last.r = z := hz
      omega
    have hlast : (first :: ((if first.clz = cRLI then mid.reverse else mid) ++ [last])).getLast? = some last := by
      rw [← List.cons_append, List.getLast?_concat]
    have hcut : cutScrapAt ⟨cL, l, r, x, []⟩ (first :: ((if first.clz = cRLI then mid.reverse else mid) ++ [last])) = some ({ l := l, r := a, clz := cL }, { l := z, r := r, clz := cL }) := by
      unfold cutScrapAt
      rw [hlast, List.head?_cons]
      dsimp only
      rw [ha, hz]
    -- the text before the isolate
    have hbefore : ∃ runs1, extendRuns { l := l, r := a, clz := cL } runs .ltr = some runs1 ∧ sh (W.map (·.1)) vis runs1 = sh (W.map (·.1)) vis runs ++ (within l a (W.map (·.1))).filter vis ∧
        ((∃ z1, EndsIn runs1 .ltr z1 ∧ z1.l ≤ z1.r ∧ z1.r = a) ∨ (runs1 = [] ∧ first.clz = cRLI)) := by
      by_cases hl : l < a
      · have hlen : Scrap.len { l := l, r := a, clz := cL } ≠ 0 := by
          unfold Scrap.len
          rw [if_neg (by show ¬ cL = cNULL; decide)]
          show a - l ≠ 0
          omega
        obtain ⟨r1, e1, e2, e3, -⟩ := ext_shown hst vis (s := { l := l, r := a, clz := cL }) (runs := runs) (e := .ltr) (d := .ltr) rfl hlen h1 (by
          rcases hr with hr | ⟨d, z, hz1, hz2⟩
          · exact Or.inl hr
          · exact Or.inr ⟨d, z, hz1, hz2, fun _ k => by cases k⟩)
        refine ⟨r1, e1, ?_, Or.inl e3⟩
        rw [e2]
        rfl
      · rcases h2 with k | ⟨k1, k2⟩
        · exact absurd k hl
        · have hl0 : l = 0 := by omega
          subst k1
          subst hl0
          have hr0 := h0 rfl
          subst hr0
          refine ⟨[], rfl, ?_, Or.inr ⟨rfl, k2⟩⟩
          have : within 0 0 (W.map (·.1)) = [] := by
            unfold within
            rw [List.filter_eq_nil_iff]
            intro p _
            simp
          rw [this]
          rfl
    obtain ⟨runs1, e1, e2, e3⟩ := hbefore
    have hdir : (lastRun runs1).dir = .ltr := by
      rcases e3 with ⟨z1, e3, -⟩ | ⟨rfl, -⟩
      · exact (endsIn_last e3).2.1
      · rfl
    have hemb : (if isIsolate first then directionOf first (lastRun runs1).dir else (lastRun runs1).dir) = if first.clz = cRLI then .rtl else .ltr := by
      rw [hdir]
      unfold isIsolate directionOf
      rcases hi.1 with k | k <;> rw [k] <;> rfl
    have happ : ∃ runs2, appendRuns chruns runs1 = some runs2 ∧ sh (W.map (·.1)) vis runs2 = sh (W.map (·.1)) vis runs1 ++ sh (W.map (·.1)) vis chruns ∧ ∃ d' w', EndsIn runs2 d' w' ∧ w'.l ≤ w'.r := by
      rcases hi.1 with k | k
      · have hne : ¬ first.clz = cRLI := by rw [k]; decide
        rcases e3 with ⟨z1, e3, e4, e5⟩ | ⟨-, e3⟩
        · rw [if_neg hne] at c2 c3
          exact append_ltr hst vis (c3 hne) c4 c5 e3 e4 e5
        · exact absurd e3 hne
      · rw [if_pos k] at c2
        refine ⟨runs1 ++ chruns, append_rtl c2 ?_, sh_append .., d2, w2, endsIn_append c4, c5⟩
        rcases e3 with ⟨z1, e3, -⟩ | ⟨rfl, -⟩
        · exact Or.inr ⟨z1, e3⟩
        · exact Or.inl rfl
    obtain ⟨runs2, f1, f2, d', w', f3, f4⟩ := happ
    obtain ⟨s', runs', g1, g2, g3, g4, g5, g6, g7, g8⟩ := ih z r _ runs2 h4 (fun c hc => hh c (List.mem_cons_of_mem _ hc)) (Or.inr ⟨d', w', f3, f4⟩) (by omega)
    refine ⟨s', runs', ?_, g2, g3, g4, g5, g6, g7, ?_⟩
    · rw [List.map_cons, hsame, flattenChildren.eq_def]
      simp only [hcut, e1, hemb, c1, f1]
      exact g1
    · rw [g8, f2, e2, c6, shownIn, List.dropLast_concat, List.getLast?_concat, Option.getD_some, ha, hz]
      rw [ha] at hv1
      simp [List.filter_append, List.filter_cons, hv1, hv2]

/-- The scrap with its isolates listed. -/
def listedIn (y : Scrap) : Scrap := { y with children := y.children.map (listedIsolate .ltr) }

theorem extend_none {s : Scrap} (h : s.len = 0) (runs : List VRun) (e : Dir) : extendRuns s runs e = some runs := by
  unfold extendRuns
  dsimp only
  rw [if_pos h]

/-- The runs of a text with isolates. -/
theorem outer_shown {W : List (Nat × Nat)} (hst : (W.map (·.1)).Pairwise (· < ·)) (vis : Nat → Bool) {len : Nat} : ∀ (ys : List Scrap) (a : Nat) (runs : List VRun),
    Tiles a len ys → (∀ y ∈ ys, OuterOk W len y ∧ MarksHidden vis y.children) → Linked (fun a b : Scrap => a.clz ≠ b.clz) ys →
    (runs = [] ∨ ∃ d z, EndsIn runs d z ∧ z.l ≤ z.r ∧ ∀ y ∈ ys.head?, y.clz = cR → d = .ltr) → (a = 0 → runs = []) →
    ∃ runs', (∀ rest, flattenLoop .ltr (ys.map listedIn ++ rest) runs = flattenLoop .ltr rest runs') ∧
      sh (W.map (·.1)) vis runs' = sh (W.map (·.1)) vis runs ++ (ys.flatMap (outerShown (W.map (·.1)))).filter vis := by
  intro ys
  induction ys with
  | nil => intro a runs _ _ _ _ _; exact ⟨runs, fun _ => rfl, by simp⟩
  | cons y ys ih =>
    intro a runs ht hy hk hr h0
    obtain ⟨rfl, ht⟩ := ht
    obtain ⟨⟨y1, -, y3⟩, y4⟩ := hy y (List.mem_cons_self ..)
    have hy' : ∀ y ∈ ys, OuterOk W len y ∧ MarksHidden vis y.children := fun b hb => hy b (List.mem_cons_of_mem _ hb)
    have hk' : Linked (fun a b : Scrap => a.clz ≠ b.clz) ys := by
      cases ys with
      | nil => trivial
      | cons b bs => exact hk.2
    have hhead : ∀ b ∈ ys.head?, y.clz ≠ b.clz := by
      intro b hb
      cases ys with
      | nil => cases hb
      | cons b' bs => cases hb; exact hk.1
    have hylen : y.clz ≠ cNULL → y.len ≠ 0 := by
      intro k
      unfold Scrap.len
      rw [if_neg k]
      omega
    have hr' : runs = [] ∨ ∃ d z, EndsIn runs d z ∧ z.l ≤ z.r := by
      rcases hr with hr | ⟨d, z, k1, k2, -⟩
      · exact Or.inl hr
      · exact Or.inr ⟨d, z, k1, k2⟩
    rcases y3 with ⟨yL, yA⟩ | ⟨yR, yC, -⟩
    · -- class L
      have hstep : ∃ runs1, (∀ rest, flattenLoop .ltr (listedIn y :: rest) runs = flattenLoop .ltr rest runs1) ∧
          sh (W.map (·.1)) vis runs1 = sh (W.map (·.1)) vis runs ++ (outerShown (W.map (·.1)) y).filter vis ∧ (y.r = len ∨ ∃ z, EndsIn runs1 .ltr z ∧ z.l ≤ z.r) := by
        obtain ⟨c, l, r, x, chs⟩ := y
        simp only at yL yA y1 y4 h0 ht
        subst yL
        obtain ⟨s', runs', g1, g2, g3, g4, g5, g6, g7, g8⟩ := children_shown hst vis chs l r x runs yA y4 hr' h0
        have hext : ∃ runs1, extendRuns s' runs' .ltr = some runs1 ∧ sh (W.map (·.1)) vis runs1 = sh (W.map (·.1)) vis runs' ++ (within s'.l r (W.map (·.1))).filter vis ∧
            (r = len ∨ ∃ z, EndsIn runs1 .ltr z ∧ z.l ≤ z.r) := by
          by_cases hl : s'.l < r
          · have hlen : s'.len ≠ 0 := by
              unfold Scrap.len
              rw [if_neg (by rw [g2]; decide)]
              omega
            obtain ⟨r1, e1, e2, ⟨z, e3, e4, -⟩, -⟩ := ext_shown hst vis (s := s') (runs := runs') (e := .ltr) (d := .ltr) (by unfold directionOf; rw [g2]; rfl) hlen (by omega) (by
              rcases g7 with hr | ⟨d, z, hz1, hz2⟩
              · exact Or.inl hr
              · exact Or.inr ⟨d, z, hz1, hz2, fun _ k => by cases k⟩)
            refine ⟨r1, e1, ?_, Or.inr ⟨z, e3, e4⟩⟩
            rw [e2, ← g4]
            rfl
          · have hl : s'.l = r := by omega
            refine ⟨runs', extend_none ?_ _ _, ?_, Or.inl (by omega)⟩
            · unfold Scrap.len
              rw [if_neg (by rw [g2]; decide)]
              omega
            · have : within s'.l r (W.map (·.1)) = [] := by
                unfold within
                rw [List.filter_eq_nil_iff]
                intro p _
                simp
                omega
              rw [this]
              simp
        obtain ⟨runs1, e1, e2, e3⟩ := hext
        refine ⟨runs1, ?_, ?_, e3⟩
        · intro rest
          unfold listedIn
          dsimp only
          rw [flattenLoop]
          by_cases hc : chs = []
          · subst hc
            rw [List.map_nil, flattenChildren] at g1
            cases g1
            rw [List.map_nil, if_pos rfl, e1]
          · rw [if_neg (by simpa using hc), g1]
            dsimp only
            rw [e1]
        · rw [e2, g8]
          rfl
      obtain ⟨runs1, e1, e2, e3⟩ := hstep
      have hnext : runs1 = [] ∨ (∃ d z, EndsIn runs1 d z ∧ z.l ≤ z.r ∧ ∀ y ∈ ys.head?, y.clz = cR → d = .ltr) ∨ ys = [] := by
        rcases e3 with e3 | ⟨z, e3, e4⟩
        · refine Or.inr (Or.inr ?_)
          cases ys with
          | nil => rfl
          | cons b bs =>
            have := (inW_tiles (W := []) List.Pairwise.nil _ _ _ ht.2 (fun m hm => (hy' m (List.mem_cons_of_mem _ hm)).1.1)).1
            have := (hy' b (List.mem_cons_self ..)).1.1
            have := ht.1
            omega
        · exact Or.inr (Or.inl ⟨.ltr, z, e3, e4, fun _ _ _ => rfl⟩)
      by_cases hys : ys = []
      · subst hys
        refine ⟨runs1, ?_, ?_⟩
        · intro rest
          exact e1 rest
        · rw [e2, List.flatMap_singleton]
      · obtain ⟨runs', f1, f2⟩ := ih y.r runs1 ht hy' hk' (by rcases hnext with k | k | k; exact Or.inl k; exact Or.inr k; exact absurd k hys) (by omega)
        refine ⟨runs', ?_, ?_⟩
        · intro rest
          rw [List.map_cons, List.cons_append, e1, f1]
        · rw [f2, e2, List.flatMap_cons, List.filter_append, List.append_assoc]
    · -- class R
      have hd : directionOf y .ltr = .rtl := by unfold directionOf; rw [yR]; rfl
      obtain ⟨runs1, e1, e2, ⟨z, e3, e4, -⟩, -⟩ := ext_shown hst vis (s := y) (runs := runs) (e := .ltr) hd (hylen (by rw [yR]; decide)) (by omega) (by
        rcases hr with hr | ⟨d, z, k1, k2, k3⟩
        · exact Or.inl hr
        · refine Or.inr ⟨d, z, k1, k2, fun k => ?_⟩
          rw [k3 y rfl yR] at k
          cases k)
      have hLi : listedIn y = y := by unfold listedIn; obtain ⟨c, l, r, x, chs⟩ := y; simp only at yC; subst yC; rfl
      obtain ⟨runs', f1, f2⟩ := ih y.r runs1 ht hy' hk' (Or.inr ⟨.rtl, z, e3, e4, fun b hb kb => absurd (yR.trans kb.symm) (hhead b hb)⟩) (by omega)
      refine ⟨runs', ?_, ?_⟩
      · intro rest
        rw [List.map_cons, List.cons_append, hLi]
        obtain ⟨c, l, r, x, chs⟩ := y
        simp only at yC
        subst yC
        rw [flattenLoop, if_pos rfl, e1]
        exact f1 rest
      · rw [f2, e2, List.flatMap_cons, List.filter_append, List.append_assoc]
        unfold outerShown seg
        rw [yR, if_neg (by decide), if_neg (by decide)]

end Uax.Bidi
