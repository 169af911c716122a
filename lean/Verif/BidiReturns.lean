import Verif.BidiOrderProofs
import Verif.BidiVisual
import Verif.BidiNest

/-
Reordering returns for scraps whose nested runs begin with their initiators, if
there is text before the first of them.
-/
namespace Uax.Bidi
open Spec

/-- The run begins with the scrap of an initiator. -/
def Begun (run : List Scrap) : Prop := ∃ first rest, run = first :: rest ∧ (first.clz = cLRI ∨ first.clz = cRLI) ∧ first.len ≠ 0 ∧ first.children = []

/-- All runs which are nested in the scraps begin with initiators. -/
inductive Sane : List Scrap → Prop
  | mk (scraps : List Scrap) (h : ∀ s ∈ scraps, ∀ ch ∈ s.children, Begun ch) (hc : ∀ s ∈ scraps, ∀ ch ∈ s.children, Sane ch) : Sane scraps

theorem Sane.head {s : Scrap} {rest : List Scrap} (h : Sane (s :: rest)) : ∀ ch ∈ s.children, Begun ch ∧ Sane ch := by
  cases h with
  | mk _ h hc => exact fun ch hm => ⟨h s (by simp) ch hm, hc s (by simp) ch hm⟩

theorem Sane.tail {s : Scrap} {rest : List Scrap} (h : Sane (s :: rest)) : Sane rest := by
  cases h with
  | mk _ h hc => exact ⟨_, fun t ht => h t (by simp [ht]), fun t ht => hc t (by simp [ht])⟩

theorem Sane.cons {s : Scrap} {rest : List Scrap} (h : ∀ ch ∈ s.children, Begun ch ∧ Sane ch) (hr : Sane rest) : Sane (s :: rest) := by
  cases hr with
  | mk _ h1 h2 =>
    refine ⟨_, fun t ht => ?_, fun t ht => ?_⟩
    · rw [List.mem_cons] at ht
      rcases ht with rfl | ht
      · exact fun ch hm => (h ch hm).1
      · exact h1 t ht
    · rw [List.mem_cons] at ht
      rcases ht with rfl | ht
      · exact fun ch hm => (h ch hm).2
      · exact h2 t ht

theorem Sane.perm {a b : List Scrap} (h : Sane a) (hp : b.Perm a) : Sane b := by
  cases h with
  | mk _ h1 h2 => exact ⟨_, fun s hs => h1 s (hp.mem_iff.mp hs), fun s hs => h2 s (hp.mem_iff.mp hs)⟩

/-! ### Reordering -/

theorem reverse_first {f : Scrap} {rest : List Scrap} {i j : Nat} (hi : 1 ≤ i) (hj : 1 ≤ j) : ∃ rest', reverse (f :: rest) i j = f :: rest' := by
  rw [reverse_eq]
  obtain ⟨m, hm⟩ : ∃ m, min i j = m + 1 := ⟨min i j - 1, by omega⟩
  rw [hm, List.take_succ_cons]
  exact ⟨_, List.cons_append ..⟩

theorem reorderLoop_first (d : Dir) {f : Scrap} : ∀ (n pos st : Nat) (coll : Bool) (rest : List Scrap), 1 ≤ pos → (coll = true → 1 ≤ st) →
    ∃ rest', reorderLoop d n pos st coll (f :: rest) = f :: rest' := by
  intro n
  induction n with
  | zero => intro pos st coll rest _ _; exact ⟨rest, by rw [reorderLoop]⟩
  | succ n ih =>
    intro pos st coll rest hp hst
    rw [reorderLoop]
    cases hg : (f :: rest)[pos]? with
    | none => exact ⟨rest, rfl⟩
    | some s =>
      dsimp only
      cases coll with
      | false =>
        rw [if_pos rfl]
        by_cases hl : level s d > 0
        · rw [if_pos hl]
          dsimp only
          split
          · exact ⟨rest, rfl⟩
          · exact ih _ _ _ _ (by omega) (fun _ => hp)
        · rw [if_neg hl]
          dsimp only
          split
          · exact ⟨rest, rfl⟩
          · exact ih _ _ _ _ (by omega) (fun h => by cases h)
      | true =>
        have h1 := hst rfl
        rw [if_neg (show ¬ true = false by simp)]
        by_cases hl : level s d = 0
        · rw [if_pos hl]
          dsimp only
          obtain ⟨r', e⟩ := reverse_first (f := f) (rest := rest) h1 hp
          rw [e]
          split
          · exact ⟨r', rfl⟩
          · exact ih _ _ _ _ (by omega) (fun h => by cases h)
        · rw [if_neg hl]
          by_cases hn : n = 0
          · rw [if_pos hn]
            dsimp only
            obtain ⟨r', e⟩ := reverse_first (f := f) (rest := rest) (j := pos + 1) h1 (by omega)
            rw [e, if_pos (Or.inl hn)]
            exact ⟨r', rfl⟩
          · rw [if_neg hn]
            dsimp only
            split
            · exact ⟨rest, rfl⟩
            · exact ih _ _ _ _ (by omega) (fun _ => h1)

theorem reorderFlat_first (d : Dir) {f : Scrap} {rest : List Scrap} (h : f.clz = cLRI ∨ f.clz = cRLI) : ∃ rest', reorderFlat d (f :: rest) = f :: rest' := by
  have hl : level f d = 0 := by
    unfold level
    rcases h with h | h <;> rw [h] <;> simp [cLRI, cRLI, cEN, cAN, cL, cR]
  unfold reorderFlat
  rw [List.length_cons, reorderLoop, List.getElem?_cons_zero]
  dsimp only
  rw [if_pos rfl, if_neg (show ¬ level f d > 0 by omega)]
  dsimp only
  split
  · exact ⟨rest, rfl⟩
  · exact reorderLoop_first d _ _ _ _ _ (by omega) (fun h => by cases h)

theorem reverseWithout_first {f : Scrap} {rest : List Scrap} (h : f.clz = cLRI ∨ f.clz = cRLI) : ∃ rest', reverseWithoutIsolates (f :: rest) = f :: rest' := by
  have hf : isIsolate f = true := by
    unfold isIsolate
    rcases h with h | h <;> rw [h] <;> rfl
  cases rest with
  | nil =>
    have := (reverseWithoutIsolates_perm [f]).eq_singleton
    exact ⟨[], this⟩
  | cons g rest =>
    unfold reverseWithoutIsolates
    rw [List.head?_cons, List.getLast?_cons]
    dsimp only
    rw [if_pos hf]
    refine reverse_first (Nat.le_refl _) ?_
    split <;> simp

/-- What reordering does not change in the scraps. -/
def outside1 (s : Scrap) : Class × Nat × Nat × List (Option Scrap) := (s.clz, s.l, s.r, s.children.map (·.head?))

mutual

theorem reorderKids_sane (d : Dir) : ∀ (scraps : List Scrap), Sane scraps →
    ∃ out, reorderKids d scraps = some out ∧ Sane out ∧ out.map outside1 = scraps.map outside1
  | [], h => ⟨[], by rw [reorderKids], h, rfl⟩
  | ⟨c, l, r, x, ch⟩ :: rest, h => by
    obtain ⟨ch', h1, h2, h3⟩ := reorderChildren_sane d ch h.head
    obtain ⟨rest', g1, g2, g3⟩ := reorderKids_sane d rest h.tail
    rw [reorderKids, h1, g1]
    simp only
    split
    · exact ⟨_, rfl, .cons h2 h.tail, by simp [outside1, h3]⟩
    · exact ⟨_, rfl, .cons h2 g2, by simp [outside1, h3, g3]⟩

theorem reorderChildren_sane (d : Dir) : ∀ (chs : List (List Scrap)), (∀ ch ∈ chs, Begun ch ∧ Sane ch) →
    ∃ out, reorderChildren d chs = some out ∧ (∀ ch ∈ out, Begun ch ∧ Sane ch) ∧ out.map (·.head?) = chs.map (·.head?)
  | [], _ => ⟨[], by rw [reorderChildren], by simp, rfl⟩
  | ch :: rest, h => by
    obtain ⟨⟨f, fs, e, f1, f2, f3⟩, hs⟩ := h ch (by simp)
    obtain ⟨dir, h0⟩ := findEmbeddingDir_some (ch := ch) d (by
      intro g hg
      rw [e] at hg
      cases hg
      rcases f1 with f1 | f1 <;> rw [f1] <;> decide)
    obtain ⟨ch', h1, h2, h3⟩ := reorderKids_sane dir ch hs
    obtain ⟨rest', g1, g2, g3⟩ := reorderChildren_sane d rest (fun c hc => h c (by simp [hc]))
    have hf : ∃ fs', ch' = f :: fs' := by
      rw [e] at h1
      obtain ⟨c, l, r, x, k⟩ := f
      dsimp only at f3
      subst f3
      rw [reorderKids, reorderChildren] at h1
      dsimp only at h1
      split at h1
      · exact ⟨_, (Option.some.inj h1).symm⟩
      · split at h1
        · cases h1
        · exact ⟨_, (Option.some.inj h1).symm⟩
    obtain ⟨fs', e'⟩ := hf
    obtain ⟨fs2, e2⟩ := reorderFlat_first dir (rest := fs') f1
    have hflat : ∃ fs3, (if dir ≠ d then reverseWithoutIsolates (reorderFlat dir ch') else reorderFlat dir ch') = f :: fs3 := by
      rw [e', e2]
      split
      · exact reverseWithout_first f1
      · exact ⟨_, rfl⟩
    have hperm : (if dir ≠ d then reverseWithoutIsolates (reorderFlat dir ch') else reorderFlat dir ch').Perm ch' := by
      split
      · exact (reverseWithoutIsolates_perm _).trans (reorderLoop_perm _ _ _ _ _ _)
      · exact reorderLoop_perm _ _ _ _ _ _
    obtain ⟨fs3, e3⟩ := hflat
    rw [e3] at hperm
    refine ⟨(f :: fs3) :: rest', ?_, ?_, ?_⟩
    · rw [reorderChildren, h0]
      simp only
      rw [h1]
      simp only
      rw [g1]
      simp only
      rw [e3]
    · intro c hc
      rw [List.mem_cons] at hc
      rcases hc with rfl | hc
      · exact ⟨⟨f, fs3, rfl, f1, f2, f3⟩, h2.perm hperm⟩
      · exact g2 c hc
    · rw [List.map_cons, List.map_cons, g3, e]
      rfl

end

/-! ### Visual runs -/

/-- No run is empty. -/
def Full (runs : List VRun) : Prop := ∀ r ∈ runs, r.scraps ≠ []

/-- The first run has this direction, and is not empty. -/
def Starts (d : Dir) (runs : List VRun) : Prop := ∃ r rest, runs = r :: rest ∧ r.dir = d ∧ r.length ≠ 0

theorem Starts.append {d : Dir} {a : List VRun} (h : Starts d a) (b : List VRun) : Starts d (a ++ b) := by
  obtain ⟨r, rest, rfl, h⟩ := h
  exact ⟨r, rest ++ b, rfl, h⟩

/-- The last run is exchanged for one of the same direction. -/
theorem Starts.last {d : Dir} {a : List VRun} (h : Starts d a) {q : VRun} (hq : q.dir = (lastRun a).dir) (hl : (lastRun a).length ≤ q.length) : Starts d (a.dropLast ++ [q]) := by
  obtain ⟨r, rest, rfl, h1, h2⟩ := h
  cases rest with
  | nil =>
    refine ⟨q, [], rfl, hq.trans h1, ?_⟩
    have : (lastRun [r]).length = r.length := rfl
    omega
  | cons r' rest => exact ⟨r, _, by rw [List.dropLast_cons_cons, List.cons_append], h1, h2⟩

theorem joinScraps_full : ∀ (as bs : List Scrap), as ≠ [] → bs ≠ [] → ∃ cs, joinScraps as bs = some cs ∧ cs ≠ []
  | [], _, h, _ => absurd rfl h
  | [a], [], _, h => absurd rfl h
  | [a], b :: more, _, _ => by
    rw [joinScraps]
    split <;> exact ⟨_, rfl, by simp⟩
  | a :: a' :: rest, bs, _, hb => by
    obtain ⟨cs, e, -⟩ := joinScraps_full (a' :: rest) bs (by simp) hb
    cases bs with
    | nil => exact absurd rfl hb
    | cons b more =>
      rw [joinScraps, e]
      · exact ⟨_, rfl, by simp⟩
      · simp

theorem concat_full {r other : VRun} (h1 : r.scraps ≠ []) (h2 : other.scraps ≠ []) (hd : other.dir = r.dir) :
    ∃ q, r.concat other = some q ∧ q.scraps ≠ [] ∧ q.dir = r.dir ∧ r.length ≤ q.length := by
  unfold VRun.concat
  split
  · exact ⟨r, rfl, h1, rfl, Nat.le_refl _⟩
  · rw [if_neg (by simp [hd])]
    obtain ⟨cs, e, hc⟩ := joinScraps_full _ _ h1 h2
    rw [e]
    exact ⟨_, rfl, hc, rfl, Nat.le_add_right _ _⟩

theorem lastRun_mem {runs : List VRun} (h : runs ≠ []) : lastRun runs ∈ runs := by
  unfold lastRun
  rw [List.getLast?_eq_some_getLast h]
  exact List.getLast_mem h

theorem full_append {a b : List VRun} (ha : Full a) (hb : Full b) : Full (a ++ b) := by
  intro r hr
  rw [List.mem_append] at hr
  exact hr.elim (ha r) (hb r)

theorem full_init {a : List VRun} (ha : Full a) : Full a.dropLast := fun r hr => ha r (List.dropLast_subset a hr)

theorem extendRuns_full (s : Scrap) (runs : List VRun) (e : Dir) (h : Full runs) :
    ∃ out, extendRuns s runs e = some out ∧ Full out ∧ (runs ≠ [] ∨ s.len ≠ 0 → out ≠ []) ∧ (runs = [] → s.len = 0 → out = []) ∧
      (∀ d, Starts d runs → Starts d out) ∧ (runs = [] → s.len ≠ 0 → Starts (directionOf s e) out) := by
  have hv : Full [vrun s e] := by
    intro r hr
    rw [List.mem_singleton] at hr
    subst hr
    simp [vrun]
  unfold extendRuns
  dsimp only
  by_cases hs : s.len = 0
  · rw [if_pos hs]
    exact ⟨runs, rfl, h, fun h => h.elim id (fun h => absurd hs h), fun h _ => h, fun _ h => h, fun _ h => absurd hs h⟩
  · rw [if_neg hs]
    split
    · refine ⟨_, rfl, full_append h hv, fun _ => by simp, fun _ h => absurd h hs, fun d h => h.append _, ?_⟩
      rintro rfl -
      exact ⟨_, [], rfl, rfl, hs⟩
    · rename_i hl
      have hne : runs ≠ [] := by
        rintro rfl
        exact hl rfl
      split
      · rename_i hd
        obtain ⟨q, e1, e2, e3, e4⟩ := concat_full (h _ (lastRun_mem hne)) (hv (vrun s e) (by simp)) (show (vrun s e).dir = _ from hd.symm)
        refine ⟨_, by rw [e1]; rfl, full_append (full_init h) ?_, fun _ => by simp, fun _ h => absurd h hs, fun d h => h.last e3 e4, fun h => absurd h hne⟩
        intro r hr
        rw [List.mem_singleton] at hr
        rw [hr]
        exact e2
      · exact ⟨_, rfl, full_append h hv, fun _ => by simp, fun _ h => absurd h hs, fun d h => h.append _, fun h => absurd h hne⟩

theorem extendShared_full {as : List Scrap} (bs : List Scrap) (h : as ≠ []) : extendShared as bs ≠ [] := by
  unfold extendShared
  split
  · split
    · simp
    · exact h
  · exact h

theorem appendRuns_full (chruns runs : List VRun) (h1 : Full chruns) (h2 : Full runs) (hne : runs ≠ []) :
    ∃ out, appendRuns chruns runs = some out ∧ Full out ∧ out ≠ [] ∧ ∀ d, Starts d runs → Starts d out := by
  unfold appendRuns
  cases chruns with
  | nil => exact ⟨runs, rfl, h2, hne, fun _ h => h⟩
  | cons c more =>
    have hm : Full more := fun r hr => h1 r (List.mem_cons_of_mem _ hr)
    dsimp only
    split
    · rename_i hd
      obtain ⟨q, e1, -⟩ := concat_full (h2 _ (lastRun_mem hne)) (h1 c (by simp)) hd
      rw [e1]
      dsimp only
      rw [if_neg (fun h => hne h.1)]
      split
      · exact ⟨_, rfl, full_append h2 hm, by simp [hne], fun d h => h.append _⟩
      · refine ⟨_, rfl, full_append (full_append (full_init h2) ?_) hm, by simp, fun d h => Starts.append (Starts.last h (q := { lastRun runs with scraps := extendShared (lastRun runs).scraps c.scraps }) rfl (Nat.le_refl _)) _⟩
        intro r hr
        rw [List.mem_singleton] at hr
        subst hr
        exact extendShared_full _ (h2 _ (lastRun_mem hne))
    · exact ⟨_, rfl, full_append h2 h1, by simp, fun d h => h.append _⟩

/-- Without any run before, only runs from right to left can be appended. -/
theorem appendRuns_first {d : Dir} {chruns : List VRun} (h : Starts d chruns) : appendRuns chruns [] = if d = .rtl then some chruns else none := by
  obtain ⟨r, rest, rfl, h1, h2⟩ := h
  unfold appendRuns
  dsimp only
  have hl : (lastRun []).dir = .ltr := rfl
  rw [h1, hl]
  cases d with
  | ltr =>
    rw [if_pos rfl]
    have : (lastRun []).concat r = none := by
      unfold VRun.concat
      rw [if_neg h2, if_neg (by rw [h1, hl]; simp)]
      have : (lastRun []).scraps = [] := rfl
      rw [this, joinScraps]
      rfl
    rw [this]
    rfl
  | rtl =>
    rw [if_neg (by simp), if_pos rfl]
    rfl

/-- There is text before the first nested run, or it is from right to left. -/
def Led : List Scrap → Prop
  | [] => True
  | s :: rest => (s.children = [] → s.len ≠ 0 ∨ Led rest) ∧
    ∀ ch more f, s.children = ch :: more → ch.head? = some f → (s.clz ≠ cNULL ∧ s.l < f.l) ∨ f.clz = cRLI

mutual

theorem flattenLoop_full (e : Dir) : ∀ (scraps : List Scrap) (runs : List VRun), Sane scraps → Full runs → (runs ≠ [] ∨ Led scraps) →
    ∃ out, flattenLoop e scraps runs = some out ∧ Full out ∧ (runs ≠ [] → out ≠ []) ∧ ∀ d, Starts d runs → Starts d out
  | [], runs, _, h, _ => ⟨runs, by rw [flattenLoop], h, id, fun _ h => h⟩
  | ⟨c, l, r, x, []⟩ :: rest, runs, hs, h, hl => by
    obtain ⟨runs1, e1, h1, h2, h3, s1, -⟩ := extendRuns_full ⟨c, l, r, x, []⟩ runs e h
    obtain ⟨out, e2, h4, h5, s2⟩ := flattenLoop_full e rest runs1 hs.tail h1 (by
      rcases hl with hl | hl
      · exact Or.inl (h2 (Or.inl hl))
      · rcases hl.1 rfl with hl | hl
        · exact Or.inl (h2 (Or.inr hl))
        · exact Or.inr hl)
    refine ⟨out, ?_, h4, fun hr => h5 (h2 (Or.inl hr)), fun d h => s2 d (s1 d h)⟩
    rw [flattenLoop, if_pos rfl, e1]
    exact e2
  | ⟨c, l, r, x, ch :: more⟩ :: rest, runs, hs, h, hl => by
    obtain ⟨s', runs1, e1, h1, h2, s1⟩ := flattenChildren_full e (ch :: more) ⟨c, l, r, x, []⟩ runs hs.head h (by
      rcases hl with hl | hl
      · exact Or.inl hl
      · exact Or.inr (fun ch' more' f he hf => hl.2 ch' more' f he hf))
    obtain ⟨runs2, e2, h3, h4, -, s2, -⟩ := extendRuns_full s' runs1 e h1
    have hne := h4 (Or.inl (h2 (Or.inr (by simp))))
    obtain ⟨out, e3, h5, h6, s3⟩ := flattenLoop_full e rest runs2 hs.tail h3 (Or.inl hne)
    refine ⟨out, ?_, h5, fun _ => h6 hne, fun d h => s3 d (s2 d (s1 d h))⟩
    rw [flattenLoop, if_neg (by simp), e1]
    dsimp only
    rw [e2]
    exact e3

theorem flattenChildren_full (e : Dir) : ∀ (chs : List (List Scrap)) (s : Scrap) (runs : List VRun), (∀ ch ∈ chs, Begun ch ∧ Sane ch) → Full runs →
    (runs ≠ [] ∨ ∀ ch more f, chs = ch :: more → ch.head? = some f → (s.clz ≠ cNULL ∧ s.l < f.l) ∨ f.clz = cRLI) →
    ∃ s' out, flattenChildren e s chs runs = some (s', out) ∧ Full out ∧ (runs ≠ [] ∨ chs ≠ [] → out ≠ []) ∧ ∀ d, Starts d runs → Starts d out
  | [], s, runs, _, h, _ => ⟨s, runs, by rw [flattenChildren], h, fun h => h.elim id (fun h => absurd rfl h), fun _ h => h⟩
  | [] :: more, s, runs, hs, _, _ => by
    obtain ⟨f, fs, e, -⟩ := (hs [] (by simp)).1
    cases e
  | (f :: fs) :: more, s, runs, hs, h, hl => by
    obtain ⟨⟨f', fs', ef, f1, f2, f3⟩, hsane⟩ := hs (f :: fs) (by simp)
    cases ef
    obtain ⟨z, hz⟩ : ∃ z, (f :: fs).getLast? = some z := ⟨_, List.getLast?_eq_some_getLast (by simp)⟩
    have hcut : cutScrapAt s (f :: fs) = some ({ l := s.l, r := f.l, clz := s.clz }, { l := z.r, r := s.r, clz := s.clz }) := by
      unfold cutScrapAt
      rw [List.head?_cons, hz]
    obtain ⟨runs1, e1, h1, h2, h2', s1, -⟩ := extendRuns_full { l := s.l, r := f.l, clz := s.clz } runs e h
    have hne : runs1 ≠ [] ∨ f.clz = cRLI := by
      rcases hl with hl | hl
      · exact Or.inl (h2 (Or.inl hl))
      · refine (hl _ _ f rfl rfl).imp (fun hl => h2 (Or.inr ?_)) id
        unfold Scrap.len
        dsimp only
        rw [if_neg hl.1]
        omega
    generalize hemb : (if isIsolate f then directionOf f (lastRun runs1).dir else (lastRun runs1).dir) = emb
    -- the run
    obtain ⟨r0, e2, h3, h4, -, -, s2⟩ := extendRuns_full f [] emb (by simp [Full])
    obtain ⟨chruns, e3, h5, h6, s3⟩ := flattenLoop_full emb fs r0 hsane.tail h3 (Or.inl (h4 (Or.inr f2)))
    have e4 : flattenLoop emb (f :: fs) [] = some chruns := by
      obtain ⟨c, l, r, x, k⟩ := f
      dsimp only at f3
      subst f3
      rw [flattenLoop, if_pos rfl, e2]
      exact e3
    have happ : ∃ out, appendRuns chruns runs1 = some out ∧ Full out ∧ out ≠ [] ∧ ∀ d, Starts d runs1 → Starts d out := by
      by_cases hr : runs1 = []
      · rcases hne with hne | hne
        · exact absurd hr hne
        · have hst := s3 _ (s2 rfl f2)
          have hd : directionOf f emb = .rtl := by rw [directionOf_eq, hne]; rfl
          rw [hd] at hst
          have := appendRuns_first hst
          rw [if_pos rfl] at this
          rw [hr, this]
          refine ⟨chruns, rfl, h5, ?_, ?_⟩
          · obtain ⟨r, rest, e, -⟩ := hst
            rw [e]; simp
          · rintro d ⟨r, rest, e, -⟩
            cases e
      · exact appendRuns_full chruns runs1 h5 h1 hr
    obtain ⟨runs2, e5, h7, h8, s4⟩ := happ
    obtain ⟨s', out, e6, h9, h10, s5⟩ := flattenChildren_full e more { l := z.r, r := s.r, clz := s.clz } runs2 (fun c hc => hs c (by simp [hc])) h7 (Or.inl h8)
    refine ⟨s', out, ?_, h9, fun _ => h10 (Or.inl h8), fun d h => s5 d (s4 d (s1 d h))⟩
    simp only [flattenChildren, hcut, e1, hemb, e4, e5, e6]

end

/-- The first nested run is from left to right, and there is no text before it. -/
def Unled : List Scrap → Prop
  | [] => False
  | s :: rest => (s.children = [] ∧ s.len = 0 ∧ Unled rest) ∨
    ∃ ch more f, s.children = ch :: more ∧ ch.head? = some f ∧ f.l ≤ s.l ∧ f.clz = cLRI

theorem flattenLoop_unled (e : Dir) : ∀ (scraps : List Scrap), Sane scraps → Unled scraps → flattenLoop e scraps [] = none
  | [], _, h => h.elim
  | ⟨c, l, r, x, ch⟩ :: rest, hs, h => by
    rcases h with ⟨h1, h2, h3⟩ | ⟨k, more, f, h1, h2, h3, h4⟩
    · dsimp only at h1
      subst h1
      obtain ⟨runs1, e1, -, -, h4, -⟩ := extendRuns_full ⟨c, l, r, x, []⟩ [] e (by simp [Full])
      rw [flattenLoop, if_pos rfl, e1, h4 rfl h2]
      exact flattenLoop_unled e rest hs.tail h3
    · dsimp only at h1 h3
      subst h1
      obtain ⟨⟨f', fs, ef, f1, f2, f3⟩, hsane⟩ := hs.head k (by simp)
      subst ef
      cases h2
      have hcut : ∃ z, cutScrapAt ⟨c, l, r, x, []⟩ (f :: fs) = some ({ l := l, r := f.l, clz := c }, z) := by
        unfold cutScrapAt
        rw [List.head?_cons, List.getLast?_eq_some_getLast (by simp)]
        exact ⟨_, rfl⟩
      obtain ⟨z, hcut⟩ := hcut
      obtain ⟨runs1, e1, -, -, e1', -⟩ := extendRuns_full { l := l, r := f.l, clz := c } [] e (by simp [Full])
      have hr1 : runs1 = [] := by
        refine e1' rfl ?_
        unfold Scrap.len
        dsimp only
        split
        · rfl
        · omega
      subst hr1
      generalize hemb : (if isIsolate f then directionOf f (lastRun []).dir else (lastRun []).dir) = emb
      obtain ⟨r0, e2, h3', h4', -, -, s2⟩ := extendRuns_full f [] emb (by simp [Full])
      obtain ⟨chruns, e3, h5, h6, s3⟩ := flattenLoop_full emb fs r0 hsane.tail h3' (Or.inl (h4' (Or.inr f2)))
      have e4 : flattenLoop emb (f :: fs) [] = some chruns := by
        obtain ⟨c, l, r, x, k⟩ := f
        dsimp only at f3
        subst f3
        rw [flattenLoop, if_pos rfl, e2]
        exact e3
      have hst := s3 _ (s2 rfl f2)
      have hd : directionOf f emb = .ltr := by rw [directionOf_eq, h4]; rfl
      rw [hd] at hst
      have e5 := appendRuns_first hst
      rw [if_neg (by simp)] at e5
      rw [flattenLoop, if_neg (by simp)]
      simp only [flattenChildren, hcut, e1, hemb, e4, e5]

theorem led_outside : ∀ {a b : List Scrap}, a.map outside1 = b.map outside1 → Led b → Led a
  | [], [], _, _ => trivial
  | [], _ :: _, h, _ => by simp at h
  | _ :: _, [], h, _ => by simp at h
  | x :: a, y :: b, h, hl => by
    simp only [List.map_cons, List.cons.injEq, outside1, Prod.mk.injEq] at h
    obtain ⟨⟨h1, h2, h3, h4⟩, h5⟩ := h
    refine ⟨fun e => ?_, fun ch more f e hf => ?_⟩
    · rw [e] at h4
      have e' : y.children = [] := by
        cases hc : y.children with
        | nil => rfl
        | cons _ _ => rw [hc] at h4; cases h4
      rcases hl.1 e' with hl | hl
      · left
        unfold Scrap.len at hl ⊢
        rw [h1, h2, h3]
        exact hl
      · exact Or.inr (led_outside h5 hl)
    · rw [e] at h4
      cases hc : y.children with
      | nil => rw [hc] at h4; cases h4
      | cons ch' more' =>
        rw [hc] at h4
        simp only [List.map_cons, List.cons.injEq] at h4
        rw [h1, h2]
        exact hl.2 ch' more' f hc (h4.1 ▸ hf)

theorem unled_outside : ∀ {a b : List Scrap}, a.map outside1 = b.map outside1 → Unled b → Unled a
  | [], [], _, h => h
  | [], _ :: _, h, _ => by simp at h
  | _ :: _, [], h, _ => by simp at h
  | x :: a, y :: b, h, hl => by
    simp only [List.map_cons, List.cons.injEq, outside1, Prod.mk.injEq] at h
    obtain ⟨⟨h1, h2, h3, h4⟩, h5⟩ := h
    rcases hl with ⟨k1, k2, k3⟩ | ⟨ch, more, f, k1, k2, k3, k4⟩
    · left
      rw [k1] at h4
      refine ⟨?_, ?_, unled_outside h5 k3⟩
      · cases hc : x.children with
        | nil => rfl
        | cons _ _ => rw [hc] at h4; cases h4
      · unfold Scrap.len at k2 ⊢
        rw [h1, h2, h3]
        exact k2
    · right
      rw [k1] at h4
      cases hc : x.children with
      | nil => rw [hc] at h4; cases h4
      | cons ch' more' =>
        rw [hc] at h4
        simp only [List.map_cons, List.cons.injEq] at h4
        exact ⟨ch', more', f, rfl, h4.1 ▸ k2, by rw [h2]; exact k3, k4⟩

/-- A PDI at the end. -/
theorem differ_pdi {ss : List Scrap} (h : Linked Differ ss) (n : Nat) : Linked Differ (ss ++ [{ clz := cPDI, l := n, r := n }]) := by
  refine linked_append.mpr ⟨h, trivial, fun u _ v hv hd => ?_⟩
  rw [List.head?_cons, Option.mem_def, Option.some.injEq] at hv
  subst hv
  rcases hd.2 with k | k
  · exact absurd (hd.1.symm.trans k) (by decide : cPDI ≠ cL)
  · exact absurd (hd.1.symm.trans k) (by decide : cPDI ≠ cR)

/-- A list of scraps, without numbers, where no neighbours are both L or both R. -/
theorem reorderFlat_same (d : Dir) {ss : List Scrap} (hn : ∀ s ∈ ss, s.clz ≠ cNULL ∧ s.clz ≠ cEN ∧ s.clz ≠ cAN) (hl : Linked Differ ss) : reorderFlat d ss = ss := by
  rw [reorderFlat_eq _ _ (fun s hs => (hn s hs).1), flip_single]
  have : ∀ l : List Scrap, (∀ s ∈ l, s.clz ≠ cNULL ∧ s.clz ≠ cEN ∧ s.clz ≠ cAN) → Linked Differ l →
      Linked (fun a b : Scrap => ¬ (decide (0 < level a d) = true ∧ decide (0 < level b d) = true)) l := by
    intro l
    induction l with
    | nil => intros; trivial
    | cons a l ih =>
      cases l with
      | nil => intros; trivial
      | cons b l =>
        intro hc hl
        refine ⟨?_, ih (fun s hs => hc s (List.mem_cons_of_mem _ hs)) hl.2⟩
        obtain ⟨-, a1, a2⟩ := hc a (by simp)
        obtain ⟨-, b1, b2⟩ := hc b (by simp)
        rintro ⟨k1, k2⟩
        simp only [decide_eq_true_eq] at k1 k2
        unfold level at k1 k2
        rw [if_neg (by simp [a1, a2])] at k1
        rw [if_neg (by simp [b1, b2])] at k2
        split at k1
        · split at k2
          · rename_i h1 h2
            refine hl.1 ?_
            cases d with
            | ltr =>
              simp at h1 h2
              exact ⟨h1.trans h2.symm, Or.inr h1⟩
            | rtl =>
              simp at h1 h2
              exact ⟨h1.trans h2.symm, Or.inl h1⟩
          · omega
        · omega
  exact this ss hn hl

/-- Reordering leaves the scraps of the paragraph in their order. -/
theorem reorder_kept {rl : Levels} (hs : Sane rl.scraps)
    (hn : ∀ s ∈ rl.scraps, s.clz ≠ cNULL ∧ s.clz ≠ cEN ∧ s.clz ≠ cAN) (hd : Linked Differ rl.scraps) :
    ∃ out e, rl.reorder = flattenLoop e out [] ∧ Sane out ∧ out.map outside1 = rl.scraps.map outside1 := by
  obtain ⟨d, ss⟩ := rl
  dsimp only at hs hn hd
  unfold Levels.reorder
  dsimp only
  cases ss with
  | nil => exact ⟨[], .ltr, by rw [flattenLoop], hs, rfl⟩
  | cons a t =>
    obtain ⟨out, e1, h1, h2⟩ := reorderKids_sane d (a :: t) hs
    have hcl : out.map (·.clz) = (a :: t).map (·.clz) := by
      have := congrArg (List.map (·.1)) h2
      simpa [List.map_map, Function.comp_def, outside1] using this
    have hn' : ∀ s ∈ out, s.clz ≠ cNULL ∧ s.clz ≠ cEN ∧ s.clz ≠ cAN := by
      intro s hs
      have : s.clz ∈ out.map (·.clz) := List.mem_map_of_mem hs
      rw [hcl, List.mem_map] at this
      obtain ⟨x, hx, e⟩ := this
      rw [← e]
      exact hn x hx
    have hd' : Linked Differ out := by
      have key : ∀ (x y : List Scrap), x.map (·.clz) = y.map (·.clz) → Linked Differ y → Linked Differ x := by
        intro x
        induction x with
        | nil => intros; trivial
        | cons u x ih =>
          intro y e hy
          cases y with
          | nil => simp at e
          | cons v y =>
            simp only [List.map_cons, List.cons.injEq] at e
            cases x with
            | nil => trivial
            | cons u' x =>
              cases y with
              | nil => simp at e
              | cons v' y =>
                have e2 := e.2
                simp only [List.map_cons, List.cons.injEq] at e2
                refine ⟨?_, ih _ e.2 hy.2⟩
                have := hy.1
                unfold Differ at this ⊢
                rw [e.1, e2.1]
                exact this
      exact key _ _ hcl hd
    have e2 : reorder d (a :: t) = some out := by
      rw [reorder, e1, Option.map_some, reorderFlat_same d hn' hd']
    rw [e2]
    exact ⟨out, _, rfl, h1, h2⟩

theorem reorder_returns {rl : Levels} (hs : Sane rl.scraps) (hl : Led rl.scraps)
    (hn : ∀ s ∈ rl.scraps, s.clz ≠ cNULL ∧ s.clz ≠ cEN ∧ s.clz ≠ cAN) (hd : Linked Differ rl.scraps) :
    ∃ runs, rl.reorder = some runs := by
  obtain ⟨out, e, h1, h2, h3⟩ := reorder_kept hs hn hd
  obtain ⟨runs, e3, -⟩ := flattenLoop_full e out [] h2 (by simp [Full]) (Or.inr (led_outside h3 hl))
  exact ⟨runs, h1.trans e3⟩

theorem reorder_panics {rl : Levels} (hs : Sane rl.scraps) (hl : Unled rl.scraps)
    (hn : ∀ s ∈ rl.scraps, s.clz ≠ cNULL ∧ s.clz ≠ cEN ∧ s.clz ≠ cAN) (hd : Linked Differ rl.scraps) : rl.reorder = none := by
  obtain ⟨out, e, h1, h2, h3⟩ := reorder_kept hs hn hd
  exact h1.trans (flattenLoop_unled e out h2 (unled_outside h3 hl))

/-! ### Texts -/

theorem sane_runs {T : Tables} {o : Options} : ∀ (i : Isolates) (nested : Bool) (pos : Nat) (runs : List (List Scrap)), i.Good T o nested → i.RunsFor T o pos runs →
    ∀ run ∈ runs, Begun run ∧ Sane run := by
  intro i
  induction i with
  | none =>
    intro nested pos runs _ h run hr
    rw [show runs = [] from h] at hr
    cases hr
  | more op lead inner cl aft rest ihin ihrest =>
    intro nested pos runs hg h
    obtain ⟨run, runs', rfl, -, -, ⟨first, mid, last, e, ⟨f1, f2, f3⟩, -⟩, -, -, hi, hr⟩ := h
    obtain ⟨g1, -, -, -, -, -, -, -, g2, g3⟩ := hg
    intro r hr'
    rw [List.mem_cons] at hr'
    rcases hr' with rfl | hr'
    · have hin := ihin true _ _ g2 hi
      refine ⟨⟨first, _, e, by rw [f1]; exact g1, ?_, f3⟩, ?_⟩
      · unfold Scrap.len
        have := utf8_pos op
        rw [if_neg (by rw [f1]; rcases g1 with g1 | g1 <;> rw [g1] <;> decide)]
        omega
      · exact ⟨_, fun s hs ch hc => (hin ch (List.mem_flatMap.mpr ⟨s, hs, hc⟩)).1, fun s hs ch hc => (hin ch (List.mem_flatMap.mpr ⟨s, hs, hc⟩)).2⟩
    · exact ihrest nested _ _ g3 hr r hr'

/-- The first nested run begins here. -/
theorem first_run {T : Tables} {o : Options} {i : Isolates} {pos : Nat} {runs : List (List Scrap)} (h : i.RunsFor T o pos runs) :
    ∀ ch more f, runs = ch :: more → ch.head? = some f → f.l = pos ∧ some f.clz = i.opening.map (charClass T o) := by
  intro ch more f e hf
  cases i with
  | none => rw [show runs = [] from h] at e; cases e
  | more op lead inner cl aft rest =>
    obtain ⟨run, runs', rfl, ht, -, ⟨first, mid, last, e', ⟨f1, -⟩, -⟩, -⟩ := h
    cases e
    subst e'
    cases hf
    exact ⟨ht.1, by rw [f1]; rfl⟩

theorem led_tiles {pos : Nat} {P : Prop} (hp : 0 < pos ∨ P) : ∀ (ss : List Scrap) (r : Nat), Tiles 0 r ss → (∀ s ∈ ss, s.clz ≠ cNULL) →
    (∀ ch more f, nestedRuns ss = ch :: more → ch.head? = some f → f.l = pos ∧ (P → f.clz = cRLI)) → Led ss
  | [], _, _, _, _ => trivial
  | s :: rest, r, ht, hn, hf => by
    refine ⟨fun e => ?_, fun ch more f e hh => ?_⟩
    · by_cases hl : s.len = 0
      · right
        have h0 : s.r = 0 := by
          unfold Scrap.len at hl
          rw [if_neg (hn s (by simp)), ht.1] at hl
          omega
        have ht' := ht.2
        rw [h0] at ht'
        refine led_tiles hp rest r ht' (fun x hx => hn x (by simp [hx])) fun ch more f e' => hf ch more f ?_
        rw [← e']
        show (s :: rest).flatMap (·.children) = rest.flatMap (·.children)
        rw [List.flatMap_cons, e]
        rfl
      · exact Or.inl hl
    · obtain ⟨h1, h2⟩ := hf ch (more ++ nestedRuns rest) f (by
        show (s :: rest).flatMap (·.children) = _
        rw [List.flatMap_cons, e]
        rfl) hh
      rcases hp with hp | hp
      · left
        exact ⟨hn s (by simp), by rw [ht.1, h1]; exact hp⟩
      · exact Or.inr (h2 hp)

theorem unled_tiles : ∀ (ss : List Scrap) (r : Nat), Tiles 0 r ss → (∀ s ∈ ss, s.clz ≠ cNULL ∧ s.l ≤ s.r ∧ Within s) →
    (∃ ch more f, nestedRuns ss = ch :: more ∧ ch.head? = some f ∧ f.l = 0 ∧ f.clz = cLRI) → Unled ss
  | [], _, _, _, ⟨_, _, _, h, _⟩ => by cases h
  | s :: rest, r, ht, hn, ⟨ch, more, f, h1, h2, h3, h4⟩ => by
    have e : nestedRuns (s :: rest) = s.children ++ nestedRuns rest := rfl
    rw [e] at h1
    cases hc : s.children with
    | cons k ks =>
      rw [hc] at h1
      cases h1
      exact Or.inr ⟨_, _, f, hc, h2, by omega, h4⟩
    | nil =>
      rw [hc, List.nil_append] at h1
      have hr0 : s.r = 0 := by
        -- a later scrap contains the run which begins at 0
        have hm : ch ∈ nestedRuns rest := by rw [h1]; simp
        obtain ⟨x, hx, hx'⟩ := List.mem_flatMap.mp hm
        obtain ⟨l', r', w1, -, w3⟩ := (hn x (by simp [hx])).2.2 ch hx'
        have hl' : l' = 0 := by
          cases ch with
          | nil => cases h2
          | cons g t => cases h2; rw [← w3.1]; exact h3
        have hle : ∀ (l : List Scrap) (a b : Nat), Tiles a b l → (∀ s ∈ l, s.l ≤ s.r) → ∀ x ∈ l, a ≤ x.l := by
          intro l
          induction l with
          | nil => intro a b _ _ x hx; cases hx
          | cons y l ih =>
            intro a b ht hl x hx
            rw [List.mem_cons] at hx
            rcases hx with rfl | hx
            · exact Nat.le_of_eq ht.1.symm
            · have := ih _ _ ht.2 (fun z hz => hl z (by simp [hz])) x hx
              have h5 := hl y (by simp)
              rw [ht.1] at h5
              omega
        have := hle rest s.r r ht.2 (fun z hz => (hn z (by simp [hz])).2.1) x hx
        omega
      refine Or.inl ⟨hc, ?_, unled_tiles rest r (by rw [← hr0]; exact ht.2) (fun x hx => hn x (by simp [hx])) ⟨ch, more, f, h1, h2, h3, h4⟩⟩
      unfold Scrap.len
      rw [hr0]
      simp

end Uax.Bidi
