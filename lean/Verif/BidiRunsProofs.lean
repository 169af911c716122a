import Verif.BidiSplitProofs

/-
Lemmas about visual runs.
-/
namespace Uax.Bidi

/-- The text positions of a scrap. -/
def positions (s : Scrap) : List Nat := List.range' s.l (s.r - s.l)

/-- The text positions of a list of scraps, in the order of the list. -/
def allPositions (scraps : List Scrap) : List Nat := scraps.flatMap positions

/-- The text positions in the order of the runs, each with the direction of its run. -/
def visual (runs : List VRun) : List (Nat × Dir) :=
  runs.flatMap fun r => (allPositions r.scraps).map fun p => (p, r.dir)

/-- A run with what belongs to it. -/
structure VRun.Ok (r : VRun) : Prop where
  len : r.length = (allPositions r.scraps).length
  pos : 0 < r.length
  ord : ∀ s ∈ r.scraps, s.l ≤ s.r

/-- Neighbouring runs have different directions. -/
def Alternate : List VRun → Prop
  | [] => True
  | [_] => True
  | a :: b :: rest => a.dir ≠ b.dir ∧ Alternate (b :: rest)

theorem VRun.Ok.ne {r : VRun} (h : r.Ok) : r.scraps ≠ [] := by
  intro h0
  have h1 := h.len
  have h2 := h.pos
  rw [h0] at h1
  simp [allPositions] at h1
  omega

theorem range'_join (a b c : Nat) (h1 : a ≤ b) (h2 : b ≤ c) :
    List.range' a (c - a) = List.range' a (b - a) ++ List.range' b (c - b) := by
  have := List.range'_append_1 (s := a) (m := b - a) (n := c - b)
  rw [show a + (b - a) = b by omega, show b - a + (c - b) = c - a by omega] at this
  exact this.symm

theorem joinScraps_ok : ∀ (as bs : List Scrap), as ≠ [] → bs ≠ [] → (∀ s ∈ as, s.l ≤ s.r) → (∀ s ∈ bs, s.l ≤ s.r) →
    ∃ cs, joinScraps as bs = some cs ∧ allPositions cs = allPositions as ++ allPositions bs ∧ ∀ s ∈ cs, s.l ≤ s.r
  | [], _, h, _, _, _ => absurd rfl h
  | _ :: _, [], _, h, _, _ => absurd rfl h
  | [a], b :: more, _, _, ha, hb => by
    have h1 := ha a (by simp)
    have h2 := hb b (by simp)
    rw [joinScraps]
    refine ⟨_, rfl, ?_⟩
    by_cases h : a.r = b.l
    · rw [if_pos h]
      constructor
      · simp only [allPositions, List.flatMap_cons, List.flatMap_nil, List.append_nil, positions]
        rw [range'_join a.l a.r b.r h1 (by omega), h, List.append_assoc]
      · intro s hs
        rcases List.mem_cons.mp hs with rfl | hs
        · show a.l ≤ b.r
          omega
        · exact hb s (by simp [hs])
    · rw [if_neg h]
      constructor
      · simp [allPositions]
      · intro s hs
        rcases List.mem_cons.mp hs with rfl | hs
        · exact h1
        · exact hb s hs
  | a :: a' :: rest, b :: more, _, _, ha, hb => by
    obtain ⟨cs, he, hp, ho⟩ := joinScraps_ok (a' :: rest) (b :: more) (by simp) (by simp)
      (fun s hs => ha s (by simp at hs ⊢; right; exact hs)) hb
    refine ⟨a :: cs, by simp [joinScraps, he], ?_, ?_⟩
    · simp only [allPositions, List.flatMap_cons] at hp ⊢
      rw [hp]; simp
    · intro s hs
      rcases List.mem_cons.mp hs with rfl | hs
      · exact ha _ (by simp)
      · exact ho s hs

theorem concat_ok {r other : VRun} (h1 : r.Ok) (h2 : other.Ok) (hd : other.dir = r.dir) :
    ∃ c, r.concat other = some c ∧ c.Ok ∧ c.dir = r.dir ∧
      allPositions c.scraps = allPositions r.scraps ++ allPositions other.scraps := by
  obtain ⟨cs, he, hp, ho⟩ := joinScraps_ok r.scraps other.scraps h1.ne h2.ne h1.ord h2.ord
  have := h2.pos
  refine ⟨{ r with length := r.length + other.length, scraps := cs }, ?_, ⟨?_, ?_, ho⟩, rfl, hp⟩
  · unfold VRun.concat
    rw [if_neg (by omega), if_neg (by simpa using hd), he]
    rfl
  · show r.length + other.length = (allPositions cs).length
    rw [hp, List.length_append, h1.len, h2.len]
  · show 0 < r.length + other.length
    omega

theorem vrun_ok {s : Scrap} (e : Dir) (h : s.l ≤ s.r) (hl : s.len ≠ 0) : (vrun s e).Ok := by
  have hn : s.clz ≠ cNULL := by intro h; simp [Scrap.len, h] at hl
  refine ⟨?_, ?_, ?_⟩
  · simp [vrun, allPositions, positions, Scrap.len, hn]
  · show 0 < s.len
    omega
  · intro t ht
    simp [vrun] at ht
    subst ht
    exact h

theorem alternate_snoc : ∀ (runs : List VRun) (r : VRun), Alternate runs → (∀ l, runs.getLast? = some l → l.dir ≠ r.dir) →
    Alternate (runs ++ [r])
  | [], r, _, _ => trivial
  | [a], r, _, h => ⟨h a rfl, trivial⟩
  | a :: b :: rest, r, hA, h => by
    refine ⟨hA.1, alternate_snoc (b :: rest) r hA.2 fun l hl => h l ?_⟩
    rw [List.getLast?_cons_cons]
    exact hl

theorem alternate_last : ∀ (runs : List VRun) (l r : VRun), Alternate (runs ++ [l]) → l.dir = r.dir → Alternate (runs ++ [r])
  | [], _, _, _, _ => trivial
  | [_], _, _, h, hd => ⟨hd ▸ h.1, trivial⟩
  | _ :: b :: rest, l, r, h, hd => ⟨h.1, alternate_last (b :: rest) l r h.2 hd⟩

/-- The state of flatten. -/
structure RunsOk (runs : List VRun) : Prop where
  each : ∀ r ∈ runs, r.Ok
  alt : Alternate runs

theorem visual_append (a b : List VRun) : visual (a ++ b) = visual a ++ visual b := by simp [visual]

theorem extendRuns_ok (s : Scrap) (runs : List VRun) (e : Dir) (h : RunsOk runs) (hs : s.l ≤ s.r) (hn : s.clz ≠ cNULL) :
    ∃ runs', extendRuns s runs e = some runs' ∧ RunsOk runs' ∧
      visual runs' = visual runs ++ (positions s).map fun p => (p, directionOf s e) := by
  unfold extendRuns
  by_cases hl : s.len = 0
  · refine ⟨runs, by simp [hl], h, ?_⟩
    have : positions s = [] := by
      simp [Scrap.len, hn] at hl
      simp [positions, hl]
    simp [this]
  · have hv := vrun_ok e hs hl
    have hvis : visual [vrun s e] = (positions s).map fun p => (p, directionOf s e) := by
      simp [visual, vrun, allPositions]
    simp only
    rw [if_neg hl]
    rcases List.eq_nil_or_concat runs with rfl | ⟨init, last, rfl⟩
    · refine ⟨[vrun s e], by simp [lastRun], ⟨by simpa using hv, trivial⟩, ?_⟩
      rw [hvis]; simp [visual]
    · have hlast : lastRun (init.concat last) = last := by simp [lastRun]
      have hlo : last.Ok := h.each last (by simp)
      rw [hlast, if_neg (by have := hlo.pos; omega)]
      by_cases hd : last.dir = directionOf s e
      · rw [if_pos hd]
        obtain ⟨c, hc, hco, hcd, hcp⟩ := concat_ok hlo hv hd.symm
        refine ⟨init ++ [c], by rw [hc]; simp, ⟨?_, ?_⟩, ?_⟩
        · intro r hr
          rcases List.mem_append.mp hr with hr | hr
          · exact h.each r (by simp [hr])
          · simp at hr; subst hr; exact hco
        · have := h.alt
          rw [List.concat_eq_append] at this
          exact alternate_last init last c this hcd.symm
        · rw [List.concat_eq_append, visual_append, visual_append, List.append_assoc]
          congr 1
          have : visual [c] = visual [last] ++ visual [vrun s e] := by
            have hvd : (vrun s e).dir = directionOf s e := rfl
            simp only [visual, List.flatMap_cons, List.flatMap_nil, List.append_nil, hcp, List.map_append, hcd, hvd, hd]
          rw [this, hvis]
      · rw [if_neg hd]
        refine ⟨_, rfl, ⟨?_, ?_⟩, ?_⟩
        · intro r hr
          rcases List.mem_append.mp hr with hr | hr
          · exact h.each r hr
          · simp at hr; subst hr; exact hv
        · refine alternate_snoc _ _ h.alt fun l hl => ?_
          simp at hl
          subst hl
          exact hd
        · rw [visual_append, hvis]

/-- The direction of a class in surroundings with direction `e`: numbers are always from left to right. -/
def dirOfClass (c : Class) (e : Dir) : Dir :=
  if c ∈ [cL, cLRI, cEN, cAN] then .ltr else if c ∈ [cR, cRLI] then .rtl else e

theorem directionOf_eq (s : Scrap) (e : Dir) : directionOf s e = dirOfClass s.clz e := by
  unfold directionOf dirOfClass
  by_cases h1 : s.clz = cL ∨ s.clz = cLRI
  · rw [if_pos h1, if_pos (by rcases h1 with h | h <;> rw [h] <;> decide)]
  · rw [if_neg h1]
    by_cases h2 : s.clz = cR ∨ s.clz = cRLI
    · rw [if_pos h2, if_neg (by rcases h2 with h | h <;> rw [h] <;> decide), if_pos (by rcases h2 with h | h <;> rw [h] <;> decide)]
    · rw [if_neg h2]
      by_cases h3 : s.clz = cEN ∨ s.clz = cAN
      · rw [if_pos h3, if_pos (by rcases h3 with h | h <;> rw [h] <;> decide)]
      · rw [if_neg h3, if_neg (by simp only [List.mem_cons, List.not_mem_nil, or_false]; intro h; rcases h with h | h | h | h <;> simp_all),
          if_neg (by simp only [List.mem_cons, List.not_mem_nil, or_false]; exact h2)]

/-- The embedding direction of the scraps of a run. -/
def runEmbedding (scraps : List Scrap) (e : Dir) : Dir :=
  match scraps with
  | first :: _ => if isIsolate first then dirOfClass first.clz e else e
  | [] => e

theorem flattenLoop_flat (e : Dir) : ∀ (scraps : List Scrap) (runs : List VRun), RunsOk runs →
    (∀ s ∈ scraps, s.children = [] ∧ s.l ≤ s.r ∧ s.clz ≠ cNULL) →
    ∃ runs', flattenLoop e scraps runs = some runs' ∧ RunsOk runs' ∧
      visual runs' = visual runs ++ scraps.flatMap fun s => (positions s).map fun p => (p, directionOf s e)
  | [], runs, h, _ => ⟨runs, by rw [flattenLoop], h, by simp⟩
  | ⟨c, l, r, x, ch⟩ :: rest, runs, h, hs => by
    obtain ⟨h1, h2, h3⟩ := hs _ (List.mem_cons_self ..)
    simp only at h1
    subst h1
    obtain ⟨runs1, e1, k1, v1⟩ := extendRuns_ok ⟨c, l, r, x, []⟩ runs e h h2 h3
    obtain ⟨runs2, e2, k2, v2⟩ := flattenLoop_flat e rest runs1 k1 (fun s hm => hs s (by simp [hm]))
    refine ⟨runs2, ?_, k2, ?_⟩
    · rw [flattenLoop, if_pos rfl, e1]
      exact e2
    · rw [v2, v1]
      simp

theorem flatten_flat (scraps : List Scrap) (e : Dir) (hs : ∀ s ∈ scraps, s.children = [] ∧ s.l ≤ s.r ∧ s.clz ≠ cNULL) :
    ∃ runs, flatten scraps e = some runs ∧ RunsOk runs ∧
      visual runs = scraps.flatMap fun s => (positions s).map fun p => (p, dirOfClass s.clz (runEmbedding scraps e)) := by
  obtain ⟨runs, h1, h2, h3⟩ := flattenLoop_flat (runEmbedding scraps e) scraps [] ⟨by simp, trivial⟩ hs
  refine ⟨runs, ?_, h2, by simpa [visual, directionOf_eq] using h3⟩
  rw [← h1]
  unfold flatten runEmbedding
  cases scraps with
  | nil => rfl
  | cons a l => simp only [directionOf_eq]

/-! ### Nested runs -/

/-- Positions from `l` to `r`, all with one direction. -/
def spread (l r : Nat) (d : Dir) : List (Nat × Dir) := (List.range' l (r - l)).map fun p => (p, d)

mutual

/-- The positions of scraps and of runs nested in them with their directions. -/
def order (e : Dir) : List Scrap → List (Nat × Dir)
  | [] => []
  | ⟨c, l, r, _, ch⟩ :: rest => orderIn e c l r ch ++ order e rest

/-- The positions of one scrap from `l` to `r`, with runs nested in it. -/
def orderIn (e : Dir) (c : Class) (l r : Nat) : List (List Scrap) → List (Nat × Dir)
  | [] => spread l r (dirOfClass c e)
  | ch :: more =>
    spread l (startOf ch) (dirOfClass c e) ++ order (runEmbedding ch e) ch ++ orderIn e c (endOf ch) r more

end

/-- The direction of the last position, or else a given one. -/
def lastDir (d : Dir) (l : List (Nat × Dir)) : Dir := (l.getLast?.map (·.2)).getD d

mutual

/-- Nested runs are within their scraps, begin with LRI or RLI, and the position
before them (`prev` for the first) has another direction than their first one. -/
def Fits (e prev : Dir) : List Scrap → Prop
  | [] => True
  | ⟨c, l, r, _, ch⟩ :: rest => c ≠ cNULL ∧ FitsIn e prev c l r ch ∧ Fits e (lastDir prev (orderIn e c l r ch)) rest

/-- The same for the runs nested in one scrap. -/
def FitsIn (e prev : Dir) (c : Class) (l r : Nat) : List (List Scrap) → Prop
  | [] => l ≤ r
  | ch :: more =>
    l ≤ startOf ch ∧ (∃ f, ch.head? = some f ∧ (f.clz = cLRI ∨ f.clz = cRLI)) ∧
    (∀ x, (order (runEmbedding ch e) ch).head? = some x → x.2 ≠ lastDir prev (spread l (startOf ch) (dirOfClass c e))) ∧
    Fits (runEmbedding ch e) .ltr ch ∧
    FitsIn e (lastDir prev (spread l (startOf ch) (dirOfClass c e) ++ order (runEmbedding ch e) ch)) c (endOf ch) r more

end

theorem lastDir_append (d : Dir) (a b : List (Nat × Dir)) : lastDir d (a ++ b) = lastDir (lastDir d a) b := by
  unfold lastDir
  rw [List.getLast?_append]
  cases b.getLast? <;> simp

theorem VRun.Ok.visual_ne {r : VRun} (h : r.Ok) : (allPositions r.scraps) ≠ [] := by
  intro h0
  have h1 := h.len
  have h2 := h.pos
  rw [h0] at h1
  simp at h1
  omega

theorem RunsOk.last {runs : List VRun} (h : RunsOk runs) : lastDir .ltr (visual runs) = (lastRun runs).dir := by
  rcases List.eq_nil_or_concat runs with rfl | ⟨init, last, rfl⟩
  · rfl
  · have hl : last.Ok := h.each last (by simp)
    rw [List.concat_eq_append, visual_append, lastDir_append]
    have : visual [last] = (allPositions last.scraps).map fun p => (p, last.dir) := by simp [visual]
    rw [this]
    rcases List.eq_nil_or_concat (allPositions last.scraps) with h0 | ⟨i, p, h0⟩
    · exact absurd h0 hl.visual_ne
    · rw [h0]; simp [lastDir, lastRun]

theorem RunsOk.head {r : VRun} {runs : List VRun} (h : RunsOk (r :: runs)) :
    ∃ x, (visual (r :: runs)).head? = some x ∧ x.2 = r.dir := by
  have hl : r.Ok := h.each r (by simp)
  cases h0 : allPositions r.scraps with
  | nil => exact absurd h0 hl.visual_ne
  | cons p ps => exact ⟨(p, r.dir), by simp [visual, h0], rfl⟩

theorem alternate_append : ∀ (a : List VRun) (r : VRun) (b : List VRun), Alternate a → Alternate (r :: b) →
    (∀ l, a.getLast? = some l → l.dir ≠ r.dir) → Alternate (a ++ r :: b)
  | [], _, _, _, h, _ => h
  | [x], _, _, _, h, hd => ⟨hd x rfl, h⟩
  | x :: y :: rest, r, b, hA, h, hd => by
    refine ⟨hA.1, alternate_append (y :: rest) r b hA.2 h fun l hl => hd l ?_⟩
    rw [List.getLast?_cons_cons]
    exact hl

theorem appendRuns_ok (chruns runs : List VRun) (h1 : RunsOk chruns) (h2 : RunsOk runs)
    (hd : ∀ x, (visual chruns).head? = some x → x.2 ≠ (lastRun runs).dir) :
    ∃ out, appendRuns chruns runs = some out ∧ RunsOk out ∧ visual out = visual runs ++ visual chruns := by
  cases chruns with
  | nil => exact ⟨runs, rfl, h2, by simp [visual]⟩
  | cons c more =>
    obtain ⟨x, hx, hxd⟩ := h1.head
    have hne := hd x hx
    rw [hxd] at hne
    refine ⟨runs ++ c :: more, ?_, ⟨?_, ?_⟩, visual_append _ _⟩
    · unfold appendRuns
      simp only
      rw [if_neg hne]
    · intro r hr
      rcases List.mem_append.mp hr with hr | hr
      · exact h2.each r hr
      · exact h1.each r hr
    · refine alternate_append runs c more h2.alt h1.alt fun l hl => ?_
      have : lastRun runs = l := by simp [lastRun, hl]
      rw [this] at hne
      exact Ne.symm hne

theorem isolate_embedding {ch : List Scrap} (h : ∃ f, ch.head? = some f ∧ (f.clz = cLRI ∨ f.clz = cRLI)) (d e : Dir) :
    runEmbedding ch d = runEmbedding ch e := by
  obtain ⟨f, hf, h⟩ := h
  cases ch with
  | nil => cases hf
  | cons g l =>
    simp at hf; subst hf
    have : isIsolate g = true := by rcases h with h | h <;> simp [isIsolate, h, cLRI, cRLI, cFSI, cPDI]
    simp only [runEmbedding, this, if_true]
    rcases h with h | h <;> rw [h] <;> rfl

theorem FitsIn.le {e prev : Dir} {c : Class} : ∀ {chs : List (List Scrap)} {l r : Nat}, FitsIn e prev c l r chs →
    chs = [] → l ≤ r := by
  intro chs l r h h0
  subst h0
  rw [FitsIn] at h
  exact h

mutual

theorem flattenLoop_fits (e : Dir) : ∀ (scraps : List Scrap) (runs : List VRun), RunsOk runs →
    Fits e (lastRun runs).dir scraps →
    ∃ runs', flattenLoop e scraps runs = some runs' ∧ RunsOk runs' ∧ visual runs' = visual runs ++ order e scraps
  | [], runs, h, _ => ⟨runs, by rw [flattenLoop], h, by rw [order]; simp⟩
  | ⟨c, l, r, x, ch⟩ :: rest, runs, h, hf => by
    rw [Fits] at hf
    obtain ⟨hn, hin, hrest⟩ := hf
    obtain ⟨s, runs1, e1, k1, hs, hc, hv⟩ := flattenChildren_fits e ch c l r x runs h hn hin
    obtain ⟨runs2, e2, k2, v2⟩ := extendRuns_ok s runs1 e k1 hs (by rw [hc]; exact hn)
    have hv2 : visual runs2 = visual runs ++ orderIn e c l r ch := by
      rw [v2, ← hv, directionOf_eq, hc]; rfl
    have hld : (lastRun runs2).dir = lastDir (lastRun runs).dir (orderIn e c l r ch) := by
      rw [← k2.last, ← h.last, hv2, lastDir_append]
    obtain ⟨runs3, e3, k3, v3⟩ := flattenLoop_fits e rest runs2 k2 (by rw [hld]; exact hrest)
    refine ⟨runs3, ?_, k3, ?_⟩
    · rw [flattenLoop]
      by_cases h0 : ch = []
      · rw [if_pos h0]
        subst h0
        rw [flattenChildren] at e1
        obtain ⟨rfl, rfl⟩ := Prod.mk.inj (Option.some.inj e1)
        rw [e2]
        exact e3
      · rw [if_neg h0, e1]
        simp only
        rw [e2]
        exact e3
    · rw [v3, hv2, order, List.append_assoc]

theorem flattenChildren_fits (e : Dir) : ∀ (chs : List (List Scrap)) (c : Class) (l r : Nat) (x : DirContext) (runs : List VRun),
    RunsOk runs → c ≠ cNULL → FitsIn e (lastRun runs).dir c l r chs →
    ∃ s runs', flattenChildren e ⟨c, l, r, x, []⟩ chs runs = some (s, runs') ∧ RunsOk runs' ∧ s.l ≤ s.r ∧ s.clz = c ∧
      visual runs' ++ spread s.l s.r (dirOfClass c e) = visual runs ++ orderIn e c l r chs
  | [], c, l, r, x, runs, h, _, hf => by
    rw [FitsIn] at hf
    exact ⟨_, runs, by rw [flattenChildren], h, hf, rfl, by rw [orderIn]⟩
  | ch :: more, c, l, r, x, runs, h, hn, hf => by
    rw [FitsIn] at hf
    obtain ⟨h1, h2, h3, h4, h5⟩ := hf
    obtain ⟨f, hf1, hf2⟩ := h2
    have hcne : ch ≠ [] := by intro h0; subst h0; cases hf1
    have hcut : cutScrapAt ⟨c, l, r, x, []⟩ ch = some ({ l := l, r := startOf ch, clz := c }, { l := endOf ch, r := r, clz := c }) := by
      cases ch with
      | nil => exact absurd rfl hcne
      | cons a t =>
        unfold cutScrapAt startOf endOf
        cases hg : (a :: t).getLast? with
        | none => simp at hg
        | some z => rfl
    obtain ⟨runs1, e1, k1, v1⟩ := extendRuns_ok { l := l, r := startOf ch, clz := c } runs e h h1 hn
    have v1' : visual runs1 = visual runs ++ spread l (startOf ch) (dirOfClass c e) := by rw [v1, directionOf_eq]; rfl
    have hld : (lastRun runs1).dir = lastDir (lastRun runs).dir (spread l (startOf ch) (dirOfClass c e)) := by
      rw [← k1.last, ← h.last, v1', lastDir_append]
    obtain ⟨chruns, e2, k2, v2⟩ := flattenLoop_fits (runEmbedding ch e) ch [] ⟨by simp, trivial⟩ h4
    have v2' : visual chruns = order (runEmbedding ch e) ch := by rw [v2]; simp [visual]
    obtain ⟨runs2, e3, k3, v3⟩ := appendRuns_ok chruns runs1 k2 k1 (by rw [v2', hld]; exact h3)
    have hv3 : visual runs2 = visual runs ++ (spread l (startOf ch) (dirOfClass c e) ++ order (runEmbedding ch e) ch) := by
      rw [v3, v1', v2', List.append_assoc]
    have hld2 : (lastRun runs2).dir = lastDir (lastRun runs).dir
        (spread l (startOf ch) (dirOfClass c e) ++ order (runEmbedding ch e) ch) := by
      rw [← k3.last, ← h.last, hv3, lastDir_append]
    obtain ⟨s, runs3, e4, k4, hs, hsc, v4⟩ := flattenChildren_fits e more c (endOf ch) r {} runs2 k3 hn (by rw [hld2]; exact h5)
    refine ⟨s, runs3, ?_, k4, hs, hsc, ?_⟩
    · have hemb : (if isIsolate f then directionOf f (lastRun runs1).dir else (lastRun runs1).dir) = runEmbedding ch e := by
        rw [isolate_embedding ⟨f, hf1, hf2⟩ e (lastRun runs1).dir]
        cases ch with
        | nil => cases hf1
        | cons g t => simp at hf1; subst hf1; rw [directionOf_eq]; rfl
      cases ch with
      | nil => cases hf1
      | cons g t =>
        simp at hf1; subst hf1
        simp only [flattenChildren, hcut, e1, hemb, e2, e3, e4]
    · rw [v4, hv3, orderIn]
      simp only [List.append_assoc]

end

theorem flatten_fits (scraps : List Scrap) (e : Dir) (h : Fits (runEmbedding scraps e) .ltr scraps) :
    ∃ runs, flatten scraps e = some runs ∧ RunsOk runs ∧ visual runs = order (runEmbedding scraps e) scraps := by
  obtain ⟨runs, h1, h2, h3⟩ := flattenLoop_fits (runEmbedding scraps e) scraps [] ⟨by simp, trivial⟩ h
  refine ⟨runs, ?_, h2, by simpa [visual] using h3⟩
  rw [← h1]
  unfold flatten runEmbedding
  cases scraps with
  | nil => rfl
  | cons a l => simp only [directionOf_eq]

end Uax.Bidi
