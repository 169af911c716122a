import Verif.BidiIso
import Verif.BidiUnlike

/-
Both passes together for a text with isolates.
-/
namespace Uax.Bidi

open Spec (Tiles)

theorem wholeB {σ : Type} {E : Env σ} {o : Options} {env env' : σ} {ss : List Scrap} {P : List Scrap → List Scrap → Prop} {J : List Scrap → List Scrap → σ → Prop}
    (hf : Feeds E env ss env') (hP : InvI true P) (hR : Far 0 ss) (hQ : Inv2B E J) (h1 : P [] ss)
    (h2 : ∀ ys, P ys [] → J [] (initialOuterScrap o true :: ys) env') (hne : ∀ {pre env}, J pre [] env → pre ≠ []) :
    ∃ N p, resolveIn E o env N = .returns (levelsOf o p.stack, p) ∧ J p.stack [] p.env := by
  obtain ⟨ys, hr, hys⟩ := pass1_iso_total hP (initialOuterScrap o true) _ [] ss (Nat.le_refl _) h1
  -- reading three scraps
  obtain ⟨k, p1, r1, r2, r3, r4, r5, r6⟩ := read_three (E := E) (env' := env') (rest := ss)
    (p := { stack := [initialOuterScrap o true], sp := 1, eof := false, depth := 1, env := env }) (Or.inl ⟨rfl, hf⟩) rfl
  have hroom := hR.ahead
  have hal := ahead_le ss
  -- pass 1
  obtain ⟨N1, p2, a1, a2, a3, a4, a5⟩ := pass1_red (E := E) (env' := env') hr p1 (ss.drop 3) none (by
      rw [r2]; show [_] ++ ss.take 3 ++ ss.drop 3 = _; rw [List.append_assoc, List.take_append_drop]; rfl)
    r4 (Nat.le_refl _) (by rw [r2]; simp) r3 (by rw [r5]; exact Nat.le_refl _) (by simp)
    (by
      intro s hs
      simp only [List.head?_cons, Option.mem_def, Option.some.injEq] at hs
      subst hs
      exact (initial_fine False o).1.2.2.1)
    (by simpa using hR)
    (by
      show ahead ss ≤ _
      rw [List.length_drop]; omega)
    (by
      intro he
      show ahead ss = 0
      have := r6 he
      omega)
  -- pass 2
  obtain ⟨N2, p3, b1, b2, b3, b5, b6⟩ := pass2B_total hQ _ [] (initialOuterScrap o true :: ys) { p2 with sp := 0 } (Nat.le_refl _)
    (by show J _ _ p2.env; rw [a4]; exact h2 ys hys) (by show p2.stack = _; rw [a2]; rfl) rfl
  have hd : p3.depth = 1 := by rw [b6]; show p2.depth = 1; rw [a5, r5]
  refine ⟨max N1 N2 + 1, { p3 with depth := p3.depth - 1 }, ?_, b2⟩
  have e1 := Run.le_returns (pass1_more E (Nat.le_max_left N1 N2) p1 false none) a1
  have e2 := Run.le_returns (pass2_more E (Nat.le_max_right N1 N2) { p2 with sp := 0 }) b1
  unfold resolveIn
  dsimp only
  rw [parseIRS]
  dsimp only
  rw [r1, Run.andThen_returns]
  dsimp only
  have hd2 : p2.depth = 1 := by rw [a5, r5]
  rw [if_pos rfl, e1, Run.andThen_returns]
  dsimp only
  rw [if_pos (Or.inr hd2), e2, Run.andThen_returns]
  rw [if_neg (by simp), Run.andThen_returns]
  dsimp only
  rw [List.drop_zero]
  cases hl : p3.stack.getLast? with
  | none => exact absurd (List.getLast?_eq_none_iff.mp hl) (hne b2)
  | some last => simp only [levelsOf, hl, Option.getD_some]

theorem wholeI {σ : Type} {E : Env σ} {o : Options} {env env' : σ} {ss : List Scrap} {P Q : List Scrap → List Scrap → Prop} {G : σ → Prop}
    (hf : Feeds E env ss env') (hP : InvI true P) (hR : Far 0 ss) (hQ : Inv2 E Q G) (h1 : P [] ss)
    (h2 : ∀ ys, P ys [] → Q [] (initialOuterScrap o true :: ys)) (hne : ∀ {pre}, Q pre [] → pre ≠ []) (hG : G env') :
    ∃ N p, resolveIn E o env N = .returns (levelsOf o p.stack, p) ∧ Q p.stack [] ∧ G p.env := by
  obtain ⟨N, p, e1, e2⟩ := wholeB (o := o) hf hP hR hQ.joint.weak h1 (fun ys hy => ⟨h2 ys hy, hG⟩) (fun h => hne h.1)
  exact ⟨N, p, e1, e2⟩

/-! ### The outline of a text with isolates -/

/-- The outline of a list of scraps has one scrap for each isolate. -/
inductive Outline : List Scrap → List Scrap → Prop
  | nil : Outline [] []
  | plain {s : Scrap} {t o : List Scrap} (hs : isIsolate s = false) (h : Outline t o) : Outline (s :: t) (s :: o)
  | iso {b : Bool} {a z : Scrap} {body t ys zs o : List Scrap} (hk : ∀ x ∈ a :: (body ++ [z]), x.clz < 28) (ha : a.clz = cLRI ∨ a.clz = cRLI ∨ a.clz = cFSI)
      (hz : z.clz = cPDI) (hb : body ≠ []) (he : Even body) (h1 : Red b (a :: body) 1 (a :: ys)) (hi : ∀ x ∈ a :: ys, Inner x) (h2 : Settles (a :: ys) zs)
      (h : Outline t o) : Outline (a :: (body ++ z :: t)) (isoScrap z zs :: o)

theorem outline_append : ∀ {l post o : List Scrap}, (∀ x ∈ l, isIsolate x = false) → Outline (l ++ post) o →
    ∃ o', o = l ++ o' ∧ Outline post o' := by
  intro l
  induction l with
  | nil => intro post o _ h; exact ⟨o, rfl, h⟩
  | cons x l ih =>
    intro post o hl h
    rw [List.cons_append] at h
    generalize hL : l ++ post = L at h
    cases h with
    | plain hs h =>
      subst hL
      obtain ⟨o', e, h'⟩ := ih (fun y hy => hl y (by simp [hy])) h
      exact ⟨o', by rw [e]; rfl, h'⟩
    | iso hk ha _ _ _ _ _ _ _ =>
      have := hl x (by simp)
      unfold isIsolate at this
      rcases ha with ha | ha | ha <;> rw [ha] at this <;> cases this

/-- A class as it is in the outline. -/
def Swapped (b b' : Option Class) : Prop := b = b' ∨ ((b = some cLRI ∨ b = some cRLI ∨ b = some cFSI) ∧ b' = some cNI)

theorem outline_head {t o : List Scrap} (h : Outline t o) :
    Swapped (t[0]?.map (·.clz)) (o[0]?.map (·.clz)) ∧
    (t[0]?.map (·.clz) = o[0]?.map (·.clz) → Swapped (t[1]?.map (·.clz)) (o[1]?.map (·.clz))) := by
  have hh : ∀ {t o : List Scrap}, Outline t o → Swapped (t[0]?.map (·.clz)) (o[0]?.map (·.clz)) := by
    intro t o h
    cases h with
    | nil => exact Or.inl rfl
    | plain hs h => exact Or.inl rfl
    | iso hk ha _ _ _ _ _ _ _ =>
      right
      exact ⟨by simpa using ha, rfl⟩
  refine ⟨hh h, ?_⟩
  cases h with
  | nil => intro _; exact Or.inl rfl
  | plain hs h => intro _; simpa using hh h
  | iso hk ha _ _ _ _ _ _ _ =>
    intro e
    simp only [List.getElem?_cons_zero, Option.map_some, Option.some.injEq] at e
    rw [e] at ha
    exact absurd ha (show ¬ (cNI = cLRI ∨ cNI = cRLI ∨ cNI = cFSI) by decide)

theorem pick1_swap {a : Class} {b c b' c' : Option Class} {rule : Rule} (h : pick1 a b c = some rule) (hne : rule ≠ .W7) (hb : Swapped b b')
    (hc : b = b' → Swapped c c') : pick1 a b' c' = some rule := by
  have hc1 : ∀ x : Class, x = cEN ∨ x = cAN → b = b' → c = some x → c' = some x := by
    intro x hx e h
    rcases hc e with h' | ⟨h', -⟩
    · rw [← h', h]
    · rw [h] at h'
      simp only [Option.some.injEq] at h'
      rcases hx with rfl | rfl <;> exact absurd h' (by decide)
  rcases hb with rfl | ⟨hb, rfl⟩
  · have hc2 := hc1 cEN (Or.inl rfl) rfl
    have hc3 := hc1 cAN (Or.inr rfl) rfl
    unfold pick1 at h ⊢
    by_cases h1 : a = cEN
    · rw [if_pos h1] at h ⊢
      by_cases h2 : b = some cES ∧ c = some cEN
      · rw [if_pos h2] at h
        rw [if_pos ⟨h2.1, hc2 h2.2⟩, h]
      · rw [if_neg h2] at h
        by_cases h3 : b = some cCS ∧ c = some cEN
        · rw [if_pos h3] at h
          rw [if_neg (by rw [h3.1]; simp [cES, cCS]), if_pos ⟨h3.1, hc2 h3.2⟩, h]
        · rw [if_neg h3] at h
          by_cases h4 : b = some cET
          · rw [if_pos h4] at h
            rw [if_neg (by rw [h4]; simp [cES, cET]), if_neg (by rw [h4]; simp [cCS, cET]), if_pos h4, h]
          · rw [if_neg h4] at h
            injection h with h
            exact absurd h.symm hne
    · rw [if_neg h1] at h ⊢
      by_cases h2 : a = cAN
      · rw [if_pos h2] at h ⊢
        by_cases h3 : b = some cCS ∧ c = some cAN
        · rw [if_pos h3] at h
          rw [if_pos ⟨h3.1, hc3 h3.2⟩, h]
        · rw [if_neg h3] at h; cases h
      · rw [if_neg h2] at h ⊢
        exact h
  · have hb1 : b ≠ some cES ∧ b ≠ some cCS ∧ b ≠ some cET ∧ b ≠ some cEN ∧ b ≠ some cNI := by
      rcases hb with rfl | rfl | rfl <;> decide
    unfold pick1 at h ⊢
    simp only [hb1.1, hb1.2.1, hb1.2.2.1, hb1.2.2.2.1, hb1.2.2.2.2, false_and, if_false] at h
    have e1 : (some cNI = some cES) = False := by decide
    have e2 : (some cNI = some cCS) = False := by decide
    have e3 : (some cNI = some cET) = False := by decide
    have e4 : (some cNI = some cEN) = False := by decide
    simp only [e1, e2, e3, e4, false_and, if_false]
    repeat' split at h
    all_goals first
      | (cases h; done)
      | (injection h with h; exact absurd h.symm hne)
      | (rw [← h]; rename_i hh; subst hh; rfl)

/-- What the steps of pass 1 preserve in the outline of a text with isolates. The parser goes on when
no rule applies to the text, where isolates are not one scrap yet. -/
structure InvO (P : List Scrap → List Scrap → Prop) : Prop where
  known : ∀ {pre suf}, P pre suf → ∀ s ∈ suf, s.clz < 28
  closed : ∀ {pre s t}, P pre (s :: t) → isIsolate s = false
  number : ∀ {pre s t}, P pre (s :: t) → s.clz = cEN → s.ctx.context = cL
  walk : ∀ {pre s o t}, P pre (s :: o) → Outline t o → pick1 s.clz (t[0]?.map (·.clz)) (t[1]?.map (·.clz)) = none → P (pre ++ [s]) o
  back : ∀ {pre x suf}, P (pre ++ [x]) suf → P pre (x :: suf)
  fuse : ∀ {pre s t post rule}, P pre ((s :: t) ++ post) →
    pick1 s.clz ((t ++ post)[0]?.map (·.clz)) ((t ++ post)[1]?.map (·.clz)) = some rule → rule ≠ .W7 →
    rule.lhsLen = (s :: t).length → P pre (Bidi.fuse (target rule) (s :: t) :: post)
  w7 : ∀ {pre s t}, P pre (s :: t) → s.clz = cEN → t[0]?.map (·.clz) ≠ some cET → P pre ({ s with clz := cL } :: t)

/-- An invariant of pass 1 for the outline of a text with isolates is one for the text. -/
theorem InvO.text {P : List Scrap → List Scrap → Prop} (hP : InvO P) :
    InvI true (fun pre suf => ∃ o, Outline suf o ∧ P pre o) where
  known := by
    rintro pre suf ⟨o, ho, h⟩
    have hk := hP.known h
    clear h
    induction ho with
    | nil => intro s hs; cases hs
    | plain hs h ih =>
      intro x hx
      rw [List.mem_cons] at hx
      rcases hx with rfl | hx
      · exact hk x (by simp)
      · exact ih (fun y hy => hk y (by simp [hy])) x hx
    | iso hk' ha' hz' hb' he' h1' hi' h2' h' ih =>
      rename_i b a z body t ys zs o
      intro x hx
      have : x ∈ (a :: (body ++ [z])) ++ t := by simpa using hx
      rw [List.mem_append] at this
      rcases this with hx | hx
      · exact hk' x hx
      · exact ih (fun y hy => hk y (by simp [hy])) x hx
  number := by
    rintro pre s t ⟨o, ho, h⟩ he
    cases ho with
    | plain hs ho => exact hP.number h he
    | iso _ ha _ _ _ _ _ _ _ =>
      rw [he] at ha
      exact absurd ha (by decide)
  walk := by
    rintro pre s t ⟨o, ho, h⟩ hi hp
    cases ho with
    | plain hs ho =>
      exact ⟨_, ho, hP.walk h ho hp⟩
    | iso _ ha _ _ _ _ _ _ _ =>
      unfold isIsolate at hi
      rcases ha with ha | ha | ha <;> rw [ha] at hi <;> cases hi
  back := by
    rintro pre x suf ⟨o, ho, h⟩
    have h' := hP.back h
    exact ⟨_, .plain (hP.closed h') ho, h'⟩
  fuse := by
    rintro pre s t post rule ⟨o, ho, h⟩ hp hne hl
    obtain ⟨o', rfl, ho'⟩ := outline_append (pick1_plain hp hl) ho
    have hso : Outline (t ++ post) (t ++ o') := by
      rw [List.cons_append, List.cons_append] at ho
      generalize t ++ post = L at ho
      generalize t ++ o' = O at ho
      cases ho with
      | plain hs ho => exact ho
      | iso _ ha _ _ _ _ _ _ _ =>
        exact absurd ha (show ¬ (cNI = cLRI ∨ cNI = cRLI ∨ cNI = cFSI) by decide)
    obtain ⟨w1, w2⟩ := outline_head hso
    have hf := hP.fuse h (pick1_swap hp hne w1 w2) hne hl
    exact ⟨_, .plain (hP.closed hf) ho', hf⟩
  w7 := by
    rintro pre s t ⟨o, ho, h⟩ he hne
    cases ho with
    | plain hs ho =>
      have hf := hP.w7 h he (by
        intro e
        rcases (outline_head ho).1 with e' | ⟨-, e'⟩
        · exact hne (e'.trans e)
        · rw [e'] at e; exact absurd e (by decide))
      exact ⟨_, .plain (hP.closed hf) ho, hf⟩
    | iso _ ha _ _ _ _ _ _ _ =>
      rw [he] at ha
      exact absurd ha (by decide)
  isolate := by
    rintro pre a t ⟨o, ho, h⟩ hi
    cases ho with
    | plain hs ho => rw [hs] at hi; cases hi
    | iso hk ha hz hb hev h1 hin h2 ho =>
      exact ⟨rfl, ha, _, _, _, _, _, _, rfl, hz, hb, hev, h1, hin, h2, _, .plain rfl ho, h⟩

theorem outline_inv {P : List Scrap → List Scrap → Prop} (hP : Inv1 P)
    (hw : ∀ {pre s t}, P pre (s :: t) → weakClass s = false → P (pre ++ [s]) t) :
    InvI true (fun pre suf => ∃ o, Outline suf o ∧ P pre o) :=
  InvO.text ⟨hP.known, hP.closed, hP.number, fun h _ hp => hw h (by simp [weakClass, pick1_none hp]), hP.back, hP.fuse, hP.w7⟩

/-! ### The nested runs -/

/-- The runs nested in scraps. -/
def kidsOf (l : List Scrap) : List (List Scrap) := l.flatMap (·.children)

/-- The nested runs tile parts of the scrap's text. -/
def Housed (s : Scrap) : Prop := ∀ run ∈ s.children, ∃ l r, s.l ≤ l ∧ r ≤ s.r ∧ Tiles l r run

theorem kids_replace {pre m post : List Scrap} {x : Scrap} {K : List (List Scrap)} (h : kidsOf (pre ++ (m ++ post)) = K) (hx : x.children = kidsOf m) :
    kidsOf (pre ++ x :: post) = K := by
  rw [← h]
  simp only [kidsOf, List.flatMap_append, List.flatMap_cons, hx]

theorem housed_replace {pre m post : List Scrap} {x : Scrap} (h : ∀ s ∈ pre ++ (m ++ post), Housed s) (hx : Housed x) : ∀ s ∈ pre ++ x :: post, Housed s := by
  intro s hs
  rw [List.mem_append, List.mem_cons] at hs
  rcases hs with hs | rfl | hs
  · exact h s (by simp [hs])
  · exact hx
  · exact h s (by simp [hs])

theorem tiles_within {l r : Nat} : ∀ {xs : List Scrap}, Tiles l r xs → (∀ y ∈ xs, y.l ≤ y.r) → l ≤ r ∧ ∀ x ∈ xs, l ≤ x.l ∧ x.r ≤ r
  | [], h, _ => ⟨Nat.le_of_eq h, by simp⟩
  | y :: xs, h, hp => by
    obtain ⟨h1, h2⟩ := tiles_within h.2 (fun x hx => hp x (by simp [hx]))
    have h3 := hp y (by simp)
    have h4 := h.1
    refine ⟨by omega, ?_⟩
    intro x hx
    rw [List.mem_cons] at hx
    rcases hx with rfl | hx
    · omega
    · have := h2 x hx
      omega

theorem housed_fuse {c : Class} {s : Scrap} {t post : List Scrap} {l r : Nat} (ht : Tiles l r ((s :: t) ++ post)) (hp : ∀ y ∈ s :: t, y.l ≤ y.r)
    (hh : ∀ x ∈ s :: t, Housed x) : Housed (fuse c (s :: t)) := by
  obtain ⟨m, h1, h2⟩ := tiles_append.mp ht
  obtain ⟨-, h3⟩ := tiles_within h1 hp
  have h4 := tiles_fuse (c := c) s t [] (show Tiles l m ((s :: t) ++ []) by simpa using h1)
  have h5 : (fuse c (s :: t)).l = l := h4.1
  have h6 : (fuse c (s :: t)).r = m := h4.2
  intro run hr
  have : run ∈ (s :: t).flatMap (·.children) := hr
  rw [List.mem_flatMap] at this
  obtain ⟨x, hx, hrx⟩ := this
  obtain ⟨a, b, g1, g2, g3⟩ := hh x hx run hrx
  have := h3 x hx
  exact ⟨a, b, by omega, by omega, g3⟩

theorem fine_le {tile : Prop} {s : Scrap} (ht : tile) (h : Fine tile s ∧ isIsolate s = false) : s.l ≤ s.r := by
  rcases (h.1.2.2.2 ht).2 with ⟨h', -⟩ | h'
  · rw [h.2] at h'; cases h'
  · omega

/-- What holds in pass 1, with the nested runs. -/
def Good1K (tile : Prop) (start len : Nat) (K : List (List Scrap)) (pre suf : List Scrap) : Prop :=
  Good1At tile start len pre suf ∧ kidsOf (pre ++ suf) = K ∧ (tile → ∀ s ∈ pre ++ suf, Housed s)

theorem good1K_inv (tile : Prop) (start len : Nat) (K : List (List Scrap)) : Inv1 (Good1K tile start len K) where
  known h := (good1_inv tile start len).known h.1
  closed h := (good1_inv tile start len).closed h.1
  number h := (good1_inv tile start len).number h.1
  walk h hp := ⟨(good1_inv tile start len).walk h.1 hp, by simpa using h.2.1, by simpa using h.2.2⟩
  back h := ⟨(good1_inv tile start len).back h.1, by simpa using h.2.1, by simpa using h.2.2⟩
  fuse := by
    intro pre s t post rule h hp hne hl
    refine ⟨(good1_inv tile start len).fuse h.1 hp hne hl, kids_replace h.2.1 rfl, fun ht => housed_replace (h.2.2 ht) ?_⟩
    obtain ⟨m, -, h2⟩ := tiles_append.mp (h.1.2.2.1 ht)
    exact housed_fuse h2 (fun y hy => fine_le ht (h.1.1 y (by rw [List.mem_append, List.mem_append]; exact Or.inr (Or.inl hy))))
      (fun x hx => h.2.2 ht x (by rw [List.mem_append, List.mem_append]; exact Or.inr (Or.inl hx)))
  w7 := by
    intro pre s t h he hne
    refine ⟨(good1_inv tile start len).w7 h.1 he hne, kids_replace (m := [s]) h.2.1 (by simp [kidsOf]), fun ht => housed_replace (m := [s]) (h.2.2 ht) ?_⟩
    exact h.2.2 ht s (by simp)

theorem good1K_stroll {tile : Prop} {start len : Nat} {K : List (List Scrap)} {pre t : List Scrap} {s : Scrap} (h : Good1K tile start len K pre (s :: t))
    (hw : weakClass s = false) : Good1K tile start len K (pre ++ [s]) t := by
  refine ⟨⟨by simpa using h.1.1, by simpa using h.1.2.1, by simpa using h.1.2.2.1, ?_⟩, by simpa using h.2.1, by simpa using h.2.2⟩
  intro x hx
  rw [List.mem_append, List.mem_singleton] at hx
  rcases hx with hx | rfl
  · exact h.1.2.2.2 x hx
  · exact hw

/-- What holds in pass 2, with the nested runs. -/
def Good2K (tile : Prop) (start len : Nat) (K : List (List Scrap)) (pre suf : List Scrap) : Prop :=
  Good2At tile start len pre suf ∧ kidsOf (pre ++ suf) = K ∧ (tile → ∀ s ∈ pre ++ suf, Housed s)

theorem good2K_class {tile : Prop} {K : List (List Scrap)} {pre t : List Scrap} {s : Scrap} (c : Class)
    (h : kidsOf (pre ++ s :: t) = K ∧ (tile → ∀ x ∈ pre ++ s :: t, Housed x)) :
    kidsOf (pre ++ { s with clz := c } :: t) = K ∧ (tile → ∀ x ∈ pre ++ { s with clz := c } :: t, Housed x) :=
  ⟨kids_replace (m := [s]) h.1 (by simp [kidsOf]), fun ht => housed_replace (m := [s]) (h.2 ht) (h.2 ht s (by simp))⟩

theorem good2K_fuse {tile : Prop} {start len : Nat} {K : List (List Scrap)} {pre t post : List Scrap} {s : Scrap} (c : Class)
    (h : Good2K tile start len K pre ((s :: t) ++ post)) (hs : ∀ x ∈ s :: t, isIsolate x = false) :
    kidsOf (pre ++ fuse c (s :: t) :: post) = K ∧ (tile → ∀ x ∈ pre ++ fuse c (s :: t) :: post, Housed x) := by
  refine ⟨kids_replace h.2.1 rfl, fun ht => housed_replace (h.2.2 ht) ?_⟩
  obtain ⟨m, -, h2⟩ := tiles_append.mp (h.1.2.1 ht)
  exact housed_fuse h2 (fun y hy => fine_le ht ⟨(h.1.1 y (by rw [List.mem_append, List.mem_append]; exact Or.inr (Or.inl hy))).1, hs y hy⟩)
    (fun x hx => h.2.2 ht x (by rw [List.mem_append, List.mem_append]; exact Or.inr (Or.inl hx)))

theorem good2K_inv {σ : Type} {E : Env σ} {G : σ → Prop} (hG : Brackets E G) (tile : Prop) (start len : Nat) (K : List (List Scrap)) :
    Inv2 E (Good2K tile start len K) G where
  known h := (good2_inv hG tile start len).known h.1
  closed h := (good2_inv hG tile start len).closed h.1
  emb h := (good2_inv hG tile start len).emb h.1
  walk h hb hp := ⟨(good2_inv hG tile start len).walk h.1 hb hp, by simpa using h.2.1, by simpa using h.2.2⟩
  back h := ⟨(good2_inv hG tile start len).back h.1, by simpa using h.2.1, by simpa using h.2.2⟩
  n1 := by
    intro pre a b d post c h hc ha hb hd
    refine ⟨(good2_inv hG tile start len).n1 h.1 hc ha hb hd, good2K_fuse (t := [b, d]) c h ?_⟩
    intro x hx
    simp only [List.mem_cons, List.not_mem_nil, or_false] at hx
    rcases hx with rfl | rfl | rfl
    · exact not_isolate ha (hc.imp id Or.inl)
    · exact not_isolate hb (by simp)
    · exact not_isolate hd (hc.imp id Or.inl)
  same := by
    intro pre a b post c h hc ha hb
    refine ⟨(good2_inv hG tile start len).same h.1 hc ha hb, good2K_fuse (t := [b]) c h ?_⟩
    intro x hx
    simp only [List.mem_cons, List.not_mem_nil, or_false] at hx
    rcases hx with rfl | rfl
    · exact not_isolate ha (hc.imp id Or.inl)
    · exact not_isolate hb (hc.imp id Or.inl)
  absorb := by
    intro pre a b d post h ha hb hd
    have hnt : ¬ tile := fun ht => ((h.1.1 d (by simp)).1.2.2.2 ht).1 hd
    refine ⟨(good2_inv hG tile start len).absorb h.1 ha hb hd, ?_, fun ht => absurd ht hnt⟩
    rw [← h.2.1]
    simp [kidsOf]
  n2 := by
    intro pre s t h hs
    obtain ⟨h1, h2⟩ := (good2_inv hG tile start len).n2 h.1 hs
    have h3 := good2K_class s.e h.2
    exact ⟨fun e => ⟨h1 e, h3⟩, fun pre' x e => ⟨h2 pre' x e, by subst e; simpa using h3⟩⟩
  skip h hs := ⟨(good2_inv hG tile start len).skip h.1 hs, by simpa using h.2.1, by simpa using h.2.2⟩
  opening := by
    intro pre s t env pr h g hs hp
    obtain ⟨h1, h2⟩ := (good2_inv hG tile start len).opening h.1 g hs hp
    exact ⟨⟨h1, good2K_class _ h.2⟩, h2⟩
  closing := by
    intro pre s t env pr h g hs hp
    exact ⟨(good2_inv hG tile start len).closing h.1 g hs hp, good2K_class _ h.2⟩
  alone := by
    intro pre s t h hs
    have h3 := good2K_class cNI h.2
    exact ⟨(good2_inv hG tile start len).alone h.1 hs, by simpa using h3.1, by simpa using h3.2⟩
  pair := hG.pair

/-- A text with isolates is resolved, if its outline is good. -/
theorem resolve_outline_unlike {σ : Type} {E : Env σ} {G : σ → Prop} (hB : Brackets E G) {o : Options} {env env' : σ} {ss os : List Scrap} {tile : Prop} {len : Nat}
    {K : List (List Scrap)} (hf : Feeds E env ss env') (hR : Far 0 ss) (ho : Outline ss os) (h : Good1K tile 0 len K [] os) (hG : G env') :
    ∃ N p, resolveIn E o env N = .returns (levelsOf o p.stack, p) ∧ Good2K tile 0 len K p.stack [] ∧ G p.env ∧ Unlike p.stack [] := by
  obtain ⟨N, p, e1, e2, e3⟩ := wholeB (o := o) hf (outline_inv (good1K_inv tile 0 len K) good1K_stroll) hR (good2K_inv hB tile 0 len K).unlike ⟨os, ho, h⟩
    (by
      rintro ys ⟨os', ho', hy⟩
      cases ho'
      have hi : (initialOuterScrap o true).children = [] := rfl
      refine ⟨⟨⟨good2_start o hy.1, ?_, fun ht => ?_⟩, hG⟩, trivial⟩
      · rw [← hy.2.1]
        simp [kidsOf, hi]
      · intro s hs
        simp only [List.nil_append, List.mem_cons] at hs
        rcases hs with rfl | hs
        · intro run hr
          rw [hi] at hr; cases hr
        · exact hy.2.2 ht s (by simpa using hs)) (fun h => by simpa using h.1.1.1.2.2)
  exact ⟨N, p, e1, e2.1, e2.2, e3⟩

theorem resolve_outline {σ : Type} {E : Env σ} {G : σ → Prop} (hB : Brackets E G) {o : Options} {env env' : σ} {ss os : List Scrap} {tile : Prop} {len : Nat}
    {K : List (List Scrap)} (hf : Feeds E env ss env') (hR : Far 0 ss) (ho : Outline ss os) (h : Good1K tile 0 len K [] os) (hG : G env') :
    ∃ N p, resolveIn E o env N = .returns (levelsOf o p.stack, p) ∧ Good2K tile 0 len K p.stack [] ∧ G p.env := by
  obtain ⟨N, p, e1, e2, e3, -⟩ := resolve_outline_unlike hB (o := o) hf hR ho h hG
  exact ⟨N, p, e1, e2, e3⟩

end Uax.Bidi
