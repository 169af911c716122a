import Verif.BidiN0Scan
import Verif.BidiKeeps
import Verif.BidiDirections
import Verif.BidiEndless

/-
A bracket pair gets one direction in pass 2 and keeps it.
-/
namespace Uax.Bidi
open Spec (Tiles)

/-! ### Tiles -/

theorem tiles_mono {l r : Nat} : ∀ {xs : List Scrap}, Tiles l r xs → (∀ s ∈ xs, s.l ≤ s.r) → l ≤ r
  | [], h, _ => Nat.le_of_eq h
  | s :: xs, h, hp => by
    have := tiles_mono h.2 (fun x hx => hp x (List.mem_cons_of_mem _ hx))
    have := hp s (List.mem_cons_self ..)
    have := h.1
    omega

theorem tiles_mem {l r : Nat} {xs : List Scrap} (h : Tiles l r xs) (hp : ∀ s ∈ xs, s.l ≤ s.r) {y : Scrap} (hy : y ∈ xs) : l ≤ y.l ∧ y.r ≤ r := by
  obtain ⟨A, B, rfl⟩ := List.append_of_mem hy
  obtain ⟨m, h1, h2, h3⟩ := tiles_append.mp h
  have := tiles_mono h1 (fun s hs => hp s (by simp [hs]))
  have := tiles_mono h3 (fun s hs => hp s (by simp [hs]))
  omega

/-- Scraps which overlap are the same. -/
theorem tiles_unique {l r : Nat} : ∀ {xs : List Scrap}, Tiles l r xs → (∀ s ∈ xs, s.l ≤ s.r) → ∀ {x y}, x ∈ xs → y ∈ xs → x.l < y.r → y.l < x.r → x = y := by
  intro xs
  induction xs generalizing l with
  | nil => intro _ _ x y hx; cases hx
  | cons s xs ih =>
    intro h hp x y hx hy h1 h2
    have hp' := fun z hz => hp z (List.mem_cons_of_mem _ hz)
    rw [List.mem_cons] at hx hy
    rcases hx with rfl | hx <;> rcases hy with rfl | hy
    · rfl
    · have := tiles_mem h.2 hp' hy; omega
    · have := tiles_mem h.2 hp' hx; omega
    · exact ih h.2 hp' hx hy h1 h2

/-! ### The pairs are scraps of the stream -/

theorem bracket_emitted {T : Tables} {o : Options} (inp : List (Nat × Nat)) (cur : Scrap) (a : Option Nat) (st : List DirContext)
    (hb : isBracket cur = true) : cur ∈ emit T o inp cur a st := by
  have hz : cur.clz ≠ cNULL := by
    intro h
    unfold isBracket at hb
    rw [h] at hb
    exact absurd hb (by decide)
  cases inp with
  | nil => rw [emit, if_neg hz]; exact List.mem_singleton.mpr rfl
  | cons x rest =>
    obtain ⟨r, n⟩ := x
    rw [emit]
    dsimp only
    rw [if_pos (by simp [breaks, hb]), if_neg hz]
    exact List.mem_cons_self ..

/-- The brackets which a handler knows have these properties. -/
def Handler.Within (h : Handler) (M1 M2 : Scrap → Prop) : Prop :=
  (∀ b ∈ h.stack, M1 b.opening) ∧ ∀ p ∈ h.pairings, M1 p.opening ∧ M2 p.closing

theorem within_push {h : Handler} {M1 M2 : Scrap → Prop} (r : Nat) (s : Scrap) (hh : h.Within M1 M2) (hs : M1 s) : (h.pushOpening r s).Within M1 M2 := by
  refine ⟨?_, hh.2⟩
  intro b hb
  unfold Handler.pushOpening pushStack at hb
  dsimp only at hb
  split at hb
  · exact hh.1 b hb
  · split at hb
    · exact hh.1 b hb
    · split at hb
      · rw [List.mem_append, List.mem_singleton] at hb
        rcases hb with hb | rfl
        · exact hh.1 b hb
        · exact hs
      · exact hh.1 b hb

theorem within_find {h : Handler} {M1 M2 : Scrap → Prop} (r : Nat) (s : Scrap) (hh : h.Within M1 M2) (hs : M2 s) : (h.findPair r s).Within M1 M2 := by
  unfold Handler.findPair
  cases hp : popWith h.stack r with
  | none => exact hh
  | some x =>
    obtain ⟨b, stack⟩ := x
    dsimp only
    unfold popWith at hp
    rw [Option.map_eq_some_iff] at hp
    obtain ⟨⟨x, below⟩, e1, e2⟩ := hp
    injection e2 with e2 e3
    subst e2
    obtain ⟨g1, g2⟩ := popLoop_mem _ _ _ e1
    refine ⟨?_, ?_⟩
    · intro y hy
      dsimp only at hy
      rw [← e3, List.mem_reverse] at hy
      exact hh.1 y (by simpa using g2 y hy)
    · intro p hp
      dsimp only at hp
      rw [List.mem_append, List.mem_cons] at hp
      rcases hp with hp | rfl | hp
      · exact hh.2 p (List.mem_of_mem_take hp)
      · exact ⟨hh.1 x (by simpa using g1), hs⟩
      · exact hh.2 p (List.mem_of_mem_drop hp)

theorem pairUp_within {T : Tables} {o : Options} {M1 M2 : Scrap → Prop} : ∀ (inp : List (Nat × Nat)) (cur : Scrap) (a : Option Nat) (st : List DirContext) (h : Handler),
    h.Within M1 M2 → (∀ s ∈ emit T o inp cur a st, (s.clz = cBRACKO → M1 s) ∧ (s.clz = cBRACKC → M2 s)) → (pairUp T o inp cur a st h).Within M1 M2 := by
  intro inp
  induction inp with
  | nil => intro cur a st h hh _; exact hh
  | cons x rest ih =>
    obtain ⟨r, n⟩ := x
    intro cur a st h hh hm
    rw [pairUp]
    rw [emit] at hm
    dsimp only at hm ⊢
    by_cases hb : breaks cur (runeClass T o r) = true
    · rw [if_pos hb] at hm ⊢
      have hm' : ∀ s ∈ emit T o rest (inheritStrongTypes (nextScrap cur (runeClass T o r) n) (switchContext cur st (nextScrap cur (runeClass T o r) n)).1 a)
          (if runeClass T o r = cAL then some (nextScrap cur (runeClass T o r) n).l else a)
          (switchContext cur st (nextScrap cur (runeClass T o r) n)).2, (s.clz = cBRACKO → M1 s) ∧ (s.clz = cBRACKC → M2 s) := by
        intro s hs
        refine hm s ?_
        split
        · exact hs
        · exact List.mem_cons_of_mem _ hs
      refine ih _ _ _ _ ?_ hm'
      split
      · exact hh
      · rename_i hbr
        have hbr' : isBracket (inheritStrongTypes (nextScrap cur (runeClass T o r) n) (switchContext cur st (nextScrap cur (runeClass T o r) n)).1 a) = true := by
          simpa using hbr
        have hem := hm' _ (bracket_emitted rest _ _ _ hbr')
        split
        · rename_i ho; exact within_push _ _ hh (hem.1 ho)
        · rename_i ho
          refine within_find _ _ hh (hem.2 ?_)
          unfold isBracket at hbr'
          simpa [ho] using hbr'
    · rw [if_neg hb] at hm ⊢
      exact ih _ _ _ _ hh hm

/-! ### The surroundings know the pair -/

/-- The only handler has the pair, with this class of the opening bracket. -/
def EnvAt (T : Tables) (o : Options) (os cs : Scrap) (k : Class) (env : Scanner × Nat) : Prop :=
  env.1.step T o = none ∧ env.1.IrsOk ∧ ∃ h, env.1.handlers = [h] ∧ (h.found.map (·.1)).Nodup ∧ (h.found.map (·.2)).Nodup ∧
    ∃ pr ∈ h.pairings, pr.opening.l = os.l ∧ pr.closing = cs ∧ pr.opening.clz = k

theorem unique_of_nodup {α β : Type} {f : α → β} : ∀ {l : List α}, (l.map f).Nodup → ∀ {x y}, x ∈ l → y ∈ l → f x = f y → x = y := by
  intro l
  induction l with
  | nil => intro _ x y hx; cases hx
  | cons a l ih =>
    intro h x y hx hy he
    rw [List.map_cons, List.nodup_cons] at h
    rw [List.mem_cons] at hx hy
    rcases hx with rfl | hx <;> rcases hy with rfl | hy
    · rfl
    · exact absurd (List.mem_map.mpr ⟨y, hy, he.symm⟩) h.1
    · exact absurd (List.mem_map.mpr ⟨x, hx, he⟩) h.1
    · exact ih h.2 hx hy he

section
variable {T : Tables} {o : Options} {sched : Nat → Nat} {os cs : Scrap} {k : Class} {env : Scanner × Nat}

theorem envAt_pairing (h : EnvAt T o os cs k env) (s : Scrap) : EnvAt T o os cs k ((scannerEnv T o sched).pairing env s).2 := by
  obtain ⟨sc, i⟩ := env
  show EnvAt T o os cs k (sc.steps T o (sched i), i + 1)
  rw [steps_stuck h.1]
  exact h

theorem envAt_opening (h : EnvAt T o os cs k env) {s : Scrap} (hs : s.clz = cBRACKO) (hl : s.l = os.l) :
    ∃ pr, ((scannerEnv T o sched).pairing env s).1 = some pr ∧ pr.closing = cs := by
  obtain ⟨sc, i⟩ := env
  obtain ⟨h1, h2, hd, h3, h4, h5, pr, h6, h7, h8, h9⟩ := h
  rw [pairing_single h1 h2 h3]
  unfold Handler.find
  rw [hs]
  simp only [if_true]
  cases hf : hd.pairings.find? fun p => p.opening.l == s.l with
  | none =>
    have := List.find?_eq_none.mp hf pr h6
    rw [h7, hl] at this
    simp at this
  | some q =>
    have hq := List.mem_of_find?_eq_some hf
    have hq2 : q.opening.l = s.l := by simpa using List.find?_some hf
    have : q = pr := by
      unfold Handler.found at h4
      rw [List.map_map] at h4
      exact unique_of_nodup h4 hq h6 (by show q.opening.l = pr.opening.l; rw [hq2, hl, h7])
    exact ⟨q, rfl, by rw [this]; exact h8⟩

theorem envAt_closing (h : EnvAt T o os cs k env) {s : Scrap} (hs : s.clz = cBRACKC) (hl : s.l = cs.l) :
    ∃ pr, ((scannerEnv T o sched).pairing env s).1 = some pr ∧ pr.opening.clz = k := by
  obtain ⟨sc, i⟩ := env
  obtain ⟨h1, h2, hd, h3, h4, h5, pr, h6, h7, h8, h9⟩ := h
  rw [pairing_single h1 h2 h3]
  unfold Handler.find
  rw [hs]
  simp only [show (cBRACKC = cBRACKO) = False from by decide, if_false]
  cases hf : hd.pairings.find? fun p => p.closing.l == s.l with
  | none =>
    have := List.find?_eq_none.mp hf pr h6
    rw [h8, hl] at this
    simp at this
  | some q =>
    have hq := List.mem_of_find?_eq_some hf
    have hq2 : q.closing.l = s.l := by simpa using List.find?_some hf
    have : q = pr := by
      unfold Handler.found at h5
      rw [List.map_map] at h5
      exact unique_of_nodup h5 hq h6 (by show q.closing.l = pr.closing.l; rw [hq2, hl, h8])
    exact ⟨q, rfl, by rw [this]; exact h9⟩

theorem envAt_change (h : EnvAt T o os cs k env) (s : Scrap) :
    EnvAt T o os cs (if s.l = os.l then s.clz else k) ((scannerEnv T o sched).change env s) := by
  obtain ⟨sc, i⟩ := env
  obtain ⟨h1, h2, hd, h3, h4, h5, pr, h6, h7, h8, h9⟩ := h
  have he : (scannerEnv T o sched).change (sc, i) s = ({ sc.steps T o (sched i) with
    handlers := setHandler (sc.steps T o (sched i)).handlers ((sc.steps T o (sched i)).bd16For s.l) (·.changeOpening s) }, i + 1) := rfl
  rw [he, steps_stuck h1, bd16For_single h2 h3]
  have hf : (hd.changeOpening s).found = hd.found := by
    unfold Handler.found Handler.changeOpening
    dsimp only
    rw [List.map_map]
    refine List.map_congr_left fun p _ => ?_
    simp only [Function.comp_apply]
    split <;> rfl
  refine ⟨?_, irsOk_of h2 rfl (setHandler_length _ _ _), hd.changeOpening s, ?_, by rw [hf]; exact h4, by rw [hf]; exact h5, ?_⟩
  · unfold Scanner.step at h1 ⊢
    dsimp only at h1 ⊢
    cases hp : sc.pc <;> rw [hp] at h1 <;> simp at h1 ⊢
  · dsimp only
    rw [show sc.handlers = [hd] from h3]
    rfl
  · refine ⟨if pr.opening.l = s.l then { pr with opening := { pr.opening with clz := s.clz } } else pr,
      List.mem_map.mpr ⟨pr, h6, rfl⟩, ?_, ?_, ?_⟩
    · split <;> exact h7
    · split <;> exact h8
    · rw [h7]
      by_cases hx : os.l = s.l
      · rw [if_pos hx, if_pos hx.symm]
      · rw [if_neg hx, if_neg (Ne.symm hx)]; exact h9

end

/-! ### The pair in pass 2 -/

/-- Some scrap of this class covers the bracket. -/
def Covered (z : Scrap) (k : Class) (l : List Scrap) : Prop := ∃ x ∈ l, x.l ≤ z.l ∧ z.r ≤ x.r ∧ x.clz = k

theorem covered_replace {z y : Scrap} {k : Class} {A m B : List Scrap} (h : Covered z k (A ++ (m ++ B)))
    (hy : ∀ x ∈ m, x.clz = k → y.clz = k ∧ y.l ≤ x.l ∧ x.r ≤ y.r) : Covered z k (A ++ y :: B) := by
  obtain ⟨x, hx, h1, h2, h3⟩ := h
  rw [List.mem_append, List.mem_append] at hx
  rcases hx with hx | hx | hx
  · exact ⟨x, by simp [hx], h1, h2, h3⟩
  · obtain ⟨g1, g2, g3⟩ := hy x hx h3
    exact ⟨y, by simp, by omega, by omega, g1⟩
  · exact ⟨x, by simp [hx], h1, h2, h3⟩

/-- An isolate has no text. -/
def Flat (s : Scrap) : Prop := (isIsolate s = true → s.l = s.r) ∧ (s.e = cL ∨ s.e = cR)

theorem flat_keeps2 (T : Tables) (o : Options) (sched : Nat → Nat) : Keeps2 (scannerEnv T o sched) Flat (AtRest T o) where
  fuse := by
    intro s t c h1 _ _ hc
    refine ⟨fun h => ?_, h1.2⟩
    have : isIsolate (fuse c (s :: t)) = false := not_isolate (c := c) rfl (hc.imp id Or.inl)
    rw [this] at h; cases h
  absorb := by
    intro b d h1 _ _
    exact ⟨fun h => absurd (show isIsolate { clz := cAN } = true from h) (by decide), h1.2⟩
  n2 := by
    intro s h
    refine ⟨fun hi => ?_, h.2⟩
    have : isIsolate { s with clz := s.e } = false := not_isolate (c := s.e) rfl (h.2.imp id Or.inl)
    rw [this] at hi; cases hi
  alone := by
    intro s h
    exact ⟨fun hi => absurd (show isIsolate { clz := cNI } = true from hi) (by decide), h.2⟩
  opening := by
    intro s env pr h g hs hp
    have hc := (openingClass_settled s pr.closing h.2).1
    refine ⟨⟨fun hi => ?_, h.2⟩, (atRest_brackets T o sched).change ((atRest_brackets T o sched).pair g s).1 _ hc⟩
    have : isIsolate { s with clz := (openingClass s pr.closing).1 } = false := not_isolate (c := (openingClass s pr.closing).1) rfl
      (by rcases hc with h | h | h <;> simp [h])
    rw [this] at hi; cases hi
  closing := by
    intro s env pr h g hs hp
    refine ⟨fun hi => ?_, h.2⟩
    have : isIsolate { s with clz := pr.opening.clz } = false := not_isolate (c := pr.opening.clz) rfl
      (by rcases ((atRest_brackets T o sched).pair g s).2 pr hp with (h | h | h) | h <;> simp [h])
    rw [this] at hi; cases hi
  pair g s := ((atRest_brackets T o sched).pair g s).1

/-- Where the pair is. -/
def PairAt (T : Tables) (o : Options) (os cs : Scrap) (k : Class) (pre suf : List Scrap) (env : Scanner × Nat) : Prop :=
  (os ∈ suf ∧ cs ∈ suf ∧ EnvAt T o os cs cBRACKO env) ∨ (Covered os k (pre ++ suf) ∧ cs ∈ suf ∧ EnvAt T o os cs k env) ∨
  (Covered os k (pre ++ suf) ∧ Covered cs k (pre ++ suf))

/-- What holds in pass 2. -/
def JointAt (T : Tables) (o : Options) (len : Nat) (os cs : Scrap) (k : Class) (pre suf : List Scrap) (env : Scanner × Nat) : Prop :=
  ((Good2 True len pre suf ∧ AllOf Flat pre suf) ∧ AtRest T o env ∧ AtRest T o env) ∧ PairAt T o os cs k pre suf env

theorem joint_tiles {T : Tables} {o : Options} {len : Nat} {os cs : Scrap} {k : Class} {pre suf : List Scrap} {env : Scanner × Nat} (h : JointAt T o len os cs k pre suf env) :
    Tiles 0 len (pre ++ suf) ∧ ∀ s ∈ pre ++ suf, s.l ≤ s.r := by
  refine ⟨h.1.1.1.2.1 trivial, fun s hs => ?_⟩
  rcases ((h.1.1.1.1 s hs).1.2.2.2 trivial).2 with ⟨hi, -⟩ | hi
  · exact Nat.le_of_eq ((h.1.1.2 s hs).1 hi)
  · omega

/-- Steps which change neither the surroundings nor the scraps from the present one on, but for a segment without brackets. -/
theorem pair_segment {T : Tables} {o : Options} {os cs y : Scrap} {k : Class} {pre m post pre' : List Scrap} {suf' : List Scrap} {env : Scanner × Nat}
    (ho : os.clz = cBRACKO) (hc : cs.clz = cBRACKC) (h : PairAt T o os cs k pre (m ++ post) env) (hm : ∀ x ∈ m, x.clz ≠ cBRACKO ∧ x.clz ≠ cBRACKC)
    (hy : ∀ x ∈ m, x.clz = k → y.clz = k ∧ y.l ≤ x.l ∧ x.r ≤ y.r) (he : pre' ++ suf' = pre ++ y :: post) (hs : ∀ x ∈ post, x ∈ suf') :
    PairAt T o os cs k pre' suf' env := by
  have h1 : os ∈ m ++ post → os ∈ suf' := fun hx => by
    rw [List.mem_append] at hx
    exact hs _ (hx.resolve_left fun hx => (hm _ hx).1 ho)
  have h2 : cs ∈ m ++ post → cs ∈ suf' := fun hx => by
    rw [List.mem_append] at hx
    exact hs _ (hx.resolve_left fun hx => (hm _ hx).2 hc)
  have h3 : ∀ z, Covered z k (pre ++ (m ++ post)) → Covered z k (pre' ++ suf') := fun z hz => by rw [he]; exact covered_replace hz hy
  rcases h with ⟨a, b, c⟩ | ⟨a, b, c⟩ | ⟨a, b⟩
  · exact Or.inl ⟨h1 a, h2 b, c⟩
  · exact Or.inr (Or.inl ⟨h3 _ a, h2 b, c⟩)
  · exact Or.inr (Or.inr ⟨h3 _ a, h3 _ b⟩)

theorem joint_inv (T : Tables) (o : Options) (sched : Nat → Nat) (len : Nat) {os cs : Scrap} {k : Class} (ho : os.clz = cBRACKO) (hc : cs.clz = cBRACKC)
    (hk : k = cL ∨ k = cR) (hn0 : (openingClass os cs).1 = k) (hpos : os.l < os.r) (hlt : os.r ≤ cs.l) (hpos2 : cs.l < cs.r) :
    Inv2J (scannerEnv T o sched) (JointAt T o len os cs k) := by
  have hI : Inv2J (scannerEnv T o sched) _ := ((good2_inv (atRest_brackets T o sched) True 0 len).keeps (flat_keeps2 T o sched)).joint
  have hkn : k ≠ cNI ∧ k ≠ cBRACKO ∧ k ≠ cBRACKC := by rcases hk with rfl | rfl <;> decide
  -- fusing
  have hfuse : ∀ {pre s t post c env}, JointAt T o len os cs k pre ((s :: t) ++ post) env → (c = cL ∨ c = cR) → (∀ x ∈ s :: t, x.clz = c ∨ x.clz = cNI) →
      PairAt T o os cs k pre (fuse c (s :: t) :: post) env := by
    intro pre s t post c env h hcc hx
    obtain ⟨t1, t2⟩ := joint_tiles h
    refine pair_segment ho hc h.2 (fun x hm => ?_) (fun x hm hxk => ?_) rfl (fun x hm => List.mem_cons_of_mem _ hm)
    · rcases hx x hm with e | e <;> rw [e]
      · rcases hcc with rfl | rfl <;> decide
      · decide
    · have hck : c = k := by
        rcases hx x hm with e | e
        · rw [← e]; exact hxk
        · rw [e] at hxk; exact absurd hxk.symm hkn.1
      obtain ⟨m1, -, q2⟩ := tiles_append.mp t1
      obtain ⟨m2, q3, q4⟩ := tiles_append.mp q2
      have h3 := tiles_fuse (c := c) (l := m1) (r := m2) s t [] (by simpa using q3)
      have h4 := tiles_mem q3 (fun z hz => t2 z (by rw [List.mem_append, List.mem_append]; exact Or.inr (Or.inl hz))) hm
      have h5 : (fuse c (s :: t)).l = m1 := h3.1
      have h6 : (fuse c (s :: t)).r = m2 := h3.2
      exact ⟨hck, by omega, by omega⟩
  -- the bracket at the front of the rest
  have hfront : ∀ {pre s t env}, JointAt T o len os cs k pre (s :: t) env → s.clz = cBRACKO → s.l = os.l → s = os ∧ os ∈ s :: t ∧ cs ∈ t ∧ EnvAt T o os cs cBRACKO env := by
    intro pre s t env h hs hl
    obtain ⟨t1, t2⟩ := joint_tiles h
    have hsm : s ∈ pre ++ s :: t := by simp
    have hsp : s.l < s.r := by
      rcases ((h.1.1.1.1 s hsm).1.2.2.2 trivial).2 with ⟨hi, -⟩ | hi
      · rw [not_isolate hs (by simp)] at hi; cases hi
      · exact hi
    have hcov : ¬ Covered os k (pre ++ s :: t) := by
      rintro ⟨x, x1, x2, x3, x4⟩
      have := tiles_unique t1 t2 x1 hsm (by omega) (by omega)
      rw [this, hs] at x4
      exact hkn.2.1 x4.symm
    rcases h.2 with ⟨a, b, c⟩ | ⟨a, -, -⟩ | ⟨a, -⟩
    · have he : s = os := tiles_unique t1 t2 hsm (List.mem_append_right _ a) (by omega) (by omega)
      refine ⟨he, a, ?_, c⟩
      rw [List.mem_cons] at b
      refine b.resolve_left fun e => ?_
      rw [e, hs] at hc; exact absurd hc (by decide)
    · exact absurd a hcov
    · exact absurd a hcov
  -- the closing bracket at the front of the rest
  have hclose : ∀ {pre s t env}, JointAt T o len os cs k pre (s :: t) env → s.clz = cBRACKC →
      (os ∈ t ∧ cs ∈ t ∧ EnvAt T o os cs cBRACKO env) ∨ (Covered os k (pre ++ s :: t) ∧ cs ∈ t ∧ EnvAt T o os cs k env) ∨
      (Covered os k (pre ++ s :: t) ∧ s = cs ∧ EnvAt T o os cs k env) ∨ (Covered os k (pre ++ s :: t) ∧ Covered cs k (pre ++ s :: t)) := by
    intro pre s t env h hs
    obtain ⟨t1, t2⟩ := joint_tiles h
    rcases h.2 with ⟨a, b, c⟩ | ⟨a, b, c⟩ | ⟨a, b⟩
    · rw [List.mem_cons] at a b
      have a' := a.resolve_left (fun e => by rw [e, hs] at ho; exact absurd ho (by decide))
      refine Or.inl ⟨a', b.resolve_left (fun e => ?_), c⟩
      subst e
      obtain ⟨m1, -, q1, q2⟩ := tiles_append.mp t1
      have := tiles_mem q2 (fun z hz => t2 z (by simp [hz])) a'
      omega
    · rw [List.mem_cons] at b
      rcases b with b | b
      · exact Or.inr (Or.inr (Or.inl ⟨a, b.symm, c⟩))
      · exact Or.inr (Or.inl ⟨a, b, c⟩)
    · exact Or.inr (Or.inr (Or.inr ⟨a, b⟩))
  -- a bracket with another class
  have hset : ∀ {z : Scrap} {pre s t c}, Covered z k (pre ++ s :: t) → (s.clz = cBRACKO ∨ s.clz = cBRACKC ∨ s.clz = cNI) → Covered z k (pre ++ { s with clz := c } :: t) := by
    intro z pre s t c h hs
    refine covered_replace (m := [s]) h ?_
    intro x hx hxk
    rw [List.mem_singleton] at hx
    subst hx
    exfalso
    rcases hs with e | e | e <;> rw [e] at hxk
    · exact hkn.2.1 hxk.symm
    · exact hkn.2.2 hxk.symm
    · exact hkn.1 hxk.symm
  have hother : ∀ {pre s t env c}, JointAt T o len os cs k pre (s :: t) env → s.clz = cBRACKC →
      ((EnvAt T o os cs k env → s = cs → c = k) → PairAt T o os cs k pre ({ s with clz := c } :: t) ((scannerEnv T o sched).pairing env s).2) ∧
      ((EnvAt T o os cs k env → s ≠ cs) → PairAt T o os cs k (pre ++ [{ s with clz := c }]) t ((scannerEnv T o sched).pairing env s).2) := by
    intro pre s t env c h hs
    have e0 : pre ++ [{ s with clz := c }] ++ t = pre ++ { s with clz := c } :: t := by simp
    rcases hclose h hs with ⟨a, b, d⟩ | ⟨a, b, d⟩ | ⟨a, b, d⟩ | ⟨a, b⟩
    · exact ⟨fun _ => Or.inl ⟨List.mem_cons_of_mem _ a, List.mem_cons_of_mem _ b, envAt_pairing d s⟩, fun _ => Or.inl ⟨a, b, envAt_pairing d s⟩⟩
    · have a' := hset (c := c) a (Or.inr (Or.inl hs))
      exact ⟨fun _ => Or.inr (Or.inl ⟨a', List.mem_cons_of_mem _ b, envAt_pairing d s⟩), fun _ => Or.inr (Or.inl ⟨by rw [e0]; exact a', b, envAt_pairing d s⟩)⟩
    · have a' := hset (c := c) a (Or.inr (Or.inl hs))
      refine ⟨fun hcs => Or.inr (Or.inr ⟨a', { s with clz := c }, by simp, ?_, ?_, hcs d b⟩), fun hne => absurd b (hne d)⟩
      · show s.l ≤ cs.l; rw [b]; exact Nat.le_refl _
      · show cs.r ≤ s.r; rw [b]; exact Nat.le_refl _
    · have a' := hset (c := c) a (Or.inr (Or.inl hs))
      have b' := hset (c := c) b (Or.inr (Or.inl hs))
      exact ⟨fun _ => Or.inr (Or.inr ⟨a', b'⟩), fun _ => Or.inr (Or.inr ⟨by rw [e0]; exact a', by rw [e0]; exact b'⟩)⟩
  refine
    { known := fun h => hI.known h.1, closed := fun h => hI.closed h.1, emb := fun h => hI.emb h.1, walk := ?_, back := ?_, n1 := ?_, same := ?_, absorb := ?_,
      n2 := ?_, skip := ?_, opening := ?_, closing := ?_, neutral := ?_, alone := ?_ }
  · -- walk
    intro pre s t env h hb hp
    refine ⟨hI.walk h.1 hb hp, ?_⟩
    unfold isBracket at hb
    simp only [Bool.or_eq_false_iff, beq_eq_false_iff_ne] at hb
    refine pair_segment (m := [s]) (y := s) ho hc h.2 (fun x hx => ?_) (fun x hx hxk => ?_) (by simp) (fun x hx => hx)
    · rw [List.mem_singleton] at hx; rw [hx]; exact hb
    · rw [List.mem_singleton] at hx; rw [← hx]; exact ⟨hxk, Nat.le_refl _, Nat.le_refl _⟩
  · -- back
    intro pre x suf env h
    refine ⟨hI.back h.1, ?_⟩
    have e : pre ++ [x] ++ suf = pre ++ x :: suf := by simp
    rcases h.2 with ⟨a, b, c⟩ | ⟨a, b, c⟩ | ⟨a, b⟩
    · exact Or.inl ⟨List.mem_cons_of_mem _ a, List.mem_cons_of_mem _ b, c⟩
    · exact Or.inr (Or.inl ⟨by rw [← e]; exact a, List.mem_cons_of_mem _ b, c⟩)
    · exact Or.inr (Or.inr ⟨by rw [← e]; exact a, by rw [← e]; exact b⟩)
  · -- n1
    intro pre a b d post c env h hcc ha hb hd
    refine ⟨hI.n1 h.1 hcc ha hb hd, hfuse (t := [b, d]) h hcc ?_⟩
    intro x hx
    simp only [List.mem_cons, List.not_mem_nil, or_false] at hx
    rcases hx with rfl | rfl | rfl
    · exact Or.inl ha
    · exact Or.inr hb
    · exact Or.inl hd
  · -- same
    intro pre a b post c env h hcc ha hb
    refine ⟨hI.same h.1 hcc ha hb, hfuse (t := [b]) h hcc ?_⟩
    intro x hx
    simp only [List.mem_cons, List.not_mem_nil, or_false] at hx
    rcases hx with rfl | rfl
    · exact Or.inl ha
    · exact Or.inl hb
  · -- absorb
    intro pre a b d post env h _ _ hd
    exact absurd hd ((h.1.1.1.1 d (by simp)).1.2.2.2 trivial).1
  · -- n2
    intro pre s t env h hs
    have hP : PairAt T o os cs k pre ({ s with clz := s.e } :: t) env := by
      refine pair_segment (m := [s]) (y := { s with clz := s.e }) ho hc h.2 (fun x hx => ?_) (fun x hx hxk => ?_) rfl (fun x hx => List.mem_cons_of_mem _ hx)
      · rw [List.mem_singleton] at hx; rw [hx, hs]; decide
      · rw [List.mem_singleton] at hx; rw [hx, hs] at hxk; exact absurd hxk.symm hkn.1
    refine ⟨fun e => ⟨(hI.n2 h.1 hs).1 e, hP⟩, fun pre' x e => ⟨(hI.n2 h.1 hs).2 pre' x e, ?_⟩⟩
    subst e
    have e : pre' ++ [x] ++ { s with clz := s.e } :: t = pre' ++ x :: { s with clz := s.e } :: t := by simp
    rcases hP with ⟨a, b, c⟩ | ⟨a, b, c⟩ | ⟨a, b⟩
    · exact Or.inl ⟨List.mem_cons_of_mem _ a, List.mem_cons_of_mem _ b, c⟩
    · exact Or.inr (Or.inl ⟨by rw [← e]; exact a, List.mem_cons_of_mem _ b, c⟩)
    · exact Or.inr (Or.inr ⟨by rw [← e]; exact a, by rw [← e]; exact b⟩)
  · -- skip
    intro pre s t env h hs hp
    refine ⟨hI.skip h.1 hs hp, ?_⟩
    have hl : s.l ≠ os.l := by
      intro hl
      obtain ⟨-, -, -, e⟩ := hfront h hs hl
      obtain ⟨pr, e1, -⟩ := envAt_opening (sched := sched) e hs hl
      rw [hp] at e1; cases e1
    have e0 : pre ++ [s] ++ t = pre ++ s :: t := by simp
    have hcs : cs ∈ s :: t → cs ∈ t := fun hm => (List.mem_cons.mp hm).resolve_left fun e => by rw [e, hs] at hc; exact absurd hc (by decide)
    rcases h.2 with ⟨a, b, c⟩ | ⟨a, b, c⟩ | ⟨a, b⟩
    · exact Or.inl ⟨(List.mem_cons.mp a).resolve_left fun e => hl (by rw [e]), hcs b, envAt_pairing c s⟩
    · exact Or.inr (Or.inl ⟨by rw [e0]; exact a, hcs b, envAt_pairing c s⟩)
    · exact Or.inr (Or.inr ⟨by rw [e0]; exact a, by rw [e0]; exact b⟩)
  · -- opening
    intro pre s t env pr h hs hp
    refine ⟨hI.opening h.1 hs hp, ?_⟩
    by_cases hl : s.l = os.l
    · obtain ⟨he, h1, h2, h3⟩ := hfront h hs hl
      obtain ⟨pr', e1, e2⟩ := envAt_opening (sched := sched) h3 hs hl
      have e3 : pr.closing = cs := by rw [hp] at e1; injection e1 with e1; rw [e1]; exact e2
      have e4 : (openingClass s pr.closing).1 = k := by rw [e3, he]; exact hn0
      right; left
      refine ⟨⟨{ s with clz := (openingClass s pr.closing).1 }, by simp, ?_, ?_, e4⟩, List.mem_cons_of_mem _ h2, ?_⟩
      · show s.l ≤ os.l; omega
      · show os.r ≤ s.r; rw [he]; exact Nat.le_refl _
      · have := envAt_change (sched := sched) (envAt_pairing (sched := sched) h3 s) { s with clz := (openingClass s pr.closing).1 }
        rw [if_pos (show s.l = os.l from hl), e4] at this
        rw [e4]
        exact this
    · have hch : ∀ {kk}, EnvAt T o os cs kk env → EnvAt T o os cs kk ((scannerEnv T o sched).change ((scannerEnv T o sched).pairing env s).2
          { s with clz := (openingClass s pr.closing).1 }) := by
        intro kk hE
        have := envAt_change (sched := sched) (envAt_pairing (sched := sched) hE s) { s with clz := (openingClass s pr.closing).1 }
        rwa [if_neg (show ¬ s.l = os.l from hl)] at this
      have hcs : cs ∈ s :: t → cs ∈ { s with clz := (openingClass s pr.closing).1 } :: t := fun hm => List.mem_cons_of_mem _
        ((List.mem_cons.mp hm).resolve_left fun e => by rw [e, hs] at hc; exact absurd hc (by decide))
      rcases h.2 with ⟨a, b, c⟩ | ⟨a, b, c⟩ | ⟨a, b⟩
      · exact Or.inl ⟨List.mem_cons_of_mem _ ((List.mem_cons.mp a).resolve_left fun e => hl (by rw [e])), hcs b, hch c⟩
      · exact Or.inr (Or.inl ⟨hset a (Or.inl hs), hcs b, hch c⟩)
      · exact Or.inr (Or.inr ⟨hset a (Or.inl hs), hset b (Or.inl hs)⟩)
  · -- closing
    intro pre s t env pr h hs hp
    refine ⟨⟨(hI.closing h.1 hs hp).1, ?_⟩, (hI.closing h.1 hs hp).2⟩
    refine (hother h hs).1 fun hE he => ?_
    obtain ⟨pr', e1, e2⟩ := envAt_closing (sched := sched) hE hs (by rw [he])
    rw [hp] at e1
    injection e1 with e1
    rw [e1]; exact e2
  · -- neutral
    intro pre s t env pr h hs hp hni
    refine ⟨hI.neutral h.1 hs hp hni, (hother h hs).2 fun hE he => ?_⟩
    obtain ⟨pr', e1, e2⟩ := envAt_closing (sched := sched) hE hs (by rw [he])
    rw [hp] at e1
    injection e1 with e1
    rw [← e1, hni] at e2
    exact hkn.1 e2.symm
  · -- alone
    intro pre s t env h hs hp
    refine ⟨hI.alone h.1 hs hp, (hother h hs).2 fun hE he => ?_⟩
    obtain ⟨pr', e1, e2⟩ := envAt_closing (sched := sched) hE hs (by rw [he])
    rw [hp] at e1
    cases e1

/-! ### Pass 1 does not touch brackets -/

/-- The scrap is there. -/
def Present (z : Scrap) (pre suf : List Scrap) : Prop := z ∈ pre ++ suf

theorem pick1_notBracket {a : Class} {b c : Option Class} {rule : Rule} (h : pick1 a b c = some rule) :
    a ≠ cBRACKO ∧ a ≠ cBRACKC ∧ (2 ≤ rule.lhsLen → b ≠ some cBRACKO ∧ b ≠ some cBRACKC) ∧ (3 ≤ rule.lhsLen → c ≠ some cBRACKO ∧ c ≠ some cBRACKC) ∧
      rule.lhsLen ≤ 3 := by
  unfold pick1 at h
  repeat' split at h
  all_goals first
    | (cases h; done)
    | (injection h with h; subst h; simp_all [Rule.lhsLen, Rule.lhs, cBRACKO, cBRACKC, cEN, cAN, cES, cET, cCS, cNI]; done)

theorem Inv1.present {P : List Scrap → List Scrap → Prop} {z : Scrap} (hz : IsBr z.clz) (hP : Inv1 P) : Inv1 (fun pre suf => P pre suf ∧ Present z pre suf) where
  known h := hP.known h.1
  closed h := hP.closed h.1
  number h := hP.number h.1
  walk h hp := ⟨hP.walk h.1 hp, by simpa [Present] using h.2⟩
  back h := ⟨hP.back h.1, by simpa [Present] using h.2⟩
  fuse := by
    intro pre s t post rule h hp hne hl
    refine ⟨hP.fuse h.1 hp hne hl, ?_⟩
    obtain ⟨p1, p2, p3, p4, p5⟩ := pick1_notBracket hp
    have hz' := h.2
    unfold Present at hz' ⊢
    simp only [List.mem_append, List.mem_cons] at hz' ⊢
    rcases hz' with hm | (rfl | hm) | hm
    · exact Or.inl hm
    · exfalso; rcases hz with e | e
      · exact p1 e
      · exact p2 e
    · exfalso
      rw [hl] at p3 p4 p5
      match t, hm with
      | [b], hm =>
        rw [List.mem_singleton] at hm; subst hm
        have := p3 (by simp)
        simp only [List.cons_append, List.nil_append, List.getElem?_cons_zero, Option.map_some, ne_eq, Option.some.injEq] at this
        rcases hz with e | e
        · exact this.1 e
        · exact this.2 e
      | [b, d], hm =>
        have q3 := p3 (by simp)
        have q4 := p4 (by simp)
        simp only [List.cons_append, List.nil_append, List.getElem?_cons_zero, List.getElem?_cons_succ, Option.map_some, ne_eq, Option.some.injEq] at q3 q4
        simp only [List.mem_cons, List.not_mem_nil, or_false] at hm
        rcases hm with rfl | rfl <;> rcases hz with e | e
        · exact q3.1 e
        · exact q3.2 e
        · exact q4.1 e
        · exact q4.2 e
      | _ :: _ :: _ :: _, hm => simp at p5
    · exact Or.inr (Or.inr hm)
  w7 := by
    intro pre s t h he hne
    refine ⟨hP.w7 h.1 he hne, ?_⟩
    have hz' := h.2
    unfold Present at hz' ⊢
    simp only [List.mem_append, List.mem_cons] at hz' ⊢
    rcases hz' with hm | rfl | hm
    · exact Or.inl hm
    · rw [he] at hz; exact absurd hz (by unfold IsBr; decide)
    · exact Or.inr (Or.inr hm)

/-! ### Where the brackets are -/

open Spec

theorem prefix_unique {u w u' w' : List Char} {c c' : Char} (h : u ++ c :: w = u' ++ c' :: w') (hl : (utf8 u).length = (utf8 u').length) : u = u' ∧ c = c' ∧ w = w' := by
  rcases List.append_eq_append_iff.mp h with ⟨a, h1, h2⟩ | ⟨a, h1, h2⟩
  · cases a with
    | nil => simp at h1 h2; exact ⟨h1.symm, h2.1, h2.2⟩
    | cons x xs => rw [h1, utf8_append, utf8_len] at hl; have := utf8_pos x; omega
  · cases a with
    | nil => simp at h1 h2; exact ⟨h1, h2.1.symm, h2.2.symm⟩
    | cons x xs => rw [h1, utf8_append, utf8_len] at hl; have := utf8_pos x; omega

theorem brackets_chars {T : Tables} {o : Options} : ∀ (t : List Char) (n : Nat),
    (∀ c pos, Bracket.opening c pos ∈ bracketsOf T o n t → ∃ u x w, t = u ++ x :: w ∧ pos = n + (utf8 u).length ∧ charClass T o x = cBRACKO) ∧
    (∀ r pos, Bracket.closing r pos ∈ bracketsOf T o n t → ∃ u x w, t = u ++ x :: w ∧ pos = n + (utf8 u).length ∧ charClass T o x = cBRACKC) := by
  intro t
  induction t with
  | nil => intro n; exact ⟨fun c pos h => absurd h (by simp [bracketsOf]), fun c pos h => absurd h (by simp [bracketsOf])⟩
  | cons y t ih =>
    intro n
    obtain ⟨i1, i2⟩ := ih (n + (utf8 [y]).length)
    have hgo : ∀ {k pos}, (∃ u x w, t = u ++ x :: w ∧ pos = n + (utf8 [y]).length + (utf8 u).length ∧ charClass T o x = k) →
        ∃ u x w, y :: t = u ++ x :: w ∧ pos = n + (utf8 u).length ∧ charClass T o x = k := by
      rintro k pos ⟨u, x, w, e1, e2, e3⟩
      exact ⟨y :: u, x, w, by rw [e1]; rfl, by rw [e2, utf8_len y u]; omega, e3⟩
    refine ⟨fun c pos h => ?_, fun r pos h => ?_⟩
    · rw [bracketsOf] at h
      split at h
      · rename_i hc
        split at h
        · rw [List.mem_cons] at h
          rcases h with h | h
          · injection h with e1 e2
            exact ⟨[], y, t, rfl, by rw [e2]; rfl, hc⟩
          · exact hgo (i1 c pos h)
        · exact hgo (i1 c pos h)
      · split at h
        · rw [List.mem_cons] at h
          rcases h with h | h
          · cases h
          · exact hgo (i1 c pos h)
        · exact hgo (i1 c pos h)
    · rw [bracketsOf] at h
      split at h
      · split at h
        · rw [List.mem_cons] at h
          rcases h with h | h
          · cases h
          · exact hgo (i2 r pos h)
        · exact hgo (i2 r pos h)
      · split at h
        · rename_i hc
          rw [List.mem_cons] at h
          rcases h with h | h
          · injection h with e1 e2
            exact ⟨[], y, t, rfl, by rw [e2]; rfl, hc⟩
          · exact hgo (i2 r pos h)
        · exact hgo (i2 r pos h)

theorem bd16_brackets (std : Bool) : ∀ (l : List Bracket) (stack : List (Nat × Nat)) (n : Nat), Increasing n l → (∀ x ∈ stack, x.2 < n) →
    ∀ x ∈ bd16 std stack l, (x.1 ∈ stack.map (·.2) ∨ ∃ c, Bracket.opening c x.1 ∈ l) ∧ (∃ r, Bracket.closing r x.2 ∈ l) ∧ x.1 < x.2 := by
  intro l
  induction l with
  | nil => intro stack n _ _ x hx; cases hx
  | cons b l ih =>
    intro stack n hi hs
    cases hi with
    | @opening _ c pos _ h hr =>
      rw [bd16]
      have hskip := ih stack (pos + 1) hr (fun x hx => by have := hs x hx; omega)
      split
      · intro x hx
        obtain ⟨g1, ⟨r, g2⟩, g3⟩ := ih ((c, pos) :: stack) (pos + 1) hr (by
          intro x hx
          rw [List.mem_cons] at hx
          rcases hx with rfl | hx
          · simp
          · have := hs x hx; omega) x hx
        refine ⟨?_, ⟨r, List.mem_cons_of_mem _ g2⟩, g3⟩
        rcases g1 with g1 | ⟨c', g1⟩
        · rw [List.map_cons, List.mem_cons] at g1
          rcases g1 with g1 | g1
          · exact Or.inr ⟨c, by rw [g1]; exact List.mem_cons_self ..⟩
          · exact Or.inl g1
        · exact Or.inr ⟨c', List.mem_cons_of_mem _ g1⟩
      · split
        · intro x hx; cases hx
        · intro x hx
          obtain ⟨g1, ⟨r, g2⟩, g3⟩ := hskip x hx
          exact ⟨g1.imp id fun ⟨c', g⟩ => ⟨c', List.mem_cons_of_mem _ g⟩, ⟨r, List.mem_cons_of_mem _ g2⟩, g3⟩
    | @closing _ r pos _ h hr =>
      rw [bd16]
      cases hd : stack.dropWhile (fun x => if std then canonical x.1 ≠ canonical r else x.1 ≠ r) with
      | nil =>
        dsimp only
        intro x hx
        obtain ⟨g1, ⟨r', g2⟩, g3⟩ := ih stack (pos + 1) hr (fun x hx => by have := hs x hx; omega) x hx
        exact ⟨g1.imp id fun ⟨c', g⟩ => ⟨c', List.mem_cons_of_mem _ g⟩, ⟨r', List.mem_cons_of_mem _ g2⟩, g3⟩
      | cons y below =>
        obtain ⟨c, p⟩ := y
        dsimp only
        have hsub : ((c, p) :: below).Sublist stack := by rw [← hd]; exact List.dropWhile_sublist _
        have hp : p < n := hs (c, p) (hsub.mem (List.mem_cons_self ..))
        intro x hx
        rw [List.mem_cons] at hx
        rcases hx with rfl | hx
        · exact ⟨Or.inl (List.mem_map.mpr ⟨(c, p), hsub.mem (List.mem_cons_self ..), rfl⟩), ⟨r, List.mem_cons_self ..⟩, by show p < pos; omega⟩
        · obtain ⟨g1, ⟨r', g2⟩, g3⟩ := ih below (pos + 1) hr (fun x hx => by
            have := hs x (hsub.mem (List.mem_cons_of_mem _ hx)); omega) x hx
          refine ⟨?_, ⟨r', List.mem_cons_of_mem _ g2⟩, g3⟩
          rcases g1 with g1 | ⟨c', g1⟩
          · exact Or.inl ((hsub.map (·.2)).mem (by rw [List.map_cons]; exact List.mem_cons_of_mem _ g1))
          · exact Or.inr ⟨c', List.mem_cons_of_mem _ g1⟩

/-- A pair of positions is a pair of brackets of the text. -/
theorem pair_split {T : Tables} {o : Options} {std : Bool} {t : List Char} {p q : Nat} (h : (p, q) ∈ bd16 std [] (bracketsOf T o 0 t)) :
    ∃ before a inside b after, t = before ++ a :: (inside ++ b :: after) ∧ p = (utf8 before).length ∧ q = (utf8 (before ++ a :: inside)).length ∧
      charClass T o a = cBRACKO ∧ charClass T o b = cBRACKC := by
  obtain ⟨g1, ⟨r, g2⟩, g3⟩ := bd16_brackets std _ [] 0 (increasing_brackets t 0) (by simp) (p, q) h
  obtain ⟨c, g1⟩ := g1.resolve_left (by simp)
  obtain ⟨u, x, w, e1, e2, e3⟩ := (brackets_chars t 0).1 c p g1
  obtain ⟨u', x', w', f1, f2, f3⟩ := (brackets_chars t 0).2 r q g2
  simp only [Nat.zero_add] at e2 f2 g3
  have h2 : u ++ x :: w = u' ++ x' :: w' := by rw [← e1, ← f1]
  rcases List.append_eq_append_iff.mp h2 with ⟨a, h3, h4⟩ | ⟨a, h3, h4⟩
  · cases a with
    | nil => simp at h3; rw [h3] at f2; omega
    | cons y ys =>
      rw [List.cons_append, List.cons.injEq] at h4
      obtain ⟨rfl, h4⟩ := h4
      exact ⟨u, x, ys, x', w', by rw [e1, h4], e2, by rw [f2, h3], e3, f3⟩
  · rw [h3, utf8_append] at e2
    omega

/-! ### The rule -/

/-- The strong type after a text. -/
def afterText (T : Tables) (o : Options) (w : Class) (t : List Char) : Class := ((classes T o t).filterMap strongType).getLast?.getD w

theorem afterText_cons {T : Tables} {o : Options} (w : Class) (c : Char) (t : List Char) :
    afterText T o w (c :: t) = afterText T o ((strongType (charClass T o c)).getD w) t := by
  unfold afterText
  rw [show classes T o (c :: t) = charClass T o c :: classes T o t from rfl, List.filterMap_cons]
  cases strongType (charClass T o c) with
  | none => rfl
  | some x => rw [List.getLast?_cons]; rfl

theorem strong_letter {c : Class} (h : c = cL ∨ c = cR) : strongType c = some c := by rcases h with rfl | rfl <;> rfl

theorem strong_other {c : Class} (h1 : c ≠ cL) (h2 : c ≠ cR) (h3 : c ≠ cAL) : strongType c = none := by
  unfold strongType
  rw [if_neg h1, if_neg (by rintro (h | h); exact h2 h; exact h3 h)]

theorem afterText_letters {T : Tables} {o : Options} (w : Class) {t : List Char} (h : cAL ∉ classes T o t) : afterText T o w t = (letters T o t).getLast?.getD w := by
  unfold afterText
  congr 2
  unfold letters
  revert h
  induction classes T o t with
  | nil => intro _; rfl
  | cons c cs ih =>
    intro h
    rw [List.mem_cons, not_or] at h
    rw [List.filterMap_cons, ih h.2]
    by_cases h1 : c = cL ∨ c = cR
    · rw [strong_letter h1, List.filter_cons_of_pos (by rcases h1 with rfl | rfl <;> rfl)]
    · rw [not_or] at h1
      rw [strong_other h1.1 h1.2 (fun e => h.1 e.symm), List.filter_cons_of_neg (by simp [h1])]

theorem strongAfter_type {w c : Class} (h : c ≠ cAL) : strongAfter w c = (strongType c).getD w := by
  unfold strongAfter
  by_cases h1 : c = cL ∨ c = cR
  · rw [strong_letter h1, if_pos (by rcases h1 with h | h; exact Or.inl h; exact Or.inr (Or.inl h))]; rfl
  · rw [not_or] at h1
    rw [strong_other h1.1 h1.2 h, if_neg (by rintro (k | k | k); exact h1.1 k; exact h1.2 k; exact h k)]; rfl

theorem numbers_step {w c : Class} {cs : List Class} (h : NumbersLTR w (c :: cs)) (hc : c ≠ cAL) : (c = cEN → w = cL) ∧ NumbersLTR ((strongType c).getD w) cs := by
  refine ⟨fun e => (h [] cs (by rw [e]; rfl)).1, fun pre post e => ?_⟩
  obtain ⟨a, b⟩ := h (c :: pre) post (by rw [e]; rfl)
  unfold lastStrong at a
  rw [List.foldl_cons, strongAfter_type hc] at a
  exact ⟨a, fun hm => b (List.mem_cons_of_mem _ hm)⟩

theorem numbers_after {T : Tables} {o : Options} : ∀ (a b : List Char) (w : Class), cAL ∉ classes T o a → NumbersLTR w (classes T o (a ++ b)) →
    NumbersLTR (afterText T o w a) (classes T o b) := by
  intro a
  induction a with
  | nil => intro b w _ h; exact h
  | cons c a ih =>
    intro b w hal h
    rw [show classes T o (c :: a) = charClass T o c :: classes T o a from rfl, List.mem_cons, not_or] at hal
    rw [afterText_cons]
    exact ih b _ hal.2 (numbers_step h (fun e => hal.1 e.symm)).2

theorem strongTypes_append {T : Tables} {o : Options} {d : Nat → Option Class} : ∀ (a b : List Char) (w : Class) (n : Nat),
    strongTypes T o d w n (a ++ b) = strongTypes T o d w n a ++ strongTypes T o d (afterText T o w a) (n + (utf8 a).length) b := by
  intro a
  induction a with
  | nil => intro b w n; rfl
  | cons c a ih =>
    intro b w n
    rw [List.cons_append, strongTypes, strongTypes, ih, utf8_len c a, List.append_assoc, Nat.add_assoc, afterText_cons]

/-- The types of the first character. -/
theorem strongTypes_cons {T : Tables} {o : Options} {d : Nat → Option Class} {c : Char} {t : List Char} {w : Class} {n : Nat}
    (hal : charClass T o c ≠ cAL) (han : charClass T o c ≠ cAN) (hn : charClass T o c = cEN → w = cL)
    (hd : strongType (charClass T o c) = none → d n = none) :
    (letters T o [c] = [charClass T o c] ∧ strongTypes T o d w n (c :: t) = charClass T o c :: strongTypes T o d (charClass T o c) (n + (utf8 [c]).length) t) ∨
    (letters T o [c] = [] ∧ charClass T o c = cEN ∧ w = cL ∧ strongTypes T o d w n (c :: t) = cL :: strongTypes T o d w (n + (utf8 [c]).length) t) ∨
    (letters T o [c] = [] ∧ strongTypes T o d w n (c :: t) = strongTypes T o d w (n + (utf8 [c]).length) t) := by
  rw [strongTypes]
  by_cases h1 : charClass T o c = cL ∨ charClass T o c = cR
  · left
    refine ⟨letters_one h1, ?_⟩
    have h2 : charClass T o c ≠ cEN := by rcases h1 with h | h <;> rw [h] <;> decide
    unfold typeN0
    rw [if_neg h2, if_neg han, strong_letter h1]
    rfl
  · rw [not_or] at h1
    have hs := strong_other h1.1 h1.2 hal
    right
    by_cases he : charClass T o c = cEN
    · left
      refine ⟨letters_nil h1.1 h1.2, he, hn he, ?_⟩
      rw [hs, hn he]
      unfold typeN0
      rw [if_pos he, if_pos rfl]
      rfl
    · right
      refine ⟨letters_nil h1.1 h1.2, ?_⟩
      unfold typeN0
      rw [if_neg he, if_neg han, hs, hd hs]
      rfl

/-- The last strong type is that of the last letter. -/
theorem strongTypes_last {T : Tables} {o : Options} {d : Nat → Option Class} : ∀ (t : List Char) (w : Class) (n : Nat), cAL ∉ classes T o t → cAN ∉ classes T o t →
    NumbersLTR w (classes T o t) → (∀ u c w, t = u ++ c :: w → strongType (charClass T o c) = none → d (n + (utf8 u).length) = none) →
    (strongTypes T o d w n t).getLast?.getD w = (letters T o t).getLast?.getD w := by
  intro t
  induction t with
  | nil => intro w n _ _ _ _; rfl
  | cons c t ih =>
    intro w n hal han hnum hd
    rw [show classes T o (c :: t) = charClass T o c :: classes T o t from rfl] at hal han hnum
    rw [List.mem_cons, not_or] at hal han
    have hal1 : charClass T o c ≠ cAL := fun e => hal.1 e.symm
    obtain ⟨n1, n2⟩ := numbers_step hnum hal1
    have hih := fun w' hw' => ih w' (n + (utf8 [c]).length) hal.2 han.2 hw' (fun u x w e hx => by
      have := hd (c :: u) x w (by rw [e]; rfl) hx
      rw [utf8_len c u] at this
      rw [Nat.add_assoc]; exact this)
    rw [letters_cons]
    rcases strongTypes_cons (t := t) (d := d) (n := n) hal1 (fun e => han.1 e.symm) n1 (fun h => hd [] c t rfl h) with ⟨e1, e2⟩ | ⟨e1, e2, e3, e4⟩ | ⟨e1, e2⟩
    · have hc : charClass T o c = cL ∨ charClass T o c = cR := by
        by_cases h1 : charClass T o c = cL
        · exact Or.inl h1
        · refine Or.inr (Classical.byContradiction fun h2 => ?_)
          rw [letters_nil h1 h2] at e1; cases e1
      rw [strong_letter hc] at n2
      have := hih _ n2
      rw [e1, e2, List.getLast?_cons, List.singleton_append, List.getLast?_cons]
      show (strongTypes T o d _ _ t).getLast?.getD _ = (letters T o t).getLast?.getD _
      exact this
    · rw [e2] at n2
      have := hih w n2
      rw [e1, e4, List.nil_append, List.getLast?_cons, ← this, e3]
      rfl
    · rw [e1, e2, List.nil_append]
      refine hih w ?_
      have : charClass T o c ≠ cL ∧ charClass T o c ≠ cR := by
        constructor <;> intro h
        · rw [letters_one (Or.inl h)] at e1; cases e1
        · rw [letters_one (Or.inr h)] at e1; cases e1
      rw [strong_other this.1 this.2 hal1] at n2
      exact n2

/-- The strong types are those of the letters, and L if the text begins after L. -/
theorem strongTypes_mem {T : Tables} {o : Options} : ∀ (t : List Char) (w : Class) (n : Nat), cAL ∉ classes T o t → cAN ∉ classes T o t →
    NumbersLTR w (classes T o t) → (∀ x ∈ strongTypes T o (fun _ => none) w n t, x ∈ letters T o t ∨ (x = cL ∧ w = cL)) ∧
    ∀ x ∈ letters T o t, x ∈ strongTypes T o (fun _ => none) w n t := by
  intro t
  induction t with
  | nil =>
    intro w n _ _ _
    constructor <;> intro x hx <;> cases hx
  | cons c t ih =>
    intro w n hal han hnum
    rw [show classes T o (c :: t) = charClass T o c :: classes T o t from rfl] at hal han hnum
    rw [List.mem_cons, not_or] at hal han
    have hal1 : charClass T o c ≠ cAL := fun e => hal.1 e.symm
    obtain ⟨n1, n2⟩ := numbers_step hnum hal1
    have hih := fun w' hw' => ih w' (n + (utf8 [c]).length) hal.2 han.2 hw'
    rw [letters_cons]
    rcases strongTypes_cons (t := t) (d := fun _ => none) (n := n) hal1 (fun e => han.1 e.symm) n1 (fun _ => rfl) with ⟨e1, e2⟩ | ⟨e1, e2, e3, e4⟩ | ⟨e1, e2⟩
    · have hc : charClass T o c = cL ∨ charClass T o c = cR := by
        by_cases h1 : charClass T o c = cL
        · exact Or.inl h1
        · refine Or.inr (Classical.byContradiction fun h2 => ?_)
          rw [letters_nil h1 h2] at e1; cases e1
      rw [strong_letter hc] at n2
      obtain ⟨a1, a2⟩ := hih _ n2
      rw [e1, e2, List.singleton_append]
      constructor
      · intro x hx
        rw [List.mem_cons] at hx ⊢
        rcases hx with rfl | hx
        · exact Or.inl (Or.inl rfl)
        · rcases a1 x hx with h | ⟨h, h'⟩
          · exact Or.inl (Or.inr h)
          · exact Or.inl (Or.inl (by rw [h]; exact h'.symm))
      · intro x hx
        rw [List.mem_cons] at hx ⊢
        exact hx.imp id (a2 x)
    · rw [e2] at n2
      obtain ⟨a1, a2⟩ := hih w n2
      rw [e1, e4, List.nil_append]
      constructor
      · intro x hx
        rw [List.mem_cons] at hx
        rcases hx with rfl | hx
        · exact Or.inr ⟨rfl, e3⟩
        · exact a1 x hx
      · intro x hx
        exact List.mem_cons_of_mem _ (a2 x hx)
    · rw [e1, e2, List.nil_append]
      refine hih w ?_
      have : charClass T o c ≠ cL ∧ charClass T o c ≠ cR := by
        constructor <;> intro h
        · rw [letters_one (Or.inl h)] at e1; cases e1
        · rw [letters_one (Or.inr h)] at e1; cases e1
      rw [strong_other this.1 this.2 hal1] at n2
      exact n2

theorem not_in_part {T : Tables} {o : Options} {x : Class} {a b c : List Char} (h : x ∉ classes T o (a ++ (b ++ c))) : x ∉ classes T o a ∧ x ∉ classes T o b ∧ x ∉ classes T o c := by
  simp only [classes, List.map_append, List.mem_append, not_or] at h ⊢
  exact h

theorem numbers_before {w : Class} {a b : List Class} (h : NumbersLTR w (a ++ b)) : NumbersLTR w a :=
  fun pre post e => h pre (post ++ b) (by rw [e]; simp)

/-- The direction which rule N0 gives to a pair, when the last strong type before is a letter. -/
theorem rule_letters {T : Tables} {o : Options} {t before inside after : List Char} {a b : Char} {d : Nat → Option Class} {c : Class} (hal : cAL ∉ classes T o t)
    (han : cAN ∉ classes T o t) (hnum : NumbersLTR (outer o) (classes T o t))
    (hr : RuleN0 T o t d) (ht : t = before ++ a :: (inside ++ b :: after))
    (hm : ((utf8 before).length, (utf8 (before ++ a :: inside)).length) ∈ bd16 true [] (bracketsOf T o 0 t)) (hd : d (utf8 before).length = some c)
    (hi : letters T o inside ≠ [])
    (hl : outer o ∈ strongTypes T o (fun _ => none) (lastLetter T o before) 0 inside ∨ LetterLast T o before) :
    c = if outer o ∈ letters T o inside ∨ before = [] then outer o else (letters T o before).getLast?.getD cL := by
  have ht' : t = before ++ (([a] ++ inside) ++ b :: after) := by rw [ht]; simp
  obtain ⟨halb, hali, -⟩ := not_in_part (ht' ▸ hal)
  obtain ⟨hanb, hani, -⟩ := not_in_part (ht' ▸ han)
  have hali : cAL ∉ classes T o inside := fun h => hali (List.mem_cons_of_mem _ h)
  have hani : cAN ∉ classes T o inside := fun h => hani (List.mem_cons_of_mem _ h)
  obtain ⟨r1, -⟩ := hr.2 before a inside b after ht hm
  have hbr : charClass T o a = cBRACKO := by
    obtain ⟨b1, x1, i1, y1, a1, k1, k2, k3, k4, k5⟩ := pair_split hm
    rw [(prefix_unique (ht.symm.trans k1) k2).2.1]; exact k4
  have hll : lastLetter T o before = afterText T o (outer o) before := rfl
  have hnb : NumbersLTR (outer o) (classes T o before) := by
    rw [ht] at hnum
    unfold classes at hnum ⊢
    rw [List.map_append] at hnum
    exact numbers_before hnum
  have hni : NumbersLTR (lastLetter T o before) (classes T o inside) := by
    rw [ht] at hnum
    have h1 := numbers_after before _ _ halb hnum
    have h2 := (numbers_step (c := charClass T o a) (cs := classes T o (inside ++ b :: after)) h1 (by rw [hbr]; decide)).2
    rw [hbr] at h2
    change NumbersLTR (afterText T o (outer o) before) _ at h2
    unfold classes at h2 ⊢
    rw [List.map_append] at h2
    exact numbers_before h2
  obtain ⟨m1, m2⟩ := strongTypes_mem inside (lastLetter T o before) 0 hali hani hni
  have hne : strongTypes T o (fun _ => none) (lastLetter T o before) 0 inside ≠ [] := by
    obtain ⟨x, hx⟩ := List.exists_mem_of_ne_nil _ hi
    exact List.ne_nil_of_mem (m2 x hx)
  rw [hd] at r1
  unfold n0 at r1
  by_cases he : outer o ∈ strongTypes T o (fun _ => none) (lastLetter T o before) 0 inside
  · rw [if_pos he] at r1
    rcases m1 _ he with h | ⟨h, h'⟩
    · rw [if_pos (Or.inl h)]
      simpa using r1
    · have r2 : c = outer o := by simpa using r1
      split
      · exact r2
      · rw [hll, afterText_letters _ halb, h] at h'
        rw [r2, h, h']
  · rw [if_neg he, if_neg hne] at r1
    have he' : outer o ∉ letters T o inside := fun h => he (m2 _ h)
    obtain ⟨u, w, e1, e2, e3⟩ := hl.resolve_left he
    have halu : cAL ∉ classes T o u ∧ cAL ∉ classes T o w := by
      rw [e1] at halb
      simpa only [classes, List.map_append, List.mem_append, not_or] using halb
    have hanw : cAN ∉ classes T o w := by
      rw [e1] at hanb
      simp only [classes, List.map_append, List.mem_append, not_or] at hanb
      exact hanb.2
    have hw : (strongTypes T o d (afterText T o (outer o) u) (0 + (utf8 u).length) w).getLast?.getD (afterText T o (outer o) u) =
        (letters T o w).getLast?.getD (afterText T o (outer o) u) := by
      refine strongTypes_last w _ _ halu.2 hanw (numbers_after u w _ halu.1 (by rw [← e1]; exact hnb)) ?_
      intro u2 x w2 f1 f2
      refine hr.1 _ ?_
      intro p q hpq
      obtain ⟨b1, x1, i1, y1, a1, k1, k2, k3, k4, k5⟩ := pair_split hpq
      have hx := e2 x (by rw [f1]; simp)
      have ht2 : t = (u ++ u2) ++ x :: (w2 ++ a :: (inside ++ b :: after)) := by rw [ht, e1, f1]; simp
      constructor
      · intro hp
        have := prefix_unique (ht2.symm.trans k1) (by rw [utf8_append, ← k2]; omega)
        rw [this.2.1] at hx
        exact hx.1 k4
      · intro hq
        have k1' : t = (b1 ++ x1 :: i1) ++ y1 :: a1 := by rw [k1]; simp
        have := prefix_unique (ht2.symm.trans k1') (by rw [utf8_append, ← k3]; omega)
        rw [this.2.1] at hx
        exact hx.2 k5
    have hs : strongTypes T o d (outer o) 0 before = strongTypes T o d (outer o) 0 u ++ strongTypes T o d (afterText T o (outer o) u) (0 + (utf8 u).length) w := by
      rw [e1, strongTypes_append]
    rw [hs] at r1
    generalize strongTypes T o d (afterText T o (outer o) u) (0 + (utf8 u).length) w = sw at r1 hw
    have hc : c = (strongTypes T o d (outer o) 0 u ++ sw).getLast?.getD (outer o) := by simpa using r1
    rcases e3 with ⟨e3, e4⟩ | ⟨v, x, e3, e4⟩
    · subst e3
      rw [List.nil_append] at e1
      subst e1
      change c = sw.getLast?.getD (outer o) at hc
      change sw.getLast?.getD (outer o) = (letters T o before).getLast?.getD (outer o) at hw
      rw [hw] at hc
      by_cases hb : before = []
      · rw [if_pos (Or.inr hb), hc, hb]; rfl
      · rw [if_neg (by simp [he', hb]), hc]
        have : outer o = cL := by unfold outer; rw [e4.resolve_left hb]; rfl
        rw [this]
    · have hb : before ≠ [] := by rw [e1, e3]; simp
      rw [if_neg (by simp [he', hb]), hc, e1, letters_append]
      have hx : charClass T o x = cL ∨ charClass T o x = cR := by
        unfold strongType at e4
        split at e4
        · left; assumption
        · split at e4
          · rename_i h; right
            refine h.resolve_right fun h => halb ?_
            rw [e1, e3, ← h]; simp [classes]
          · exact absurd rfl e4
      have haft : afterText T o (outer o) u = charClass T o x := by
        rw [afterText_letters _ halu.1, e3, letters_append, letters_one hx]
        simp
      rw [haft] at hw
      have hlast : (strongTypes T o d (outer o) 0 u).getLast? = some (charClass T o x) := by
        rw [e3, strongTypes_append, strongTypes, strongTypes]
        have : charClass T o x ≠ cEN ∧ charClass T o x ≠ cAN := by rcases hx with h | h <;> rw [h] <;> decide
        unfold typeN0
        rw [if_neg this.1, if_neg this.2, strong_letter hx]
        simp
      have hlu : (letters T o u).getLast? = some (charClass T o x) := by
        rw [e3, letters_append, letters_one hx]
        simp
      rw [List.getLast?_append, List.getLast?_append, hlast, hlu]
      cases h1 : sw.getLast? <;> cases h2 : (letters T o w).getLast? <;> rw [h1, h2] at hw <;> first | rfl | exact hw

/-! ### The rule can be followed -/

/-- The directions of the brackets among the first characters. -/
def dirsUpTo (T : Tables) (o : Options) (t : List Char) : Nat → Nat → Option Class
  | 0 => fun _ => none
  | n + 1 =>
    let d := dirsUpTo T o t n
    let pos := (utf8 (t.take n)).length
    fun x => if x ≠ pos then d x
      else match (bd16 true [] (bracketsOf T o 0 t)).find? (fun y => y.1 == pos) with
        | some (_, q) =>
          n0 (outer o) (strongTypes T o d (outer o) 0 (t.take n)) (strongTypes T o (fun _ => none) (lastLetter T o (t.take n)) 0
            ((t.take (((List.range t.length).find? fun m => (utf8 (t.take m)).length == q).getD 0)).drop (n + 1)))
        | none => match (bd16 true [] (bracketsOf T o 0 t)).find? (fun y => y.2 == pos) with
          | some (p, _) => d p
          | none => none

/-- The directions of the brackets of a text. -/
def dirsOf (T : Tables) (o : Options) (t : List Char) : Nat → Option Class := dirsUpTo T o t t.length

theorem take_pos {t u w : List Char} {c : Char} (h : t = u ++ c :: w) {m : Nat} (hm : m ≤ u.length) : (utf8 (t.take m)).length ≤ (utf8 u).length ∧
    (m < u.length → (utf8 (t.take m)).length < (utf8 u).length) := by
  have e : t.take m = u.take m := by rw [h, List.take_append_of_le_length hm]
  have e2 := utf8_append (u.take m) (u.drop m)
  rw [List.take_append_drop] at e2
  rw [e]
  refine ⟨by omega, fun hlt => ?_⟩
  cases hd : u.drop m with
  | nil => rw [List.drop_eq_nil_iff] at hd; omega
  | cons x xs => rw [hd, utf8_len x xs] at e2; have := utf8_pos x; omega

theorem take_pos_inj {t u w : List Char} {c : Char} (h : t = u ++ c :: w) {m : Nat} (hm : m < t.length) (he : (utf8 (t.take m)).length = (utf8 u).length) : m = u.length := by
  have h1 : t = t.take m ++ t[m] :: t.drop (m + 1) := by
    rw [← List.drop_eq_getElem_cons hm, List.take_append_drop]
  have := (prefix_unique (h1.symm.trans h) he).1
  rw [← this, List.length_take]
  omega

/-- Later characters change nothing. -/
theorem dirsUpTo_stable {T : Tables} {o : Options} {t u w : List Char} {c : Char} (h : t = u ++ c :: w) : ∀ n, n ≤ t.length → u.length < n →
    dirsUpTo T o t n (utf8 u).length = dirsUpTo T o t (u.length + 1) (utf8 u).length := by
  intro n
  induction n with
  | zero => intro _ h; omega
  | succ n ih =>
    intro hn hu
    by_cases he : n = u.length
    · rw [he]
    · rw [dirsUpTo]
      dsimp only
      rw [if_pos, ih (by omega) (by omega)]
      intro e
      exact he (take_pos_inj h (by omega) e.symm)

/-- Only the positions before matter. -/
theorem strongTypes_agree {T : Tables} {o : Options} {d d' : Nat → Option Class} : ∀ (t : List Char) (v : Class) (n : Nat),
    (∀ u c w, t = u ++ c :: w → d (n + (utf8 u).length) = d' (n + (utf8 u).length)) → strongTypes T o d v n t = strongTypes T o d' v n t := by
  intro t
  induction t with
  | nil => intro v n _; rfl
  | cons c t ih =>
    intro v n h
    have h0 : d n = d' n := h [] c t rfl
    rw [strongTypes, strongTypes, h0, ih _ _ (fun u x w e => ?_)]
    have := h (c :: u) x w (by rw [e]; rfl)
    rw [utf8_len c u] at this
    rw [Nat.add_assoc]
    exact this

theorem dirsUpTo_none {T : Tables} {o : Options} {t : List Char} {x : Nat} (h : ∀ p q, (p, q) ∈ bd16 true [] (bracketsOf T o 0 t) → x ≠ p ∧ x ≠ q) :
    ∀ n, dirsUpTo T o t n x = none := by
  intro n
  induction n with
  | zero => rfl
  | succ n ih =>
    rw [dirsUpTo]
    dsimp only
    split
    · exact ih
    · rename_i he
      have he' : x = (utf8 (t.take n)).length := by simpa using he
      rw [← he']
      have f1 : (bd16 true [] (bracketsOf T o 0 t)).find? (fun y => y.1 == x) = none := by
        rw [List.find?_eq_none]
        rintro ⟨p, q⟩ hy hx
        exact (h p q hy).1 (by simpa using Eq.symm (by simpa using hx))
      have f2 : (bd16 true [] (bracketsOf T o 0 t)).find? (fun y => y.2 == x) = none := by
        rw [List.find?_eq_none]
        rintro ⟨p, q⟩ hy hx
        exact (h p q hy).2 (by simpa using Eq.symm (by simpa using hx))
      rw [f1, f2]

/-- There are directions as rule N0 says. -/
theorem ruleN0_dirs (T : Tables) (o : Options) (t : List Char) : RuleN0 T o t (dirsOf T o t) := by
  refine ⟨fun x hx => dirsUpTo_none hx _, ?_⟩
  intro before a inside b after ht hm
  obtain ⟨d1, d2, -⟩ := bd16_nodup true (bracketsOf T o 0 t) [] 0 (increasing_brackets _ 0) (by simp) (by simp)
  have ht2 : t = (before ++ a :: inside) ++ b :: after := by rw [ht]; simp
  have hlen : before.length + inside.length + after.length + 2 = t.length := by rw [ht]; simp; omega
  have hbr : charClass T o a = cBRACKO ∧ charClass T o b = cBRACKC := by
    obtain ⟨b1, x1, i1, y1, a1, k1, k2, k3, k4, k5⟩ := pair_split hm
    rw [(prefix_unique (ht.symm.trans k1) k2).2.1]
    have k1' : t = (b1 ++ x1 :: i1) ++ y1 :: a1 := by rw [k1]; simp
    rw [(prefix_unique (ht2.symm.trans k1') k3).2.1]
    exact ⟨k4, k5⟩
  have htk : t.take (before ++ a :: inside).length = before ++ a :: inside := by rw [ht2, List.take_left]
  -- the opening bracket
  have hop : dirsOf T o t (utf8 before).length = n0 (outer o) (strongTypes T o (dirsOf T o t) (outer o) 0 before) (strongTypes T o (fun _ => none) (lastLetter T o before) 0 inside) := by
    have e1 : t.take before.length = before := by rw [ht]; simp
    have e2 : (bd16 true [] (bracketsOf T o 0 t)).find? (fun y => y.1 == (utf8 before).length) =
        some ((utf8 before).length, (utf8 (before ++ a :: inside)).length) := by
      cases hf : (bd16 true [] (bracketsOf T o 0 t)).find? (fun y => y.1 == (utf8 before).length) with
      | none =>
        have := List.find?_eq_none.mp hf _ hm
        simp at this
      | some y =>
        have hy := List.find?_some hf
        rw [unique_of_nodup d1 (List.mem_of_find?_eq_some hf) hm (by simpa using hy)]
    have e3 : ((List.range t.length).find? fun m => (utf8 (t.take m)).length == (utf8 (before ++ a :: inside)).length) = some (before ++ a :: inside).length := by
      cases hf : (List.range t.length).find? fun m => (utf8 (t.take m)).length == (utf8 (before ++ a :: inside)).length with
      | none =>
        have := List.find?_eq_none.mp hf (before ++ a :: inside).length (by rw [List.mem_range, ← hlen]; simp; omega)
        rw [htk] at this
        simp at this
      | some m =>
        have hy := List.find?_some hf
        have hr := List.mem_range.mp (List.mem_of_find?_eq_some hf)
        rw [take_pos_inj ht2 hr (by simpa using hy)]
    have e4 : (t.take (before ++ a :: inside).length).drop (before.length + 1) = inside := by
      rw [htk]
      simp
    unfold dirsOf
    rw [dirsUpTo_stable ht _ (Nat.le_refl _) (by omega), dirsUpTo]
    dsimp only
    rw [e1, if_neg (by simp), e2]
    dsimp only
    rw [e3, Option.getD_some, e4]
    congr 1
    refine strongTypes_agree before _ 0 fun u c w e => ?_
    rw [Nat.zero_add]
    have htu : t = u ++ c :: (w ++ a :: (inside ++ b :: after)) := by rw [ht, e]; simp
    have hul : u.length < before.length := by rw [e]; simp
    rw [dirsUpTo_stable htu before.length (by omega) hul, dirsUpTo_stable htu t.length (Nat.le_refl _) (by omega)]
  refine ⟨hop, ?_⟩
  have hl2 : (before ++ a :: inside).length + 1 ≤ t.length := by rw [← hlen]; simp; omega
  have e2 : (bd16 true [] (bracketsOf T o 0 t)).find? (fun y => y.1 == (utf8 (before ++ a :: inside)).length) = none := by
    rw [List.find?_eq_none]
    rintro ⟨p, q⟩ hy hx
    have hx' : p = (utf8 (before ++ a :: inside)).length := by simpa using hx
    obtain ⟨b1, x1, i1, y1, a1, k1, k2, k3, k4, k5⟩ := pair_split hy
    have := (prefix_unique (ht2.symm.trans k1) (by rw [← k2, hx'])).2.1
    rw [← this, hbr.2] at k4
    exact absurd k4 (by decide)
  have e3 : (bd16 true [] (bracketsOf T o 0 t)).find? (fun y => y.2 == (utf8 (before ++ a :: inside)).length) =
      some ((utf8 before).length, (utf8 (before ++ a :: inside)).length) := by
    cases hf : (bd16 true [] (bracketsOf T o 0 t)).find? (fun y => y.2 == (utf8 (before ++ a :: inside)).length) with
    | none =>
      have := List.find?_eq_none.mp hf _ hm
      simp at this
    | some y =>
      have hy := List.find?_some hf
      rw [unique_of_nodup d2 (List.mem_of_find?_eq_some hf) hm (by simpa using hy)]
  unfold dirsOf
  rw [dirsUpTo_stable ht2 _ (Nat.le_refl _) (by omega), dirsUpTo]
  dsimp only
  rw [htk, if_neg (by simp), e2]
  dsimp only
  rw [e3]
  dsimp only
  rw [dirsUpTo_stable ht t.length (Nat.le_refl _) (by omega), dirsUpTo_stable ht _ (by simp at hl2 ⊢; omega) (by simp)]

/-- There are no others. -/
theorem ruleN0_unique {T : Tables} {o : Options} {t : List Char} {d d' : Nat → Option Class} (h : RuleN0 T o t d) (h' : RuleN0 T o t d') : d = d' := by
  have hall : ∀ n x, x < n → d x = d' x := by
    intro n
    induction n with
    | zero => intro x hx; omega
    | succ n ih =>
      intro x hx
      by_cases hp : ∃ p q, (p, q) ∈ bd16 true [] (bracketsOf T o 0 t) ∧ (x = p ∨ x = q)
      · obtain ⟨p, q, hm, he⟩ := hp
        obtain ⟨before, a, inside, b, after, k1, k2, k3, -, -⟩ := pair_split hm
        subst k2 k3
        have g := h.2 before a inside b after k1 hm
        have g' := h'.2 before a inside b after k1 hm
        have hpos : (utf8 before).length < n + 1 := by
          rcases he with he | he
          · omega
          · rw [utf8_append] at he; omega
        have e : d (utf8 before).length = d' (utf8 before).length := by
          rw [g.1, g'.1, strongTypes_agree before _ 0 fun u c w eu => ?_]
          refine ih _ ?_
          rw [eu, utf8_append, utf8_len c w] at hpos
          have := utf8_pos c
          omega
        rcases he with he | he
        · rw [he, e]
        · rw [he, g.2, g'.2, e]
      · have hq : ∀ p q, (p, q) ∈ bd16 true [] (bracketsOf T o 0 t) → x ≠ p ∧ x ≠ q :=
          fun p q hm => ⟨fun e => hp ⟨p, q, hm, Or.inl e⟩, fun e => hp ⟨p, q, hm, Or.inr e⟩⟩
        rw [h.1 x hq, h'.1 x hq]
  exact funext fun x => hall (x + 1) x (Nat.lt_succ_self x)

/-! ### A text with a pair -/

theorem direction_covered {o : Options} {stack : List Scrap} {len : Nat} {z : Scrap} {k : Class} (hk : k = cL ∨ k = cR) (ht : Tiles 0 len stack)
    (hm : ∀ s ∈ stack, s.l ≤ s.r) (hc : Covered z k stack) {pos : Nat} (h1 : z.l ≤ pos) (h2 : pos < z.r) :
    (levelsOf o stack).directionAt pos = dirOfStrong k := by
  obtain ⟨x, x1, x2, x3, x4⟩ := hc
  unfold Levels.directionAt levelsOf
  dsimp only
  rw [List.find?_append]
  cases hf : stack.find? (fun s => s.l ≤ pos && pos < s.r) with
  | none =>
    have := List.find?_eq_none.mp hf x x1
    simp at this
    omega
  | some y =>
    have hy := List.find?_some hf
    simp only [Bool.and_eq_true, decide_eq_true_eq] at hy
    have : y = x := tiles_unique ht hm (List.mem_of_find?_eq_some hf) x1 (by omega) (by omega)
    subst this
    show directionOf y .ltr = _
    unfold directionOf dirOfStrong
    rw [x4]
    rcases hk with rfl | rfl <;> rfl

/-- What becomes of a pair. -/
theorem resolve_pair {T : Tables} {o : Options} (hT : KnownClasses T) (hB : BracketTable T) (ho : o.markup = none) (sched : Nat → Nat) (t : List Char)
    (h1 : Spec.NoIsolates (classes T o (firstParagraph T o t))) (h2 : ∀ c ∈ classes T o (firstParagraph T o t), c ∉ [cAN, cAL]) (h2' : NumbersLTR (outer o) (classes T o (firstParagraph T o t)))
    (h3 : (classes T o (firstParagraph T o t)).head? ≠ some cNSM) (h4 : (utf8 (firstParagraph T o t)).length < 65536)
    {before inside after : List Char} {a b : Char} (ht : firstParagraph T o t = before ++ a :: (inside ++ b :: after))
    (hm : ((utf8 before).length, (utf8 (before ++ a :: inside)).length) ∈ bd16 false [] (bracketsOf T o 0 (firstParagraph T o t)))
    (hne : letters T o inside ≠ []) :
    ∃ N p os cs, resolveParagraph T o sched (utf8 t) N = .returns (levelsOf o p.stack, p) ∧
      os.l = (utf8 before).length ∧ os.r = (utf8 before).length + (utf8 [a]).length ∧
      cs.l = (utf8 (before ++ a :: inside)).length ∧ cs.r = (utf8 (before ++ a :: inside)).length + (utf8 [b]).length ∧
      JointAt T o (utf8 (firstParagraph T o t)).length os cs
        (if outer o ∈ letters T o inside ∨ before = [] then outer o else (letters T o before).getLast?.getD cL) p.stack [] p.env := by
  have hAL : cAL ∉ classes T o (firstParagraph T o t) := fun h => h2 _ h (by decide)
  have hAN : cAN ∉ classes T o (firstParagraph T o t) := fun h => h2 _ h (by decide)
  obtain ⟨fin, f1, f2, f3⟩ := scanner_feeds ho (known_notNull hT) sched (utf8 t)
  have hg := good_text hT t True h1 (numbersLTR_left h2') (fun _ => ⟨hAN, h3⟩)
  have hh := f3 (noIsolates_text t h1)
  -- the handler
  have hperm := pairUp_bd16 hT hB (o := o) (firstParagraph T o t) (initialOuterScrap o false) none [] {} (by intro x hx; cases hx)
  have hop := pairUp_openings (T := T) (o := o) (paragraph T o (runesOf (utf8 t))) (initialOuterScrap o false) none [] {} ⟨by simp, by simp⟩
  have hwi := pairUp_within (T := T) (o := o) (M1 := fun s => s ∈ scrapsOf T o (utf8 t)) (M2 := fun s => s ∈ scrapsOf T o (utf8 t) ∧ s.clz = cBRACKC)
    (paragraph T o (runesOf (utf8 t))) (initialOuterScrap o false) none [] {} ⟨by simp, by simp⟩ (fun s hs => ⟨fun _ => hs, fun h => ⟨hs, h⟩⟩)
  rw [← paragraph_text] at hperm
  have e0 : (initialOuterScrap o false).r = 0 := by unfold initialOuterScrap; split <;> rfl
  rw [e0] at hperm
  change (Handler.found _).Perm ([] ++ bd16 false [] _) at hperm
  rw [List.nil_append] at hperm
  generalize pairUp T o _ (initialOuterScrap o false) none [] {} = h at hh hperm hop hwi
  have hi := feeds_irs (show (newScanner o (utf8 t)).IrsOk by intro x hx; have : x = (0, 0) := by simpa [newScanner] using hx
                                                              subst this; exact Nat.one_pos) f1
  obtain ⟨d1, d2, -⟩ := bd16_nodup false (bracketsOf T o 0 (firstParagraph T o t)) [] 0 (increasing_brackets _ 0) (by simp) (by simp)
  have d1' := (hperm.map (·.1)).nodup_iff.mpr d1
  have d2' := (hperm.map (·.2)).nodup_iff.mpr d2
  have hf := hperm.mem_iff.mpr hm
  unfold Handler.found at hf
  rw [List.mem_map] at hf
  obtain ⟨pr, p1, p2⟩ := hf
  injection p2 with p2 p3
  have hos := (hwi.2 pr p1).1
  have hoc := hop.2 pr p1
  obtain ⟨hcs, hcc⟩ := (hwi.2 pr p1).2
  -- the contexts
  have hall := scraps_ctx hT t h1 h3 hAL (by omega)
  obtain ⟨u, x, w, u1, u2, u3, u4⟩ := hall _ hos (Or.inl hoc)
  obtain ⟨v, y, w', v1, v2, v3, v4⟩ := hall _ hcs (Or.inr hcc)
  obtain ⟨eu, ex, -⟩ := prefix_unique (u1.symm.trans ht) (by rw [← u2, p2])
  have ht2 : firstParagraph T o t = (before ++ a :: inside) ++ b :: after := by rw [ht]; simp
  obtain ⟨ev, ey, -⟩ := prefix_unique (v1.symm.trans ht2) (by rw [← v2, p3])
  rw [eu] at u2 u3 u4; rw [ex] at u3
  rw [ev] at v2 v3 v4; rw [ey] at v3
  have hbr : charClass T o a = cBRACKO := by
    obtain ⟨b1, x1, i1, y1, a1, k1, k2, k3, k4, k5⟩ := pair_split hm
    rw [(prefix_unique (ht.symm.trans k1) k2).2.1]; exact k4
  have hn0 := opening_n0 u4 v4 (Or.inl hbr) u2 hne
  generalize hk : (if outer o ∈ letters T o inside ∨ before = [] then outer o else (letters T o before).getLast?.getD cL) = k at hn0 ⊢
  have hkc : k = cL ∨ k = cR := by
    rw [← hk]
    split
    · rcases outer_cases o with ⟨q, -⟩ | ⟨q, -⟩
      · exact Or.inl q
      · exact Or.inr q
    · cases hg : (letters T o before).getLast? with
      | none => exact Or.inl rfl
      | some x => exact letters_mem (List.mem_of_getLast? hg)
  have hpa := utf8_pos a
  have hpb := utf8_pos b
  have hJ := joint_inv T o sched (utf8 (firstParagraph T o t)).length (os := pr.opening) (cs := pr.closing) hoc hcc hkc hn0 (by omega)
    (by rw [u3, v2, utf8_append, utf8_len a inside]; omega) (by omega)
  have hstart : ∀ ys, (Good1 True (utf8 (firstParagraph T o t)).length ys [] ∧ Present pr.opening ys []) ∧ Present pr.closing ys [] →
      JointAt T o (utf8 (firstParagraph T o t)).length pr.opening pr.closing k [] (initialOuterScrap o true :: ys) (fin, 0) := by
    intro ys hy
    have hA : AtRest T o (fin, 0) := ⟨ended_atRest f2, by
      intro x hx
      rw [hh, List.mem_singleton] at hx
      subst hx
      intro p hp
      exact ⟨Or.inr (hop.2 p hp), trivial⟩⟩
    refine ⟨⟨⟨good2_start o hy.1.1, ?_⟩, hA, hA⟩, Or.inl ⟨?_, ?_, ended_atRest f2, hi, h, hh, d1', d2', pr, p1, rfl, rfl, hoc⟩⟩
    · intro s hs
      simp only [List.nil_append, List.mem_cons] at hs
      rcases hs with rfl | hs
      · have hi := initial_fine True o
        exact ⟨fun _ => by rw [hi.2.2.1, hi.2.2.2], hi.1.2.1⟩
      · have hf := hy.1.1.1 s (by simpa using hs)
        exact ⟨fun h => absurd h (by rw [hf.2]; simp), hf.1.2.1⟩
    · have := hy.1.2
      unfold Present at this
      simp only [List.append_nil] at this
      exact List.mem_cons_of_mem _ this
    · have := hy.2
      unfold Present at this
      simp only [List.append_nil] at this
      exact List.mem_cons_of_mem _ this
  obtain ⟨N, p, e1, e2⟩ := wholeJ (o := o) f1 (((good1_inv True 0 (utf8 (firstParagraph T o t)).length).present (Or.inl hoc)).present (Or.inr hcc)) hJ
    ⟨⟨hg, by simpa [Present] using hos⟩, by simpa [Present] using hcs⟩ hstart (fun hj => by
      have := hj.1.1.1.2.2; simpa using this)
  exact ⟨N, p, pr.opening, pr.closing, e1, u2, u3, v2, v3, e2⟩

end Uax.Bidi
