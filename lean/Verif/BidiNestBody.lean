import Verif.BidiIsoResolve
import Verif.BidiHeaded
import Verif.BidiDirections

/-
The text of an isolate which may contain isolates: what pass 1 and pass 2 keep of its outline.
-/
namespace Uax.Bidi

open Spec

/-- An isolate is after a neutral only where the direction is the one of the paragraph. -/
def Gap (e : Class) (D : List Class) (s s' : Scrap) : Prop := s.clz = cNI → s'.clz = cNI → s'.children ≠ [] → D[s'.l]? = some e

/-! ### Pass 1 -/

/-- What pass 1 keeps of the outline, if there are no separators and terminators. -/
structure Out1 (lo len : Nat) (e : Class) (D B : List Class) (pre suf : List Scrap) : Prop where
  good : Good1At True lo len pre suf
  cls : ∀ s ∈ pre ++ suf, s.clz ∈ [cL, cR, cNI, cEN] ∧ s.e = e ∧ s.l < s.r
  val : (byteClasses (pre ++ suf)).map settle = B
  gap : Linked (Gap e D) suf
  apart : Linked (NotNI e D) (pre ++ suf.take 1)

theorem out1_inv (lo len : Nat) (e : Class) (D B : List Class) : InvO (Out1 lo len e D B) where
  known h := (good1_inv True lo len).known h.good
  closed h := (good1_inv True lo len).closed h.good
  number h := (good1_inv True lo len).number h.good
  walk := by
    intro pre s o t h ho hp
    refine ⟨?_, by simpa using h.cls, by simpa using h.val, ?_, ?_⟩
    · obtain ⟨g1, g2, g3, g4⟩ := h.good
      refine ⟨by simpa using g1, by simpa using g2, by simpa using g3, ?_⟩
      intro x hx
      rw [List.mem_append, List.mem_singleton] at hx
      rcases hx with hx | rfl
      · exact g4 x hx
      · simp [weakClass, pick1_none hp]
    · have := h.gap
      rw [← List.singleton_append, linked_append] at this
      exact this.2.1
    · have ha := h.apart
      rw [List.take_succ_cons, List.take_zero] at ha
      rw [linked_append]
      refine ⟨ha, by cases o <;> trivial, ?_⟩
      intro x hx y hy hxn hyn
      rw [List.getLast?_append, List.getLast?_singleton, Option.some_or, Option.mem_def, Option.some.injEq] at hx
      subst hx
      have hyo : o.head? = some y := by
        cases o with
        | nil => cases hy
        | cons z o => exact hy
      cases ho with
      | nil => cases hyo
      | plain hs ho =>
        rw [List.head?_cons, Option.some.injEq] at hyo
        subst hyo
        rw [hxn, List.getElem?_cons_zero, Option.map_some, hyn] at hp
        exact absurd hp (by simp [pick1, cNI, cEN, cAN, cET, cES, cCS])
      | iso hk ha' hz hb hev h1 hin h2 ho =>
        have hg := h.gap
        rw [List.head?_cons, Option.some.injEq] at hyo
        rw [← hyo] at hyn ⊢
        exact hg.1 hxn hyn (by simp [isoScrap])
  back := by
    intro pre x suf h
    refine ⟨(good1_inv True lo len).back h.good, by simpa using h.cls, by simpa using h.val, ?_, ?_⟩
    · have ha := h.apart
      rw [← List.singleton_append, linked_append]
      refine ⟨trivial, h.gap, ?_⟩
      intro y hy z hz hyn hzn _
      rw [linked_append] at ha
      refine ha.2.2 y ?_ z ?_ hyn hzn
      · rw [List.getLast?_append, List.getLast?_singleton, Option.some_or]
        exact hy
      · cases suf with
        | nil => cases hz
        | cons w suf => exact hz
    · have ha := h.apart
      rw [linked_append] at ha
      exact ha.1
  fuse := by
    intro pre s t post rule h hp hne hl
    have hgood := (good1_inv True lo len).fuse h.good hp hne hl
    have hcls := h.cls s (by simp)
    have han : s.clz ≠ cAN := by rintro hh; rw [hh] at hcls; exact absurd hcls.1 (by decide)
    have hin : ∀ x, (t ++ post)[0]?.map (·.clz) = some x → x ∈ [cL, cR, cNI, cEN] := by
      intro x hx
      rw [Option.map_eq_some_iff] at hx
      obtain ⟨y, hy, rfl⟩ := hx
      exact (h.cls y (by
        have := List.mem_of_getElem? hy
        simp only [List.mem_append, List.cons_append, List.mem_cons] at this ⊢
        exact Or.inr (Or.inr this))).1
    rcases pick1_shape han hp hne with ⟨-, -, -, k | k, -⟩ | ⟨k1, ⟨-, k, -⟩ | ⟨k, -, -⟩ | ⟨k3, k4, k5, k6⟩⟩ | ⟨-, -, k3, -⟩
    · exact absurd (hin _ k) (by decide)
    · exact absurd (hin _ k) (by decide)
    · exact absurd (hin _ k) (by decide)
    · rw [k] at hcls; exact absurd hcls.1 (by decide)
    · rw [k1] at hl
      obtain ⟨u, rfl⟩ : ∃ u, t = [u] := by
        match t, hl with
        | [u], _ => exact ⟨u, rfl⟩
      · have k4 : u.clz = cNI := Option.some.inj k4
        have hu := h.cls u (by simp)
        obtain ⟨m, -, htl⟩ := tiles_append.mp (h.good.2.2.1 trivial)
        have hsu : u.l = s.r := htl.2.1
        have hc : (Bidi.fuse (target rule) [s, u]).clz = cNI := k5
        have hfl : (Bidi.fuse (target rule) [s, u]).l = s.l := rfl
        have hfr : (Bidi.fuse (target rule) [s, u]).r = u.r := rfl
        refine ⟨hgood, ?_, ?_, ?_, ?_⟩
        · intro x hx
          rw [List.mem_append, List.mem_cons] at hx
          rcases hx with hx | rfl | hx
          · exact h.cls x (by simp [hx])
          · exact ⟨by rw [hc]; decide, hcls.2.1, by rw [hfl, hfr]; omega⟩
          · exact h.cls x (by simp [hx])
        · have hv := h.val
          rw [bytes_append, List.cons_append, bytes_cons, List.singleton_append, bytes_cons, k3, k4] at hv
          rw [bytes_append, bytes_cons, hc, hfl, hfr, ← hv]
          have : u.r - s.l = (s.r - s.l) + (u.r - u.l) := by omega
          rw [this, ← List.replicate_append_replicate, List.append_assoc]
        · have hg := h.gap
          rw [show [s, u] ++ post = s :: ([u] ++ post) from rfl, ← List.singleton_append, linked_append, linked_append] at hg
          rw [← List.singleton_append, linked_append]
          refine ⟨trivial, hg.2.1.2.1, ?_⟩
          intro x _ y hy _ hyn hyk
          exact hg.2.1.2.2 u rfl y hy k4 hyn hyk
        · have ha := h.apart
          rw [List.cons_append, List.take_succ_cons, List.take_zero, linked_append] at ha
          rw [List.take_succ_cons, List.take_zero, linked_append]
          refine ⟨ha.1, trivial, ?_⟩
          intro x hx y hy hxn _
          rw [List.head?_cons, Option.mem_def, Option.some.injEq] at hy
          rw [← hy, hfl]
          exact ha.2.2 x hx s rfl hxn k3
    · have := hcls.1
      simp only [List.mem_cons, List.not_mem_nil, or_false] at k3
      rcases k3 with k | k | k <;> rw [k] at this <;> exact absurd this (by decide)
  w7 := by
    intro pre s t h he hne
    refine ⟨(good1_inv True lo len).w7 h.good he hne, ?_, ?_, ?_, ?_⟩
    · intro x hx
      rw [List.mem_append, List.mem_cons] at hx
      rcases hx with hx | rfl | hx
      · exact h.cls x (by simp [hx])
      · exact ⟨show cL ∈ [cL, cR, cNI, cEN] by decide, (h.cls s (by simp)).2⟩
      · exact h.cls x (by simp [hx])
    · have hv := h.val
      rw [bytes_append, bytes_cons, List.map_append, List.map_append, List.map_replicate, he] at hv
      rw [bytes_append, bytes_cons, List.map_append, List.map_append, List.map_replicate]
      exact hv
    · have hg := h.gap
      rw [← List.singleton_append, linked_append] at hg
      rw [← List.singleton_append, linked_append]
      refine ⟨trivial, hg.2.1, ?_⟩
      intro x hx y _ hxn
      rw [List.getLast?_singleton, Option.mem_def, Option.some.injEq] at hx
      rw [← hx] at hxn
      exact absurd hxn (show cL ≠ cNI by decide)
    · have ha := h.apart
      rw [List.take_succ_cons, List.take_zero, linked_append] at ha
      rw [List.take_succ_cons, List.take_zero, linked_append]
      refine ⟨ha.1, trivial, ?_⟩
      intro x _ y hy _ hyn
      rw [List.head?_cons, Option.mem_def, Option.some.injEq] at hy
      rw [← hy] at hyn
      exact absurd hyn (show cL ≠ cNI by decide)

/-! ### Two properties at once -/

/-- Pass 1 keeps a property together with one which holds under a condition. -/
theorem InvO.when {P P' : List Scrap → List Scrap → Prop} (hP : InvO P) (H : Prop) (hP' : InvO P') : InvO (fun pre suf => P pre suf ∧ (H → P' pre suf)) where
  known h := hP.known h.1
  closed h := hP.closed h.1
  number h := hP.number h.1
  walk h ho hp := ⟨hP.walk h.1 ho hp, fun hh => hP'.walk (h.2 hh) ho hp⟩
  back h := ⟨hP.back h.1, fun hh => hP'.back (h.2 hh)⟩
  fuse h hp hne hl := ⟨hP.fuse h.1 hp hne hl, fun hh => hP'.fuse (h.2 hh) hp hne hl⟩
  w7 h he hne := ⟨hP.w7 h.1 he hne, fun hh => hP'.w7 (h.2 hh) he hne⟩

/-- Pass 2 keeps a property together with one which holds under a condition. -/
theorem Inv2.when {σ : Type} {E : Env σ} {Q Q' : List Scrap → List Scrap → Prop} {G : σ → Prop} (hQ : Inv2 E Q G) (H : Prop) (hQ' : Inv2 E Q' G) :
    Inv2 E (fun pre suf => Q pre suf ∧ (H → Q' pre suf)) G where
  known h := hQ.known h.1
  closed h := hQ.closed h.1
  emb h := hQ.emb h.1
  walk h hb hp := ⟨hQ.walk h.1 hb hp, fun hh => hQ'.walk (h.2 hh) hb hp⟩
  back h := ⟨hQ.back h.1, fun hh => hQ'.back (h.2 hh)⟩
  n1 h hc ha hb hd := ⟨hQ.n1 h.1 hc ha hb hd, fun hh => hQ'.n1 (h.2 hh) hc ha hb hd⟩
  same h hc ha hb := ⟨hQ.same h.1 hc ha hb, fun hh => hQ'.same (h.2 hh) hc ha hb⟩
  absorb h ha hb hd := ⟨hQ.absorb h.1 ha hb hd, fun hh => hQ'.absorb (h.2 hh) ha hb hd⟩
  n2 h hs := ⟨fun e => ⟨(hQ.n2 h.1 hs).1 e, fun hh => (hQ'.n2 (h.2 hh) hs).1 e⟩,
    fun pre' x e => ⟨(hQ.n2 h.1 hs).2 pre' x e, fun hh => (hQ'.n2 (h.2 hh) hs).2 pre' x e⟩⟩
  skip h hs := ⟨hQ.skip h.1 hs, fun hh => hQ'.skip (h.2 hh) hs⟩
  opening h g hs hp := ⟨⟨(hQ.opening h.1 g hs hp).1, fun hh => (hQ'.opening (h.2 hh) g hs hp).1⟩, (hQ.opening h.1 g hs hp).2⟩
  closing h g hs hp := ⟨hQ.closing h.1 g hs hp, fun hh => hQ'.closing (h.2 hh) g hs hp⟩
  alone h hs := ⟨hQ.alone h.1 hs, fun hh => hQ'.alone (h.2 hh) hs⟩
  pair := hQ.pair

/-- What pass 2 begins with. -/
theorem out1_ex2 {lo len : Nat} {e : Class} {D B : List Class} {ys : List Scrap} (hy : Out1 lo len e D B ys []) (hD : D.drop lo = n12 e e B) : Ex2 lo len e D [] ys := by
  refine ⟨?_, ?_, by simp, ?_, ?_, ?_⟩
  · intro s hs
    rw [List.nil_append] at hs
    obtain ⟨c1, c2⟩ := hy.cls s (by simpa using hs)
    have hw := hy.good.2.2.2 s hs
    simp only [weakClass, Bool.or_eq_false_iff, beq_eq_false_iff_ne] at hw
    simp only [List.mem_cons, List.not_mem_nil, or_false] at c1
    rcases c1 with k | k | k | k
    · exact ⟨Or.inl k, c2⟩
    · exact ⟨Or.inr (Or.inl k), c2⟩
    · exact ⟨Or.inr (Or.inr k), c2⟩
    · exact absurd k hw.1.1.1
  · simpa using hy.good.2.2.1 trivial
  · rw [List.nil_append, show byteClasses ys = byteClasses (ys ++ []) by rw [List.append_nil], hy.val, hD]
  · simpa using hy.apart
  · intro s t _ _ x hx
    cases hx

/-- What pass 2 ends with. -/
theorem ex2_done {lo len : Nat} {e : Class} {D B : List Class} {ys : List Scrap} (hx : Ex2 lo len e D ys []) (hD : D.drop lo = n12 e e B) :
    Tiles lo len ys ∧ (∀ s ∈ ys, (s.clz = cL ∨ s.clz = cR) ∧ s.l < s.r) ∧ byteClasses ys = n12 e e B := by
  obtain ⟨c, tl, st, v, -, -⟩ := hx
  rw [List.append_nil] at c tl v
  have hst : ∀ s ∈ ys, (s.clz = cL ∨ s.clz = cR) ∧ s.l < s.r := by
    intro s hs
    refine ⟨?_, (c s hs).2.2⟩
    rcases (c s hs).1 with k | k | k
    · exact Or.inl k
    · exact Or.inr k
    · exact absurd k (st s hs)
  refine ⟨tl, hst, ?_⟩
  have hm : ∀ c ∈ byteClasses ys, c = cL ∨ c = cR := by
    intro c hc
    obtain ⟨x, hx, rfl⟩ := bytes_mem hc
    exact (hst x hx).1
  have hid : (byteClasses ys).map settle = byteClasses ys := by
    conv => rhs; rw [← List.map_id (byteClasses ys)]
    exact List.map_congr_left fun c hc => settle_strong (hm c hc)
  rw [hid, hD] at v
  have := n12_strong e (byteClasses ys) [] e hm
  rw [List.append_nil, show n12 e _ [] = [] from rfl, List.append_nil] at this
  rw [← v, this]

/-- The text of an isolate is resolved, if it has a good outline. If there are only letters, numbers and
neutrals, then its directions are those of the outline. -/
theorem inner_nest {tile H : Prop} {a z : Scrap} {body obody : List Scrap} {K : List (List Scrap)} {B : List Class} (ha : a.clz = cLRI ∨ a.clz = cRLI) (hae : a.e = cL ∨ a.e = cR)
    (hak : NoKids a) (hal : a.l ≤ a.r) (ho : Outline body obody) (hb : Good1K tile a.r z.l K [] obody) (hbr : ∀ s ∈ obody, NoBracket s)
    (hD : H → Out1 a.r z.l a.e (List.replicate a.r a.e ++ n12 a.e a.e B) B [] obody) :
    ∃ ys zs, Red true (a :: body) 1 (a :: ys) ∧ (∀ x ∈ a :: ys, Inner x) ∧ Settles (a :: ys) zs ∧ zs ≠ [] ∧ (tile → Tiles a.l z.l zs) ∧
      kidsOf zs = K ∧ (tile → ∀ s ∈ zs, Housed s) ∧ (∃ mid, zs = a :: mid ∧
        (H → (∀ s ∈ mid, (s.clz = cL ∨ s.clz = cR) ∧ s.l < s.r) ∧ byteClasses mid = n12 a.e a.e B)) ∧ Linked Differ zs ∧ ∀ s ∈ zs, s.clz ≠ cNI := by
  have hdrop : (List.replicate a.r a.e ++ n12 a.e a.e B).drop a.r = n12 a.e a.e B := List.drop_left' (List.length_replicate ..)
  have hI1 : InvO (fun pre suf => Good1K tile a.r z.l K pre suf ∧ AllOf NoBracket pre suf) := by
    have hP := (good1K_inv tile a.r z.l K).keeps noBracket_keeps
    exact ⟨hP.known, hP.closed, hP.number, fun h _ hp => ⟨good1K_stroll h.1 (by simp [weakClass, pick1_none hp]), by simpa [AllOf] using h.2⟩, hP.back, hP.fuse, hP.w7⟩
  obtain ⟨ys, h1, os', ho', ⟨h2, h3⟩, h4⟩ := pass1_iso_total (hI1.when H (out1_inv a.r z.l a.e (List.replicate a.r a.e ++ n12 a.e a.e B) B)).text a _ [] body (Nat.le_refl _)
    ⟨obody, ho, ⟨hb, by simpa [AllOf] using hbr⟩, hD⟩
  cases ho'
  have hac : a.clz < 28 ∧ a.clz ≠ cEN ∧ a.clz ≠ cPDI ∧ isBracket a = false ∧ isIsolate a = true ∧ a.clz ≠ cAN := by
    unfold isBracket isIsolate
    rcases ha with ha | ha <;> rw [ha] <;> decide
  have hyf : ∀ s ∈ ys, Fine tile s ∧ s.clz ≠ cEN := by
    intro s hs
    refine ⟨(h2.1.1 s (by simpa using hs)).1, ?_⟩
    intro he
    have := h2.1.2.2.2 s hs
    simp [weakClass, he] at this
  have hg : Good2K tile a.l z.l K [] (a :: ys) := by
    refine ⟨⟨?_, fun ht => ⟨rfl, by simpa using h2.1.2.2.1 ht⟩, by simp⟩, ?_, fun ht => ?_⟩
    · intro s hs
      simp only [List.nil_append, List.mem_cons] at hs
      rcases hs with rfl | hs
      · exact ⟨⟨hac.1, hae, hac.2.2.1, fun _ => ⟨hac.2.2.2.2.2, Or.inl ⟨hac.2.2.2.2.1, hal⟩⟩⟩, hac.2.1⟩
      · exact hyf s hs
    · have := h2.2.1
      rw [List.append_nil] at this
      rw [← this]
      simp [kidsOf, show a.children = [] from hak]
    · intro s hs
      simp only [List.nil_append, List.mem_cons] at hs
      rcases hs with rfl | hs
      · intro run hr
        rw [show s.children = [] from hak] at hr; cases hr
      · exact h2.2.2 ht s (by simpa using hs)
  have hnb : AllOf Unpaired [] (a :: ys) := by
    intro s hs
    rw [List.nil_append, List.mem_cons] at hs
    rcases hs with rfl | hs
    · exact ⟨hac.2.2.2.1, hae⟩
    · exact ⟨h3 s (by simpa using hs), (hyf s hs).1.2.1⟩
  have hstart : H → Good2At True a.l z.l [] (a :: ys) ∧ Shape a.r z.l a.e (List.replicate a.r a.e ++ n12 a.e a.e B) a [] (a :: ys) := by
    intro hh
    have hy := h4 hh
    refine ⟨⟨?_, fun _ => ⟨rfl, by simpa using hy.good.2.2.1 trivial⟩, by simp⟩, Or.inl ⟨rfl, ys, rfl, out1_ex2 hy hdrop⟩⟩
    intro s hs
    simp only [List.nil_append, List.mem_cons] at hs
    rcases hs with rfl | hs
    · exact ⟨⟨hac.1, hae, hac.2.2.1, fun _ => ⟨hac.2.2.2.2.2, Or.inl ⟨hac.2.2.2.2.1, hal⟩⟩⟩, hac.2.1⟩
    · exact ⟨(hy.good.1 s (by simpa using hs)).1, (hyf s hs).2⟩
  obtain ⟨N, q, e1, ⟨⟨⟨⟨⟨⟨e2, e7⟩, -⟩, e5⟩, e4⟩, -⟩, e6⟩, e3, -⟩ := pass2B_total ((((good2K_inv dead_brackets tile a.l z.l K).when H
    (shape_inv dead_brackets a.l a.r z.l hae (List.replicate a.r a.e ++ n12 a.e a.e B) ha)).decided).headed ha).unlike _ [] (a :: ys)
    { stack := a :: ys, sp := 0, eof := true, depth := 0, env := () } (Nat.le_refl _) ⟨⟨⟨⟨⟨⟨hg, hstart⟩, hnb⟩, by simp⟩, ⟨ys, rfl⟩⟩, trivial, trivial⟩, trivial⟩ rfl rfl
  obtain ⟨mid, e4⟩ : ∃ mid, q.stack = a :: mid := by simpa [Headed] using e4
  refine ⟨ys, q.stack, by simpa using h1, ?_, ⟨N, q, e1, rfl, e3⟩, by simpa using e2.1.2.2, fun ht => by simpa using e2.1.2.1 ht,
    by simpa using e2.2.1, fun ht => by simpa using e2.2.2 ht, ⟨mid, e4, fun hh => ?_⟩, unlike_left e6, e5⟩
  rotate_left
  · rcases (e7 hh).2 with ⟨-, w, h, -⟩ | ⟨w, h, hx, -⟩
    · cases h
    · rw [e4, List.cons.injEq] at h
      rw [h.2]
      exact (ex2_done hx hdrop).2
  intro x hx
  rw [List.mem_cons] at hx
  rcases hx with rfl | hx
  · exact ⟨hac.1, hac.2.1, hac.2.2.1, hac.2.2.2.1, hae⟩
  · obtain ⟨f1, f2⟩ := hyf x hx
    exact ⟨f1.1, f2, f1.2.2.1, h3 x (by simpa using hx), f1.2.1⟩

end Uax.Bidi
