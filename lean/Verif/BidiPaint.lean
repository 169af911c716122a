import Verif.BidiN0

/-
Directions of texts with bracket pairs: both passes of the parser, seen with
the brackets in the classes which rule N0 gives them.
-/
namespace Uax.Bidi
open Spec

/-! ### Brackets in their final classes -/

/-- A bracket with the class it will get. -/
def painted (d : Nat → Option Class) (s : Scrap) : Scrap := if s.clz = cBRACKO ∨ s.clz = cBRACKC then { s with clz := (d s.l).getD cL } else s

/-- All these classes are directions. -/
def Strongs (d : Nat → Option Class) : Prop := ∀ x, (d x).getD cL = cL ∨ (d x).getD cL = cR

theorem painted_other {d : Nat → Option Class} {s : Scrap} (h : ¬ IsBr s.clz) : painted d s = s := if_neg h

theorem painted_bracket {d : Nat → Option Class} {s : Scrap} (h : IsBr s.clz) : painted d s = { s with clz := (d s.l).getD cL } := if_pos h

theorem painted_map {d : Nat → Option Class} {l : List Scrap} (h : ∀ s ∈ l, ¬ IsBr s.clz) : l.map (painted d) = l := by
  conv => rhs; rw [← List.map_id l]
  exact List.map_congr_left fun s hs => painted_other (h s hs)

theorem painted_l (d : Nat → Option Class) (s : Scrap) : (painted d s).l = s.l ∧ (painted d s).r = s.r ∧ (painted d s).e = s.e ∧
    (painted d s).ctx = s.ctx ∧ (painted d s).children = s.children := by
  unfold painted; split <;> exact ⟨rfl, rfl, rfl, rfl, rfl⟩

/-- The class, or a direction instead of a bracket. -/
theorem painted_clz {d : Nat → Option Class} (hd : Strongs d) (s : Scrap) :
    (¬ IsBr s.clz ∧ (painted d s).clz = s.clz) ∨ (IsBr s.clz ∧ ((painted d s).clz = cL ∨ (painted d s).clz = cR)) := by
  by_cases h : IsBr s.clz
  · rw [painted_bracket h]; exact Or.inr ⟨h, hd _⟩
  · rw [painted_other h]; exact Or.inl ⟨h, rfl⟩

theorem painted_iff {d : Nat → Option Class} (hd : Strongs d) (s : Scrap) {c : Class} (h1 : c ≠ cL) (h2 : c ≠ cR) (h3 : ¬ IsBr c) : (painted d s).clz = c ↔ s.clz = c := by
  rcases painted_clz hd s with ⟨-, h⟩ | ⟨h, k⟩
  · rw [h]
  · constructor
    · intro e
      rw [e] at k
      rcases k with k | k <;> contradiction
    · intro e
      rw [e] at h
      contradiction

theorem pick1_painted {d : Nat → Option Class} (hd : Strongs d) (s : Scrap) (t : List Scrap) :
    pick1 (painted d s).clz ((t.map (painted d))[0]?.map (·.clz)) ((t.map (painted d))[1]?.map (·.clz)) = pick1 s.clz (t[0]?.map (·.clz)) (t[1]?.map (·.clz)) := by
  have ho : ∀ (i : Nat) (c : Class), c ≠ cL → c ≠ cR → ¬ IsBr c → (((t.map (painted d))[i]?.map (·.clz)) = some c ↔ (t[i]?.map (·.clz)) = some c) := by
    intro i c h1 h2 h3
    rw [List.getElem?_map]
    cases t[i]? with
    | none => simp
    | some x =>
      simp only [Option.map_some, Option.some.injEq]
      exact painted_iff hd x h1 h2 h3
  unfold pick1
  simp only [painted_iff hd s (c := cEN) (by decide) (by decide) (by unfold IsBr; decide), painted_iff hd s (c := cAN) (by decide) (by decide) (by unfold IsBr; decide),
    painted_iff hd s (c := cET) (by decide) (by decide) (by unfold IsBr; decide), painted_iff hd s (c := cES) (by decide) (by decide) (by unfold IsBr; decide),
    painted_iff hd s (c := cCS) (by decide) (by decide) (by unfold IsBr; decide), painted_iff hd s (c := cNI) (by decide) (by decide) (by unfold IsBr; decide),
    ho 0 cES (by decide) (by decide) (by unfold IsBr; decide), ho 0 cCS (by decide) (by decide) (by unfold IsBr; decide),
    ho 0 cET (by decide) (by decide) (by unfold IsBr; decide), ho 0 cEN (by decide) (by decide) (by unfold IsBr; decide),
    ho 0 cNI (by decide) (by decide) (by unfold IsBr; decide), ho 1 cEN (by decide) (by decide) (by unfold IsBr; decide),
    ho 1 cAN (by decide) (by decide) (by unfold IsBr; decide)]

theorem target_other (rule : Rule) : ¬ IsBr (target rule) := by unfold IsBr; cases rule <;> decide

/-- The part of a rule's match has no brackets. -/
theorem pick1_segment {s : Scrap} {t post : List Scrap} {rule : Rule} (hp : pick1 s.clz ((t ++ post)[0]?.map (·.clz)) ((t ++ post)[1]?.map (·.clz)) = some rule)
    (hl : rule.lhsLen = (s :: t).length) : ∀ x ∈ s :: t, ¬ IsBr x.clz := by
  obtain ⟨a1, a2, a3, a4, a5⟩ := pick1_notBracket hp
  rw [hl] at a3 a4 a5
  intro x hx hb
  match t, a5 with
  | [], _ =>
    rw [List.mem_singleton] at hx; subst hx
    exact hb.elim a1 a2
  | [u], _ =>
    simp only [List.cons_append, List.getElem?_cons_zero, Option.map_some, ne_eq, Option.some.injEq] at a3
    simp only [List.mem_cons, List.not_mem_nil, or_false] at hx
    rcases hx with rfl | rfl
    · exact hb.elim a1 a2
    · exact hb.elim (a3 (by simp)).1 (a3 (by simp)).2
  | [u, v], _ =>
    simp only [List.cons_append, List.getElem?_cons_zero, List.getElem?_cons_succ, Option.map_some, ne_eq, Option.some.injEq] at a3 a4
    simp only [List.mem_cons, List.not_mem_nil, or_false] at hx
    rcases hx with rfl | rfl | rfl
    · exact hb.elim a1 a2
    · exact hb.elim (a3 (by simp)).1 (a3 (by simp)).2
    · exact hb.elim (a4 (by simp)).1 (a4 (by simp)).2
  | _ :: _ :: _ :: _, h => simp at h

/-- An invariant of pass 1 also for the classes which the brackets will get. -/
theorem Inv1B.painted {d : Nat → Option Class} (hd : Strongs d) {P0 P : List Scrap → List Scrap → Prop} (h0 : Inv1B P0) (hP : Inv1B P) :
    Inv1B (fun pre suf => P0 pre suf ∧ P (pre.map (painted d)) (suf.map (painted d))) where
  known h := h0.known h.1
  closed h := h0.closed h.1
  number h := h0.number h.1
  walk := by
    intro pre s t h hp
    refine ⟨h0.walk h.1 hp, ?_⟩
    have h2 := h.2
    rw [List.map_cons] at h2
    have := hP.walk h2 (by rw [pick1_painted hd]; exact hp)
    simpa using this
  fuse := by
    intro pre s t post rule h hp hne hl
    refine ⟨h0.fuse h.1 hp hne hl, ?_⟩
    have hseg := pick1_segment hp hl
    have h2 := h.2
    have hp2 := hp
    rw [← pick1_painted hd] at hp2
    rw [List.map_append, painted_map hseg] at h2
    rw [List.map_append, painted_map (fun x hx => hseg x (List.mem_cons_of_mem _ hx)), painted_other (hseg s (List.mem_cons_self ..))] at hp2
    have := hP.fuse h2 hp2 hne hl
    rw [List.length_map] at this
    rw [List.map_append, List.map_take, List.map_drop, List.map_cons, painted_other (s := Bidi.fuse (target rule) (s :: t)) (target_other rule)]
    exact this
  w7 := by
    intro pre s t h he hne
    refine ⟨h0.w7 h.1 he hne, ?_⟩
    have h2 := h.2
    rw [List.map_cons, painted_other (by rw [he]; unfold IsBr; decide)] at h2
    have := hP.w7 h2 he (by
      rw [List.getElem?_map]
      cases ht : t[0]? with
      | none => simp
      | some x =>
        rw [ht] at hne
        simp only [Option.map_some, ne_eq, Option.some.injEq] at hne ⊢
        rw [painted_iff hd x (by decide) (by decide) (by unfold IsBr; decide)]
        exact hne)
    rw [List.map_cons, painted_other (s := { s with clz := cL }) (by show ¬ IsBr cL; unfold IsBr; decide)]
    exact this

/-! ### Neutrals before brackets -/

/-- A neutral, separator or terminator before a bracket has the direction of the paragraph. -/
def Before (e : Class) (D : List Class) (s s' : Scrap) : Prop := s.clz ∈ [cNI, cES, cET, cCS] → IsBr s'.clz → D[s'.l - 1]? = some e

/-- The brackets are these. -/
def KeptBr (Z : List Scrap) (pre suf : List Scrap) : Prop := ∀ z : Scrap, IsBr z.clz → (z ∈ pre ++ suf ↔ z ∈ Z)

theorem before_replace {e : Class} {D : List Class} {pre m post : List Scrap} {f : Scrap} (h : Linked (Before e D) (pre ++ (m ++ post))) (hf : ¬ IsBr f.clz)
    (hl : f.clz ∈ [cNI, cES, cET, cCS] → ∃ x ∈ m.getLast?, x.clz ∈ [cNI, cES, cET, cCS]) : Linked (Before e D) (pre ++ f :: post) := by
  rw [linked_append, linked_append] at h
  rw [← List.singleton_append, linked_append, linked_append]
  refine ⟨h.1, ⟨trivial, h.2.1.2.1, ?_⟩, ?_⟩
  · intro x hx y hy hxc hyb
    rw [List.getLast?_singleton, Option.mem_def, Option.some.injEq] at hx
    rw [← hx] at hxc
    obtain ⟨z, hz, hzc⟩ := hl hxc
    exact h.2.1.2.2 z hz y hy hzc hyb
  · intro x hx y hy hxc hyb
    rw [List.singleton_append, List.head?_cons, Option.mem_def, Option.some.injEq] at hy
    rw [← hy] at hyb
    exact absurd hyb hf

theorem kept_replace {Z pre m post : List Scrap} {f : Scrap} (h : KeptBr Z pre (m ++ post)) (hf : ¬ IsBr f.clz) (hm : ∀ x ∈ m, ¬ IsBr x.clz) : KeptBr Z pre (f :: post) := by
  intro z hz
  rw [← h z hz, List.mem_append, List.mem_append, List.mem_append, List.mem_cons]
  constructor
  · rintro (k | rfl | k)
    · exact Or.inl k
    · exact absurd hz hf
    · exact Or.inr (Or.inr k)
  · rintro (k | k | k)
    · exact Or.inl k
    · exact absurd hz (hm z k)
    · exact Or.inr (Or.inr k)

theorem Inv1B.before {Z : List Scrap} {e : Class} {D : List Class} {P : List Scrap → List Scrap → Prop} (hP : Inv1B P)
    (han : ∀ {pre suf}, P pre suf → ∀ s ∈ pre ++ suf, s.clz ≠ cAN) :
    Inv1B (fun pre suf => P pre suf ∧ Linked (Before e D) (pre ++ suf) ∧ KeptBr Z pre suf) where
  known h := hP.known h.1
  closed h := hP.closed h.1
  number h := hP.number h.1
  walk := by
    intro pre s t h hp
    exact ⟨hP.walk h.1 hp, by simpa using h.2.1, by simpa [KeptBr] using h.2.2⟩
  fuse := by
    intro pre s t post rule h hp hne hl
    refine ⟨hP.fuse h.1 hp hne hl, ?_⟩
    rw [KeptBr, ← List.append_assoc, List.take_append_drop]
    have hseg := pick1_segment hp hl
    refine ⟨before_replace h.2.1 (target_other rule) ?_, kept_replace h.2.2 (target_other rule) hseg⟩
    intro hf
    change target rule ∈ _ at hf
    rcases pick1_shape (han h.1 s (by simp)) hp hne with ⟨k1, k2, k3, k4, k5⟩ | ⟨k1, k2⟩ | ⟨k1, k2, k3, k4⟩
    · rw [k2] at hf; exact absurd hf (by decide)
    · rw [k1] at hl
      match t, hl with
      | [u], _ =>
        rcases k2 with ⟨-, -, k⟩ | ⟨-, -, k⟩ | ⟨-, k, -, -⟩
        · rw [k] at hf; exact absurd hf (by decide)
        · rw [k] at hf; exact absurd hf (by decide)
        · simp only [List.cons_append, List.getElem?_cons_zero, Option.map_some, Option.some.injEq] at k
          exact ⟨u, rfl, by rw [k]; decide⟩
    · rw [k1] at hl
      match t, hl with
      | [], _ =>
        refine ⟨s, rfl, List.mem_cons_of_mem _ k3⟩
  w7 := by
    intro pre s t h he hne
    have hl : ¬ IsBr cL := by unfold IsBr; decide
    refine ⟨hP.w7 h.1 he hne, before_replace (m := [s]) (f := { s with clz := cL }) h.2.1 hl ?_, kept_replace (m := [s]) (f := { s with clz := cL }) h.2.2 hl ?_⟩
    · intro hf
      exact absurd (show cL ∈ _ from hf) (by decide)
    · intro x hx
      rw [List.mem_singleton] at hx
      rw [hx, he]; unfold IsBr; decide

/-! ### Pass 2 -/

/-- What is passed lies before the rest. -/
theorem tiles_order {len : Nat} {pre suf : List Scrap} (h : Tiles 0 len (pre ++ suf)) (hp : ∀ s ∈ pre ++ suf, s.l ≤ s.r) {x y : Scrap} (hx : x ∈ pre) (hy : y ∈ suf) :
    x.r ≤ y.l := by
  obtain ⟨m, h1, h2⟩ := tiles_append.mp h
  have a := tiles_mem h1 (fun s hs => hp s (List.mem_append_left _ hs)) hx
  have b := tiles_mem h2 (fun s hs => hp s (List.mem_append_right _ hs)) hy
  omega

section
variable {T : Tables} {o : Options} {len : Nat} {os cs z : Scrap} {k : Class} {pre suf : List Scrap} {env : Scanner × Nat}

theorem covered_clz {b : Scrap} (h : JointAt T o len os cs k pre suf env) (hz : z ∈ pre ++ suf) (hl : z.l = b.l) (hr : z.r = b.r) (hpos : b.l < b.r)
    (hc : Covered b k (pre ++ suf)) : z.clz = k := by
  obtain ⟨t1, t2⟩ := joint_tiles h
  obtain ⟨x, x1, x2, x3, x4⟩ := hc
  rw [tiles_unique t1 t2 hz x1 (by omega) (by omega)]
  exact x4

/-- The class of the opening bracket after its step. -/
theorem joint_open (ho : os.clz = cBRACKO) (hpos : os.l < os.r) (h : JointAt T o len os cs k pre suf env) (hz : z ∈ pre ++ suf) (hl : z.l = os.l) (hr : z.r = os.r)
    (hc : z.clz ≠ cBRACKO ∨ z ∈ pre) : z.clz = k := by
  obtain ⟨t1, t2⟩ := joint_tiles h
  rcases h.2 with ⟨a, -, -⟩ | ⟨a, -, -⟩ | ⟨a, -⟩
  · exfalso
    rcases hc with hc | hc
    · have := tiles_unique t1 t2 hz (List.mem_append_right _ a) (by omega) (by omega)
      rw [this] at hc
      exact hc ho
    · have := tiles_order t1 t2 hc a
      omega
  · exact covered_clz h hz hl hr hpos a
  · exact covered_clz h hz hl hr hpos a

/-- The class of the closing bracket after its step. -/
theorem joint_close (ho : cs.clz = cBRACKC) (hpos : cs.l < cs.r) (h : JointAt T o len os cs k pre suf env) (hz : z ∈ pre ++ suf) (hl : z.l = cs.l) (hr : z.r = cs.r)
    (hc : z.clz ≠ cBRACKC ∨ z ∈ pre) : z.clz = k := by
  obtain ⟨t1, t2⟩ := joint_tiles h
  have hno : cs ∉ suf := by
    intro a
    rcases hc with hc | hc
    · have := tiles_unique t1 t2 hz (List.mem_append_right _ a) (by omega) (by omega)
      rw [this] at hc
      exact hc ho
    · have := tiles_order t1 t2 hc a
      omega
  rcases h.2 with ⟨-, a, -⟩ | ⟨-, a, -⟩ | ⟨-, a⟩
  · exact absurd a hno
  · exact absurd a hno
  · exact covered_clz h hz hl hr hpos a

end

/-- The scraps with the one for the beginning of the run. -/
def Form (len : Nat) (e : Class) (D : List Class) (i : Scrap) (pre suf : List Scrap) : Prop :=
  (pre = [] ∧ ∃ ys, suf = i :: ys ∧ Ex2 0 len e D [] ys) ∨ ∃ pre', pre = i :: pre' ∧ Ex2 0 len e D pre' suf

theorem form_at {len : Nat} {e : Class} {D : List Class} {i s : Scrap} {pre t : List Scrap} (h : Form len e D i pre (s :: t)) (hs : s.clz ≠ i.clz) :
    ∃ pre', pre = i :: pre' ∧ Ex2 0 len e D pre' (s :: t) := by
  rcases h with ⟨-, ys, h1, -⟩ | h
  · rw [List.cons.injEq] at h1
    exact absurd (by rw [h1.1]) hs
  · exact h

theorem form_back {len : Nat} {e : Class} {D : List Class} {i x : Scrap} {pre suf : List Scrap} (h : Form len e D i (pre ++ [x]) suf) : Form len e D i pre (x :: suf) := by
  rcases h with ⟨h1, -⟩ | ⟨pre', h1, h2⟩
  · simp at h1
  · cases pre with
    | nil =>
      simp only [List.nil_append, List.cons.injEq] at h1
      obtain ⟨rfl, rfl⟩ := h1
      exact Or.inl ⟨rfl, suf, rfl, h2⟩
    | cons y pre =>
      simp only [List.cons_append, List.cons.injEq] at h1
      obtain ⟨rfl, rfl⟩ := h1
      exact Or.inr ⟨pre, rfl, ex2_back h2⟩

/-- What is known of a pair. -/
structure PairOk (d : Nat → Option Class) (os cs : Scrap) (k : Class) : Prop where
  op : os.clz = cBRACKO
  cl : cs.clz = cBRACKC
  dir : k = cL ∨ k = cR
  rule : (openingClass os cs).1 = k
  pos1 : os.l < os.r
  lt : os.r ≤ cs.l
  pos2 : cs.l < cs.r
  here : (d os.l).getD cL = k
  there : (d cs.l).getD cL = k

/-- All pairs at once, and the directions of the other bytes. -/
structure AllAt (T : Tables) (o : Options) (len : Nat) (e : Class) (D : List Class) (d : Nat → Option Class) (i : Scrap) (Pr : Scrap → Scrap → Class → Prop)
    (pre suf : List Scrap) (env : Scanner × Nat) : Prop where
  base : (Good2 True len pre suf ∧ AllOf Flat pre suf) ∧ AtRest T o env ∧ AtRest T o env
  pairs : ∀ os cs k, Pr os cs k → JointAt T o len os cs k pre suf env
  next : Linked (Before e D) (pre ++ suf)
  known : ∀ s ∈ pre ++ suf, IsBr s.clz → ∃ os cs k, Pr os cs k ∧ (s = os ∨ s = cs)
  form : Form len e D i (pre.map (painted d)) (suf.map (painted d))

section
variable {T : Tables} {o : Options} {sched : Nat → Nat} {len : Nat} {e : Class} {D : List Class} {d : Nat → Option Class} {i : Scrap} {Pr : Scrap → Scrap → Class → Prop}

theorem known_replace {pre m post : List Scrap} {f : Scrap} (h : ∀ s ∈ pre ++ (m ++ post), IsBr s.clz → ∃ os cs k, Pr os cs k ∧ (s = os ∨ s = cs)) (hf : ¬ IsBr f.clz) :
    ∀ s ∈ pre ++ f :: post, IsBr s.clz → ∃ os cs k, Pr os cs k ∧ (s = os ∨ s = cs) := by
  intro s hs hb
  rw [List.mem_append, List.mem_cons] at hs
  rcases hs with hs | rfl | hs
  · exact h s (List.mem_append_left _ hs) hb
  · exact absurd hb hf
  · exact h s (by rw [List.mem_append, List.mem_append]; exact Or.inr (Or.inr hs)) hb

theorem notBr_of {c : Class} (h : c = cL ∨ c = cR ∨ c = cNI) : ¬ IsBr c := by
  unfold IsBr; rcases h with rfl | rfl | rfl <;> decide

theorem allAt_inv (T : Tables) (o : Options) (sched : Nat → Nat) (len : Nat) {e : Class} (he : e = cL ∨ e = cR) (D : List Class) {d : Nat → Option Class} (hd : Strongs d)
    {i : Scrap} (hi : i.clz = cLRI ∨ i.clz = cRLI) {Pr : Scrap → Scrap → Class → Prop} (hPr : ∀ os cs k, Pr os cs k → PairOk d os cs k) :
    Inv2J (scannerEnv T o sched) (AllAt T o len e D d i Pr) := by
  have hI : Inv2J (scannerEnv T o sched) _ := ((good2_inv (atRest_brackets T o sched) True 0 len).keeps (flat_keeps2 T o sched)).joint
  have hJ : ∀ {os cs k}, Pr os cs k → Inv2J (scannerEnv T o sched) (JointAt T o len os cs k) := fun h =>
    joint_inv T o sched len (hPr _ _ _ h).op (hPr _ _ _ h).cl (hPr _ _ _ h).dir (hPr _ _ _ h).rule (hPr _ _ _ h).pos1 (hPr _ _ _ h).lt (hPr _ _ _ h).pos2
  have hib : ¬ IsBr i.clz := by unfold IsBr; rcases hi with hi | hi <;> rw [hi] <;> decide
  have hpi : ∀ {s : Scrap}, painted d s = i → s = i := by
    intro s h
    by_cases hb : IsBr s.clz
    · exfalso
      rcases painted_clz hd s with ⟨k, -⟩ | ⟨-, k⟩
      · exact k hb
      · rw [h] at k
        rcases k with k | k <;> rcases hi with hi | hi <;> rw [hi] at k <;> exact absurd k (by decide)
    · rwa [painted_other hb] at h
  have hni : ∀ {c : Class}, c = cL ∨ c = cR ∨ c = cNI → c ≠ i.clz := by
    rintro c (rfl | rfl | rfl) <;> rcases hi with hi | hi <;> rw [hi] <;> decide
  -- an opening bracket at the front
  have hfo : ∀ {pre s t env}, AllAt T o len e D d i Pr pre (s :: t) env → s.clz = cBRACKO → ∃ cs k, Pr s cs k := by
    intro pre s t env h hs
    obtain ⟨os, cs, k, h1, rfl | rfl⟩ := h.known s (by simp) (Or.inl hs)
    · exact ⟨cs, k, h1⟩
    · rw [(hPr _ _ _ h1).cl] at hs; exact absurd hs (by decide)
  have hfc : ∀ {pre s t env}, AllAt T o len e D d i Pr pre (s :: t) env → s.clz = cBRACKC → ∃ os k, Pr os s k := by
    intro pre s t env h hs
    obtain ⟨os, cs, k, h1, rfl | rfl⟩ := h.known s (by simp) (Or.inr hs)
    · rw [(hPr _ _ _ h1).op] at hs; exact absurd hs (by decide)
    · exact ⟨os, k, h1⟩
  have hkn : ∀ {os cs k}, Pr os cs k → ¬ IsBr k := fun h => notBr_of ((hPr _ _ _ h).dir.imp id Or.inl)
  -- a bracket gets its class
  have hset : ∀ {pre s t env k}, AllAt T o len e D d i Pr pre (s :: t) env → IsBr s.clz → (d s.l).getD cL = k → ¬ IsBr k →
      Linked (Before e D) (pre ++ { s with clz := k } :: t) ∧ (∀ x ∈ pre ++ { s with clz := k } :: t, IsBr x.clz → ∃ os cs k, Pr os cs k ∧ (x = os ∨ x = cs)) ∧
      Form len e D i (pre.map (painted d)) (({ s with clz := k } :: t).map (painted d)) := by
    intro pre s t env k h hs hk hb
    refine ⟨before_replace (m := [s]) (f := { s with clz := k }) h.next hb ?_, known_replace (m := [s]) h.known hb, ?_⟩
    · intro hf
      exfalso
      have := hd s.l
      rw [hk] at this
      change k ∈ _ at hf
      rcases this with rfl | rfl <;> exact absurd hf (by decide)
    · have := h.form
      rw [List.map_cons, painted_bracket hs, hk] at this
      rw [List.map_cons, painted_other (s := { s with clz := k }) hb]
      exact this
  refine
    { known := fun h => hI.known h.base, closed := fun h => hI.closed h.base, emb := fun h => hI.emb h.base, walk := ?_, back := ?_, n1 := ?_, same := ?_, absorb := ?_,
      n2 := ?_, skip := ?_, opening := ?_, closing := ?_, neutral := ?_, alone := ?_ }
  · -- walk
    intro pre s t env h hb hp
    refine ⟨hI.walk h.base hb hp, fun os cs k hk => (hJ hk).walk (h.pairs os cs k hk) hb hp, by simpa using h.next, by simpa using h.known, ?_⟩
    unfold isBracket at hb
    simp only [Bool.or_eq_false_iff, beq_eq_false_iff_ne] at hb
    have hsb : ¬ IsBr s.clz := fun hx => hx.elim hb.1 hb.2
    have hf := h.form
    rw [List.map_cons, painted_other hsb] at hf
    rw [List.map_append, List.map_singleton, painted_other hsb]
    rcases hf with ⟨h1, ys, h2, h3⟩ | ⟨pre', h1, h2⟩
    · rw [List.cons.injEq] at h2
      obtain ⟨rfl, rfl⟩ := h2
      rw [h1]
      exact Or.inr ⟨[], rfl, h3⟩
    · rw [h1]
      refine Or.inr ⟨pre' ++ [s], rfl, ex2_pass h2 ?_ ?_⟩
      · intro hn
        rw [hn] at hp
        exact absurd hp (by simp [pick2, cNI, cL, cR, cAN, cEN])
      · intro u z zs ht hu hz
        match t, ht with
        | u' :: z' :: zs', ht =>
          simp only [List.map_cons, List.cons.injEq] at ht
          obtain ⟨rfl, rfl, -⟩ := ht
          rw [painted_iff hd u' (by decide) (by decide) (by unfold IsBr; decide)] at hu
          rcases painted_clz hd z' with ⟨k1, k2⟩ | ⟨k1, -⟩
          · exfalso
            rw [k2] at hz
            simp only [List.getElem?_cons_zero, List.getElem?_cons_succ, Option.map_some, hu, ← hz] at hp
            rcases (h2.cls s (by simp)).1 with k | k | k
            · rw [k] at hp; exact absurd hp (by simp [pick2])
            · rw [k] at hp; exact absurd hp (by simp [pick2, cR, cL])
            · rw [k] at hp; exact absurd hp (by simp [pick2, cNI, cL, cR, cAN, cEN])
          · have hn := h.next
            rw [linked_append] at hn
            have := hn.2.1.2.1 (by rw [hu]; decide) k1
            rw [(painted_l d z').1]
            exact this
  · -- back
    intro pre x suf env h
    refine ⟨hI.back h.base, fun os cs k hk => (hJ hk).back (h.pairs os cs k hk), by simpa using h.next, by simpa using h.known, ?_⟩
    have hf := h.form
    rw [List.map_append, List.map_singleton] at hf
    exact form_back hf
  · -- n1
    intro pre a b c' post c env h hc ha hb hc'
    have hbr : ∀ x ∈ [a, b, c'], ¬ IsBr x.clz := by
      intro x hx
      simp only [List.mem_cons, List.not_mem_nil, or_false] at hx
      rcases hx with rfl | rfl | rfl
      · rw [ha]; exact notBr_of (hc.imp id Or.inl)
      · rw [hb]; exact notBr_of (Or.inr (Or.inr rfl))
      · rw [hc']; exact notBr_of (hc.imp id Or.inl)
    have hfb : ¬ IsBr (fuse c [a, b, c']).clz := notBr_of (hc.imp id Or.inl)
    refine ⟨hI.n1 h.base hc ha hb hc', fun os cs k hk => (hJ hk).n1 (h.pairs os cs k hk) hc ha hb hc', before_replace (m := [a, b, c']) h.next hfb ?_,
      known_replace (m := [a, b, c']) h.known hfb, ?_⟩
    · intro hf
      exfalso
      change c ∈ _ at hf
      rcases hc with rfl | rfl <;> exact absurd hf (by decide)
    · have hf := h.form
      rw [show a :: b :: c' :: post = [a, b, c'] ++ post from rfl, List.map_append, painted_map hbr] at hf
      obtain ⟨pre', h1, h2⟩ := form_at hf (by rw [ha]; exact hni (hc.imp id Or.inl))
      rw [List.map_cons, painted_other hfb]
      exact Or.inr ⟨pre', h1, ex2_n1 h2 hc ha hb hc'⟩
  · -- same
    intro pre a b post c env h hc ha hb
    have hbr : ∀ x ∈ [a, b], ¬ IsBr x.clz := by
      intro x hx
      simp only [List.mem_cons, List.not_mem_nil, or_false] at hx
      rcases hx with rfl | rfl
      · rw [ha]; exact notBr_of (hc.imp id Or.inl)
      · rw [hb]; exact notBr_of (hc.imp id Or.inl)
    have hfb : ¬ IsBr (fuse c [a, b]).clz := notBr_of (hc.imp id Or.inl)
    refine ⟨hI.same h.base hc ha hb, fun os cs k hk => (hJ hk).same (h.pairs os cs k hk) hc ha hb, before_replace (m := [a, b]) h.next hfb ?_,
      known_replace (m := [a, b]) h.known hfb, ?_⟩
    · intro hf
      exfalso
      change c ∈ _ at hf
      rcases hc with rfl | rfl <;> exact absurd hf (by decide)
    · have hf := h.form
      rw [show a :: b :: post = [a, b] ++ post from rfl, List.map_append, painted_map hbr] at hf
      obtain ⟨pre', h1, h2⟩ := form_at hf (by rw [ha]; exact hni (hc.imp id Or.inl))
      rw [List.map_cons, painted_other hfb]
      exact Or.inr ⟨pre', h1, ex2_same h2 hc ha hb⟩
  · -- absorb
    intro pre a b c' post env h _ _ hc'
    exact absurd hc' ((h.base.1.1.1 c' (by simp)).1.2.2.2 trivial).1
  · -- n2
    intro pre s t env h hs
    have hsb : ¬ IsBr s.clz := by rw [hs]; exact notBr_of (Or.inr (Or.inr rfl))
    have hf := h.form
    rw [List.map_cons, painted_other hsb] at hf
    obtain ⟨pre', h1, h2⟩ := form_at hf (by rw [hs]; exact hni (Or.inr (Or.inr rfl)))
    have hse : s.e = e := (h2.cls s (by simp)).2.1
    have hfb : ¬ IsBr ({ s with clz := s.e } : Scrap).clz := by show ¬ IsBr s.e; rw [hse]; exact notBr_of (he.imp id Or.inl)
    have hL : Linked (Before e D) (pre ++ { s with clz := s.e } :: t) := by
      refine before_replace (m := [s]) h.next hfb ?_
      intro hf
      exfalso
      change s.e ∈ _ at hf
      rw [hse] at hf
      rcases he with rfl | rfl <;> exact absurd hf (by decide)
    have hK := known_replace (m := [s]) h.known hfb
    have hF : Form len e D i (pre.map (painted d)) (({ s with clz := s.e } :: t).map (painted d)) := by
      rw [List.map_cons, painted_other hfb]
      exact Or.inr ⟨pre', h1, ex2_n2 he h2 hs⟩
    refine ⟨fun h0 => ⟨(hI.n2 h.base hs).1 h0, fun os cs k hk => ((hJ hk).n2 (h.pairs os cs k hk) hs).1 h0, hL, hK, hF⟩, fun pre1 x hx => ?_⟩
    refine ⟨(hI.n2 h.base hs).2 pre1 x hx, fun os cs k hk => ((hJ hk).n2 (h.pairs os cs k hk) hs).2 pre1 x hx, ?_, ?_, ?_⟩
    · rw [hx] at hL; simpa using hL
    · rw [hx] at hK; simpa using hK
    · rw [hx, List.map_append, List.map_singleton] at hF
      exact form_back hF
  · -- skip
    intro pre s t env h hs hp
    exfalso
    obtain ⟨cs, k, hk⟩ := hfo h hs
    have := joint_open (hPr _ _ _ hk).op (hPr _ _ _ hk).pos1 ((hJ hk).skip (h.pairs _ _ _ hk) hs hp) (z := s) (by simp) rfl rfl (Or.inr (by simp))
    exact hkn hk (Or.inl (this ▸ hs))
  · -- opening
    intro pre s t env pr h hs hp
    obtain ⟨cs, k, hk⟩ := hfo h hs
    have hset2 := openingClass_settled s pr.closing (hI.emb h.base)
    have hcl := joint_open (hPr _ _ _ hk).op (hPr _ _ _ hk).pos1 ((hJ hk).opening (h.pairs _ _ _ hk) hs hp) (z := { s with clz := (openingClass s pr.closing).1 })
      (by simp) rfl rfl (Or.inl (by
        show (openingClass s pr.closing).1 ≠ cBRACKO
        intro hh
        exact notBr_of hset2.1 (Or.inl hh)))
    change (openingClass s pr.closing).1 = k at hcl
    obtain ⟨q1, q2, q3⟩ := hset (k := (openingClass s pr.closing).1) h (Or.inl hs) (by rw [hcl]; exact (hPr _ _ _ hk).here) (by rw [hcl]; exact hkn hk)
    exact ⟨hI.opening h.base hs hp, fun os cs k hk => (hJ hk).opening (h.pairs os cs k hk) hs hp, q1, q2, q3⟩
  · -- closing
    intro pre s t env pr h hs hp
    obtain ⟨os, k, hk⟩ := hfc h hs
    have hset2 := (hI.closing h.base hs hp).2
    have hcl := joint_close (hPr _ _ _ hk).cl (hPr _ _ _ hk).pos2 ((hJ hk).closing (h.pairs _ _ _ hk) hs hp).1 (z := { s with clz := pr.opening.clz })
      (by simp) rfl rfl (Or.inl (by
        show pr.opening.clz ≠ cBRACKC
        intro hh
        rw [hh] at hset2
        rcases hset2 with hset2 | hset2
        · exact notBr_of hset2 (Or.inr rfl)
        · exact absurd hset2 (by decide)))
    change pr.opening.clz = k at hcl
    obtain ⟨q1, q2, q3⟩ := hset (k := pr.opening.clz) h (Or.inr hs) (by rw [hcl]; exact (hPr _ _ _ hk).there) (by rw [hcl]; exact hkn hk)
    exact ⟨⟨(hI.closing h.base hs hp).1, fun os cs k hk => ((hJ hk).closing (h.pairs os cs k hk) hs hp).1, q1, q2, q3⟩, hset2⟩
  · -- neutral
    intro pre s t env pr h hs hp hn
    exfalso
    obtain ⟨os, k, hk⟩ := hfc h hs
    have := joint_close (hPr _ _ _ hk).cl (hPr _ _ _ hk).pos2 ((hJ hk).neutral (h.pairs _ _ _ hk) hs hp hn) (z := { s with clz := cNI }) (by simp) rfl rfl (Or.inr (by simp))
    change cNI = k at this
    have hdir := (hPr _ _ _ hk).dir
    rw [← this] at hdir
    exact absurd hdir (by decide)
  · -- alone
    intro pre s t env h hs hp
    exfalso
    obtain ⟨os, k, hk⟩ := hfc h hs
    have := joint_close (hPr _ _ _ hk).cl (hPr _ _ _ hk).pos2 ((hJ hk).alone (h.pairs _ _ _ hk) hs hp) (z := { s with clz := cNI }) (by simp) rfl rfl (Or.inr (by simp))
    change cNI = k at this
    have hdir := (hPr _ _ _ hk).dir
    rw [← this] at hdir
    exact absurd hdir (by decide)

end

end Uax.Bidi
