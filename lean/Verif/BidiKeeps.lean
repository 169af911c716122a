import Verif.BidiResolve

/-
What holds of every single scrap, in both passes.
-/
namespace Uax.Bidi

/-- A property of all scraps. -/
def AllOf (S : Scrap → Prop) (pre suf : List Scrap) : Prop := ∀ s ∈ pre ++ suf, S s

theorem allOf_replace {S : Scrap → Prop} {pre m post : List Scrap} {x : Scrap} (h : AllOf S pre (m ++ post)) (hx : S x) : AllOf S pre (x :: post) := by
  intro s hs
  rw [List.mem_append, List.mem_cons] at hs
  rcases hs with hs | rfl | hs
  · exact h s (List.mem_append_left _ hs)
  · exact hx
  · exact h s (by rw [List.mem_append, List.mem_append]; exact Or.inr (Or.inr hs))

/-- What the rules of pass 1 do to scraps keeps a property of them. -/
structure Keeps1 (S : Scrap → Prop) : Prop where
  fuse : ∀ {s t rule b c}, S s → (∀ x ∈ t, S x) → (∀ x, b = some x → ∃ y, S y ∧ y.clz = x) → pick1 s.clz b c = some rule → S (Bidi.fuse (target rule) (s :: t))
  w7 : ∀ {s : Scrap}, S s → s.clz = cEN → S { s with clz := cL }

/-- What the rules of pass 2 do to scraps keeps a property of them. -/
structure Keeps2 {σ : Type} (E : Env σ) (S : Scrap → Prop) (G : σ → Prop) : Prop where
  fuse : ∀ {s t c}, S s → (∀ x ∈ t, S x) → s.clz = c → c = cL ∨ c = cR → S (Bidi.fuse c (s :: t))
  absorb : ∀ {b d : Scrap}, S b → S d → d.clz = cAN → S { b with clz := cAN, children := b.children ++ d.children }
  n2 : ∀ {s : Scrap}, S s → S { s with clz := s.e }
  alone : ∀ {s : Scrap}, S s → S { s with clz := cNI }
  opening : ∀ {s env pr}, S s → G env → s.clz = cBRACKO → (E.pairing env s).1 = some pr →
    S { s with clz := (openingClass s pr.closing).1 } ∧ G (E.change (E.pairing env s).2 { s with clz := (openingClass s pr.closing).1 })
  closing : ∀ {s env pr}, S s → G env → s.clz = cBRACKC → (E.pairing env s).1 = some pr → S { s with clz := pr.opening.clz }
  pair : ∀ {env}, G env → ∀ s, G (E.pairing env s).2

theorem Inv1.keeps {P : List Scrap → List Scrap → Prop} {S : Scrap → Prop} (hP : Inv1 P) (hS : Keeps1 S) :
    Inv1 (fun pre suf => P pre suf ∧ AllOf S pre suf) where
  known h := hP.known h.1
  closed h := hP.closed h.1
  number h := hP.number h.1
  walk h hp := ⟨hP.walk h.1 hp, by simpa [AllOf] using h.2⟩
  back h := ⟨hP.back h.1, by simpa [AllOf] using h.2⟩
  fuse := by
    intro pre s t post rule h hp hne hl
    refine ⟨hP.fuse h.1 hp hne hl, allOf_replace h.2 (hS.fuse (h.2 s (by simp)) (fun x hx => h.2 x (by simp [hx])) (fun x hx => ?_) hp)⟩
    rw [Option.map_eq_some_iff] at hx
    obtain ⟨y, hy, e⟩ := hx
    have hm := List.mem_of_getElem? hy
    exact ⟨y, h.2 y (by rw [List.cons_append, List.mem_append]; exact Or.inr (List.mem_cons_of_mem _ hm)), e⟩
  w7 := by
    intro pre s t h he hne
    exact ⟨hP.w7 h.1 he hne, allOf_replace (m := [s]) h.2 (hS.w7 (h.2 s (by simp)) he)⟩

theorem Inv1B.keeps {P : List Scrap → List Scrap → Prop} {S : Scrap → Prop} (hP : Inv1B P) (hS : Keeps1 S) :
    Inv1B (fun pre suf => P pre suf ∧ AllOf S pre suf) where
  known h := hP.known h.1
  closed h := hP.closed h.1
  number h := hP.number h.1
  walk h hp := ⟨hP.walk h.1 hp, by simpa [AllOf] using h.2⟩
  fuse := by
    intro pre s t post rule h hp hne hl
    refine ⟨hP.fuse h.1 hp hne hl, ?_⟩
    have : AllOf S pre (Bidi.fuse (target rule) (s :: t) :: post) := by
      refine allOf_replace h.2 (hS.fuse (h.2 s (by simp)) (fun x hx => h.2 x (by simp [hx])) (fun x hx => ?_) hp)
      rw [Option.map_eq_some_iff] at hx
      obtain ⟨y, hy, e⟩ := hx
      have hm := List.mem_of_getElem? hy
      exact ⟨y, h.2 y (by rw [List.cons_append, List.mem_append]; exact Or.inr (List.mem_cons_of_mem _ hm)), e⟩
    unfold AllOf at this ⊢
    rw [← List.append_assoc, List.take_append_drop]
    exact this
  w7 := by
    intro pre s t h he hne
    exact ⟨hP.w7 h.1 he hne, allOf_replace (m := [s]) h.2 (hS.w7 (h.2 s (by simp)) he)⟩

theorem Inv2.keeps {σ : Type} {E : Env σ} {Q : List Scrap → List Scrap → Prop} {G G' : σ → Prop} {S : Scrap → Prop} (hQ : Inv2 E Q G)
    (hS : Keeps2 E S G') : Inv2 E (fun pre suf => Q pre suf ∧ AllOf S pre suf) (fun env => G env ∧ G' env) where
  known h := hQ.known h.1
  closed h := hQ.closed h.1
  emb h := hQ.emb h.1
  walk h hb hp := ⟨hQ.walk h.1 hb hp, by simpa [AllOf] using h.2⟩
  back h := ⟨hQ.back h.1, by simpa [AllOf] using h.2⟩
  n1 := by
    intro pre a b d post c h hc ha hb hd
    refine ⟨hQ.n1 h.1 hc ha hb hd, allOf_replace (m := [a, b, d]) h.2 (hS.fuse (h.2 a (by simp)) ?_ ha hc)⟩
    intro x hx
    simp only [List.mem_cons, List.not_mem_nil, or_false] at hx
    exact h.2 x (by rcases hx with rfl | rfl <;> simp)
  same := by
    intro pre a b post c h hc ha hb
    refine ⟨hQ.same h.1 hc ha hb, allOf_replace (m := [a, b]) h.2 (hS.fuse (h.2 a (by simp)) ?_ ha hc)⟩
    intro x hx
    simp only [List.mem_cons, List.not_mem_nil, or_false] at hx
    exact h.2 x (by rw [hx]; simp)
  absorb := by
    intro pre a b d post h ha hb hd
    refine ⟨hQ.absorb h.1 ha hb hd, ?_⟩
    refine allOf_replace (m := [b, d]) ?_ (hS.absorb (h.2 b (by simp)) (h.2 d (by simp)) hd)
    simpa [AllOf] using h.2
  n2 := by
    intro pre s t h hs
    obtain ⟨h1, h2⟩ := hQ.n2 h.1 hs
    have h3 : AllOf S pre ({ s with clz := s.e } :: t) := allOf_replace (m := [s]) h.2 (hS.n2 (h.2 s (by simp)))
    exact ⟨fun e => ⟨h1 e, h3⟩, fun pre' x e => ⟨h2 pre' x e, by subst e; simpa [AllOf] using h3⟩⟩
  skip h hs := ⟨hQ.skip h.1 hs, by simpa [AllOf] using h.2⟩
  opening := by
    intro pre s t env pr h g hs hp
    obtain ⟨h1, h2⟩ := hQ.opening h.1 g.1 hs hp
    obtain ⟨h3, h4⟩ := hS.opening (h.2 s (by simp)) g.2 hs hp
    exact ⟨⟨h1, allOf_replace (m := [s]) h.2 h3⟩, h2, h4⟩
  closing := by
    intro pre s t env pr h g hs hp
    exact ⟨hQ.closing h.1 g.1 hs hp, allOf_replace (m := [s]) h.2 (hS.closing (h.2 s (by simp)) g.2 hs hp)⟩
  alone := by
    intro pre s t h hs
    refine ⟨hQ.alone h.1 hs, ?_⟩
    have : AllOf S pre ({ s with clz := cNI } :: t) := allOf_replace (m := [s]) h.2 (hS.alone (h.2 s (by simp)))
    simpa [AllOf] using this
  pair g s := ⟨⟨(hQ.pair g.1 s).1, hS.pair g.2 s⟩, (hQ.pair g.1 s).2⟩

/-! ### No nested runs -/

/-- A scrap without nested runs. -/
def NoKids (s : Scrap) : Prop := s.children = []

theorem noKids_fuse {c : Class} {s : Scrap} {t : List Scrap} (h1 : NoKids s) (h2 : ∀ x ∈ t, NoKids x) : NoKids (fuse c (s :: t)) := by
  show s.children ++ t.flatMap (·.children) = []
  rw [show s.children = [] from h1, List.nil_append, List.flatMap_eq_nil_iff]
  exact h2

theorem noKids_keeps1 : Keeps1 NoKids := ⟨fun h1 h2 _ _ => noKids_fuse h1 h2, fun h _ => h⟩

theorem noKids_keeps2 {σ : Type} (E : Env σ) : Keeps2 E NoKids (fun _ => True) where
  fuse h1 h2 _ _ := noKids_fuse h1 h2
  absorb := by
    intro b d h1 h2 _
    show b.children ++ d.children = []
    rw [show b.children = [] from h1, show d.children = [] from h2]
    rfl
  n2 h := h
  alone h := h
  opening h _ _ _ := ⟨h, trivial⟩
  closing h _ _ _ := h
  pair _ _ := trivial

/-- What holds of the scraps of the scanner. -/
theorem emit_keeps {T : Tables} {o : Options} {S : Scrap → Prop} : ∀ (inp : List (Nat × Nat)) (cur : Scrap) (a : Option Nat) (st : List DirContext),
    S cur → (∀ cur a st r n, S cur → (r, n) ∈ inp → S (inheritStrongTypes (nextScrap cur (runeClass T o r) n)
      (switchContext cur st (nextScrap cur (runeClass T o r) n)).1 a)) →
    (∀ cur r n, S cur → (r, n) ∈ inp → S (collapse cur (nextScrap cur (runeClass T o r) n) cur.clz)) →
    ∀ s ∈ emit T o inp cur a st, S s := by
  intro inp
  induction inp with
  | nil =>
    intro cur a st h _ _ s hs
    rw [emit] at hs
    split at hs
    · cases hs
    · rw [List.mem_singleton] at hs; rw [hs]; exact h
  | cons x rest ih =>
    obtain ⟨r, n⟩ := x
    intro cur a st h h1 h2
    have h1' := fun cur a st r n hS hm => h1 cur a st r n hS (List.mem_cons_of_mem _ hm)
    have h2' := fun cur r n hS hm => h2 cur r n hS (List.mem_cons_of_mem _ hm)
    rw [emit]
    dsimp only
    split
    · have hr := ih (inheritStrongTypes (nextScrap cur (runeClass T o r) n) (switchContext cur st (nextScrap cur (runeClass T o r) n)).1 a)
        (if runeClass T o r = cAL then some (nextScrap cur (runeClass T o r) n).l else a)
        (switchContext cur st (nextScrap cur (runeClass T o r) n)).2 (h1 cur a st r n h (List.mem_cons_self ..)) h1' h2'
      split
      · exact hr
      · intro s hs
        rw [List.mem_cons] at hs
        rcases hs with rfl | hs
        · exact h
        · exact hr s hs
    · exact ih _ _ _ (h2 cur r n h (List.mem_cons_self ..)) h1' h2'

theorem scraps_noKids (T : Tables) (o : Options) (b : List Nat) : ∀ s ∈ scrapsOf T o b, NoKids s := by
  refine emit_keeps _ _ _ _ rfl ?_ ?_
  · intro cur a st r n _ _
    show (inheritStrongTypes _ _ _).children = []
    unfold inheritStrongTypes
    repeat' split
    all_goals rfl
  · intro cur r n h _
    show cur.children ++ [] = []
    rw [show cur.children = [] from h]
    rfl

end Uax.Bidi
