import Verif.BidiIsoText

/-
The initiator of an isolate stays the first scrap of its run.
-/
namespace Uax.Bidi

/-- The scraps begin with this one. -/
def Headed (a : Scrap) (pre suf : List Scrap) : Prop := ∃ r, pre ++ suf = a :: r

theorem headed_back {a : Scrap} {pre suf : List Scrap} {x : Scrap} (h : Headed a (pre ++ [x]) suf) : Headed a pre (x :: suf) := by
  obtain ⟨r, e⟩ := h
  exact ⟨r, by simpa using e⟩

theorem headed_on {a : Scrap} {pre suf : List Scrap} {x : Scrap} (h : Headed a pre (x :: suf)) : Headed a (pre ++ [x]) suf := by
  obtain ⟨r, e⟩ := h
  exact ⟨r, by simpa using e⟩

/-- What is put in the place of scraps other than this one. -/
theorem headed_replace {a s : Scrap} {pre t post post' : List Scrap} (h : Headed a pre (s :: t ++ post)) (hs : s.clz ≠ a.clz) : Headed a pre post' := by
  obtain ⟨r, e⟩ := h
  cases pre with
  | nil =>
    rw [List.nil_append, List.cons_append] at e
    cases e
    exact absurd rfl hs
  | cons b pre =>
    rw [List.cons_append] at e
    cases e
    exact ⟨_, List.cons_append ..⟩

theorem Inv2.headed {σ : Type} {E : Env σ} {Q : List Scrap → List Scrap → Prop} {G : σ → Prop} (hQ : Inv2 E Q G) {a : Scrap}
    (ha : a.clz = cLRI ∨ a.clz = cRLI) : Inv2 E (fun pre suf => Q pre suf ∧ Headed a pre suf) G where
  known h := hQ.known h.1
  closed h := hQ.closed h.1
  emb h := hQ.emb h.1
  walk h hb hp := ⟨hQ.walk h.1 hb hp, headed_on h.2⟩
  back h := ⟨hQ.back h.1, headed_back h.2⟩
  n1 := by
    intro pre x b d post c h hc hx hb hd
    refine ⟨hQ.n1 h.1 hc hx hb hd, headed_replace (t := [b, d]) (post := post) h.2 ?_⟩
    rcases ha with ha | ha <;> rcases hc with rfl | rfl <;> rw [ha, hx] <;> decide
  same := by
    intro pre x b post c h hc hx hb
    refine ⟨hQ.same h.1 hc hx hb, headed_replace (t := [b]) (post := post) h.2 ?_⟩
    rcases ha with ha | ha <;> rcases hc with rfl | rfl <;> rw [ha, hx] <;> decide
  absorb := by
    intro pre x b d post h hx hb hd
    refine ⟨hQ.absorb h.1 hx hb hd, headed_replace (t := [d]) (post := post) (headed_on h.2) ?_⟩
    rcases ha with ha | ha <;> rw [ha, hb] <;> decide
  n2 := by
    intro pre s t h hs
    obtain ⟨h1, h2⟩ := hQ.n2 h.1 hs
    have hn : s.clz ≠ a.clz := by rcases ha with ha | ha <;> rw [ha, hs] <;> decide
    have h3 : Headed a pre ({ s with clz := s.e } :: t) := headed_replace (t := []) (post := t) h.2 hn
    exact ⟨fun e => ⟨h1 e, h3⟩, fun pre' x e => ⟨h2 pre' x e, by subst e; exact headed_back h3⟩⟩
  skip h hs := ⟨hQ.skip h.1 hs, headed_on h.2⟩
  opening := by
    intro pre s t env pr h g hs hp
    obtain ⟨h1, h2⟩ := hQ.opening h.1 g hs hp
    exact ⟨⟨h1, headed_replace (t := []) (post := t) h.2 (by rcases ha with ha | ha <;> rw [ha, hs] <;> decide)⟩, h2⟩
  closing := by
    intro pre s t env pr h g hs hp
    exact ⟨hQ.closing h.1 g hs hp, headed_replace (t := []) (post := t) h.2 (by rcases ha with ha | ha <;> rw [ha, hs] <;> decide)⟩
  alone := by
    intro pre s t h hs
    refine ⟨hQ.alone h.1 hs, headed_on ?_⟩
    exact headed_replace (t := []) (post := t) h.2 (by rcases ha with ha | ha <;> rw [ha, hs] <;> decide)
  pair := hQ.pair

/-- A scrap which is no bracket and will not become one. -/
def Unpaired (s : Scrap) : Prop := isBracket s = false ∧ (s.e = cL ∨ s.e = cR)

theorem unpaired_keeps {σ : Type} (E : Env σ) : Keeps2 E Unpaired (fun _ => True) where
  fuse := by
    intro s t c h _ _ hc
    refine ⟨?_, h.2⟩
    show (c == cBRACKO || c == cBRACKC) = false
    rcases hc with rfl | rfl <;> rfl
  absorb h _ _ := ⟨rfl, h.2⟩
  n2 := by
    intro s h
    refine ⟨?_, h.2⟩
    show (s.e == cBRACKO || s.e == cBRACKC) = false
    rcases h.2 with e | e <;> rw [e] <;> rfl
  alone h := ⟨rfl, h.2⟩
  opening := by
    intro s env pr h _ hs _
    exact absurd h.1 (by simp [isBracket, hs])
  closing := by
    intro s env pr h _ hs _
    exact absurd h.1 (by simp [isBracket, hs])
  pair _ _ := trivial

/-- Where there are no brackets, nothing that has been passed is neutral. -/
theorem Inv2.decided {σ : Type} {E : Env σ} {Q : List Scrap → List Scrap → Prop} {G : σ → Prop} (hQ : Inv2 E Q G) :
    Inv2 E (fun pre suf => (Q pre suf ∧ AllOf Unpaired pre suf) ∧ ∀ s ∈ pre, s.clz ≠ cNI) (fun env => G env ∧ True) where
  known h := (hQ.keeps (unpaired_keeps E)).known h.1
  closed h := (hQ.keeps (unpaired_keeps E)).closed h.1
  emb h := (hQ.keeps (unpaired_keeps E)).emb h.1
  walk := by
    intro pre s t h hb hp
    refine ⟨(hQ.keeps (unpaired_keeps E)).walk h.1 hb hp, fun x hx => ?_⟩
    rw [List.mem_append, List.mem_singleton] at hx
    rcases hx with hx | rfl
    · exact h.2 x hx
    · intro e
      rw [e] at hp
      exact absurd hp (by simp [pick2, cNI, cL, cR, cAN, cEN])
  back h := ⟨(hQ.keeps (unpaired_keeps E)).back h.1, fun x hx => h.2 x (List.mem_append_left _ hx)⟩
  n1 h hc ha hb hd := ⟨(hQ.keeps (unpaired_keeps E)).n1 h.1 hc ha hb hd, h.2⟩
  same h hc ha hb := ⟨(hQ.keeps (unpaired_keeps E)).same h.1 hc ha hb, h.2⟩
  absorb := by
    intro pre a b d post h ha hb hd
    refine ⟨(hQ.keeps (unpaired_keeps E)).absorb h.1 ha hb hd, fun x hx => ?_⟩
    rw [List.mem_append, List.mem_singleton] at hx
    rcases hx with hx | rfl
    · exact h.2 x hx
    · rw [ha]; decide
  n2 := by
    intro pre s t h hs
    obtain ⟨h1, h2⟩ := (hQ.keeps (unpaired_keeps E)).n2 h.1 hs
    exact ⟨fun e => ⟨h1 e, h.2⟩, fun pre' x e => ⟨h2 pre' x e, fun y hy => h.2 y (by rw [e]; exact List.mem_append_left _ hy)⟩⟩
  skip := by
    intro pre s t h hs
    refine ⟨(hQ.keeps (unpaired_keeps E)).skip h.1 hs, fun x hx => ?_⟩
    rw [List.mem_append, List.mem_singleton] at hx
    rcases hx with hx | rfl
    · exact h.2 x hx
    · rw [hs]; decide
  opening := by
    intro pre s t env pr h g hs hp
    obtain ⟨h1, h2⟩ := (hQ.keeps (unpaired_keeps E)).opening h.1 g hs hp
    exact ⟨⟨h1, h.2⟩, h2⟩
  closing := by
    intro pre s t env pr h g hs hp
    exact ⟨(hQ.keeps (unpaired_keeps E)).closing h.1 g hs hp, h.2⟩
  alone := by
    intro pre s t h hs
    have := h.1.2 s (by simp)
    exact absurd this.1 (by simp [isBracket, hs])
  pair := (hQ.keeps (unpaired_keeps E)).pair

end Uax.Bidi
