import Verif.BidiWhole
import Verif.SpecBidi

/-
The scraps tile the text in both passes, when numbers stand in left-to-right
context; and such texts are resolved after finitely many steps.
-/
namespace Uax.Bidi

open Spec (Tiles)

theorem tiles_append {l r : Nat} {xs ys : List Scrap} : Tiles l r (xs ++ ys) ↔ ∃ m, Tiles l m xs ∧ Tiles m r ys := by
  induction xs generalizing l with
  | nil => simp [Tiles]
  | cons x xs ih => simp only [List.cons_append, Tiles, ih, and_assoc, exists_and_left]

/-- A number comes, perhaps after terminators. -/
def LeadsEN : List Scrap → Prop
  | [] => False
  | s :: rest => s.clz = cEN ∨ (s.clz = cET ∧ LeadsEN rest)

/-- Numbers stand in left-to-right context, and so do terminators before them. -/
def NumOk : List Scrap → Prop
  | [] => True
  | s :: rest => (LeadsEN (s :: rest) → s.ctx.context = cL) ∧ NumOk rest

theorem leads_mono {a b : List Scrap} (h : LeadsEN a → LeadsEN b) : ∀ l : List Scrap, LeadsEN (l ++ a) → LeadsEN (l ++ b)
  | [] => h
  | _ :: l => fun hl => hl.imp id fun h' => ⟨h'.1, leads_mono h l h'.2⟩

theorem numOk_mono {a b : List Scrap} (h : LeadsEN b → LeadsEN a) (hb : NumOk a → NumOk b) : ∀ l : List Scrap, NumOk (l ++ a) → NumOk (l ++ b)
  | [] => hb
  | _ :: l => fun hl => ⟨fun h' => hl.1 (leads_mono h (_ :: l) h'), numOk_mono h hb l hl.2⟩

theorem numOk_right {a : List Scrap} : ∀ {l : List Scrap}, NumOk (l ++ a) → NumOk a
  | [] => id
  | _ :: _ => fun h => numOk_right h.2

/-- A scrap which is not an isolate is not empty. -/
def Pos (s : Scrap) : Prop := (isIsolate s = true ∧ s.l ≤ s.r) ∨ s.l < s.r

/-- What holds of each scrap. With `tile` there are no Arabic numbers and every
scrap has text. -/
def Fine (tile : Prop) (s : Scrap) : Prop :=
  s.clz < 28 ∧ (s.e = cL ∨ s.e = cR) ∧ s.clz ≠ cPDI ∧ (tile → s.clz ≠ cAN ∧ Pos s)

/-- What holds in pass 1 for the text from `start` to `len`. -/
def Good1At (tile : Prop) (start len : Nat) (pre suf : List Scrap) : Prop :=
  (∀ s ∈ pre ++ suf, Fine tile s ∧ isIsolate s = false) ∧ NumOk (pre ++ suf) ∧ (tile → Tiles start len (pre ++ suf)) ∧
  ∀ s ∈ pre, weakClass s = false

/-- What holds in pass 1. -/
abbrev Good1 (tile : Prop) (len : Nat) (pre suf : List Scrap) : Prop := Good1At tile 0 len pre suf

theorem tiles_fuse {c : Class} {l r : Nat} : ∀ (s : Scrap) (t post : List Scrap), Tiles l r ((s :: t) ++ post) → Tiles l r (fuse c (s :: t) :: post) := by
  intro s t post h
  refine ⟨h.1, ?_⟩
  obtain ⟨m, h1, h2⟩ := tiles_append.mp h
  have : ∀ (l : Nat) (x : Scrap) (xs : List Scrap), Tiles l m (x :: xs) → ((x :: xs).getLast?.getD x).r = m := by
    intro l x xs
    induction xs generalizing l x with
    | nil => intro h; simpa [Tiles] using h.2
    | cons y ys ih =>
      intro h
      have := ih _ y h.2
      rw [List.getLast?_cons_cons]
      have hn : (y :: ys).getLast? = some ((y :: ys).getLast (by simp)) := List.getLast?_eq_some_getLast (by simp)
      rw [hn] at this ⊢
      exact this
  have e : (fuse c (s :: t)).r = m := this l s t h1
  rw [e]
  exact h2

theorem tiles_pos {l r : Nat} : ∀ {xs : List Scrap}, Tiles l r xs → (∀ s ∈ xs, s.l < s.r) → l ≤ r ∧ (xs ≠ [] → l < r)
  | [], h, _ => ⟨Nat.le_of_eq h, fun h => absurd rfl h⟩
  | s :: xs, h, hp => by
    have := (tiles_pos h.2 (fun x hx => hp x (by simp [hx]))).1
    have := hp s (by simp)
    have := h.1
    exact ⟨by omega, fun _ => by omega⟩

theorem fine_fuse {tile : Prop} {c : Class} {s : Scrap} {t : List Scrap} (hc : c < 28) (hc2 : c ≠ cPDI ∧ c ≠ cAN ∨ ¬ tile ∧ c ≠ cPDI)
    (h : ∀ x ∈ s :: t, Fine tile x ∧ isIsolate x = false) (ht : tile → ∃ l m, Tiles l m (s :: t)) : Fine tile (fuse c (s :: t)) := by
  refine ⟨hc, (h s (by simp)).1.2.1, ?_, fun htile => ⟨?_, ?_⟩⟩
  · rcases hc2 with h | h
    · exact h.1
    · exact h.2
  · rcases hc2 with h | h
    · exact h.2
    · exact absurd htile h.1
  · right
    obtain ⟨l, m, h1⟩ := ht htile
    have hp : ∀ x ∈ s :: t, x.l < x.r := by
      intro x hx
      have := (h x hx).1.2.2.2 htile
      rcases this.2 with ⟨h', -⟩ | h'
      · rw [(h x hx).2] at h'; cases h'
      · exact h'
    have h2 := (tiles_pos h1 hp).2 (by simp)
    have h3 := tiles_fuse (c := c) (l := l) (r := m) s t [] (by simpa using h1)
    have h4 : (fuse c (s :: t)).r = m := h3.2
    have h5 : (fuse c (s :: t)).l = l := h3.1
    omega

theorem pick1_target {a : Class} {b c : Option Class} {rule : Rule} (hp : pick1 a b c = some rule) :
    (target rule = cEN ∨ target rule = cAN ∨ target rule = cNI) ∧ (target rule = cAN → a = cAN) ∧
      (target rule = cEN → a = cEN ∨ (a = cET ∧ b = some cEN)) := by
  unfold pick1 at hp
  repeat' split at hp
  all_goals first
    | (cases hp; done)
    | (injection hp with hp; subst hp; refine ⟨by simp [target], ?_, ?_⟩ <;> intro hh <;> first | (exact absurd hh (by decide)) | (simp [*]; done))

theorem good1_inv (tile : Prop) (start len : Nat) : Inv1 (Good1At tile start len) where
  known h s hs := (h.1 s (List.mem_append_right _ hs)).1.1
  closed h := (h.1 _ (List.mem_append_right _ (List.mem_cons_self ..))).2
  number h he := (numOk_right h.2.1).1 (Or.inl he)
  walk := by
    intro pre s t h hp
    refine ⟨by simpa using h.1, by simpa using h.2.1, by simpa using h.2.2.1, ?_⟩
    intro x hx
    rw [List.mem_append, List.mem_singleton] at hx
    rcases hx with hx | rfl
    · exact h.2.2.2 x hx
    · have := pick1_none hp
      simp [weakClass, this]
  back := by
    intro pre x suf h
    exact ⟨by simpa using h.1, by simpa using h.2.1, by simpa using h.2.2.1, fun s hs => h.2.2.2 s (by simp [hs])⟩
  fuse := by
    intro pre s t post rule h hp hne hl
    have hsub : ∀ x ∈ s :: t, Fine tile x ∧ isIsolate x = false := fun x hx => h.1 x (by
      rw [List.mem_append, List.mem_append]; exact Or.inr (Or.inl hx))
    have htl : tile → ∃ l m, Tiles l m (s :: t) := by
      intro ht
      obtain ⟨m, -, h2⟩ := tiles_append.mp (h.2.2.1 ht)
      obtain ⟨m', h3, -⟩ := tiles_append.mp h2
      exact ⟨m, m', h3⟩
    have hs := hsub s (by simp)
    -- the class
    have hcl : (target rule = cEN ∨ target rule = cAN ∨ target rule = cNI) ∧ (target rule = cAN → s.clz = cAN) ∧
        (target rule = cEN → s.clz = cEN ∨ (s.clz = cET ∧ (t ++ post)[0]?.map (·.clz) = some cEN)) := by
      exact pick1_target hp
    refine ⟨?_, ?_, ?_, h.2.2.2⟩
    · intro x hx
      rw [List.mem_append, List.mem_cons] at hx
      rcases hx with hx | rfl | hx
      · exact h.1 x (List.mem_append_left _ hx)
      · refine ⟨fine_fuse ?_ ?_ hsub htl, ?_⟩
        · rcases hcl.1 with e | e | e <;> rw [e] <;> decide
        · rcases hcl.1 with e | e | e
          · rw [e]; left; decide
          · right
            refine ⟨fun ht => (hs.1.2.2.2 ht).1 (hcl.2.1 e), by rw [e]; decide⟩
          · rw [e]; left; decide
        · show isIsolate { clz := target rule } = false
          rcases hcl.1 with e | e | e <;> rw [e] <;> decide
      · exact h.1 x (by rw [List.mem_append, List.mem_append]; exact Or.inr (Or.inr hx))
    · have hlead : LeadsEN (Bidi.fuse (target rule) (s :: t) :: post) → LeadsEN ((s :: t) ++ post) := by
        rintro (e | ⟨e, -⟩)
        · rcases hcl.2.2 e with e' | ⟨e1, e2⟩
          · exact Or.inl e'
          · refine Or.inr ⟨e1, ?_⟩
            show LeadsEN (t ++ post)
            cases hx : t ++ post with
            | nil => rw [hx] at e2; simp at e2
            | cons y ys =>
              rw [hx] at e2
              exact Or.inl (by simpa using e2)
        · rcases hcl.1 with e' | e' | e' <;> exact absurd (show target rule = cET from e) (by rw [e']; decide)
      refine numOk_mono hlead ?_ pre h.2.1
      intro hn
      refine ⟨fun hh => hn.1 (hlead hh), ?_⟩
      have : NumOk (t ++ post) := hn.2
      exact numOk_right this
    · intro ht
      obtain ⟨m, h1, h2⟩ := tiles_append.mp (h.2.2.1 ht)
      exact tiles_append.mpr ⟨m, h1, tiles_fuse s t post h2⟩
  w7 := by
    intro pre s t h he hne
    have hs := h.1 s (List.mem_append_right _ (List.mem_cons_self ..))
    refine ⟨?_, ?_, ?_, h.2.2.2⟩
    · intro x hx
      rw [List.mem_append, List.mem_cons] at hx
      rcases hx with hx | rfl | hx
      · exact h.1 x (List.mem_append_left _ hx)
      · refine ⟨⟨(by decide : 0 < 28), hs.1.2.1, (by decide : cL ≠ cPDI), fun ht => ⟨(by decide : cL ≠ cAN), ?_⟩⟩, rfl⟩
        rcases (hs.1.2.2.2 ht).2 with ⟨h', -⟩ | h'
        · rw [hs.2] at h'; cases h'
        · exact Or.inr h'
      · exact h.1 x (List.mem_append_right _ (List.mem_cons_of_mem _ hx))
    · refine numOk_mono ?_ ?_ pre h.2.1
      · intro hh; exact Or.inl he
      · intro hn
        refine ⟨fun hh => ?_, hn.2⟩
        rcases hh with hh | ⟨hh, -⟩
        · exact absurd (show cL = cEN from hh) (by decide)
        · exact absurd (show cL = cET from hh) (by decide)
    · intro ht
      obtain ⟨m, h1, h2⟩ := tiles_append.mp (h.2.2.1 ht)
      exact tiles_append.mpr ⟨m, h1, h2⟩

/-- What holds in pass 2 for the text from `start` to `len`. -/
def Good2At (tile : Prop) (start len : Nat) (pre suf : List Scrap) : Prop :=
  (∀ s ∈ pre ++ suf, Fine tile s ∧ s.clz ≠ cEN) ∧ (tile → Tiles start len (pre ++ suf)) ∧ pre ++ suf ≠ []

/-- What holds in pass 2. -/
abbrev Good2 (tile : Prop) (len : Nat) (pre suf : List Scrap) : Prop := Good2At tile 0 len pre suf

/-- One scrap gets another class. -/
theorem good2_class {tile : Prop} {start len : Nat} {pre t : List Scrap} {s : Scrap} {c : Class} (h : Good2At tile start len pre (s :: t))
    (hs : isIsolate s = false) (hc : Settled c ∨ c = cBRACKO) : Good2At tile start len pre ({ s with clz := c } :: t) := by
  refine ⟨?_, fun ht => ?_, by simp⟩
  · intro x hx
    rw [List.mem_append, List.mem_cons] at hx
    rcases hx with hx | rfl | hx
    · exact h.1 x (List.mem_append_left _ hx)
    · have hf := (h.1 s (List.mem_append_right _ (List.mem_cons_self ..))).1
      have hcc : c < 28 ∧ c ≠ cPDI ∧ c ≠ cAN ∧ c ≠ cEN := by
        rcases hc with (rfl | rfl | rfl) | rfl <;> decide
      refine ⟨⟨hcc.1, hf.2.1, hcc.2.1, fun ht => ⟨hcc.2.2.1, ?_⟩⟩, hcc.2.2.2⟩
      rcases (hf.2.2.2 ht).2 with ⟨h', -⟩ | h'
      · rw [hs] at h'; cases h'
      · exact Or.inr h'
    · exact h.1 x (List.mem_append_right _ (List.mem_cons_of_mem _ hx))
  · obtain ⟨m, h1, h2⟩ := tiles_append.mp (h.2.1 ht)
    exact tiles_append.mpr ⟨m, h1, h2⟩

/-- Several scraps become one. -/
theorem good2_fuse {tile : Prop} {start len : Nat} {pre t post : List Scrap} {s : Scrap} {c : Class} (h : Good2At tile start len pre ((s :: t) ++ post))
    (hs : ∀ x ∈ s :: t, isIsolate x = false) (hc : c = cL ∨ c = cR) : Good2At tile start len pre (fuse c (s :: t) :: post) := by
  have htl : tile → ∃ l m, Tiles l m (s :: t) := by
    intro ht
    obtain ⟨m, -, h2⟩ := tiles_append.mp (h.2.1 ht)
    obtain ⟨m', h3, -⟩ := tiles_append.mp h2
    exact ⟨m, m', h3⟩
  refine ⟨?_, fun ht => ?_, by simp⟩
  · intro x hx
    rw [List.mem_append, List.mem_cons] at hx
    rcases hx with hx | rfl | hx
    · exact h.1 x (List.mem_append_left _ hx)
    · have hcc : c < 28 ∧ c ≠ cPDI ∧ c ≠ cAN ∧ c ≠ cEN := by
        rcases hc with rfl | rfl <;> decide
      refine ⟨fine_fuse hcc.1 (Or.inl ⟨hcc.2.1, hcc.2.2.1⟩) (fun x hx => ⟨(h.1 x ?_).1, hs x hx⟩) htl, hcc.2.2.2⟩
      rw [List.mem_append, List.mem_append]; exact Or.inr (Or.inl hx)
    · exact h.1 x (by rw [List.mem_append, List.mem_append]; exact Or.inr (Or.inr hx))
  · obtain ⟨m, h1, h2⟩ := tiles_append.mp (h.2.1 ht)
    exact tiles_append.mpr ⟨m, h1, tiles_fuse s t post h2⟩

theorem not_isolate {s : Scrap} {c : Class} (h : s.clz = c) (hc : c = cL ∨ c = cR ∨ c = cNI ∨ c = cBRACKO ∨ c = cBRACKC) : isIsolate s = false := by
  unfold isIsolate
  rw [h]
  rcases hc with rfl | rfl | rfl | rfl | rfl <;> rfl

/-- The surroundings are at the end, and the bracket pairs have no other classes. -/
structure Brackets {σ : Type} (E : Env σ) (G : σ → Prop) : Prop where
  pair : ∀ {env}, G env → ∀ s, G (E.pairing env s).2 ∧ ∀ pr, (E.pairing env s).1 = some pr → Settled pr.opening.clz ∨ pr.opening.clz = cBRACKO
  change : ∀ {env}, G env → ∀ s, Settled s.clz → G (E.change env s)

theorem good2_inv {σ : Type} {E : Env σ} {G : σ → Prop} (hG : Brackets E G) (tile : Prop) (start len : Nat) : Inv2 E (Good2At tile start len) G where
  known h s hs := ⟨(h.1 s (List.mem_append_right _ hs)).1.1, (h.1 s (List.mem_append_right _ hs)).2⟩
  closed h s hs := (h.1 s (List.mem_append_left _ hs)).1.2.2.1
  emb h := (h.1 _ (List.mem_append_right _ (List.mem_cons_self ..))).1.2.1
  walk h _ _ := by simpa [Good2At] using h
  back h := by simpa [Good2At] using h
  n1 := by
    intro pre a b d post c h hc ha hb hd
    refine good2_fuse (t := [b, d]) h ?_ hc
    intro x hx
    simp only [List.mem_cons, List.not_mem_nil, or_false] at hx
    rcases hx with rfl | rfl | rfl
    · exact not_isolate ha (hc.imp id Or.inl)
    · exact not_isolate hb (by simp)
    · exact not_isolate hd (hc.imp id Or.inl)
  same := by
    intro pre a b post c h hc ha hb
    refine good2_fuse (t := [b]) h ?_ hc
    intro x hx
    simp only [List.mem_cons, List.not_mem_nil, or_false] at hx
    rcases hx with rfl | rfl
    · exact not_isolate ha (hc.imp id Or.inl)
    · exact not_isolate hb (hc.imp id Or.inl)
  absorb := by
    intro pre a b d post h ha hb hd
    have hmem : ∀ x ∈ [a, b, d] ++ post, Fine tile x ∧ x.clz ≠ cEN := fun x hx => h.1 x (List.mem_append_right _ hx)
    have hnt : ¬ tile := fun ht => ((hmem d (by simp)).1.2.2.2 ht).1 hd
    refine ⟨?_, fun ht => absurd ht hnt, by simp⟩
    intro x hx
    simp only [List.append_assoc, List.mem_append, List.mem_cons, List.singleton_append] at hx
    rcases hx with hx | rfl | rfl | hx
    · exact h.1 x (List.mem_append_left _ hx)
    · exact hmem _ (by simp)
    · exact ⟨⟨(by decide : 5 < 28), (hmem b (by simp)).1.2.1, (by decide : cAN ≠ cPDI), fun ht => absurd ht hnt⟩, (by decide : cAN ≠ cEN)⟩
    · exact hmem x (by simp [hx])
  n2 := by
    intro pre s t h hs
    have := good2_class h (not_isolate hs (by simp)) (c := s.e)
      (Or.inl ((h.1 s (List.mem_append_right _ (List.mem_cons_self ..))).1.2.1.imp id Or.inl))
    exact ⟨fun _ => this, fun pre' x e => by subst e; simpa [Good2At] using this⟩
  skip h _ := by simpa [Good2At] using h
  opening := by
    intro pre s t env pr h g hs hp
    have hc := (openingClass_settled s pr.closing (h.1 _ (List.mem_append_right _ (List.mem_cons_self ..))).1.2.1).1
    exact ⟨good2_class h (not_isolate hs (by simp)) (Or.inl hc), hG.change (hG.pair g s).1 _ hc⟩
  closing := by
    intro pre s t env pr h g hs hp
    exact good2_class h (not_isolate hs (by simp)) ((hG.pair g s).2 pr hp)
  alone := by
    intro pre s t h hs
    have := good2_class (c := cNI) h (not_isolate hs (by simp)) (Or.inl (Or.inr (Or.inr rfl)))
    simpa [Good2At] using this
  pair := hG.pair

theorem initial_fine (tile : Prop) (o : Options) : Fine tile (initialOuterScrap o true) ∧ (initialOuterScrap o true).clz ≠ cEN ∧
    (initialOuterScrap o true).l = 0 ∧ (initialOuterScrap o true).r = 0 := by
  unfold initialOuterScrap Fine Pos Scrap.e
  cases o.outerR2L <;> exact ⟨⟨by decide, by decide, by decide, fun _ => ⟨by decide, Or.inl (by decide)⟩⟩, by decide, rfl, rfl⟩

/-- What pass 1 leaves is a good start for pass 2. -/
theorem good2_start {tile : Prop} {len : Nat} (o : Options) {ys : List Scrap} (hy : Good1 tile len ys []) : Good2 tile len [] (initialOuterScrap o true :: ys) := by
  have hi := initial_fine tile o
  refine ⟨?_, fun ht => ⟨hi.2.2.1, ?_⟩, by simp⟩
  · intro s hs
    simp only [List.nil_append, List.mem_cons] at hs
    rcases hs with rfl | hs
    · exact ⟨hi.1, hi.2.1⟩
    · refine ⟨(hy.1 s (by simpa using hs)).1, ?_⟩
      intro he
      have := hy.2.2.2 s hs
      simp [weakClass, he] at this
  · have := hy.2.2.1 ht
    rw [hi.2.2.2]
    simpa using this

/-- A stream of scraps whose numbers stand in left-to-right context is resolved. -/
theorem resolve_stream {σ : Type} {E : Env σ} {G : σ → Prop} (hB : Brackets E G) {o : Options} {env env' : σ} {ss : List Scrap} {tile : Prop} {len : Nat}
    (hf : Feeds E env ss env') (h : Good1 tile len [] ss) (hG : G env') :
    ∃ N p, resolveIn E o env N = .returns (levelsOf o p.stack, p) ∧ Good2 tile len p.stack [] ∧ G p.env :=
  whole hf (good1_inv tile 0 len) (good2_inv hB tile 0 len) h (fun _ hy => good2_start o hy) (fun h => by simpa using h.2.2) hG

end Uax.Bidi
