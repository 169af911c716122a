import Verif.BidiParserProofs

/-
Two surroundings which answer the parser in the same way lead to the same
result, step by step.
-/
namespace Uax

/-- Two runs come to the same end, with related values. -/
def Run.Rel {α β : Type} (P : α → β → Prop) : Run α → Run β → Prop
  | .returns a, .returns b => P a b
  | .panics, .panics => True
  | .running, .running => True
  | _, _ => False

theorem Run.rel_andThen {α β γ δ : Type} {P : α → β → Prop} {Q : γ → δ → Prop} {a : Run α} {b : Run β}
    {f : α → Run γ} {g : β → Run δ} (h : Run.Rel P a b) (hf : ∀ x y, P x y → Run.Rel Q (f x) (g y)) :
    Run.Rel Q (a.andThen f) (b.andThen g) := by
  cases a <;> cases b <;> first | exact hf _ _ h | exact h.elim | trivial

end Uax

namespace Uax.Bidi

/-- The surroundings answer in the same way in related states. -/
structure Sim {σ τ : Type} (E : Env σ) (F : Env τ) (R : σ → τ → Prop) : Prop where
  recv : ∀ s t, R s t → (E.recv s = none ∧ F.recv t = none) ∨
    ∃ x s' t', E.recv s = some (x, s') ∧ F.recv t = some (x, t') ∧ R s' t'
  pairing : ∀ s t x, R s t → (E.pairing s x).1 = (F.pairing t x).1 ∧ R (E.pairing s x).2 (F.pairing t x).2
  change : ∀ s t x, R s t → R (E.change s x) (F.change t x)

/-- The same parser in related surroundings. -/
def Alike {σ τ : Type} (R : σ → τ → Prop) (p : Parser σ) (q : Parser τ) : Prop :=
  p.stack = q.stack ∧ p.sp = q.sp ∧ p.eof = q.eof ∧ p.depth = q.depth ∧ R p.env q.env

/-- The same value, and the same parser in related surroundings. -/
def AlikeR {σ τ α : Type} (R : σ → τ → Prop) (x : α × Parser σ) (y : α × Parser τ) : Prop :=
  x.1 = y.1 ∧ Alike R x.2 y.2

section
variable {σ τ : Type} {E : Env σ} {F : Env τ} {R : σ → τ → Prop}

theorem readLoop_rel (h : Sim E F R) : ∀ (n k : Nat) (p : Parser σ) (q : Parser τ), Alike R p q →
    Run.Rel (AlikeR R) (readLoop E n k p) (readLoop F n k q) := by
  intro n
  induction n with
  | zero => intro k p q hp; exact ⟨rfl, hp⟩
  | succ n ih =>
    rintro k ⟨st, sp, e, d, s⟩ ⟨_, _, _, _, t⟩ ⟨rfl, rfl, rfl, rfl, hr⟩
    rw [readLoop, readLoop]
    rcases h.recv s t hr with ⟨h1, h2⟩ | ⟨x, s', t', h1, h2, h3⟩
    · dsimp only; rw [h1, h2]; trivial
    · dsimp only; rw [h1, h2]
      dsimp only
      split
      · exact ⟨rfl, rfl, rfl, rfl, rfl, h3⟩
      · exact ih _ _ _ ⟨rfl, rfl, rfl, rfl, h3⟩

theorem read_rel (h : Sim E F R) (n : Int) (p : Parser σ) (q : Parser τ) (hp : Alike R p q) :
    Run.Rel (AlikeR R) (p.read E n) (q.read F n) := by
  unfold Parser.read
  rw [show q.eof = p.eof from hp.2.2.1.symm]
  split
  · exact ⟨rfl, hp⟩
  · refine Run.rel_andThen (readLoop_rel h _ _ _ _ hp) ?_
    rintro ⟨k, p⟩ ⟨_, q⟩ ⟨rfl, hp⟩
    exact ⟨rfl, hp⟩

theorem reduce_rel (n : Nat) (rhs : List Scrap) (st : Nat) (p : Parser σ) (q : Parser τ) (hp : Alike R p q) :
    Run.Rel (Alike R) (p.reduce n rhs st) (q.reduce n rhs st) := by
  obtain ⟨stk, sp, e, d, s⟩ := p
  obtain ⟨_, _, _, _, t⟩ := q
  obtain ⟨h1, h2, h3, h4, hr⟩ := hp
  dsimp only at h1 h2 h3 h4
  subst h1 h2 h3 h4
  unfold Parser.reduce
  dsimp only
  split
  · trivial
  · split
    · trivial
    · exact ⟨rfl, rfl, rfl, rfl, hr⟩

theorem ruleN0_rel (h : Sim E F R) (x : Scrap) (p : Parser σ) (q : Parser τ) (hp : Alike R p q) :
    AlikeR R (p.ruleN0 E x) (q.ruleN0 F x) := by
  obtain ⟨stk, sp, e, d, s⟩ := p
  obtain ⟨_, _, _, _, t⟩ := q
  obtain ⟨h1, h2, h3, h4, hr⟩ := hp
  dsimp only at h1 h2 h3 h4
  subst h1 h2 h3 h4
  obtain ⟨e1, e2⟩ := h.pairing s t x hr
  unfold Parser.ruleN0 Parser.corresponding
  dsimp only
  cases hE : E.pairing s x with
  | mk a s' =>
    cases hF : F.pairing t x with
    | mk b t' =>
      rw [hE, hF] at e1 e2
      dsimp only at e1 e2
      subst e1
      cases a with
      | none => split <;> exact ⟨rfl, rfl, rfl, rfl, rfl, e2⟩
      | some pr =>
        dsimp only
        split
        · exact ⟨rfl, rfl, rfl, rfl, rfl, h.change _ _ _ e2⟩
        · exact ⟨rfl, rfl, rfl, rfl, rfl, e2⟩

theorem pass2_rel (h : Sim E F R) (st : Nat) : ∀ (n : Nat) (p : Parser σ) (q : Parser τ), Alike R p q →
    Run.Rel (Alike R) (pass2Loop E st n p) (pass2Loop F st n q) := by
  intro n
  induction n with
  | zero => intro p q _; rw [pass2Loop, pass2Loop]; trivial
  | succ n ih =>
    intro p q hp
    rw [pass2Loop, pass2Loop]
    have hpass : q.passed cPDI = p.passed cPDI := by unfold Parser.passed; rw [hp.1, hp.2.1]
    rw [hpass, show q.stack = p.stack from hp.1.symm, show q.sp = p.sp from hp.2.1.symm]
    split
    · exact hp
    · split
      · exact hp
      · rename_i s _
        split
        · have hn := ruleN0_rel h s p q hp
          dsimp only
          rw [show (q.ruleN0 F s).1 = (p.ruleN0 E s).1 from hn.1.symm]
          exact ih _ _ ⟨hn.2.1, by dsimp only; rw [hn.2.2.1], hn.2.2.2.1, hn.2.2.2.2.1, hn.2.2.2.2.2⟩
        · dsimp only
          split
          · trivial
          · split
            · exact ih _ _ ⟨rfl, rfl, hp.2.2.1, hp.2.2.2.1, hp.2.2.2.2⟩
            · split
              · trivial
              · refine Run.rel_andThen (reduce_rel _ _ _ p q hp) ?_
                intro p q hp
                exact ih _ _ ⟨hp.1, by dsimp only; rw [hp.2.1], hp.2.2.1, hp.2.2.2.1, hp.2.2.2.2⟩

theorem parse_rel (h : Sim E F R) : ∀ (n : Nat),
    (∀ st (p : Parser σ) (q : Parser τ) w r, Alike R p q → Run.Rel (AlikeR R) (pass1Loop E st n p w r) (pass1Loop F st n q w r)) ∧
    (∀ st (p : Parser σ) (q : Parser τ), Alike R p q → Run.Rel (AlikeR R) (parseIRS E st n p) (parseIRS F st n q)) ∧
    (∀ st (p : Parser σ) (q : Parser τ), Alike R p q → Run.Rel (AlikeR R) (subIRS E st n p) (subIRS F st n q)) := by
  intro n
  induction n with
  | zero =>
    exact ⟨fun _ _ _ _ _ _ => by rw [pass1Loop, pass1Loop]; trivial, fun _ _ _ _ => by rw [parseIRS, parseIRS]; trivial,
      fun _ _ _ _ => by rw [subIRS, subIRS]; trivial⟩
  | succ n ih =>
    obtain ⟨ih1, ih2, ih3⟩ := ih
    refine ⟨?_, ?_, ?_⟩
    · intro st p q w r hp
      rw [pass1Loop, pass1Loop]
      rw [show q.stack = p.stack from hp.1.symm, show q.sp = p.sp from hp.2.1.symm]
      refine Run.rel_andThen (read_rel h _ _ _ hp) ?_
      clear hp p q
      rintro ⟨k, stk, sp, e, d, s⟩ ⟨_, _, _, _, _, t⟩ ⟨h0, h1, h2, h3, h4, hr⟩
      dsimp only at h0 h1 h2 h3 h4
      subst h0 h1 h2 h3 h4
      simp only
      split
      · split
        · exact ⟨rfl, rfl, rfl, rfl, rfl, hr⟩
        · trivial
      · split
        · split
          · split
            · trivial
            · refine Run.rel_andThen (reduce_rel _ _ _ _ _ ⟨rfl, rfl, rfl, rfl, hr⟩) ?_
              intro p q hp
              exact ih1 _ _ _ _ _ ⟨hp.1, by dsimp only; rw [hp.2.1], hp.2.2.1, hp.2.2.2.1, hp.2.2.2.2⟩
          · split
            · exact ⟨rfl, rfl, rfl, rfl, rfl, hr⟩
            · split
              · refine Run.rel_andThen (ih3 _ _ _ ⟨rfl, rfl, rfl, rfl, hr⟩) ?_
                rintro ⟨a, p⟩ ⟨_, q⟩ ⟨rfl, hp⟩
                exact ih1 _ _ _ _ _ ⟨hp.1, rfl, hp.2.2.1, hp.2.2.2.1, hp.2.2.2.2⟩
              · exact ih1 _ _ _ _ _ ⟨rfl, rfl, rfl, rfl, hr⟩
        · split
          · trivial
          · split
            · exact ih1 _ _ _ _ _ ⟨rfl, rfl, rfl, rfl, hr⟩
            · split
              · trivial
              · refine Run.rel_andThen (reduce_rel _ _ _ _ _ ⟨rfl, rfl, rfl, rfl, hr⟩) ?_
                intro p q hp
                exact ih1 _ _ _ _ _ ⟨hp.1, by dsimp only; rw [hp.2.1], hp.2.2.1, hp.2.2.2.1, hp.2.2.2.2⟩
    · intro st p q hp
      rw [parseIRS, parseIRS]
      dsimp only
      refine Run.rel_andThen (read_rel h _ _ _ ⟨hp.1, rfl, hp.2.2.1, by dsimp only; rw [hp.2.2.2.1], hp.2.2.2.2⟩) ?_
      rintro ⟨⟨k, ok⟩, p⟩ ⟨⟨_, _⟩, q⟩ ⟨h0, hp⟩
      dsimp only at h0
      cases h0
      dsimp only
      refine Run.rel_andThen (P := AlikeR R) ?_ ?_
      · split
        · exact ih1 _ _ _ _ _ hp
        · exact ⟨rfl, hp⟩
      · rintro ⟨ok, p⟩ ⟨_, q⟩ ⟨h0, hp⟩
        dsimp only at h0
        subst h0
        dsimp only at hp ⊢
        rw [show q.depth = p.depth from hp.2.2.2.1.symm]
        refine Run.rel_andThen (P := Alike R) ?_ ?_
        · split
          · exact pass2_rel h _ _ _ _ ⟨hp.1, rfl, hp.2.2.1, rfl, hp.2.2.2.2⟩
          · exact hp
        · rintro ⟨stk, sp, e, d, s⟩ ⟨_, _, _, _, t⟩ ⟨h1, h2, h3, h4, hr⟩
          dsimp only at h1 h2 h3 h4
          subst h1 h2 h3 h4
          dsimp only
          split
          · split
            · exact ⟨rfl, rfl, rfl, rfl, rfl, hr⟩
            · trivial
          · exact ⟨rfl, rfl, rfl, rfl, rfl, hr⟩
    · intro st p q hp
      rw [subIRS, subIRS]
      dsimp only
      rw [show q.sp = p.sp from hp.2.1.symm]
      refine Run.rel_andThen (ih2 _ _ _ hp) ?_
      rintro ⟨⟨rhs, k, ok⟩, p⟩ ⟨⟨_, _, _⟩, q⟩ ⟨h0, hp⟩
      dsimp only at h0
      cases h0
      dsimp only
      split
      · refine Run.rel_andThen (reduce_rel _ _ _ _ _ ⟨hp.1, rfl, hp.2.2.1, hp.2.2.2.1, hp.2.2.2.2⟩) ?_
        intro p q hp
        exact ⟨hp.2.1, hp⟩
      · split
        · trivial
        · split
          · trivial
          · refine Run.rel_andThen (reduce_rel _ _ _ _ _ ⟨hp.1, rfl, hp.2.2.1, hp.2.2.2.1, hp.2.2.2.2⟩) ?_
            intro p q hp
            exact ⟨by dsimp only; rw [hp.2.1], hp⟩

/-- The results are the same. -/
theorem resolveIn_rel (h : Sim E F R) {o o' : Options} (ho : o.outerR2L = o'.outerR2L) {s : σ} {t : τ} (hr : R s t) (n : Nat) :
    Run.Rel (AlikeR R) (resolveIn E o s n) (resolveIn F o' t n) := by
  have hi : ∀ b, initialOuterScrap o b = initialOuterScrap o' b := fun b => by unfold initialOuterScrap; rw [ho]
  unfold resolveIn
  rw [hi]
  dsimp only
  refine Run.rel_andThen ((parse_rel h n).2.1 0 _ _ ⟨rfl, rfl, rfl, rfl, hr⟩) ?_
  rintro ⟨⟨runs, a, b⟩, p⟩ ⟨⟨_, _, _⟩, q⟩ ⟨h0, hp⟩
  dsimp only at h0
  cases h0
  dsimp only
  split
  · trivial
  · exact ⟨rfl, hp⟩

end

end Uax.Bidi
