import Verif.BidiParser

/-
Lemmas about the parser which hold in all surroundings: more rounds do not
change the outcome.
-/
namespace Uax

/-- One run goes on as far as another, or farther. -/
def Run.le {α : Type} (a b : Run α) : Prop := a = .running ∨ a = b

theorem Run.le_refl {α : Type} (a : Run α) : a.le a := Or.inr rfl

theorem Run.le_trans {α : Type} {a b c : Run α} (h1 : a.le b) (h2 : b.le c) : a.le c := by
  rcases h1 with h | h
  · exact Or.inl h
  · rw [h]; exact h2

theorem Run.le_andThen {α β : Type} {a b : Run α} {f g : α → Run β} (h : a.le b) (hf : ∀ x, (f x).le (g x)) :
    (a.andThen f).le (b.andThen g) := by
  rcases h with h | h
  · subst h; exact Or.inl rfl
  · subst h
    cases a with
    | returns x => exact hf x
    | panics => exact Or.inr rfl
    | running => exact Or.inr rfl

theorem Run.le_returns {α : Type} {a b : Run α} {x : α} (h : a.le b) (ha : a = .returns x) : b = .returns x := by
  rcases h with h | h
  · rw [h] at ha; cases ha
  · rw [← h, ha]

theorem Run.le_panics {α : Type} {a b : Run α} (h : a.le b) (ha : a = .panics) : b = .panics := by
  rcases h with h | h
  · rw [h] at ha; cases ha
  · rw [← h, ha]

end Uax

namespace Uax.Bidi

theorem pass2_le {σ : Type} (E : Env σ) (st : Nat) : ∀ (n : Nat) (p : Parser σ),
    (pass2Loop E st n p).le (pass2Loop E st (n + 1) p) := by
  intro n
  induction n with
  | zero => intro p; exact Or.inl (by rw [pass2Loop])
  | succ n ih =>
    intro p
    rw [pass2Loop, pass2Loop]
    split
    · exact Run.le_refl _
    · split
      · exact Run.le_refl _
      · split
        · exact ih _
        · dsimp only
          split
          · exact Run.le_refl _
          · split
            · exact ih _
            · split
              · exact Run.le_refl _
              · exact Run.le_andThen (Run.le_refl _) fun _ => ih _

theorem parse_le {σ : Type} (E : Env σ) : ∀ (n : Nat),
    (∀ st (p : Parser σ) w r, (pass1Loop E st n p w r).le (pass1Loop E st (n + 1) p w r)) ∧
    (∀ st (p : Parser σ), (parseIRS E st n p).le (parseIRS E st (n + 1) p)) ∧
    (∀ st (p : Parser σ), (subIRS E st n p).le (subIRS E st (n + 1) p)) := by
  intro n
  induction n with
  | zero => exact ⟨fun _ _ _ _ => Or.inl (by rw [pass1Loop]), fun _ _ => Or.inl (by rw [parseIRS]), fun _ _ => Or.inl (by rw [subIRS])⟩
  | succ n ih =>
    obtain ⟨ih1, ih2, ih3⟩ := ih
    refine ⟨?_, ?_, ?_⟩
    · intro st p w r
      rw [pass1Loop, pass1Loop]
      refine Run.le_andThen (Run.le_refl _) ?_
      rintro ⟨_, p⟩
      simp only
      split
      · exact Run.le_refl _
      · split
        · split
          · split
            · exact Run.le_refl _
            · exact Run.le_andThen (Run.le_refl _) fun _ => ih1 _ _ _ _
          · split
            · exact Run.le_refl _
            · split
              · exact Run.le_andThen (ih3 _ _) fun _ => ih1 _ _ _ _
              · exact ih1 _ _ _ _
        · split
          · exact Run.le_refl _
          · split
            · exact ih1 _ _ _ _
            · split
              · exact Run.le_refl _
              · exact Run.le_andThen (Run.le_refl _) fun _ => ih1 _ _ _ _
    · intro st p
      rw [parseIRS, parseIRS]
      refine Run.le_andThen (Run.le_refl _) ?_
      rintro ⟨⟨_, ok⟩, p⟩
      refine Run.le_andThen ?_ ?_
      · cases ok
        · exact Run.le_refl _
        · exact ih1 _ _ _ _
      · rintro ⟨ok, p⟩
        refine Run.le_andThen ?_ fun _ => Run.le_refl _
        split
        · exact pass2_le E _ n _
        · exact Run.le_refl _
    · intro st p
      rw [subIRS, subIRS]
      exact Run.le_andThen (ih2 _ _) fun _ => Run.le_refl _

theorem resolveIn_le {σ : Type} (E : Env σ) (o : Options) (env : σ) {n m : Nat} (h : n ≤ m) :
    (resolveIn E o env n).le (resolveIn E o env m) := by
  induction h with
  | refl => exact Run.le_refl _
  | step _ ih => exact Run.le_trans ih (Run.le_andThen ((parse_le E _).2.1 _ _) fun _ => Run.le_refl _)

/-- The paragraph is resolved: ResolveParagraph returns these levels. -/
def Resolves (T : Tables) (o : Options) (sched : Nat → Nat) (b : List Nat) (rl : Levels) : Prop :=
  ∃ N, ∀ n, N ≤ n → ∃ p, resolveParagraph T o sched b n = .returns (rl, p)

theorem resolves_of {T : Tables} {o : Options} {sched : Nat → Nat} {b : List Nat} {rl : Levels}
    {p : Parser (Scanner × Nat)} {n : Nat} (h : resolveParagraph T o sched b n = .returns (rl, p)) :
    Resolves T o sched b rl :=
  ⟨n, fun _ hm => ⟨p, Run.le_returns (resolveIn_le _ o _ hm) h⟩⟩

/-- There is one result at most. -/
theorem Resolves.unique {T : Tables} {o : Options} {sched : Nat → Nat} {b : List Nat} {rl rl' : Levels}
    (h : Resolves T o sched b rl) (h' : Resolves T o sched b rl') : rl = rl' := by
  obtain ⟨N, h⟩ := h
  obtain ⟨N', h'⟩ := h'
  obtain ⟨p, e⟩ := h (max N N') (by omega)
  obtain ⟨p', e'⟩ := h' (max N N') (by omega)
  exact (Prod.mk.inj (Run.returns.inj (e.symm.trans e'))).1

/-- A check of the result of a run of the parser, which the kernel can compute. -/
def resolvedWith (T : Tables) (o : Options) (sched : Nat → Nat) (b : List Nat) (n : Nat) (f : Levels → Bool) : Bool :=
  match resolveParagraph T o sched b n with
  | .returns (rl, _) => f rl
  | _ => false

theorem resolvedWith_iff {T : Tables} {o : Options} {sched : Nat → Nat} {b : List Nat} {n : Nat} {f : Levels → Bool}
    (h : resolvedWith T o sched b n f = true) : ∃ rl, Resolves T o sched b rl ∧ f rl = true := by
  unfold resolvedWith at h
  split at h
  · rename_i rl p e
    exact ⟨rl, resolves_of e, h⟩
  · cases h

end Uax.Bidi
