import Verif.BidiPass2

/-
Both passes together, for a text without isolates, and the scanner as their
surroundings.
-/
namespace Uax.Bidi

theorem pass1_more {σ : Type} (E : Env σ) {st n m : Nat} (h : n ≤ m) (p : Parser σ) (w : Bool) (r : Option Rule) :
    (pass1Loop E st n p w r).le (pass1Loop E st m p w r) := by
  induction h with
  | refl => exact Run.le_refl _
  | step _ ih => exact Run.le_trans ih ((parse_le E _).1 _ _ _ _)

theorem pass2_more {σ : Type} (E : Env σ) {st n m : Nat} (h : n ≤ m) (p : Parser σ) :
    (pass2Loop E st n p).le (pass2Loop E st m p) := by
  induction h with
  | refl => exact Run.le_refl _
  | step _ ih => exact Run.le_trans ih (pass2_le E _ _ _)

/-- What is returned for the stack at the end. -/
def levelsOf (o : Options) (stack : List Scrap) : Levels :=
  { scraps := stack ++ [{ l := (stack.getLast?.getD {}).r, r := (stack.getLast?.getD {}).r, clz := cPDI }]
    embedding := directionOf (initialOuterScrap o true) .ltr }

theorem wholeBBack {σ : Type} {E : Env σ} {o : Options} {env env' : σ} {ss : List Scrap} {P : List Scrap → List Scrap → Prop} {J : List Scrap → List Scrap → σ → Prop}
    (hf : Feeds E env ss env') (hP : Inv1B P) (hQ : Inv2B E J) (h1 : P [] ss)
    (h2 : ∀ ys, P ys [] → J [] (initialOuterScrap o true :: ys) env') (hne : ∀ {pre env}, J pre [] env → pre ≠ []) :
    ∃ N p, resolveIn E o env N = .returns (levelsOf o p.stack, p) ∧ J p.stack [] p.env := by
  obtain ⟨ys, hr, hys⟩ := pass1_total hP (initialOuterScrap o true) _ [] ss (Nat.le_refl _) h1
  -- reading three scraps
  obtain ⟨res, p1, r1, r2, r3, r4, r5, r6, r7⟩ := read_fed (E := E) (env' := env') (rest := ss)
    (p := { stack := [initialOuterScrap o true], sp := 1, eof := false, depth := 1, env := env }) (Or.inl ⟨rfl, hf⟩) 3
  have hres : res.2 = true := r7 (by decide) rfl
  -- pass 1
  obtain ⟨N1, p2, a1, a2, a3, a4, a5⟩ := pass1_reduces hr p1 (ss.drop 3) none (by
      rw [r2]; show [_] ++ ss.take 3 ++ ss.drop 3 = _; rw [List.append_assoc, List.take_append_drop]; rfl)
    r4 (Nat.le_refl _) (by rw [r2]; simp) r3
  -- pass 2
  obtain ⟨N2, p3, b1, b2, b3, b5, b6⟩ := pass2B_total hQ _ [] (initialOuterScrap o true :: ys) { p2 with sp := 0 } (Nat.le_refl _)
    (by show J _ _ p2.env; rw [a4]; exact h2 ys hys) (by show p2.stack = _; rw [a2]; rfl) rfl
  have hd : p3.depth = 1 := by rw [b6]; show p2.depth = 1; rw [a5, r5]
  refine ⟨max N1 N2 + 1, { p3 with depth := p3.depth - 1 }, ?_, b2⟩
  have e1 := Run.le_returns (pass1_more E (Nat.le_max_left N1 N2) p1 false none) a1
  have e2 := Run.le_returns (pass2_more E (Nat.le_max_right N1 N2) { p2 with sp := 0 }) b1
  unfold resolveIn
  dsimp only
  rw [parseIRS]
  dsimp only
  rw [r1, Run.andThen_returns]
  obtain ⟨x1, x2⟩ := res
  dsimp only at hres
  subst hres
  dsimp only
  have hd2 : p2.depth = 1 := by rw [a5, r5]
  rw [if_pos rfl, e1, Run.andThen_returns]
  dsimp only
  rw [if_pos (Or.inr hd2), e2, Run.andThen_returns]
  rw [if_neg (by simp), Run.andThen_returns]
  dsimp only
  rw [List.drop_zero]
  cases hl : p3.stack.getLast? with
  | none => exact absurd (List.getLast?_eq_none_iff.mp hl) (hne b2)
  | some last => simp only [levelsOf, hl, Option.getD_some]

theorem wholeJBack {σ : Type} {E : Env σ} {o : Options} {env env' : σ} {ss : List Scrap} {P : List Scrap → List Scrap → Prop} {J : List Scrap → List Scrap → σ → Prop}
    (hf : Feeds E env ss env') (hP : Inv1B P) (hQ : Inv2J E J) (h1 : P [] ss)
    (h2 : ∀ ys, P ys [] → J [] (initialOuterScrap o true :: ys) env') (hne : ∀ {pre env}, J pre [] env → pre ≠ []) :
    ∃ N p, resolveIn E o env N = .returns (levelsOf o p.stack, p) ∧ J p.stack [] p.env := wholeBBack hf hP hQ.weak h1 h2 hne

theorem wholeJ {σ : Type} {E : Env σ} {o : Options} {env env' : σ} {ss : List Scrap} {P : List Scrap → List Scrap → Prop} {J : List Scrap → List Scrap → σ → Prop}
    (hf : Feeds E env ss env') (hP : Inv1 P) (hQ : Inv2J E J) (h1 : P [] ss)
    (h2 : ∀ ys, P ys [] → J [] (initialOuterScrap o true :: ys) env') (hne : ∀ {pre env}, J pre [] env → pre ≠ []) :
    ∃ N p, resolveIn E o env N = .returns (levelsOf o p.stack, p) ∧ J p.stack [] p.env := wholeJBack hf hP.jumps hQ h1 h2 hne

theorem wholeBack {σ : Type} {E : Env σ} {o : Options} {env env' : σ} {ss : List Scrap} {P Q : List Scrap → List Scrap → Prop} {G : σ → Prop}
    (hf : Feeds E env ss env') (hP : Inv1B P) (hQ : Inv2 E Q G) (h1 : P [] ss)
    (h2 : ∀ ys, P ys [] → Q [] (initialOuterScrap o true :: ys)) (hne : ∀ {pre}, Q pre [] → pre ≠ []) (hG : G env') :
    ∃ N p, resolveIn E o env N = .returns (levelsOf o p.stack, p) ∧ Q p.stack [] ∧ G p.env := by
  obtain ⟨N, p, e1, e2⟩ := wholeJBack (o := o) hf hP hQ.joint h1 (fun ys hy => ⟨h2 ys hy, hG⟩) (fun h => hne h.1)
  exact ⟨N, p, e1, e2⟩

theorem whole {σ : Type} {E : Env σ} {o : Options} {env env' : σ} {ss : List Scrap} {P Q : List Scrap → List Scrap → Prop} {G : σ → Prop}
    (hf : Feeds E env ss env') (hP : Inv1 P) (hQ : Inv2 E Q G) (h1 : P [] ss)
    (h2 : ∀ ys, P ys [] → Q [] (initialOuterScrap o true :: ys)) (hne : ∀ {pre}, Q pre [] → pre ≠ []) (hG : G env') :
    ∃ N p, resolveIn E o env N = .returns (levelsOf o p.stack, p) ∧ Q p.stack [] ∧ G p.env := wholeBack hf hP.jumps hQ h1 h2 hne hG

end Uax.Bidi
