import Verif.BidiResolve

/-
Without isolates the parser looks at the bracket pairs only after the scanner
has ended. So the schedule has no influence, whether or not the run ends.
-/
namespace Uax.Bidi

theorem readLoop_same (T : Tables) (o : Options) (s1 s2 : Nat → Nat) : ∀ (n k : Nat) (p : Parser (Scanner × Nat)),
    readLoop (scannerEnv T o s1) n k p = readLoop (scannerEnv T o s2) n k p := by
  intro n
  induction n with
  | zero => intro k p; rfl
  | succ n ih =>
    intro k p
    rw [readLoop, readLoop]
    have e : (scannerEnv T o s1).recv p.env = (scannerEnv T o s2).recv p.env := rfl
    rw [e]
    cases (scannerEnv T o s2).recv p.env with
    | none => rfl
    | some x =>
      obtain ⟨s, env⟩ := x
      dsimp only
      split
      · rfl
      · exact ih _ _

theorem read_same (T : Tables) (o : Options) (s1 s2 : Nat → Nat) (p : Parser (Scanner × Nat)) (n : Int) :
    p.read (scannerEnv T o s1) n = p.read (scannerEnv T o s2) n := by
  unfold Parser.read
  rw [readLoop_same T o s1 s2]

theorem ruleN0_same {T : Tables} {o : Options} (s1 s2 : Nat → Nat) (p : Parser (Scanner × Nat)) (s : Scrap) (h : p.env.1.step T o = none) :
    p.ruleN0 (scannerEnv T o s1) s = p.ruleN0 (scannerEnv T o s2) s ∧ (p.ruleN0 (scannerEnv T o s1) s).2.env.1.step T o = none := by
  have hp : ∀ (q : Scanner × Nat) (x : Scrap), q.1.step T o = none → (scannerEnv T o s1).pairing q x = (scannerEnv T o s2).pairing q x ∧
      ((scannerEnv T o s1).pairing q x).2 = (q.1, q.2 + 1) := by
    rintro ⟨sc, i⟩ x hq
    have e : ∀ s, (scannerEnv T o s).pairing (sc, i) x = (((sc.steps T o (s i)).handlers[(sc.steps T o (s i)).bd16For x.l]?).bind (·.find x),
      (sc.steps T o (s i), i + 1)) := fun _ => rfl
    rw [e, e, steps_stuck hq, steps_stuck hq]
    exact ⟨rfl, rfl⟩
  have hc : ∀ (q : Scanner × Nat) (x : Scrap), q.1.step T o = none → (scannerEnv T o s1).change q x = (scannerEnv T o s2).change q x ∧
      ((scannerEnv T o s1).change q x).1.step T o = none := by
    rintro ⟨sc, i⟩ x hq
    have e : ∀ s, (scannerEnv T o s).change (sc, i) x = ({ sc.steps T o (s i) with
      handlers := setHandler (sc.steps T o (s i)).handlers ((sc.steps T o (s i)).bd16For x.l) (·.changeOpening x) }, i + 1) := fun _ => rfl
    rw [e, e, steps_stuck hq, steps_stuck hq]
    refine ⟨rfl, ?_⟩
    unfold Scanner.step at hq ⊢
    dsimp only at hq ⊢
    cases hpc : sc.pc <;> rw [hpc] at hq <;> simp at hq ⊢
  obtain ⟨a1, a2⟩ := hp p.env s h
  rcases hx : (scannerEnv T o s1).pairing p.env s with ⟨pr, env1⟩
  rw [hx] at a1 a2
  dsimp only at a2
  have a3 : env1.1.step T o = none := by rw [a2]; exact h
  unfold Parser.ruleN0 Parser.corresponding
  rw [← a1, hx]
  split
  · cases pr with
    | none => exact ⟨rfl, a3⟩
    | some pr =>
      dsimp only
      obtain ⟨c1, c2⟩ := hc env1 { s with clz := (openingClass s pr.closing).1 } a3
      exact ⟨by rw [c1], c2⟩
  · cases pr with
    | none => exact ⟨rfl, a3⟩
    | some pr => exact ⟨rfl, a3⟩

theorem reduce_env {σ : Type} {p p' : Parser σ} {n : Nat} {rhs : List Scrap} {st : Nat} (h : p.reduce n rhs st = .returns p') :
    p'.env = p.env ∧ p'.eof = p.eof ∧ p'.depth = p.depth ∧ p'.sp = p.sp := by
  unfold Parser.reduce at h
  split at h
  · cases h
  · dsimp only at h
    split at h
    · cases h
    · injection h with h
      subst h
      exact ⟨rfl, rfl, rfl, rfl⟩

theorem reduce_tail {σ : Type} {p p' : Parser σ} {n : Nat} {rhs : List Scrap} {st : Nat} (h : p.reduce n rhs st = .returns p') (hsp : 1 ≤ p.sp) :
    ∀ s ∈ p'.stack.drop 1, s ∈ p.stack.drop 1 ∨ s ∈ rhs := by
  unfold Parser.reduce at h
  split at h
  · cases h
  · rename_i hlen
    dsimp only at h
    split at h
    · cases h
    · rename_i hb
      injection h with h
      subst h
      obtain ⟨sp, hsp⟩ : ∃ k, p.sp = k + 1 := ⟨p.sp - 1, by omega⟩
      cases hst : p.stack with
      | nil => rw [hst] at hlen; simp at hlen; omega
      | cons x xs =>
        rw [hst] at hb hlen
        dsimp only
        obtain ⟨pos, hpos⟩ : ∃ k, max st (p.sp + rhs.length) = k + 1 := ⟨max st (p.sp + rhs.length) - 1, by omega⟩
        obtain ⟨fr, hfr⟩ : ∃ k, ((max st (p.sp + rhs.length) : Nat) - ((rhs.length : Int) - n) : Int).toNat = k + 1 :=
          ⟨((max st (p.sp + rhs.length) : Nat) - ((rhs.length : Int) - n) : Int).toNat - 1, by omega⟩
        rw [hfr, hpos, hsp]
        have e : (x :: xs).take (sp + 1) ++ rhs ++ (x :: xs).drop (sp + 1 + rhs.length) = x :: (xs.take sp ++ rhs ++ xs.drop (sp + rhs.length)) := by
          rw [show sp + 1 + rhs.length = (sp + rhs.length) + 1 by omega]; rfl
        rw [e]
        intro s hs
        simp only [List.take_succ_cons, List.drop_succ_cons, List.cons_append, List.drop_zero] at hs ⊢
        have hm : s ∈ xs.take sp ++ rhs ++ xs.drop (sp + rhs.length) := by
          rw [List.mem_append] at hs
          rcases hs with hs | hs
          · exact List.mem_of_mem_take hs
          · exact List.mem_of_mem_drop hs
        rw [List.mem_append, List.mem_append] at hm
        rcases hm with (hm | hm) | hm
        · exact Or.inl (List.mem_of_mem_take hm)
        · exact Or.inr hm
        · exact Or.inl (List.mem_of_mem_drop hm)

theorem pass2_same {T : Tables} {o : Options} (s1 s2 : Nat → Nat) (st : Nat) : ∀ (n : Nat) (p : Parser (Scanner × Nat)), p.env.1.step T o = none →
    pass2Loop (scannerEnv T o s1) st n p = pass2Loop (scannerEnv T o s2) st n p ∧
    ∀ p', pass2Loop (scannerEnv T o s1) st n p = .returns p' → p'.env.1.step T o = none := by
  intro n
  induction n with
  | zero => intro p _; exact ⟨rfl, fun _ h => by cases h⟩
  | succ n ih =>
    intro p h
    rw [pass2Loop, pass2Loop]
    split
    · exact ⟨rfl, fun p' hp => by injection hp with hp; subst hp; exact h⟩
    · split
      · exact ⟨rfl, fun p' hp => by injection hp with hp; subst hp; exact h⟩
      · rename_i s _
        split
        · obtain ⟨r1, r2⟩ := ruleN0_same s1 s2 p s h
          rw [← r1]
          exact ih _ r2
        · dsimp only
          split
          · exact ⟨rfl, fun _ h => by cases h⟩
          · split
            · exact ih _ h
            · split
              · exact ⟨rfl, fun _ h => by cases h⟩
              · rename_i rule _ _ rhs jmp fl _
                cases hr : p.reduce rule.lhsLen rhs st with
                | panics => exact ⟨rfl, fun _ h => by cases h⟩
                | running => exact ⟨rfl, fun _ h => by cases h⟩
                | returns q =>
                  rw [Run.andThen_returns, Run.andThen_returns]
                  refine ih _ ?_
                  show q.env.1.step T o = none
                  rw [(reduce_env hr).1]
                  exact h

theorem squash_plain {c : Class} {k : Nat} {j : Int} {m rhs : List Scrap} {jmp : Int} {fl : Bool}
    (hs : squash c k j m = some (rhs, jmp, fl)) (hc : isIsolate { clz := c } = false) : ∀ s ∈ rhs, isIsolate s = false := by
  unfold squash at hs
  cases hl : m[k - 1]? with
  | none => rw [hl] at hs; cases m <;> cases hs
  | some last =>
    rw [hl] at hs
    cases m with
    | nil => cases hs
    | cons x xs =>
      injection hs with hs
      injection hs with hs _
      subst hs
      intro s hs
      rw [List.mem_singleton] at hs
      subst hs
      exact hc

theorem w7_plain {m rhs : List Scrap} {jmp : Int} {fl : Bool} (h : Rule.action .W7 m = some (rhs, jmp, fl))
    (hm : ∀ s ∈ m, isIsolate s = false) : ∀ s ∈ rhs, isIsolate s = false := by
  cases m with
  | nil => cases h
  | cons x xs =>
    rw [show Rule.action .W7 (x :: xs) = if x.ctx.context = cL then some ([{ x with clz := cL }], 0, true) else some (x :: xs, 1, true) from rfl] at h
    split at h
    · injection h with h; injection h with h _; subst h
      intro s hs
      rw [List.mem_singleton] at hs
      subst hs
      rfl
    · injection h with h; injection h with h _; subst h
      exact hm

/-- The rules of pass 1 do not make isolates. -/
theorem action_plain {rule : Rule} (hr : rule.pass ≤ 1) {m rhs : List Scrap} {jmp : Int} {fl : Bool} (h : rule.action m = some (rhs, jmp, fl))
    (hm : ∀ s ∈ m, isIsolate s = false) : ∀ s ∈ rhs, isIsolate s = false := by
  cases rule
  case W4_1 => exact squash_plain (c := cEN) h rfl
  case W4_2 => exact squash_plain (c := cEN) h rfl
  case W4_3 => exact squash_plain (c := cAN) h rfl
  case W5_1 => exact squash_plain (c := cEN) h rfl
  case W5_2 => exact squash_plain (c := cEN) h rfl
  case W6_1 => exact squash_plain (c := cNI) h rfl
  case W6_2 => exact squash_plain (c := cNI) h rfl
  case W6_3 => exact squash_plain (c := cNI) h rfl
  case W6x => exact squash_plain (c := cNI) h rfl
  case W7 => exact w7_plain h hm
  all_goals exact absurd hr (by decide)

theorem pass1_same {σ : Type} {E1 E2 : Env σ} (hE : ∀ (p : Parser σ) (n : Int), p.read E1 n = p.read E2 n) (st : Nat) (env' : σ) : ∀ (n : Nat) (p : Parser σ)
    (rest : List Scrap) (w : Bool) (sh : Option Rule), (∀ s ∈ p.stack.drop 1 ++ rest, isIsolate s = false) → 1 ≤ p.sp → 1 ≤ st → Fed E1 p rest env' →
    pass1Loop E1 st n p w sh = pass1Loop E2 st n p w sh ∧
    ∀ ok p', pass1Loop E1 st n p w sh = .returns (ok, p') → ok = false ∧ p'.env = env' ∧ p'.depth = p.depth := by
  intro n
  induction n with
  | zero => intro p rest w sh _ _ _ _; rw [pass1Loop, pass1Loop]; exact ⟨rfl, fun _ _ h => by cases h⟩
  | succ n ih =>
    intro p rest w sh hni hsp hst1 hf
    obtain ⟨res, p1, r1, r2, r3, r4, r5, r6, -⟩ := read_fed hf (3 - ((p.stack.length : Int) - p.sp))
    have hsp1 : 1 ≤ p1.sp := by rw [r4]; exact hsp
    have hni1 : ∀ s ∈ p1.stack.drop 1 ++ rest.drop (3 - ((p.stack.length : Int) - p.sp)).toNat, isIsolate s = false := by
      intro s hs
      rw [r2, List.mem_append] at hs
      apply hni
      rw [List.mem_append]
      rcases hs with hs | hs
      · rw [List.drop_append, List.mem_append] at hs
        rcases hs with hs | hs
        · exact Or.inl hs
        · exact Or.inr (List.mem_of_mem_take (List.mem_of_mem_drop hs))
      · exact Or.inr (List.mem_of_mem_drop hs)
    generalize rest.drop (3 - ((p.stack.length : Int) - p.sp)).toNat = rest1 at r3 hni1
    rw [pass1_read (p1 := p1) (res := res) r1 (fun _ => rfl), pass1_read (p1 := p1) (res := res) (by rw [← hE]; exact r1) (fun _ => rfl)]
    cases hd : p1.stack.drop p1.sp with
    | nil =>
      dsimp only
      refine ⟨rfl, ?_⟩
      intro ok p' h
      split at h
      · rename_i he
        injection h with h; injection h with e1 e2
        subst e1; subst e2
        refine ⟨rfl, ?_, r5⟩
        rcases r3 with ⟨h', -⟩ | ⟨-, -, h'⟩
        · rw [he] at h'; cases h'
        · exact h'
      · cases h
    | cons s t =>
      have hst : ∀ x ∈ s :: t, isIsolate x = false := fun x hx => hni1 x (List.mem_append_left _ (by
        rw [← hd, show p1.sp = 1 + (p1.sp - 1) by omega, ← List.drop_drop] at hx
        exact List.mem_of_mem_drop hx))
      have hs : isIsolate s = false := hst s (List.mem_cons_self ..)
      -- carrying out a rule
      have happly : ∀ (rule : Rule) (sh' : Option Rule), rule.pass ≤ 1 →
          (match rule.action (s :: t) with
            | none => Run.panics
            | some (rhs, jmp, _) => (p1.reduce rule.lhsLen rhs st).andThen fun p =>
                pass1Loop E1 st n { p with sp := jump st p.sp jmp } false sh') =
          (match rule.action (s :: t) with
            | none => Run.panics
            | some (rhs, jmp, _) => (p1.reduce rule.lhsLen rhs st).andThen fun p =>
                pass1Loop E2 st n { p with sp := jump st p.sp jmp } false sh') ∧
          ∀ ok p', (match rule.action (s :: t) with
            | none => Run.panics
            | some (rhs, jmp, _) => (p1.reduce rule.lhsLen rhs st).andThen fun p =>
                pass1Loop E1 st n { p with sp := jump st p.sp jmp } false sh') = .returns (ok, p') →
            ok = false ∧ p'.env = env' ∧ p'.depth = p.depth := by
        intro rule sh' hp
        cases ha : rule.action (s :: t) with
        | none => exact ⟨rfl, fun _ _ h => by cases h⟩
        | some x =>
          obtain ⟨rhs, jmp, fl⟩ := x
          dsimp only
          cases hr : p1.reduce rule.lhsLen rhs st with
          | panics => exact ⟨rfl, fun _ _ h => by cases h⟩
          | running => exact ⟨rfl, fun _ _ h => by cases h⟩
          | returns q =>
            rw [Run.andThen_returns, Run.andThen_returns]
            obtain ⟨q1, q2, q3, q4⟩ := reduce_env hr
            have q5 := reduce_tail hr hsp1
            obtain ⟨e1, e2⟩ := ih { q with sp := jump st q.sp jmp } rest1 false sh' (by
              intro x hx
              rw [List.mem_append] at hx
              rcases hx with hx | hx
              · rcases q5 x hx with hx | hx
                · exact hni1 x (List.mem_append_left _ hx)
                · exact action_plain hp ha hst x hx
              · exact hni1 x (List.mem_append_right _ hx)) (by
              show 1 ≤ jump st q.sp jmp
              unfold jump
              omega) hst1 (by
              unfold Fed at r3 ⊢
              dsimp only
              rw [q1, q2]
              exact r3)
            refine ⟨e1, fun ok p' h => ?_⟩
            obtain ⟨f1, f2, f3⟩ := e2 ok p' h
            exact ⟨f1, f2, by rw [f3]; show q.depth = _; rw [q3, r5]⟩
      dsimp only
      cases w with
      | true =>
        simp only [if_true]
        cases hsh : sh.filter (·.pass ≤ 1) with
        | some rule =>
          dsimp only
          have hp : rule.pass ≤ 1 := by
            have := Option.filter_eq_some_iff.mp hsh
            simpa using this.2
          exact happly rule sh hp
        | none =>
          dsimp only
          rw [if_neg (by intro h; rw [isIsolate, h] at hs; cases hs), if_neg (by rw [hs]; simp),
            if_neg (by intro h; rw [isIsolate, h] at hs; cases hs), if_neg (by rw [hs]; simp)]
          obtain ⟨e1, e2⟩ := ih { p1 with sp := p1.sp + 1 } rest1 false sh hni1 (Nat.le_add_left 1 p1.sp) hst1 r3
          exact ⟨e1, fun ok p' h => by obtain ⟨f1, f2, f3⟩ := e2 ok p' h; exact ⟨f1, f2, by rw [f3]; exact r5⟩⟩
      | false =>
        rw [if_neg (by simp), if_neg (by simp)]
        cases lookupRules ((s :: t).map (·.clz)) 0 with
        | none => exact ⟨rfl, fun _ _ h => by cases h⟩
        | some x =>
          obtain ⟨long, short⟩ := x
          dsimp only
          cases hl : long.filter (·.pass ≤ 1) with
          | none =>
            dsimp only
            obtain ⟨e1, e2⟩ := ih p1 rest1 true short hni1 hsp1 hst1 r3
            exact ⟨e1, fun ok p' h => by obtain ⟨f1, f2, f3⟩ := e2 ok p' h; exact ⟨f1, f2, by rw [f3]; exact r5⟩⟩
          | some rule =>
            dsimp only
            have hp : rule.pass ≤ 1 := by
              have := Option.filter_eq_some_iff.mp hl
              simpa using this.2
            exact happly rule short hp

/-- The same run for all schedules, and the scanner does nothing more after it. -/
theorem resolve_same {T : Tables} {o : Options} (ho : o.markup = none) (hT : ∀ r, T.cls r ≠ cNULL) (b : List Nat)
    (h : NoIsolates (scrapsOf T o b)) (s1 s2 : Nat → Nat) (n : Nat) :
    resolveParagraph T o s1 b n = resolveParagraph T o s2 b n := by
  obtain ⟨fin, h1, h2, -⟩ := scanner_feeds ho hT s1 b
  unfold resolveParagraph resolveIn
  dsimp only
  congr 1
  cases n with
  | zero => rw [parseIRS, parseIRS]
  | succ n =>
    rw [parseIRS, parseIRS]
    dsimp only
    obtain ⟨res, p1, r1, r2, r3, r4, r5, r6, r7⟩ := read_fed (E := scannerEnv T o s1) (env' := (fin, 0)) (rest := scrapsOf T o b)
      (p := { stack := [initialOuterScrap o true], sp := 1, eof := false, depth := 1, env := (newScanner o b, 0) }) (Or.inl ⟨rfl, h1⟩) 3
    have r1' := r1
    rw [read_same T o s1 s2] at r1'
    rw [r1, r1', Run.andThen_returns, Run.andThen_returns]
    obtain ⟨x1, x2⟩ := res
    have hres : x2 = true := r7 (by decide) rfl
    subst hres
    dsimp only
    rw [if_pos rfl, if_pos rfl]
    have hni : ∀ s ∈ p1.stack.drop 1 ++ (scrapsOf T o b).drop 3, isIsolate s = false := by
      rw [r2]
      intro s hs
      rw [List.mem_append] at hs
      rcases hs with hs | hs
      · exact h s (List.mem_of_mem_take (by simpa using hs))
      · exact h s (List.mem_of_mem_drop hs)
    obtain ⟨a1, a2⟩ := pass1_same (read_same T o s1 s2) (0 + 1) (fin, 0) n p1 ((scrapsOf T o b).drop 3) false none hni (by rw [r4]; exact Nat.le_refl _) (Nat.le_refl _) r3
    rw [← a1]
    cases hr : pass1Loop (scannerEnv T o s1) (0 + 1) n p1 false none with
    | panics => rfl
    | running => rfl
    | returns x =>
      obtain ⟨ok, p2⟩ := x
      obtain ⟨rfl, e2, e3⟩ := a2 ok p2 hr
      rw [Run.andThen_returns, Run.andThen_returns]
      dsimp only
      have hd : p2.depth = 1 := by rw [e3, r5]
      rw [if_pos (Or.inr hd), if_pos (Or.inr hd)]
      rw [(pass2_same s1 s2 0 n { p2 with sp := 0 } (by show p2.env.1.step T o = none; rw [e2]; exact ended_atRest h2)).1]

end Uax.Bidi
