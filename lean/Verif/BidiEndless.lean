import Verif.BidiChars
import Verif.BidiSample

/-
A run of the parser which has no end: rule W7 at a European number which is not
in left-to-right context puts the scraps after the number on the stack once more.
-/
namespace Uax.Bidi

/-- Pass 1 has no end, from this position of this list of scraps. -/
def Endless {σ : Type} (E : Env σ) (env' : σ) (st : Nat) (xs : List Scrap) (sp : Nat) : Prop :=
  ∀ n (p : Parser σ) (rest : List Scrap) (sh : Option Rule), p.stack ++ rest = xs → p.sp = sp → sp ≤ p.stack.length →
    Fed E p rest env' → pass1Loop E st n p false sh = .running

theorem endless_walk {σ : Type} {E : Env σ} {env' : σ} {st : Nat} {xs : List Scrap} {sp : Nat} {s : Scrap} {t : List Scrap}
    (h : xs.drop sp = s :: t) (hk : ∀ x ∈ s :: t, x.clz < 28) (hc : choose1 ((s :: t).map (·.clz)) = none) (hi : isIsolate s = false)
    (hn : Endless E env' st xs (sp + 1)) : Endless E env' st xs sp := by
  intro n p rest sh hxs hsp hle hf
  obtain ⟨res, p1, rest1, w, h1, h2, h3, h4, h5, h6, h7, h8, h9⟩ := window hf (by omega) (by rw [hxs, hsp]; exact h)
  subst h9
  have hlk := window_lookup h8 hk
  obtain ⟨hc1, hc2⟩ : (longAmong keptRules ((s :: (w ++ rest1)).map (·.clz))).filter (·.pass ≤ 1) = none ∧
      (shortAmong keptRules ((s :: (w ++ rest1)).map (·.clz))).filter (·.pass ≤ 1) = none := by
    simpa only [choose1, Option.or_eq_none_iff] using hc
  obtain ⟨res', p2, rest2, w2, g1, g2, g3, g4, g5, g6, g7, -, -⟩ :=
    window h4 h7 (by rw [h5, h2, hxs, hsp]; exact h)
  cases n with
  | zero => rw [pass1Loop]
  | succ n =>
    rw [pass1_read h1 (fun _ => rfl), h6]
    dsimp only
    rw [if_neg (by simp), hlk]
    dsimp only
    rw [hc1]
    dsimp only
    cases n with
    | zero => rw [pass1Loop]
    | succ n =>
      rw [pass1_read g1 (fun _ => rfl), g6]
      dsimp only
      rw [if_pos rfl, hc2]
      dsimp only
      rw [if_neg (by intro h; rw [isIsolate, h] at hi; cases hi), if_neg (by rw [hi]; simp)]
      exact hn n _ rest2 _ (by show p2.stack ++ rest2 = xs; rw [g5, h5, hxs]) (by show p2.sp + 1 = _; rw [g2, h2, hsp]) (by
        have := congrArg List.length g6
        simp only [List.length_drop, List.length_cons] at this
        show _ ≤ p2.stack.length
        omega) g4

/-- Three scraps are before the parser: a number not in left-to-right context,
a neutral one and another such number. -/
theorem endless_w7 {σ : Type} (E : Env σ) (st : Nat) : ∀ (n : Nat) (p : Parser σ) (x y z : Scrap) (sh : Option Rule), st ≤ p.sp →
    p.stack.drop p.sp = [x, y, z] → x.clz = cEN → x.ctx.context ≠ cL → y.clz = cNI → z.clz = cEN → z.ctx.context ≠ cL →
    pass1Loop E st n p false sh = .running := by
  have hread : ∀ p : Parser σ, 3 ≤ (p.stack.drop p.sp).length → p.read E (3 - ((p.stack.length : Int) - p.sp)) = .returns ((0, false), p) := by
    intro p h
    rw [List.length_drop] at h
    unfold Parser.read
    rw [if_pos (Or.inl (by omega))]
  intro n
  induction n using Nat.strongRecOn with
  | _ n ih =>
    intro p x y z sh hst hd hx1 hx2 hy hz1 hz2
    have hlen : p.stack.length = p.sp + 3 := by
      have := congrArg List.length hd
      simp only [List.length_drop, List.length_cons, List.length_nil] at this
      omega
    -- the numbers of rounds
    match n with
    | 0 => rw [pass1Loop]
    | 1 =>
      rw [pass1_read (hread p (by rw [hd]; simp)) (fun _ => rfl), hd]
      dsimp only
      rw [if_neg (by simp), lookupRules_eq _ _ (by omega) (by simp [hx1, hy, hz1, cEN, cNI])]
      dsimp only
      rw [show longAmong keptRules ([x, y, z].map (·.clz)) = some .N1_10 by
        simp only [List.map_cons, List.map_nil, hx1, hy, hz1]; decide +kernel]
      show pass1Loop E st 0 _ _ _ = _
      rw [pass1Loop]
    | k + 2 =>
      rw [pass1_read (hread p (by rw [hd]; simp)) (fun _ => rfl), hd]
      dsimp only
      rw [if_neg (by simp), lookupRules_eq _ _ (by omega) (by simp [hx1, hy, hz1, cEN, cNI])]
      dsimp only
      rw [show longAmong keptRules ([x, y, z].map (·.clz)) = some .N1_10 by
        simp only [List.map_cons, List.map_nil, hx1, hy, hz1]; decide +kernel,
        show shortAmong keptRules ([x, y, z].map (·.clz)) = some .W7 by
        simp only [List.map_cons, List.map_nil, hx1, hy, hz1]; decide +kernel]
      show pass1Loop E st (k + 1) p true (some .W7) = _
      rw [pass1_read (hread p (by rw [hd]; simp)) (fun _ => rfl), hd]
      dsimp only
      rw [if_pos rfl]
      have e1 : (some Rule.W7).filter (·.pass ≤ 1) = some .W7 := rfl
      have e2 : Rule.action .W7 [x, y, z] = some ([x, y, z], 1, true) := by
        show (if x.ctx.context = cL then _ else _) = _
        rw [if_neg hx2]
      rw [e1]
      dsimp only
      rw [e2]
      dsimp only
      have e3 : p.reduce (Rule.lhsLen .W7) [x, y, z] st = .returns { p with stack := p.stack ++ [y, z] } := by
        have hl : Rule.lhsLen .W7 = 1 := rfl
        have hp : p.stack.take p.sp ++ [x, y, z] = p.stack := by rw [← hd, List.take_append_drop]
        unfold Parser.reduce
        rw [hl, if_neg (by simp only [List.length_cons, List.length_nil]; omega)]
        dsimp only
        rw [hp, List.drop_eq_nil_of_le (by simp only [List.length_cons, List.length_nil]; omega), List.append_nil]
        have hm : max st (p.sp + [x, y, z].length) = p.sp + 3 := by simp only [List.length_cons, List.length_nil]; omega
        rw [hm, if_neg (by simp only [List.length_cons, List.length_nil]; omega)]
        have hn : (((p.sp + 3 : Nat) : Int) - (([x, y, z].length : Int) - (1 : Nat))).toNat = p.sp + 1 := by
          simp only [List.length_cons, List.length_nil]; omega
        rw [hn, List.take_of_length_le (by omega), ← List.drop_drop, hd]
        rfl
      rw [e3, Run.andThen_returns]
      -- the neutral scrap is passed
      have hj : jump st p.sp 1 = p.sp + 1 := by unfold jump; omega
      dsimp only
      rw [hj]
      have hd2 : (p.stack ++ [y, z]).drop (p.sp + 1) = [y, z, y, z] := by
        rw [List.drop_append_of_le_length (by omega), ← List.drop_drop, hd]
        rfl
      match k with
      | 0 => rw [pass1Loop]
      | j + 1 =>
        rw [pass1_read (p := { p with stack := p.stack ++ [y, z], sp := p.sp + 1 }) (hread _ (by rw [hd2]; simp)) (fun _ => rfl)]
        dsimp only
        rw [hd2]
        dsimp only
        rw [if_neg (by simp), lookupRules_eq _ _ (by omega) (by simp [hy, hz1, cEN, cNI])]
        dsimp only
        rw [show longAmong keptRules ([y, z, y, z].map (·.clz)) = none by
          simp only [List.map_cons, List.map_nil, hy, hz1]; decide +kernel,
          show shortAmong keptRules ([y, z, y, z].map (·.clz)) = some .N2 by
          simp only [List.map_cons, List.map_nil, hy, hz1]; decide +kernel]
        show pass1Loop E st j _ true (some .N2) = _
        match j with
        | 0 => rw [pass1Loop]
        | i + 1 =>
          rw [pass1_read (p := { p with stack := p.stack ++ [y, z], sp := p.sp + 1 }) (hread _ (by rw [hd2]; simp)) (fun _ => rfl)]
          dsimp only
          rw [hd2]
          dsimp only
          rw [if_pos rfl]
          have e4 : (some Rule.N2).filter (·.pass ≤ 1) = none := rfl
          rw [e4]
          dsimp only
          rw [if_neg (by rw [hy]; decide), if_neg (by unfold isIsolate; rw [hy]; decide)]
          refine ih i (by omega) _ z y z _ (by show st ≤ p.sp + 1 + 1; omega) ?_ hz1 hz2 hy hz1 hz2
          show (p.stack ++ [y, z]).drop (p.sp + 1 + 1) = _
          rw [← List.drop_drop, hd2]
          rfl

theorem ite_le {p : Prop} [Decidable p] {a b k : Nat} (h1 : a ≤ k) (h2 : b ≤ k) : (if p then a else b) ≤ k := by
  split
  · exact h1
  · exact h2

/-- The classes of the sample are known. -/
theorem sample_known : Spec.KnownClasses sample := by
  intro r
  show sampleClass r ≤ cPDI
  unfold sampleClass
  repeat' apply ite_le
  all_goals decide

theorem known_notNull {T : Tables} (h : Spec.KnownClasses T) (r : Nat) : T.cls r ≠ cNULL := by
  intro he
  have := h r
  rw [he] at this
  exact absurd this (by decide)

/-- The two numbers of "A 1 2" follow a letter from right to left. -/
theorem endless_numbers (sched : Nat → Nat) (n : Nat) :
    resolveParagraph sample { testing := true } sched (ascii ['A', ' ', '1', ' ', '2']) n = .running := by
  obtain ⟨fin, h1, -, -⟩ := scanner_feeds (T := sample) (o := { testing := true }) rfl (known_notNull sample_known) sched (ascii ['A', ' ', '1', ' ', '2'])
  have hs : scrapsOf sample { testing := true } (ascii ['A', ' ', '1', ' ', '2']) =
      [{ clz := cR, l := 0, r := 1 }, { clz := cNI, l := 1, r := 2, ctx := { strong := cR } },
       { clz := cEN, l := 2, r := 3, ctx := { strong := cR } }, { clz := cNI, l := 3, r := 4, ctx := { strong := cR } },
       { clz := cEN, l := 4, r := 5, ctx := { strong := cR } }] := by
    rfl
  rw [hs] at h1
  unfold resolveParagraph resolveIn
  dsimp only
  cases n with
  | zero => rw [parseIRS]; rfl
  | succ n =>
    rw [parseIRS]
    dsimp only
    obtain ⟨res, p1, r1, r2, r3, r4, r5, r6, r7⟩ := read_fed (E := scannerEnv sample { testing := true } sched) (env' := (fin, 0))
      (p := { stack := [initialOuterScrap { testing := true } true], sp := 1, eof := false, depth := 1, env := (newScanner { testing := true } (ascii ['A', ' ', '1', ' ', '2']), 0) })
      (Or.inl ⟨rfl, h1⟩) 3
    rw [r1, Run.andThen_returns]
    obtain ⟨x1, x2⟩ := res
    have hres : x2 = true := r7 (by decide) rfl
    subst hres
    dsimp only
    rw [if_pos rfl]
    have hp : Endless (scannerEnv sample { testing := true } sched) (fin, 0) 1
        (initialOuterScrap { testing := true } true :: [{ clz := cR, l := 0, r := 1 }, { clz := cNI, l := 1, r := 2, ctx := { strong := cR } },
          { clz := cEN, l := 2, r := 3, ctx := { strong := cR } }, { clz := cNI, l := 3, r := 4, ctx := { strong := cR } },
          { clz := cEN, l := 4, r := 5, ctx := { strong := cR } }]) 1 := by
      refine endless_walk (s := { clz := cR, l := 0, r := 1 }) rfl (by decide) (by decide +kernel) rfl ?_
      refine endless_walk (s := { clz := cNI, l := 1, r := 2, ctx := { strong := cR } }) rfl (by decide) (by decide +kernel) rfl ?_
      intro n p rest sh hxs hsp hle hf
      -- the next round reads the rest
      obtain ⟨res, p2, rest2, w, g1, g2, g3, g4, g5, g6, g7, g8, g9⟩ := window hf (by omega)
        (s := { clz := cEN, l := 2, r := 3, ctx := { strong := cR } }) (t := [{ clz := cNI, l := 3, r := 4, ctx := { strong := cR } },
          { clz := cEN, l := 4, r := 5, ctx := { strong := cR } }]) (by rw [hxs, hsp]; rfl)
      have hw : w = [{ clz := cNI, l := 3, r := 4, ctx := { strong := cR } }, { clz := cEN, l := 4, r := 5, ctx := { strong := cR } }] := by
        rcases g8 with g8 | g8
        · have := congrArg List.length g9
          simp only [List.length_append, List.length_cons, List.length_nil] at this
          have : rest2 = [] := List.eq_nil_of_length_eq_zero (by omega)
          rw [this, List.append_nil] at g9
          exact g9.symm
        · rw [g8, List.append_nil] at g9
          exact g9.symm
      have hrun := fun k => endless_w7 (scannerEnv sample { testing := true } sched) 1 k p2 _ _ _ sh (by omega) (g6.trans (by rw [hw])) rfl (by decide) rfl rfl (by decide)
      -- reading once more changes nothing
      have hread : p2.read (scannerEnv sample { testing := true } sched) (3 - ((p2.stack.length : Int) - p2.sp)) = .returns ((0, false), p2) := by
        have := congrArg List.length g6
        rw [List.length_drop, hw] at this
        simp only [List.length_cons, List.length_nil] at this
        unfold Parser.read
        rw [if_pos (Or.inl (by omega))]
      cases n with
      | zero => rw [pass1Loop]
      | succ n =>
        have e := hrun (n + 1)
        rw [pass1_read hread (fun _ => rfl)] at e
        rw [pass1_read g1 (fun _ => rfl)]
        exact e
    rw [show (0 + 1 : Nat) = 1 from rfl, hp n p1 (List.drop 3 _) none (by
      rw [r2, List.append_assoc, List.singleton_append]
      exact congrArg _ (List.take_append_drop 3 _)) r4 (by rw [r2]; decide) r3]
    rfl

end Uax.Bidi
