import Verif.BidiEndless

/-
Another run of the parser which has no end: two isolate initiators at the end of
the text. When the parser finds out that an isolate is not closed, it puts the
rest of its stack after itself.
-/
namespace Uax.Bidi

theorem read_eof {σ : Type} (E : Env σ) (p : Parser σ) (k : Int) (h : p.eof = true) : p.read E k = .returns ((0, false), p) := by
  unfold Parser.read
  rw [if_pos (Or.inr h)]

/-- An isolate without an end: two initiators are on the top of the stack. -/
theorem sub_open {σ : Type} (E : Env σ) (st : Nat) (x y : Scrap) (n : Nat) (p : Parser σ) (he : p.eof = true)
    (hd : p.stack.drop p.sp = [x, y]) (h1 : st ≤ p.sp) (h4 : 1 ≤ p.depth) :
    subIRS E st n p = .running ∨ ∃ p', subIRS E st n p = .returns (max st (p.sp - 2), p') ∧ p'.eof = true ∧ p'.depth = p.depth ∧
      p'.stack = p.stack.take p.sp ++ [{ x with clz := cNI }, y, y] := by
  have hlen : p.stack.length = p.sp + 2 := by
    have := congrArg List.length hd
    simp only [List.length_drop, List.length_cons, List.length_nil] at this
    omega
  match n with
  | 0 => left; rw [subIRS]
  | 1 => left; rw [subIRS, parseIRS]; rfl
  | n + 2 =>
    right
    rw [subIRS, parseIRS]
    dsimp only
    rw [read_eof E _ _ (by exact he), Run.andThen_returns]
    dsimp only
    rw [if_neg (by simp), Run.andThen_returns]
    dsimp only
    rw [if_neg (by simp; omega), Run.andThen_returns]
    dsimp only
    rw [if_neg (by simp), Run.andThen_returns]
    dsimp only
    rw [hd, if_neg (by simp), if_neg (by omega)]
    dsimp only
    have e : Parser.reduce { p with depth := p.depth + 1 - 1, sp := p.sp } (p.sp + 1 - p.sp) [{ x with clz := cNI }, y] st =
        .returns { p with depth := p.depth + 1 - 1, sp := p.sp, stack := p.stack.take p.sp ++ [{ x with clz := cNI }, y, y] } := by
      unfold Parser.reduce
      dsimp only
      rw [if_neg (by simp only [List.length_cons, List.length_nil]; omega)]
      rw [List.drop_eq_nil_of_le (by simp only [List.length_cons, List.length_nil]; omega), List.append_nil]
      have hm : max st (p.sp + [({ x with clz := cNI } : Scrap), y].length) = p.sp + 2 := by simp only [List.length_cons, List.length_nil]; omega
      have hl : (p.stack.take p.sp ++ [({ x with clz := cNI } : Scrap), y]).length = p.sp + 2 := by
        simp only [List.length_append, List.length_take, List.length_cons, List.length_nil]; omega
      rw [hm, hl, if_neg (by simp only [List.length_cons, List.length_nil]; omega)]
      have hn : (((p.sp + 2 : Nat) : Int) - (([({ x with clz := cNI } : Scrap), y].length : Int) - ((p.sp + 1 - p.sp : Nat) : Int))).toNat = p.sp + 1 := by
        simp only [List.length_cons, List.length_nil]; omega
      rw [hn, List.take_of_length_le (by omega), List.drop_append]
      have : (p.stack.take p.sp).length = p.sp := by rw [List.length_take]; omega
      rw [this, List.drop_eq_nil_of_le (by omega), Nat.add_sub_cancel_left]
      simp
    rw [e, Run.andThen_returns]
    exact ⟨_, rfl, he, by show p.depth + 1 - 1 = p.depth; omega, rfl⟩

/-- After the end of the input the stack has at most two neutral scraps and two initiators. -/
theorem endless_open {σ : Type} (E : Env σ) (st : Nat) :
    ∀ (n : Nat) (p : Parser σ) (sh : Option Rule), p.eof = true → 1 ≤ p.depth → st ≤ p.stack.length →
    (∃ x y : Scrap, x.clz = cLRI ∧ y.clz = cLRI ∧
      (p.stack.drop st = [x, y] ∧ p.sp = st ∨
       (∃ a : Scrap, a.clz = cNI ∧ p.stack.drop st = [a, x, y] ∧ (p.sp = st ∨ p.sp = st + 1)) ∨
       ∃ a b : Scrap, a.clz = cNI ∧ b.clz = cNI ∧ p.stack.drop st = [a, b, x, y] ∧ p.sp = st)) →
    pass1Loop E st n p false sh = .running := by
  intro n
  induction n using Nat.strongRecOn with
  | _ n ih =>
    rintro p sh he h4 h3 ⟨x, y, hx, hy, h⟩
    -- at the first initiator
    have hopen : ∀ (q : Parser σ) (pre : List Scrap), q.eof = true → 1 ≤ q.depth → st ≤ q.sp → q.stack.drop st = pre ++ [x, y] → q.sp = st + pre.length →
        (pre = [] ∨ ∃ a : Scrap, a.clz = cNI ∧ pre = [a]) → st ≤ q.stack.length → ∀ sh', pass1Loop E st n q false sh' = .running := by
      intro q pre he h4 h1 hd hsp hpre h3 sh'
      have hd' : q.stack.drop q.sp = [x, y] := by
        rw [hsp, ← List.drop_drop, hd, List.drop_left]
      match n, ih with
      | 0, _ => rw [pass1Loop]
      | 1, _ =>
        rw [pass1_read (read_eof E q _ he) (fun _ => rfl), hd']
        dsimp only
        rw [if_neg (by simp), lookupRules_eq _ _ (by omega) (by simp [hx, hy, cLRI])]
        dsimp only
        rw [show longAmong keptRules ([x, y].map (·.clz)) = none by
          simp only [List.map_cons, List.map_nil, hx, hy]; decide +kernel]
        show pass1Loop E st 0 _ _ _ = _
        rw [pass1Loop]
      | k + 2, ih =>
        rw [pass1_read (read_eof E q _ he) (fun _ => rfl), hd']
        dsimp only
        rw [if_neg (by simp), lookupRules_eq _ _ (by omega) (by simp [hx, hy, cLRI])]
        dsimp only
        rw [show longAmong keptRules ([x, y].map (·.clz)) = none by
          simp only [List.map_cons, List.map_nil, hx, hy]; decide +kernel,
          show shortAmong keptRules ([x, y].map (·.clz)) = none by
          simp only [List.map_cons, List.map_nil, hx, hy]; decide +kernel]
        show pass1Loop E st (k + 1) q true none = _
        rw [pass1_read (read_eof E q _ he) (fun _ => rfl), hd']
        dsimp only
        rw [if_pos rfl]
        show (if x.clz = cPDI then _ else if isIsolate x = true then _ else _) = _
        rw [if_neg (by rw [hx]; decide), if_pos (by unfold isIsolate; rw [hx]; decide)]
        rcases sub_open E st x y k q he hd' h1 h4 with e | ⟨p', e, e1, e2, e3⟩
        · rw [e]; rfl
        · rw [e, Run.andThen_returns]
          dsimp only
          have hlen : q.stack.length = q.sp + 2 := by
            have := congrArg List.length hd'
            simp only [List.length_drop, List.length_cons, List.length_nil] at this
            omega
          have hpre' : (q.stack.take q.sp).drop st = pre := by
            rw [List.drop_take, hsp, Nat.add_sub_cancel_left, hd, List.take_left]
          have hdrop : p'.stack.drop st = pre ++ [{ x with clz := cNI }, y, y] := by
            rw [e3, List.drop_append_of_le_length (by rw [List.length_take]; omega), hpre']
          have hst : st ≤ p'.stack.length := by
            rw [e3, List.length_append, List.length_take]; omega
          refine ih k (by omega) { p' with sp := max st (q.sp - 2) } _ e1 (by show 1 ≤ p'.depth; omega) hst ⟨y, y, hy, hy, ?_⟩
          rcases hpre with rfl | ⟨a, ha, rfl⟩
          · refine Or.inr (Or.inl ⟨{ x with clz := cNI }, rfl, hdrop, Or.inl ?_⟩)
            show max st (q.sp - 2) = st
            rw [hsp, List.length_nil]; omega
          · refine Or.inr (Or.inr ⟨a, { x with clz := cNI }, ha, rfl, hdrop, ?_⟩)
            show max st (q.sp - 2) = st
            rw [hsp]; simp only [List.length_cons, List.length_nil]; omega
    rcases h with ⟨hd, hsp⟩ | ⟨a, ha, hd, hsp | hsp⟩ | ⟨a, b, ha, hb, hd, hsp⟩
    · exact hopen p [] he h4 (by omega) hd hsp (Or.inl rfl) h3 sh
    · -- one neutral scrap, which is passed
      match n, ih with
      | 0, _ => rw [pass1Loop]
      | 1, _ =>
        rw [pass1_read (read_eof E p _ he) (fun _ => rfl), hsp, hd]
        dsimp only
        rw [if_neg (by simp), lookupRules_eq _ _ (by omega) (by simp [ha, hx, hy, cLRI, cNI])]
        dsimp only
        rw [show longAmong keptRules ([a, x, y].map (·.clz)) = none by
          simp only [List.map_cons, List.map_nil, hx, hy, ha]; decide +kernel]
        show pass1Loop E st 0 _ _ _ = _
        rw [pass1Loop]
      | k + 2, ih =>
        rw [pass1_read (read_eof E p _ he) (fun _ => rfl), hsp, hd]
        dsimp only
        rw [if_neg (by simp), lookupRules_eq _ _ (by omega) (by simp [ha, hx, hy, cLRI, cNI])]
        dsimp only
        rw [show longAmong keptRules ([a, x, y].map (·.clz)) = none by
          simp only [List.map_cons, List.map_nil, hx, hy, ha]; decide +kernel,
          show shortAmong keptRules ([a, x, y].map (·.clz)) = some .N2 by
          simp only [List.map_cons, List.map_nil, hx, hy, ha]; decide +kernel]
        show pass1Loop E st (k + 1) p true (some .N2) = _
        rw [pass1_read (read_eof E p _ he) (fun _ => rfl), hsp, hd]
        dsimp only
        rw [if_pos rfl]
        show (if a.clz = cPDI then _ else if isIsolate a = true then _ else _) = _
        rw [if_neg (by rw [ha]; decide), if_neg (by unfold isIsolate; rw [ha]; decide)]
        exact ih k (by omega) _ _ he h4 h3 ⟨x, y, hx, hy, Or.inr (Or.inl ⟨a, ha, hd, Or.inr rfl⟩)⟩
    · exact hopen p [a] he h4 (by omega) hd hsp (Or.inr ⟨a, ha, rfl⟩) h3 sh
    · -- two neutral scraps become one
      match n, ih with
      | 0, _ => rw [pass1Loop]
      | k + 1, ih =>
        rw [pass1_read (read_eof E p _ he) (fun _ => rfl), hsp, hd]
        dsimp only
        rw [if_neg (by simp), lookupRules_eq _ _ (by omega) (by simp [ha, hb, hx, hy, cLRI, cNI])]
        dsimp only
        rw [show longAmong keptRules ([a, b, x, y].map (·.clz)) = some .W6x by
          simp only [List.map_cons, List.map_nil, hx, hy, ha, hb]; decide +kernel]
        obtain ⟨c, hc, e⟩ : ∃ c : Scrap, c.clz = cNI ∧ Rule.action .W6x [a, b, x, y] = some ([c], -1, false) := ⟨_, rfl, rfl⟩
        have hf : (some Rule.W6x).filter (·.pass ≤ 1) = some .W6x := rfl
        rw [hf]
        dsimp only
        rw [e]
        dsimp only
        have hlen : p.stack.length = st + 4 := by
          have := congrArg List.length hd
          simp only [List.length_drop, List.length_cons, List.length_nil] at this
          omega
        have hl2 : Rule.lhsLen .W6x = 2 := rfl
        rw [hl2, reduce_eq p 2 [c] st (by simp) (by omega) (by omega), Run.andThen_returns]
        dsimp only
        have hj : jump st p.sp (-1) = st := by unfold jump; omega
        rw [hj]
        refine ih k (by omega) { p with sp := st, stack := p.stack.take p.sp ++ [c] ++ p.stack.drop (p.sp + 2) } _ he h4 (by
          show st ≤ (p.stack.take p.sp ++ [c] ++ p.stack.drop (p.sp + 2)).length
          simp only [List.length_append, List.length_take, List.length_cons]
          omega) ⟨x, y, hx, hy, Or.inr (Or.inl ⟨c, hc, ?_, Or.inl rfl⟩)⟩
        show (p.stack.take p.sp ++ [c] ++ p.stack.drop (p.sp + 2)).drop st = _
        have h0 : (p.stack.take p.sp).length = st := by rw [List.length_take]; omega
        rw [List.append_assoc, ← h0, List.drop_left, hsp, ← List.drop_drop, hd]
        rfl

/-- A text of two initiators is never resolved. -/
theorem endless_initiators (sched : Nat → Nat) (n : Nat) :
    resolveParagraph sample { testing := true } sched (ascii ['>', '>']) n = .running := by
  obtain ⟨fin, h1, -, -⟩ := scanner_feeds (T := sample) (o := { testing := true }) rfl (known_notNull sample_known) sched (ascii ['>', '>'])
  obtain ⟨x, y, hx, hy, hs⟩ : ∃ x y : Scrap, x.clz = cLRI ∧ y.clz = cLRI ∧ scrapsOf sample { testing := true } (ascii ['>', '>']) = [x, y] :=
    ⟨_, _, rfl, rfl, rfl⟩
  rw [hs] at h1
  unfold resolveParagraph resolveIn
  dsimp only
  cases n with
  | zero => rw [parseIRS]; rfl
  | succ n =>
    rw [parseIRS]
    dsimp only
    obtain ⟨res, p1, r1, r2, r3, r4, r5, r6, r7⟩ := read_fed (E := scannerEnv sample { testing := true } sched) (env' := (fin, 0))
      (p := { stack := [initialOuterScrap { testing := true } true], sp := 1, eof := false, depth := 1, env := (newScanner { testing := true } (ascii ['>', '>']), 0) })
      (Or.inl ⟨rfl, h1⟩) 3
    rw [r1, Run.andThen_returns]
    obtain ⟨x1, x2⟩ := res
    have hres : x2 = true := r7 (by decide) rfl
    subst hres
    dsimp only
    rw [if_pos rfl, show (0 + 1 : Nat) = 1 from rfl, endless_open (scannerEnv sample { testing := true } sched) 1 n p1 none ?_ (by rw [r5]; exact Nat.le_refl 1) (by rw [r2]; simp)
      ⟨x, y, hx, hy, Or.inl ⟨by rw [r2]; rfl, r4⟩⟩]
    · rfl
    · rcases r6 with h | h
      · exact h
      · exact absurd (show (3 : Nat) ≤ 2 from h) (by omega)

end Uax.Bidi
