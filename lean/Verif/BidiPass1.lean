import Verif.BidiScanProofs
import Verif.BidiTrieProofs

/-
The first pass of the parser, when there are no isolates, as rewriting of the
whole list of scraps, read or not.
-/
namespace Uax.Bidi

theorem Run.andThen_returns {α γ : Type} (a : α) (f : α → Run γ) : (Run.returns a).andThen f = f a := rfl

/-- The rule applied in pass 1: a long one, or else a short one. -/
def choose1 (cs : List Class) : Option Rule :=
  ((longAmong keptRules cs).filter (·.pass ≤ 1)).or ((shortAmong keptRules cs).filter (·.pass ≤ 1))

/-- The action of a rule does not look beyond its left-hand side. -/
def Local (rule : Rule) (m : List Scrap) (rhs : List Scrap) (jmp : Int) : Prop :=
  jmp ≤ rhs.length ∧ rhs.length ≤ rule.lhsLen ∧ rule.lhsLen ≤ m.length ∧ ∀ k, rule.lhsLen ≤ k → ∃ b, rule.action (m.take k) = some (rhs, jmp, b)

/-- The list of scraps can be rewritten, beginning at a position. -/
inductive Reduces (floor : Nat) : List Scrap → Nat → List Scrap → Prop
  | done {xs : List Scrap} {sp : Nat} (h : xs.length = sp) : Reduces floor xs sp xs
  | walk {xs ys : List Scrap} {sp : Nat} {s : Scrap} {t : List Scrap} (h : xs.drop sp = s :: t)
      (hk : ∀ x ∈ s :: t, x.clz < 28) (hc : choose1 ((s :: t).map (·.clz)) = none) (hi : isIsolate s = false) (hr : Reduces floor xs (sp + 1) ys) :
      Reduces floor xs sp ys
  | rule {xs ys : List Scrap} {sp : Nat} {s : Scrap} {t rhs : List Scrap} {jmp : Int} {rule : Rule} (h : xs.drop sp = s :: t)
      (hk : ∀ x ∈ s :: t, x.clz < 28) (hc : choose1 ((s :: t).map (·.clz)) = some rule) (hl : Local rule (s :: t) rhs jmp)
      (hr : Reduces floor (xs.take sp ++ rhs ++ (s :: t).drop rule.lhsLen) (jump floor sp jmp) ys) :
      Reduces floor xs sp ys

/-- The parser will get these scraps yet. -/
def Fed {σ : Type} (E : Env σ) (p : Parser σ) (rest : List Scrap) (env' : σ) : Prop :=
  (p.eof = false ∧ Feeds E p.env rest env') ∨ (p.eof = true ∧ rest = [] ∧ p.env = env')

theorem readLoop_fed {σ : Type} (E : Env σ) (env' : σ) : ∀ (n k : Nat) (p : Parser σ) (rest : List Scrap), p.eof = false →
    Feeds E p.env rest env' → ∃ k' p', readLoop E n k p = .returns (k', p') ∧ p'.stack = p.stack ++ rest.take n ∧
      Fed E p' (rest.drop n) env' ∧ p'.sp = p.sp ∧ p'.depth = p.depth ∧ (p'.eof = true ∨ n ≤ rest.length) := by
  intro n
  induction n with
  | zero =>
    intro k p rest he hf
    exact ⟨k, p, rfl, by simp, Or.inl ⟨he, by simpa using hf⟩, rfl, rfl, Or.inr (Nat.zero_le _)⟩
  | succ n ih =>
    intro k p rest he hf
    cases hf with
    | stop h hz =>
      refine ⟨k, { p with eof := true, env := env' }, ?_, by simp, Or.inr ⟨rfl, by simp, rfl⟩, rfl, rfl, Or.inl rfl⟩
      simp only [readLoop, h, hz, if_true]
    | more h hx hs =>
      rename_i s1 x xs
      obtain ⟨k', p', h1, h2, h3, h4, h5, h6⟩ := ih (k + 1) { p with stack := p.stack ++ [x], env := s1 } xs he hs
      refine ⟨k', p', ?_, ?_, h3, h4, h5, ?_⟩
      · simp only [readLoop, h, if_neg hx, h1]
      · simpa using h2
      · rcases h6 with h6 | h6
        · exact Or.inl h6
        · exact Or.inr (by simp only [List.length_cons]; omega)

theorem read_fed {σ : Type} {E : Env σ} {env' : σ} {p : Parser σ} {rest : List Scrap} (hf : Fed E p rest env') (n : Int) :
    ∃ res p', p.read E n = .returns (res, p') ∧ p'.stack = p.stack ++ rest.take n.toNat ∧ Fed E p' (rest.drop n.toNat) env' ∧
      p'.sp = p.sp ∧ p'.depth = p.depth ∧ (p'.eof = true ∨ n.toNat ≤ rest.length) ∧ (0 < n → p.eof = false → res.2 = true) := by
  unfold Parser.read
  rcases hf with ⟨he, hf⟩ | ⟨he, rfl, henv⟩
  · by_cases hn : n ≤ 0
    · rw [if_pos (Or.inl hn)]
      have : n.toNat = 0 := by omega
      rw [this]
      exact ⟨_, p, rfl, by simp, Or.inl ⟨he, by simpa using hf⟩, rfl, rfl, Or.inr (Nat.zero_le _), fun h => absurd h (by omega)⟩
    · rw [if_neg (by simp [he]; omega)]
      obtain ⟨k', p', h1, h2, h3, h4, h5, h6⟩ := readLoop_fed E env' n.toNat 0 p rest he hf
      refine ⟨(k', true), p', ?_, h2, h3, h4, h5, h6, fun _ _ => rfl⟩
      rw [h1]
      rfl
  · rw [if_pos (Or.inr he)]
    exact ⟨_, p, rfl, by simp, Or.inr ⟨he, by simp, henv⟩, rfl, rfl, Or.inl he, fun _ h => by rw [he] at h; cases h⟩

theorem reduce_eq {σ : Type} (p : Parser σ) (n : Nat) (rhs : List Scrap) (st : Nat) (h1 : rhs.length ≤ n) (h2 : p.sp + n ≤ p.stack.length)
    (h3 : st ≤ p.sp) : p.reduce n rhs st = .returns { p with stack := p.stack.take p.sp ++ rhs ++ p.stack.drop (p.sp + n) } := by
  unfold Parser.reduce
  rw [if_neg (by omega)]
  dsimp only
  have e0 : max st (p.sp + rhs.length) = p.sp + rhs.length := by omega
  have el : (p.stack.take p.sp ++ rhs ++ p.stack.drop (p.sp + rhs.length)).length = p.stack.length := by
    simp only [List.length_append, List.length_take, List.length_drop]; omega
  have ef : ((p.sp + rhs.length : Nat) : Int) - (rhs.length - n : Int) = ((p.sp + n : Nat) : Int) := by omega
  rw [e0, ef, if_neg (by rw [el]; omega)]
  congr 2
  have t1 : (p.stack.take p.sp ++ rhs).length = p.sp + rhs.length := by
    simp only [List.length_append, List.length_take]; omega
  rw [List.take_append_of_le_length (by omega), List.take_of_length_le (by omega)]
  congr 1
  rw [Int.toNat_natCast, List.drop_append, List.drop_eq_nil_of_le (by omega), List.nil_append, List.drop_drop]
  congr 1
  omega

theorem prefix_lookup (w rest : List Scrap) (h : 3 ≤ w.length ∨ rest = []) :
    longAmong keptRules (w.map (·.clz)) = longAmong keptRules ((w ++ rest).map (·.clz)) ∧
    (w ≠ [] → shortAmong keptRules (w.map (·.clz)) = shortAmong keptRules ((w ++ rest).map (·.clz))) := by
  rcases h with h | rfl
  · refine ⟨?_, fun hw => ?_⟩
    · rw [longAmong_take, longAmong_take keptRules ((w ++ rest).map _), List.map_append, List.take_append_of_le_length (by simpa using h)]
    · rw [shortAmong_take, shortAmong_take keptRules ((w ++ rest).map _), List.map_append,
        List.take_append_of_le_length (by simp only [List.length_map]; omega)]
  · simp

/-- One round of pass 1 begins with reading. -/
theorem pass1_read {σ : Type} {E : Env σ} {st n : Nat} {p p1 : Parser σ} {res : Nat × Bool} {w : Bool} {sh : Option Rule}
    (h : p.read E (3 - ((p.stack.length : Int) - p.sp)) = .returns (res, p1)) {f : Parser σ → PRun σ Bool}
    (hf : ∀ p1, f p1 = match p1.stack.drop p1.sp with
    | [] => if p1.eof then .returns (false, p1) else .panics
    | s :: rest =>
      let apply (rule : Rule) : PRun σ Bool :=
        match rule.action (s :: rest) with
        | none => .panics
        | some (rhs, jmp, _) =>
          (p1.reduce rule.lhsLen rhs st).andThen fun p =>
            pass1Loop E st n { p with sp := jump st p.sp jmp } false sh
      if w then
        match sh.filter (·.pass ≤ 1) with
        | some rule => apply rule
        | none =>
          if s.clz = cPDI then .returns (true, { p1 with sp := p1.sp + 1 })
          else if isIsolate s then
            (subIRS E st n p1).andThen fun (sp, p) =>
              pass1Loop E st n { p with sp := sp } false sh
          else pass1Loop E st n { p1 with sp := p1.sp + 1 } false sh
      else
        match lookupRules ((s :: rest).map (·.clz)) 0 with
        | none => .panics
        | some (long, short) =>
          match long.filter (·.pass ≤ 1) with
          | none => pass1Loop E st n p1 true short
          | some rule =>
            match rule.action (s :: rest) with
            | none => .panics
            | some (rhs, jmp, _) =>
              (p1.reduce rule.lhsLen rhs st).andThen fun p =>
                pass1Loop E st n { p with sp := jump st p.sp jmp } false short) :
    pass1Loop E st (n + 1) p w sh = f p1 := by
  rw [hf, pass1Loop, h]
  rfl

/-- After reading, the parser sees at least three scraps, or all. -/
theorem window {σ : Type} {E : Env σ} {env' : σ} {p : Parser σ} {rest : List Scrap} (hf : Fed E p rest env') (hle : p.sp ≤ p.stack.length)
    {s : Scrap} {t : List Scrap} (h : (p.stack ++ rest).drop p.sp = s :: t) :
    ∃ res p1 rest1 w, p.read E (3 - ((p.stack.length : Int) - p.sp)) = .returns (res, p1) ∧ p1.sp = p.sp ∧ p1.depth = p.depth ∧
      Fed E p1 rest1 env' ∧ p1.stack ++ rest1 = p.stack ++ rest ∧ p1.stack.drop p1.sp = s :: w ∧ p1.sp ≤ p1.stack.length ∧
      (2 ≤ w.length ∨ rest1 = []) ∧ t = w ++ rest1 := by
  obtain ⟨res, p1, h1, h2, h3, h4, h5, h6, -⟩ := read_fed hf (3 - ((p.stack.length : Int) - p.sp))
  generalize hn : (3 - ((p.stack.length : Int) - p.sp)).toNat = n at *
  have hsum : p1.stack ++ rest.drop n = p.stack ++ rest := by
    rw [h2, List.append_assoc, List.take_append_drop]
  have hle1 : p1.sp ≤ p1.stack.length := by rw [h4, h2, List.length_append]; omega
  have hd : p1.stack.drop p1.sp ++ rest.drop n = s :: t := by
    rw [← h, ← hsum, ← h4, List.drop_append_of_le_length hle1]
  have hlen : (p1.stack.drop p1.sp).length = p.stack.length - p.sp + min n rest.length := by
    rw [List.length_drop, h4, h2, List.length_append, List.length_take]; omega
  have hor : 3 ≤ (p1.stack.drop p1.sp).length ∨ rest.drop n = [] := by
    rcases h6 with h6 | h6
    · rcases h3 with ⟨h, -⟩ | ⟨-, h, -⟩
      · rw [h6] at h; cases h
      · exact Or.inr h
    · left; rw [hlen]; omega
  cases hw : p1.stack.drop p1.sp with
  | nil =>
    rw [hw, List.nil_append] at hd
    rcases hor with ho | ho
    · rw [hw] at ho; simp at ho
    · rw [ho] at hd; cases hd
  | cons a w =>
    rw [hw, List.cons_append] at hd
    injection hd with e1 e2
    subst e1
    refine ⟨res, p1, rest.drop n, w, h1, h4, h5, h3, hsum, hw, hle1, ?_, e2.symm⟩
    rcases hor with ho | ho
    · rw [hw, List.length_cons] at ho; exact Or.inl (by omega)
    · exact Or.inr ho

/-- The lookup in the window. -/
theorem window_lookup {s : Scrap} {w rest1 : List Scrap} (h : 2 ≤ w.length ∨ rest1 = []) (hk : ∀ x ∈ s :: (w ++ rest1), x.clz < 28) :
    lookupRules ((s :: w).map (·.clz)) 0 = some (longAmong keptRules ((s :: (w ++ rest1)).map (·.clz)),
      shortAmong keptRules ((s :: (w ++ rest1)).map (·.clz))) := by
  rw [lookupRules_eq _ _ (by omega) (by
    intro c hc
    rw [List.mem_map] at hc
    obtain ⟨x, hx, rfl⟩ := hc
    refine hk x ?_
    rw [← List.cons_append]
    exact List.mem_append_left _ hx)]
  have := prefix_lookup (s :: w) rest1 (by rcases h with h | h; exact Or.inl (by simp only [List.length_cons]; omega); exact Or.inr h)
  rw [this.1, this.2 (by simp), List.cons_append]

/-- Pass 1 carries out a rewriting. -/
theorem pass1_reduces {σ : Type} {E : Env σ} {env' : σ} {st : Nat} {xs ys : List Scrap} {sp : Nat} (hr : Reduces st xs sp ys) :
    ∀ (p : Parser σ) (rest : List Scrap) (sh : Option Rule), p.stack ++ rest = xs → p.sp = sp → st ≤ sp → sp ≤ p.stack.length →
    Fed E p rest env' →
    ∃ N p', pass1Loop E st N p false sh = .returns (false, p') ∧ p'.stack = ys ∧ p'.eof = true ∧ p'.env = env' ∧ p'.depth = p.depth := by
  induction hr with
  | done h =>
    rename_i xs sp
    intro p rest sh hxs hsp hst hle hf
    have hl : p.stack.length + rest.length = sp := by rw [← h, ← hxs, List.length_append]
    have hrest : rest = [] := List.eq_nil_of_length_eq_zero (by omega)
    subst hrest
    obtain ⟨res, p1, h1, h2, h3, h4, h5, h6, -⟩ := read_fed hf (3 - ((p.stack.length : Int) - p.sp))
    have he : p1.eof = true := by
      rcases h6 with h6 | h6
      · exact h6
      · simp only [List.length_nil] at h6; omega
    have hs : p1.stack = xs := by rw [h2, ← hxs]; simp
    refine ⟨1, p1, ?_, hs, he, ?_, h5⟩
    · rw [pass1_read h1 (fun _ => rfl)]
      rw [h4, hs, hsp, List.drop_eq_nil_of_le (by omega)]
      simp [he]
    · rcases h3 with ⟨h, -⟩ | ⟨-, -, h⟩
      · rw [he] at h; cases h
      · exact h
  | walk h hk hc hi hr ih =>
    rename_i xs ys sp s t
    intro p rest sh hxs hsp hst hle hf
    obtain ⟨res, p1, rest1, w, h1, h2, h3, h4, h5, h6, h7, h8, h9⟩ := window hf (by omega) (by rw [hxs, hsp]; exact h)
    subst h9
    have hlk := window_lookup h8 hk
    obtain ⟨hc1, hc2⟩ : (longAmong keptRules ((s :: (w ++ rest1)).map (·.clz))).filter (·.pass ≤ 1) = none ∧
        (shortAmong keptRules ((s :: (w ++ rest1)).map (·.clz))).filter (·.pass ≤ 1) = none := by
      simpa only [choose1, Option.or_eq_none_iff] using hc
    -- the second round
    obtain ⟨res', p2, rest2, w2, g1, g2, g3, g4, g5, g6, g7, -, -⟩ :=
      window h4 h7 (by rw [h5, h2, hxs, hsp]; exact h)
    obtain ⟨N, p', e1, e2, e3, e4, e5⟩ := ih { p2 with sp := p2.sp + 1 } rest2 (shortAmong keptRules ((s :: (w ++ rest1)).map (·.clz)))
      (by show p2.stack ++ rest2 = xs; rw [g5, h5, hxs]) (by show p2.sp + 1 = _; rw [g2, h2, hsp]) (by omega) (by
        have := congrArg List.length g6
        simp only [List.length_drop, List.length_cons] at this
        show _ ≤ p2.stack.length
        omega) g4
    refine ⟨N + 2, p', ?_, e2, e3, e4, ?_⟩
    · rw [pass1_read h1 (fun _ => rfl), h6]
      dsimp only
      rw [if_neg (by simp), hlk]
      dsimp only
      rw [hc1]
      dsimp only
      rw [pass1_read g1 (fun _ => rfl), g6]
      dsimp only
      rw [if_pos rfl, hc2]
      dsimp only
      rw [if_neg (by intro h; rw [isIsolate, h] at hi; cases hi), if_neg (by rw [hi]; simp)]
      exact e1
    · rw [e5]; show p2.depth = _; rw [g3, h3]
  | rule h hk hc hl hr ih =>
    rename_i xs ys sp s t rhs jmp rule
    intro p rest sh hxs hsp hst hle hf
    obtain ⟨res, p1, rest1, w, h1, h2, h3, h4, h5, h6, h7, h8, h9⟩ := window hf (by omega) (by rw [hxs, hsp]; exact h)
    subst h9
    have hlk := window_lookup h8 hk
    have hlen3 : rule.lhsLen ≤ 3 := lhs_le rule
    have hll : rule.lhsLen ≤ (s :: w).length := by
      have := hl.2.2.1
      rcases h8 with h8 | h8
      · simp only [List.length_cons]; omega
      · rw [h8, List.append_nil] at this; exact this
    -- what the action gives, for any window
    have hact : ∀ (w' r' : List Scrap), w ++ rest1 = w' ++ r' → rule.lhsLen ≤ (s :: w').length →
        ∃ b, rule.action (s :: w') = some (rhs, jmp, b) := by
      intro w' r' e hw
      obtain ⟨b, hb⟩ := hl.2.2.2 (s :: w').length hw
      refine ⟨b, ?_⟩
      rw [← hb, e, ← List.cons_append, List.take_left]
    -- what follows after the reduction
    have hgo : ∀ (q : Parser σ) (r' : List Scrap) (w' : List Scrap) (sh' : Option Rule), q.sp = sp → q.depth = p.depth → Fed E q r' env' →
        q.stack ++ r' = xs → q.stack.drop q.sp = s :: w' → rule.lhsLen ≤ (s :: w').length →
        ∃ N p', (match rule.action (s :: w') with
          | none => Run.panics
          | some (rhs, jmp, _) => (q.reduce rule.lhsLen rhs st).andThen fun p =>
              pass1Loop E st N { p with sp := jump st p.sp jmp } false sh') = .returns (false, p') ∧
          p'.stack = ys ∧ p'.eof = true ∧ p'.env = env' ∧ p'.depth = p.depth := by
      intro q r' w' sh' q1 q2 q3 q4 q5 q6
      have hql : q.sp + (s :: w').length = q.stack.length := by
        have := congrArg List.length q5
        simp only [List.length_drop, List.length_cons] at this ⊢
        omega
      have hwr : w ++ rest1 = w' ++ r' := by
        have : xs.drop sp = (s :: w') ++ r' := by
          rw [← q4, ← q1, List.drop_append_of_le_length (by omega), q5]
        rw [h, List.cons_append] at this
        exact (List.cons.inj this).2
      obtain ⟨b, hb⟩ := hact w' r' hwr q6
      have hred := reduce_eq q rule.lhsLen rhs st hl.2.1 (by omega) (by omega)
      obtain ⟨N, p', e1, e2, e3, e4, e5⟩ := ih
        { q with stack := q.stack.take q.sp ++ rhs ++ q.stack.drop (q.sp + rule.lhsLen), sp := jump st q.sp jmp } r' sh'
        (by
          show q.stack.take q.sp ++ rhs ++ q.stack.drop (q.sp + rule.lhsLen) ++ r' = _
          rw [hwr, ← List.cons_append, List.drop_append_of_le_length q6, ← q5, List.drop_drop, ← q4, q1,
            List.take_append_of_le_length (by omega), List.append_assoc _ (q.stack.drop _) r'])
        (by show jump st q.sp jmp = _; rw [q1])
        (by unfold jump; omega)
        (by
          show jump st sp jmp ≤ _
          simp only [List.length_append, List.length_take, List.length_drop]
          have := hl.1
          unfold jump
          omega) q3
      refine ⟨N, p', ?_, e2, e3, e4, by rw [e5]; exact q2⟩
      rw [hb]
      dsimp only
      rw [hred]
      exact e1
    by_cases hlong : (longAmong keptRules ((s :: (w ++ rest1)).map (·.clz))).filter (·.pass ≤ 1) = none
    · have hshort : (shortAmong keptRules ((s :: (w ++ rest1)).map (·.clz))).filter (·.pass ≤ 1) = some rule := by
        simpa only [choose1, hlong, Option.none_or] using hc
      obtain ⟨res', p2, rest2, w2, g1, g2, g3, g4, g5, g6, g7, g8, g9⟩ :=
        window h4 h7 (by rw [h5, h2, hxs, hsp]; exact h)
      obtain ⟨N, p', e1, e2⟩ := hgo p2 rest2 w2 (shortAmong keptRules ((s :: (w ++ rest1)).map (·.clz))) (by rw [g2, h2, hsp])
        (by rw [g3, h3]) g4 (by rw [g5, h5, hxs]) g6 (by
          have := hl.2.2.1
          rw [g9] at this
          rcases g8 with g8 | g8
          · simp only [List.length_cons]; omega
          · rw [g8, List.append_nil] at this; exact this)
      refine ⟨N + 2, p', ?_, e2⟩
      rw [pass1_read h1 (fun _ => rfl), h6]
      dsimp only
      rw [if_neg (by simp), hlk]
      dsimp only
      rw [hlong]
      dsimp only
      rw [pass1_read g1 (fun _ => rfl), g6]
      dsimp only
      rw [if_pos rfl, hshort]
      exact e1
    · have hl2 : (longAmong keptRules ((s :: (w ++ rest1)).map (·.clz))).filter (·.pass ≤ 1) = some rule := by
        rw [choose1] at hc
        cases hL : (longAmong keptRules ((s :: (w ++ rest1)).map (·.clz))).filter (·.pass ≤ 1) with
        | none => exact absurd hL hlong
        | some r => rw [hL, Option.some_or] at hc; exact hc
      obtain ⟨N, p', e1, e2⟩ := hgo p1 rest1 w (shortAmong keptRules ((s :: (w ++ rest1)).map (·.clz))) (by rw [h2, hsp]) h3 h4
        (by rw [h5, hxs]) h6 hll
      refine ⟨N + 1, p', ?_, e2⟩
      rw [pass1_read h1 (fun _ => rfl), h6]
      dsimp only
      rw [if_neg (by simp), hlk]
      dsimp only
      rw [hl2]
      exact e1

end Uax.Bidi
