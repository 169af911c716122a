import Verif.BidiPass1

/-
Pass 1 comes to an end when European numbers stand in left-to-right context, and
what it leaves. An invariant of the single rewriting steps is a parameter.
-/
namespace Uax.Bidi

/-- The rule of pass 1 for the next three classes. -/
def pick1 (a : Class) (b c : Option Class) : Option Rule :=
  if a = cEN then
    (if b = some cES ∧ c = some cEN then some .W4_1
     else if b = some cCS ∧ c = some cEN then some .W4_2
     else if b = some cET then some .W5_2 else some .W7)
  else if a = cAN then (if b = some cCS ∧ c = some cAN then some .W4_3 else none)
  else if a = cET then (if b = some cEN then some .W5_1 else some .W6_1)
  else if a = cES then some .W6_2
  else if a = cCS then some .W6_3
  else if a = cNI then (if b = some cNI then some .W6x else none)
  else none

/-- The rules that the trie keeps. -/
theorem kept_eq : keptRules = [.W4_1, .W4_2, .W4_3, .W5_1, .W5_2, .W6_1, .W6_2, .W6_3, .W6x, .W7, .N1_1, .N1_2, .N1_3, .N1_4, .N1_7, .N1_10, .N2, .LL, .RR] := by
  decide +kernel

theorem long_eq (cs : List Class) : longAmong keptRules cs =
    [Rule.W4_1, .W4_2, .W4_3, .W5_1, .W5_2, .W6x, .N1_1, .N1_2, .N1_3, .N1_4, .N1_7, .N1_10, .LL, .RR].find? fun r => r.lhs.isPrefixOf cs := by
  rw [longAmong, kept_eq]
  simp only [List.find?_cons, Rule.lhs, List.length_cons, List.length_nil]
  simp

theorem short_eq (cs : List Class) : shortAmong keptRules cs =
    [Rule.W6_1, .W6_2, .W6_3, .W7, .N2].find? fun r => r.lhs.isPrefixOf cs := by
  rw [shortAmong, kept_eq]
  simp only [List.find?_cons, Rule.lhs, List.length_cons, List.length_nil]
  simp

/-- Classes at the left-hand sides of rules, or another one. -/
theorem classes_of (x : Nat) : x = 0 ∨ x = 1 ∨ x = 2 ∨ x = 3 ∨ x = 4 ∨ x = 5 ∨ x = 6 ∨ x = 27 ∨
    (0 ≠ x ∧ 1 ≠ x ∧ 2 ≠ x ∧ 3 ≠ x ∧ 4 ≠ x ∧ 5 ≠ x ∧ 6 ≠ x ∧ 27 ≠ x) := by omega

set_option hygiene false in
macro "table_bc" : tactic => `(tactic| (
  rw [choose1, long_eq, short_eq]
  rcases classes_of b with rfl | rfl | rfl | rfl | rfl | rfl | rfl | rfl | hb
  all_goals
    (rcases classes_of c with rfl | rfl | rfl | rfl | rfl | rfl | rfl | rfl | hc)
  all_goals first
    | rfl
    | (simp [Rule.lhs, pick1, List.isPrefixOf, cL, cR, cEN, cAN, cES, cET, cCS, cNI, Rule.pass, Ne.symm, *]; done)))
theorem choose1_three_0 (b c : Nat) : choose1 [0, b, c] = pick1 0 (some b) (some c) := by table_bc
theorem choose1_three_1 (b c : Nat) : choose1 [1, b, c] = pick1 1 (some b) (some c) := by table_bc
theorem choose1_three_2 (b c : Nat) : choose1 [2, b, c] = pick1 2 (some b) (some c) := by table_bc
theorem choose1_three_3 (b c : Nat) : choose1 [3, b, c] = pick1 3 (some b) (some c) := by table_bc
theorem choose1_three_4 (b c : Nat) : choose1 [4, b, c] = pick1 4 (some b) (some c) := by table_bc
theorem choose1_three_5 (b c : Nat) : choose1 [5, b, c] = pick1 5 (some b) (some c) := by table_bc
theorem choose1_three_6 (b c : Nat) : choose1 [6, b, c] = pick1 6 (some b) (some c) := by table_bc
theorem choose1_three_27 (b c : Nat) : choose1 [27, b, c] = pick1 27 (some b) (some c) := by table_bc

theorem choose1_three (a b c : Nat) : choose1 [a, b, c] = pick1 a (some b) (some c) := by
  rcases classes_of a with rfl | rfl | rfl | rfl | rfl | rfl | rfl | rfl | ha
  · exact choose1_three_0 b c
  · exact choose1_three_1 b c
  · exact choose1_three_2 b c
  · exact choose1_three_3 b c
  · exact choose1_three_4 b c
  · exact choose1_three_5 b c
  · exact choose1_three_6 b c
  · exact choose1_three_27 b c
  · rw [choose1, long_eq, short_eq]
    simp [Rule.lhs, pick1, List.isPrefixOf, cL, cR, cEN, cAN, cES, cET, cCS, cNI, Rule.pass, Ne.symm, *]

theorem choose1_two (a b : Nat) : choose1 [a, b] = pick1 a (some b) none := by
  rw [choose1, long_eq, short_eq]
  rcases classes_of a with rfl | rfl | rfl | rfl | rfl | rfl | rfl | rfl | ha
  all_goals
    (rcases classes_of b with rfl | rfl | rfl | rfl | rfl | rfl | rfl | rfl | hb)
  all_goals first
    | rfl
    | (simp [Rule.lhs, pick1, List.isPrefixOf, cL, cR, cEN, cAN, cES, cET, cCS, cNI, Rule.pass, Ne.symm, *]; done)

theorem choose1_one (a : Nat) : choose1 [a] = pick1 a none none := by
  rw [choose1, long_eq, short_eq]
  rcases classes_of a with rfl | rfl | rfl | rfl | rfl | rfl | rfl | rfl | ha
  all_goals first
    | rfl
    | (simp [Rule.lhs, pick1, List.isPrefixOf, cL, cR, cEN, cAN, cES, cET, cCS, cNI, Rule.pass, Ne.symm, *]; done)

theorem choose1_take (cs : List Class) : choose1 cs = choose1 (cs.take 3) := by
  unfold choose1
  rw [longAmong_take, shortAmong_take, shortAmong_take keptRules (cs.take 3), List.take_take]
  rfl

theorem choose1_eq (s : Scrap) (t : List Scrap) :
    choose1 ((s :: t).map (·.clz)) = pick1 s.clz (t[0]?.map (·.clz)) (t[1]?.map (·.clz)) := by
  rw [choose1_take _]
  match t with
  | [] => exact choose1_one _
  | [a] => exact choose1_two _ _
  | a :: b :: r => exact choose1_three _ _ _

/-- Several scraps made one. -/
def fuse (c : Class) : List Scrap → Scrap
  | [] => {}
  | a :: rest => { a with r := ((a :: rest).getLast?.getD a).r, clz := c, children := a.children ++ rest.flatMap (·.children) }

/-- The class on the right-hand side of a rule of pass 1. -/
def target : Rule → Class
  | .W4_1 | .W4_2 | .W5_1 | .W5_2 => cEN
  | .W4_3 => cAN
  | _ => cNI

/-- How far a rule of pass 1 goes back. -/
def stepBack : Rule → Nat
  | .W4_1 | .W4_2 | .W4_3 | .W5_1 | .W5_2 => 2
  | .W6x => 1
  | _ => 0

theorem squash_fuse (c : Class) (n : Nat) (jmp : Int) (m rest : List Scrap) (hn : m.length = n) (h1 : 1 ≤ n) :
    squash c n jmp (m ++ rest) = some ([fuse c m], jmp, false) := by
  cases m with
  | nil => simp at hn; omega
  | cons a m =>
    unfold squash
    have hg : ((a :: m) ++ rest)[n - 1]? = (a :: m).getLast? := by
      rw [List.getElem?_append_left (by omega), List.getLast?_eq_getElem?]
      congr 1
      omega
    rw [hg]
    have : ∃ l, (a :: m).getLast? = some l := ⟨_, List.getLast?_eq_some_getLast (by simp)⟩
    obtain ⟨l, hl⟩ := this
    rw [hl, List.cons_append]
    dsimp only
    rw [List.take_append_of_le_length (by simp at hn; omega), List.take_of_length_le (by simp at hn; omega)]
    simp only [fuse, hl, Option.getD_some]

theorem pick1_rule {a : Class} {b c : Option Class} {rule : Rule} (h : pick1 a b c = some rule) :
    rule = .W7 ∨ ((∀ m : List Scrap, rule.action m = squash (target rule) rule.lhsLen (-(stepBack rule : Int)) m) ∧
      1 ≤ rule.lhsLen ∧ rule ≠ .W7) := by
  unfold pick1 at h
  repeat' split at h
  all_goals first
    | (cases h; done)
    | (injection h with h; subst h; first | exact Or.inl rfl | exact Or.inr ⟨fun _ => rfl, by decide, by decide⟩)

theorem pick1_len {s : Scrap} {t : List Scrap} {rule : Rule}
    (h : pick1 s.clz (t[0]?.map (·.clz)) (t[1]?.map (·.clz)) = some rule) : rule.lhsLen ≤ (s :: t).length := by
  match t with
  | [] =>
    simp only [List.getElem?_nil, Option.map_none] at h
    unfold pick1 at h
    simp only [reduceCtorEq, false_and, if_false] at h
    repeat' split at h
    all_goals first
      | (cases h; done)
      | (injection h with h; subst h; exact (by decide : (1 : Nat) ≤ 1))
  | [x] =>
    simp only [List.getElem?_cons_zero, List.getElem?_cons_succ, List.getElem?_nil, Option.map_none] at h
    unfold pick1 at h
    simp only [reduceCtorEq, and_false, if_false] at h
    repeat' split at h
    all_goals first
      | (cases h; done)
      | (injection h with h; subst h; exact (by decide : (2 : Nat) ≤ 2))
      | (injection h with h; subst h; exact (by decide : (1 : Nat) ≤ 2))
  | x :: y :: r =>
    have := lhs_le rule
    show rule.lhs.length ≤ _
    simp only [List.length_cons]
    omega

/-- What the steps of pass 1 preserve: a property of the scraps that have been
passed and of the others. -/
structure Inv1 (P : List Scrap → List Scrap → Prop) : Prop where
  known : ∀ {pre suf}, P pre suf → ∀ s ∈ suf, s.clz < 28
  closed : ∀ {pre s t}, P pre (s :: t) → isIsolate s = false
  number : ∀ {pre s t}, P pre (s :: t) → s.clz = cEN → s.ctx.context = cL
  walk : ∀ {pre s t}, P pre (s :: t) → pick1 s.clz (t[0]?.map (·.clz)) (t[1]?.map (·.clz)) = none → P (pre ++ [s]) t
  back : ∀ {pre x suf}, P (pre ++ [x]) suf → P pre (x :: suf)
  fuse : ∀ {pre s t post rule}, P pre ((s :: t) ++ post) →
    pick1 s.clz ((t ++ post)[0]?.map (·.clz)) ((t ++ post)[1]?.map (·.clz)) = some rule → rule ≠ .W7 →
    rule.lhsLen = (s :: t).length → P pre (Bidi.fuse (target rule) (s :: t) :: post)
  w7 : ∀ {pre s t}, P pre (s :: t) → s.clz = cEN → t[0]?.map (·.clz) ≠ some cET → P pre ({ s with clz := cL } :: t)

theorem steps_back {P : List Scrap → List Scrap → Prop} (hP : ∀ {pre x suf}, P (pre ++ [x]) suf → P pre (x :: suf)) (k : Nat) : ∀ (pre suf : List Scrap), k ≤ pre.length → P pre suf →
    P (pre.take (pre.length - k)) (pre.drop (pre.length - k) ++ suf) := by
  induction k with
  | zero => intro pre suf _ h; simpa using h
  | succ k ih =>
    intro pre suf hk h
    have hne : pre ≠ [] := by intro h0; rw [h0] at hk; simp at hk
    have e := List.dropLast_concat_getLast hne
    have h1 := hP (pre := pre.dropLast) (x := pre.getLast hne) (suf := suf) (by rw [e]; exact h)
    have hl : pre.dropLast.length = pre.length - 1 := List.length_dropLast
    have h2 := ih _ _ (by omega) h1
    rw [hl] at h2
    have e1 : pre.dropLast.take (pre.length - 1 - k) = pre.take (pre.length - (k + 1)) := by
      rw [List.dropLast_eq_take, List.take_take]
      congr 1
      omega
    have e2 : pre.drop (pre.length - (k + 1)) = pre.dropLast.drop (pre.length - 1 - k) ++ [pre.getLast hne] := by
      have e3 : pre.length - (k + 1) = pre.length - 1 - k := by omega
      rw [e3]
      conv => lhs; arg 2; rw [← e]
      rw [List.drop_append_of_le_length (by omega)]
    rw [e1] at h2
    rw [e2, List.append_assoc]
    exact h2

/-- The same for properties which need not hold between a change and the steps back that follow it. -/
structure Inv1B (P : List Scrap → List Scrap → Prop) : Prop where
  known : ∀ {pre suf}, P pre suf → ∀ s ∈ suf, s.clz < 28
  closed : ∀ {pre s t}, P pre (s :: t) → isIsolate s = false
  number : ∀ {pre s t}, P pre (s :: t) → s.clz = cEN → s.ctx.context = cL
  walk : ∀ {pre s t}, P pre (s :: t) → pick1 s.clz (t[0]?.map (·.clz)) (t[1]?.map (·.clz)) = none → P (pre ++ [s]) t
  fuse : ∀ {pre s t post rule}, P pre ((s :: t) ++ post) →
    pick1 s.clz ((t ++ post)[0]?.map (·.clz)) ((t ++ post)[1]?.map (·.clz)) = some rule → rule ≠ .W7 →
    rule.lhsLen = (s :: t).length →
    P (pre.take (pre.length - min (stepBack rule) pre.length)) (pre.drop (pre.length - min (stepBack rule) pre.length) ++ Bidi.fuse (target rule) (s :: t) :: post)
  w7 : ∀ {pre s t}, P pre (s :: t) → s.clz = cEN → t[0]?.map (·.clz) ≠ some cET → P pre ({ s with clz := cL } :: t)

theorem Inv1.jumps {P : List Scrap → List Scrap → Prop} (hP : Inv1 P) : Inv1B P where
  known := hP.known
  closed := hP.closed
  number := hP.number
  walk := hP.walk
  fuse h hp hne hl := steps_back hP.back _ _ _ (by omega) (hP.fuse h hp hne hl)
  w7 := hP.w7

/-- Classes that pass 1 gets rid of. -/
def weakClass (s : Scrap) : Bool := s.clz == cEN || s.clz == cES || s.clz == cET || s.clz == cCS

theorem pick1_none {a : Class} {b c : Option Class} (h : pick1 a b c = none) : a ≠ cEN ∧ a ≠ cES ∧ a ≠ cET ∧ a ≠ cCS := by
  unfold pick1 at h
  repeat' split at h
  all_goals first
    | (cases h; done)
    | (simp_all [cEN, cES, cET, cCS, cAN, cNI]; done)

theorem pick1_single {a : Class} {b c : Option Class} {rule : Rule} (h : pick1 a b c = some rule) (hne : rule ≠ .W7) (h1 : rule.lhsLen = 1) :
    (a = cES ∨ a = cET ∨ a = cCS) ∧ stepBack rule = 0 ∧ target rule = cNI := by
  unfold pick1 at h
  repeat' split at h
  all_goals first
    | (cases h; done)
    | (injection h with h; subst h; first | (exact absurd rfl hne) | (exact absurd h1 (by decide)) | (exact ⟨by simp [*], rfl, rfl⟩))

theorem pass1_total {P : List Scrap → List Scrap → Prop} (hP : Inv1B P) (first : Scrap) : ∀ (k : Nat) (pre suf : List Scrap),
    3 * (pre.length + suf.length) + (pre ++ suf).countP weakClass + suf.length ≤ k → P pre suf →
    ∃ ys, Reduces 1 (first :: (pre ++ suf)) (pre.length + 1) (first :: ys) ∧ P ys [] := by
  intro k
  induction k using Nat.strongRecOn with
  | ind k ih =>
    intro pre suf hk h
    cases suf with
    | nil => exact ⟨pre, by simpa using Reduces.done (by simp), h⟩
    | cons s t =>
      have hd : (first :: (pre ++ s :: t)).drop (pre.length + 1) = s :: t := by
        rw [List.drop_succ_cons, List.drop_append_of_le_length (by omega), List.drop_length, List.nil_append]
      have ht : (first :: (pre ++ s :: t)).take (pre.length + 1) = first :: pre := by
        rw [List.take_succ_cons, List.take_append_of_le_length (by omega), List.take_length]
      have hkn := hP.known h
      have hch := choose1_eq s t
      cases hp : pick1 s.clz (t[0]?.map (·.clz)) (t[1]?.map (·.clz)) with
      | none =>
        have h1 := hP.walk h hp
        obtain ⟨ys, r1, r2⟩ := ih _ (by
          simp only [List.length_append, List.length_cons, List.length_nil, List.append_assoc, List.cons_append, List.nil_append] at hk ⊢
          exact Nat.lt_of_lt_of_le (Nat.lt_of_succ_le (by omega)) hk) (pre ++ [s]) t (Nat.le_refl _) h1
        refine ⟨ys, Reduces.walk hd hkn (hch.trans hp) (hP.closed h) ?_, r2⟩
        simpa using r1
      | some rule =>
        have hlen := pick1_len hp
        rcases pick1_rule hp with rfl | ⟨hact, h1, hne⟩
        · -- W7
          have hEN : s.clz = cEN ∧ t[0]?.map (·.clz) ≠ some cET := by
            unfold pick1 at hp
            repeat' split at hp
            all_goals first
              | (cases hp; done)
              | (rename_i g1 g2 g3 g4; exact ⟨g1, g4⟩)
          have hctx := hP.number h hEN.1
          have h1 := hP.w7 h hEN.1 hEN.2
          obtain ⟨ys, r1, r2⟩ := ih _ (by
            simp only [List.length_cons, List.countP_append, List.countP_cons] at hk ⊢
            have w1 : weakClass s = true := by simp [weakClass, hEN.1]
            have w2 : weakClass { s with clz := cL } = false := rfl
            rw [w1] at hk
            rw [w2]
            simp only [if_true] at hk
            exact Nat.lt_of_lt_of_le (Nat.lt_of_succ_le (by simp only [Bool.false_eq_true, if_false]; omega)) hk) pre ({ s with clz := cL } :: t) (Nat.le_refl _) h1
          refine ⟨ys, Reduces.rule (rhs := [{ s with clz := cL }]) (jmp := 0) hd hkn (hch.trans hp) ?_ ?_, r2⟩
          · refine ⟨by simp, Nat.le_refl _, by simp [Rule.lhsLen, Rule.lhs], ?_⟩
            intro j hj
            obtain ⟨j, rfl⟩ : ∃ i, j = i + 1 := ⟨j - 1, by have : (1 : Nat) ≤ j := hj; omega⟩
            refine ⟨true, ?_⟩
            rw [List.take_succ_cons]
            simp only [Rule.action, hctx, if_true]
          · rw [ht]
            have : jump 1 (pre.length + 1) 0 = pre.length + 1 := by unfold jump; omega
            rw [this]
            simpa [Rule.lhsLen, Rule.lhs] using r1
        · -- the others
          obtain ⟨m, post, hm, hml⟩ : ∃ m post, s :: t = m ++ post ∧ m.length = rule.lhsLen :=
            ⟨(s :: t).take rule.lhsLen, (s :: t).drop rule.lhsLen, (List.take_append_drop _ _).symm, by rw [List.length_take]; omega⟩
          obtain ⟨t', rfl⟩ : ∃ t', m = s :: t' := by
            cases m with
            | nil => simp at hml; omega
            | cons a m' => rw [List.cons_append] at hm; injection hm with e1 e2; subst e1; exact ⟨m', rfl⟩
          rw [List.cons_append] at hm
          have hte : t = t' ++ post := (List.cons.inj hm).2
          subst hte
          have h3 := hP.fuse (t := t') (post := post) h hp hne hml.symm
          -- going back
          generalize hb : min (stepBack rule) pre.length = b at h3
          have hbl : b ≤ pre.length := by omega
          have hcp : (pre.take (pre.length - b) ++ (pre.drop (pre.length - b) ++ Bidi.fuse (target rule) (s :: t') :: post)).countP weakClass =
              pre.countP weakClass + ([Bidi.fuse (target rule) (s :: t')].countP weakClass + post.countP weakClass) := by
            rw [← List.append_assoc, List.take_append_drop, List.countP_append, ← List.singleton_append, List.countP_append]
          have hcp2 : (pre ++ s :: (t' ++ post)).countP weakClass =
              pre.countP weakClass + ((s :: t').countP weakClass + post.countP weakClass) := by
            rw [List.countP_append, ← List.cons_append, List.countP_append]
          obtain ⟨ys, r1, r2⟩ := ih _ (by
            refine Nat.lt_of_lt_of_le ?_ hk
            rw [hcp, hcp2]
            have hf1 : [Bidi.fuse (target rule) (s :: t')].countP weakClass ≤ 1 := List.countP_le_length
            have hb2 : stepBack rule ≤ 2 := by cases rule <;> decide
            simp only [List.length_append, List.length_cons, List.length_take, List.length_drop]
            simp only [List.length_cons] at hml
            by_cases hone : rule.lhsLen = 1
            · obtain ⟨w1, w2, w3⟩ := pick1_single hp hne hone
              have ht0 : t' = [] := List.eq_nil_of_length_eq_zero (by omega)
              subst ht0
              have v1 : [s].countP weakClass = 1 := by
                rcases w1 with w | w | w <;> simp [weakClass, w]
              have v2 : [Bidi.fuse (target rule) [s]].countP weakClass = 0 := by
                rw [w3]; simp [weakClass, Bidi.fuse, cNI, cEN, cES, cET, cCS]
              rw [v1, v2]
              simp only [List.length_nil] at *
              omega
            · omega) _ _ (Nat.le_refl _) h3
          refine ⟨ys, Reduces.rule (rhs := [Bidi.fuse (target rule) (s :: t')]) (jmp := -(stepBack rule : Int)) hd hkn (hch.trans hp) ?_ ?_, r2⟩
          · refine ⟨by simp, by simpa using h1, hlen, ?_⟩
            intro j hj
            refine ⟨false, ?_⟩
            rw [hact, ← List.cons_append, List.take_append, List.take_of_length_le (by omega)]
            exact squash_fuse _ _ _ _ _ hml h1
          · rw [ht]
            have hj : jump 1 (pre.length + 1) (-(stepBack rule : Int)) = pre.length - b + 1 := by unfold jump; omega
            have hx : (s :: (t' ++ post)).drop rule.lhsLen = post := by
              rw [← List.cons_append, ← hml, List.drop_left]
            rw [hj, hx]
            have hy : first :: pre ++ [Bidi.fuse (target rule) (s :: t')] ++ post =
                first :: (pre.take (pre.length - b) ++ (pre.drop (pre.length - b) ++ Bidi.fuse (target rule) (s :: t') :: post)) := by
              rw [← List.append_assoc, List.take_append_drop]
              simp
            rw [hy]
            have hz : (pre.take (pre.length - b)).length = pre.length - b := by simp
            rw [hz] at r1
            exact r1

end Uax.Bidi
