import Verif.BidiPass1Total

/-
The second pass of the parser when it runs to the end of the text: it comes to
an end, and what it leaves. An invariant of the single rewriting steps is a
parameter.
-/
namespace Uax.Bidi

/-- The rule applied in pass 2: a long one, or else a short one. -/
def choose2 (cs : List Class) : Option Rule :=
  ((longAmong keptRules cs).filter (·.pass ≥ 2)).or ((shortAmong keptRules cs).filter (·.pass ≥ 2))

/-- The rule of pass 2 for the next three classes. -/
def pick2 (a : Class) (b c : Option Class) : Option Rule :=
  if a = cL then
    (if b = some cNI ∧ c = some cL then some .N1_1 else if b = some cL then some .LL else none)
  else if a = cR then
    (if b = some cNI ∧ c = some cR then some .N1_2
     else if b = some cNI ∧ c = some cAN then some .N1_3
     else if b = some cNI ∧ c = some cEN then some .N1_4
     else if b = some cR then some .RR else none)
  else if a = cAN then (if b = some cNI ∧ c = some cEN then some .N1_7 else none)
  else if a = cEN then (if b = some cNI ∧ c = some cEN then some .N1_10 else none)
  else if a = cNI then some .N2
  else none

set_option hygiene false in
macro "table2_bc" : tactic => `(tactic| (
  rw [choose2, long_eq, short_eq]
  rcases classes_of b with rfl | rfl | rfl | rfl | rfl | rfl | rfl | rfl | hb
  all_goals
    (rcases classes_of c with rfl | rfl | rfl | rfl | rfl | rfl | rfl | rfl | hc)
  all_goals first
    | rfl
    | (simp [Rule.lhs, pick2, List.isPrefixOf, cL, cR, cEN, cAN, cES, cET, cCS, cNI, Rule.pass, Ne.symm, *]; done)))
theorem choose2_three_0 (b c : Nat) : choose2 [0, b, c] = pick2 0 (some b) (some c) := by table2_bc
theorem choose2_three_1 (b c : Nat) : choose2 [1, b, c] = pick2 1 (some b) (some c) := by table2_bc
theorem choose2_three_2 (b c : Nat) : choose2 [2, b, c] = pick2 2 (some b) (some c) := by table2_bc
theorem choose2_three_3 (b c : Nat) : choose2 [3, b, c] = pick2 3 (some b) (some c) := by table2_bc
theorem choose2_three_4 (b c : Nat) : choose2 [4, b, c] = pick2 4 (some b) (some c) := by table2_bc
theorem choose2_three_5 (b c : Nat) : choose2 [5, b, c] = pick2 5 (some b) (some c) := by table2_bc
theorem choose2_three_6 (b c : Nat) : choose2 [6, b, c] = pick2 6 (some b) (some c) := by table2_bc
theorem choose2_three_27 (b c : Nat) : choose2 [27, b, c] = pick2 27 (some b) (some c) := by table2_bc

theorem choose2_three (a b c : Nat) : choose2 [a, b, c] = pick2 a (some b) (some c) := by
  rcases classes_of a with rfl | rfl | rfl | rfl | rfl | rfl | rfl | rfl | ha
  · exact choose2_three_0 b c
  · exact choose2_three_1 b c
  · exact choose2_three_2 b c
  · exact choose2_three_3 b c
  · exact choose2_three_4 b c
  · exact choose2_three_5 b c
  · exact choose2_three_6 b c
  · exact choose2_three_27 b c
  · rw [choose2, long_eq, short_eq]
    simp [Rule.lhs, pick2, List.isPrefixOf, cL, cR, cEN, cAN, cES, cET, cCS, cNI, Rule.pass, Ne.symm, *]

theorem choose2_two (a b : Nat) : choose2 [a, b] = pick2 a (some b) none := by
  rw [choose2, long_eq, short_eq]
  rcases classes_of a with rfl | rfl | rfl | rfl | rfl | rfl | rfl | rfl | ha
  all_goals
    (rcases classes_of b with rfl | rfl | rfl | rfl | rfl | rfl | rfl | rfl | hb)
  all_goals first
    | rfl
    | (simp [Rule.lhs, pick2, List.isPrefixOf, cL, cR, cEN, cAN, cES, cET, cCS, cNI, Rule.pass, Ne.symm, *]; done)

theorem choose2_one (a : Nat) : choose2 [a] = pick2 a none none := by
  rw [choose2, long_eq, short_eq]
  rcases classes_of a with rfl | rfl | rfl | rfl | rfl | rfl | rfl | rfl | ha
  all_goals first
    | rfl
    | (simp [Rule.lhs, pick2, List.isPrefixOf, cL, cR, cEN, cAN, cES, cET, cCS, cNI, Rule.pass, Ne.symm, *]; done)

theorem choose2_take (cs : List Class) : choose2 cs = choose2 (cs.take 3) := by
  unfold choose2
  rw [longAmong_take, shortAmong_take, shortAmong_take keptRules (cs.take 3), List.take_take]
  rfl

theorem choose2_eq (s : Scrap) (t : List Scrap) :
    choose2 ((s :: t).map (·.clz)) = pick2 s.clz (t[0]?.map (·.clz)) (t[1]?.map (·.clz)) := by
  rw [choose2_take _]
  match t with
  | [] => exact choose2_one _
  | [a] => exact choose2_two _ _
  | a :: b :: r => exact choose2_three _ _ _

/-- What rule N0 can make of a bracket. -/
def Settled (c : Class) : Prop := c = cL ∨ c = cR ∨ c = cNI

/-- What the steps of pass 2 preserve: a property of the scraps that have been
passed, of the others, and of the surroundings. -/
structure Inv2J {σ : Type} (E : Env σ) (J : List Scrap → List Scrap → σ → Prop) : Prop where
  known : ∀ {pre suf env}, J pre suf env → ∀ s ∈ suf, s.clz < 28 ∧ s.clz ≠ cEN
  closed : ∀ {pre suf env}, J pre suf env → ∀ s ∈ pre, s.clz ≠ cPDI
  emb : ∀ {pre s t env}, J pre (s :: t) env → s.e = cL ∨ s.e = cR
  walk : ∀ {pre s t env}, J pre (s :: t) env → isBracket s = false → pick2 s.clz (t[0]?.map (·.clz)) (t[1]?.map (·.clz)) = none →
    J (pre ++ [s]) t env
  back : ∀ {pre x suf env}, J (pre ++ [x]) suf env → J pre (x :: suf) env
  n1 : ∀ {pre a b d post c env}, J pre (a :: b :: d :: post) env → c = cL ∨ c = cR → a.clz = c → b.clz = cNI → d.clz = c →
    J pre (fuse c [a, b, d] :: post) env
  same : ∀ {pre a b post c env}, J pre (a :: b :: post) env → c = cL ∨ c = cR → a.clz = c → b.clz = c → J pre (fuse c [a, b] :: post) env
  absorb : ∀ {pre a b d post env}, J pre (a :: b :: d :: post) env → a.clz = cR → b.clz = cNI → d.clz = cAN →
    J (pre ++ [a]) ({ b with clz := cAN, children := b.children ++ d.children } :: post) env
  n2 : ∀ {pre s t env}, J pre (s :: t) env → s.clz = cNI → (pre = [] → J pre ({ s with clz := s.e } :: t) env) ∧
    ∀ pre' x, pre = pre' ++ [x] → J pre' (x :: { s with clz := s.e } :: t) env
  skip : ∀ {pre s t env}, J pre (s :: t) env → s.clz = cBRACKO → (E.pairing env s).1 = none → J (pre ++ [s]) t (E.pairing env s).2
  opening : ∀ {pre s t env pr}, J pre (s :: t) env → s.clz = cBRACKO → (E.pairing env s).1 = some pr →
    J pre ({ s with clz := (openingClass s pr.closing).1 } :: t) (E.change (E.pairing env s).2 { s with clz := (openingClass s pr.closing).1 })
  closing : ∀ {pre s t env pr}, J pre (s :: t) env → s.clz = cBRACKC → (E.pairing env s).1 = some pr →
    J pre ({ s with clz := pr.opening.clz } :: t) (E.pairing env s).2 ∧ (Settled pr.opening.clz ∨ pr.opening.clz = cBRACKO)
  neutral : ∀ {pre s t env pr}, J pre (s :: t) env → s.clz = cBRACKC → (E.pairing env s).1 = some pr → pr.opening.clz = cNI →
    J (pre ++ [{ s with clz := cNI }]) t (E.pairing env s).2
  alone : ∀ {pre s t env}, J pre (s :: t) env → s.clz = cBRACKC → (E.pairing env s).1 = none →
    J (pre ++ [{ s with clz := cNI }]) t (E.pairing env s).2

/-- What the steps of pass 2 preserve: a property of the scraps that have been
passed and of the others, and one of the surroundings, apart. -/
structure Inv2 {σ : Type} (E : Env σ) (Q : List Scrap → List Scrap → Prop) (G : σ → Prop) : Prop where
  known : ∀ {pre suf}, Q pre suf → ∀ s ∈ suf, s.clz < 28 ∧ s.clz ≠ cEN
  closed : ∀ {pre suf}, Q pre suf → ∀ s ∈ pre, s.clz ≠ cPDI
  emb : ∀ {pre s t}, Q pre (s :: t) → s.e = cL ∨ s.e = cR
  walk : ∀ {pre s t}, Q pre (s :: t) → isBracket s = false → pick2 s.clz (t[0]?.map (·.clz)) (t[1]?.map (·.clz)) = none →
    Q (pre ++ [s]) t
  back : ∀ {pre x suf}, Q (pre ++ [x]) suf → Q pre (x :: suf)
  n1 : ∀ {pre a b d post c}, Q pre (a :: b :: d :: post) → c = cL ∨ c = cR → a.clz = c → b.clz = cNI → d.clz = c →
    Q pre (fuse c [a, b, d] :: post)
  same : ∀ {pre a b post c}, Q pre (a :: b :: post) → c = cL ∨ c = cR → a.clz = c → b.clz = c → Q pre (fuse c [a, b] :: post)
  absorb : ∀ {pre a b d post}, Q pre (a :: b :: d :: post) → a.clz = cR → b.clz = cNI → d.clz = cAN →
    Q (pre ++ [a]) ({ b with clz := cAN, children := b.children ++ d.children } :: post)
  n2 : ∀ {pre s t}, Q pre (s :: t) → s.clz = cNI → (pre = [] → Q pre ({ s with clz := s.e } :: t)) ∧
    ∀ pre' x, pre = pre' ++ [x] → Q pre' (x :: { s with clz := s.e } :: t)
  skip : ∀ {pre s t}, Q pre (s :: t) → s.clz = cBRACKO → Q (pre ++ [s]) t
  opening : ∀ {pre s t env pr}, Q pre (s :: t) → G env → s.clz = cBRACKO → (E.pairing env s).1 = some pr →
    Q pre ({ s with clz := (openingClass s pr.closing).1 } :: t) ∧ G (E.change (E.pairing env s).2 { s with clz := (openingClass s pr.closing).1 })
  closing : ∀ {pre s t env pr}, Q pre (s :: t) → G env → s.clz = cBRACKC → (E.pairing env s).1 = some pr →
    Q pre ({ s with clz := pr.opening.clz } :: t)
  alone : ∀ {pre s t}, Q pre (s :: t) → s.clz = cBRACKC → Q (pre ++ [{ s with clz := cNI }]) t
  pair : ∀ {env}, G env → ∀ s, G (E.pairing env s).2 ∧ ∀ pr, (E.pairing env s).1 = some pr → Settled pr.opening.clz ∨ pr.opening.clz = cBRACKO

theorem Inv2.joint {σ : Type} {E : Env σ} {Q : List Scrap → List Scrap → Prop} {G : σ → Prop} (hQ : Inv2 E Q G) :
    Inv2J E (fun pre suf env => Q pre suf ∧ G env) where
  known h := hQ.known h.1
  closed h := hQ.closed h.1
  emb h := hQ.emb h.1
  walk h hb hp := ⟨hQ.walk h.1 hb hp, h.2⟩
  back h := ⟨hQ.back h.1, h.2⟩
  n1 h hc ha hb hd := ⟨hQ.n1 h.1 hc ha hb hd, h.2⟩
  same h hc ha hb := ⟨hQ.same h.1 hc ha hb, h.2⟩
  absorb h ha hb hd := ⟨hQ.absorb h.1 ha hb hd, h.2⟩
  n2 h hs := ⟨fun e => ⟨(hQ.n2 h.1 hs).1 e, h.2⟩, fun pre' x e => ⟨(hQ.n2 h.1 hs).2 pre' x e, h.2⟩⟩
  skip h hs _ := ⟨hQ.skip h.1 hs, (hQ.pair h.2 _).1⟩
  opening h hs hp := hQ.opening h.1 h.2 hs hp
  closing h hs hp := ⟨⟨hQ.closing h.1 h.2 hs hp, (hQ.pair h.2 _).1⟩, (hQ.pair h.2 _).2 _ hp⟩
  neutral h hs _ _ := ⟨hQ.alone h.1 hs, (hQ.pair h.2 _).1⟩
  alone h hs _ := ⟨hQ.alone h.1 hs, (hQ.pair h.2 _).1⟩

theorem backs_of {σ : Type} {J : List Scrap → List Scrap → σ → Prop} (hback : ∀ {pre x suf env}, J (pre ++ [x]) suf env → J pre (x :: suf) env) (k : Nat) :
    ∀ (pre suf : List Scrap) (env : σ), k ≤ pre.length → J pre suf env → J (pre.take (pre.length - k)) (pre.drop (pre.length - k) ++ suf) env := by
  induction k with
  | zero => intro pre suf env _ h; simpa using h
  | succ k ih =>
    intro pre suf env hk h
    have hne : pre ≠ [] := by intro h0; rw [h0] at hk; simp at hk
    have e := List.dropLast_concat_getLast hne
    have h1 := hback (pre := pre.dropLast) (x := pre.getLast hne) (suf := suf) (by rw [e]; exact h)
    have hl : pre.dropLast.length = pre.length - 1 := List.length_dropLast
    have h2 := ih _ _ _ (by omega) h1
    rw [hl] at h2
    have e1 : pre.dropLast.take (pre.length - 1 - k) = pre.take (pre.length - (k + 1)) := by
      rw [List.dropLast_eq_take, List.take_take]
      congr 1
      omega
    have e2 : pre.drop (pre.length - (k + 1)) = pre.dropLast.drop (pre.length - 1 - k) ++ [pre.getLast hne] := by
      have e3 : pre.length - (k + 1) = pre.length - 1 - k := by omega
      rw [e3]
      conv => lhs; arg 2; rw [← e]
      rw [List.drop_append_of_le_length (by omega)]
    rw [e1] at h2
    rw [e2, List.append_assoc]
    exact h2

/-- The same, where a property after a bracket has got its class is asked for at the position the parser goes back to. -/
structure Inv2B {σ : Type} (E : Env σ) (J : List Scrap → List Scrap → σ → Prop) : Prop where
  known : ∀ {pre suf env}, J pre suf env → ∀ s ∈ suf, s.clz < 28 ∧ s.clz ≠ cEN
  closed : ∀ {pre suf env}, J pre suf env → ∀ s ∈ pre, s.clz ≠ cPDI
  emb : ∀ {pre s t env}, J pre (s :: t) env → s.e = cL ∨ s.e = cR
  walk : ∀ {pre s t env}, J pre (s :: t) env → isBracket s = false → pick2 s.clz (t[0]?.map (·.clz)) (t[1]?.map (·.clz)) = none →
    J (pre ++ [s]) t env
  back : ∀ {pre x suf env}, J (pre ++ [x]) suf env → J pre (x :: suf) env
  n1 : ∀ {pre a b d post c env}, J pre (a :: b :: d :: post) env → c = cL ∨ c = cR → a.clz = c → b.clz = cNI → d.clz = c →
    J pre (fuse c [a, b, d] :: post) env
  same : ∀ {pre a b post c env}, J pre (a :: b :: post) env → c = cL ∨ c = cR → a.clz = c → b.clz = c → J pre (fuse c [a, b] :: post) env
  absorb : ∀ {pre a b d post env}, J pre (a :: b :: d :: post) env → a.clz = cR → b.clz = cNI → d.clz = cAN →
    J (pre ++ [a]) ({ b with clz := cAN, children := b.children ++ d.children } :: post) env
  n2 : ∀ {pre s t env}, J pre (s :: t) env → s.clz = cNI → (pre = [] → J pre ({ s with clz := s.e } :: t) env) ∧
    ∀ pre' x, pre = pre' ++ [x] → J pre' (x :: { s with clz := s.e } :: t) env
  skip : ∀ {pre s t env}, J pre (s :: t) env → s.clz = cBRACKO → (E.pairing env s).1 = none → J (pre ++ [s]) t (E.pairing env s).2
  opening : ∀ {pre s t env pr}, J pre (s :: t) env → s.clz = cBRACKO → (E.pairing env s).1 = some pr →
    ∀ b : Nat, (openingClass s pr.closing).2 = -(b : Int) → J (pre.take (pre.length - min b pre.length))
      (pre.drop (pre.length - min b pre.length) ++ { s with clz := (openingClass s pr.closing).1 } :: t)
      (E.change (E.pairing env s).2 { s with clz := (openingClass s pr.closing).1 })
  closing : ∀ {pre s t env pr}, J pre (s :: t) env → s.clz = cBRACKC → (E.pairing env s).1 = some pr →
    (pr.opening.clz ≠ cNI → J (pre.take (pre.length - min 2 pre.length)) (pre.drop (pre.length - min 2 pre.length) ++ { s with clz := pr.opening.clz } :: t)
      (E.pairing env s).2) ∧ (Settled pr.opening.clz ∨ pr.opening.clz = cBRACKO)
  neutral : ∀ {pre s t env pr}, J pre (s :: t) env → s.clz = cBRACKC → (E.pairing env s).1 = some pr → pr.opening.clz = cNI →
    J (pre ++ [{ s with clz := cNI }]) t (E.pairing env s).2
  alone : ∀ {pre s t env}, J pre (s :: t) env → s.clz = cBRACKC → (E.pairing env s).1 = none →
    J (pre ++ [{ s with clz := cNI }]) t (E.pairing env s).2

theorem Inv2J.weak {σ : Type} {E : Env σ} {J : List Scrap → List Scrap → σ → Prop} (hQ : Inv2J E J) : Inv2B E J where
  known := hQ.known
  closed := hQ.closed
  emb := hQ.emb
  walk := hQ.walk
  back := hQ.back
  n1 := hQ.n1
  same := hQ.same
  absorb := hQ.absorb
  n2 := hQ.n2
  skip := hQ.skip
  opening h hs hp b _ := backs_of hQ.back (min b _) _ _ _ (Nat.min_le_right _ _) (hQ.opening h hs hp)
  closing h hs hp := ⟨fun _ => backs_of hQ.back (min 2 _) _ _ _ (Nat.min_le_right _ _) (hQ.closing h hs hp).1, (hQ.closing h hs hp).2⟩
  neutral := hQ.neutral
  alone := hQ.alone

/-- How much work a class makes for pass 2. -/
def weight (s : Scrap) : Nat := if s.clz = cBRACKC then 4 else if s.clz = cBRACKO then 3 else if s.clz = cNI then 2 else 1

theorem weight_pos (s : Scrap) : 1 ≤ weight s := by unfold weight; repeat' split
                                                    all_goals omega

/-- The work left, apart from the scraps that have been passed. -/
def work (suf : List Scrap) : Nat := 3 * (suf.map weight).sum + suf.length

/-- The rules of pass 2 when there are no European numbers. -/
theorem pick2_some {s : Scrap} {t : List Scrap} {rule : Rule} (hn : ∀ x ∈ s :: t, x.clz ≠ cEN)
    (h : pick2 s.clz (t[0]?.map (·.clz)) (t[1]?.map (·.clz)) = some rule) :
    (∃ c b d post, (c = cL ∨ c = cR) ∧ s.clz = c ∧ t = b :: d :: post ∧ b.clz = cNI ∧ d.clz = c ∧
      rule.action (s :: t) = squash c 3 0 (s :: t) ∧ rule.lhsLen = 3) ∨
    (∃ c b post, (c = cL ∨ c = cR) ∧ s.clz = c ∧ t = b :: post ∧ b.clz = c ∧
      rule.action (s :: t) = squash c 2 0 (s :: t) ∧ rule.lhsLen = 2) ∨
    (∃ b d post, s.clz = cR ∧ t = b :: d :: post ∧ b.clz = cNI ∧ d.clz = cAN ∧
      rule.action (s :: t) = some ([s, { b with clz := cAN, children := b.children ++ d.children }], 1, false) ∧ rule.lhsLen = 3) ∨
    (s.clz = cNI ∧ rule.action (s :: t) = some ([{ s with clz := s.e }], -1, false) ∧ rule.lhsLen = 1) := by
  have h3 : ∀ {c1 c2 : Class}, t[0]?.map (·.clz) = some c1 ∧ t[1]?.map (·.clz) = some c2 →
      ∃ b d post, t = b :: d :: post ∧ b.clz = c1 ∧ d.clz = c2 := by
    intro c1 c2 ⟨e1, e2⟩
    match t, e1, e2 with
    | b :: d :: post, e1, e2 => exact ⟨b, d, post, rfl, by simpa using e1, by simpa using e2⟩
  have h2 : ∀ {c1 : Class}, t[0]?.map (·.clz) = some c1 → ∃ b post, t = b :: post ∧ b.clz = c1 := by
    intro c1 e1
    match t, e1 with
    | b :: post, e1 => exact ⟨b, post, rfl, by simpa using e1⟩
  unfold pick2 at h
  split at h
  · rename_i ha
    split at h
    · rename_i hc
      obtain ⟨b, d, post, rfl, e1, e2⟩ := h3 hc
      injection h with h; subst h
      exact Or.inl ⟨cL, b, d, post, Or.inl rfl, ha, rfl, e1, e2, rfl, rfl⟩
    · split at h
      · rename_i hc
        obtain ⟨b, post, rfl, e1⟩ := h2 hc
        injection h with h; subst h
        exact Or.inr (Or.inl ⟨cL, b, post, Or.inl rfl, ha, rfl, e1, rfl, rfl⟩)
      · cases h
  · split at h
    · rename_i ha
      split at h
      · rename_i hc
        obtain ⟨b, d, post, rfl, e1, e2⟩ := h3 hc
        injection h with h; subst h
        exact Or.inl ⟨cR, b, d, post, Or.inr rfl, ha, rfl, e1, e2, rfl, rfl⟩
      · split at h
        · rename_i hc
          obtain ⟨b, d, post, rfl, e1, e2⟩ := h3 hc
          injection h with h; subst h
          exact Or.inr (Or.inr (Or.inl ⟨b, d, post, ha, rfl, e1, e2, rfl, rfl⟩))
        · split at h
          · rename_i hc
            obtain ⟨b, d, post, rfl, e1, e2⟩ := h3 hc
            exact absurd e2 (hn d (by simp))
          · split at h
            · rename_i hc
              obtain ⟨b, post, rfl, e1⟩ := h2 hc
              injection h with h; subst h
              exact Or.inr (Or.inl ⟨cR, b, post, Or.inr rfl, ha, rfl, e1, rfl, rfl⟩)
            · cases h
    · split at h
      · split at h
        · rename_i hc
          obtain ⟨b, d, post, rfl, e1, e2⟩ := h3 hc
          exact absurd e2 (hn d (by simp))
        · cases h
      · split at h
        · rename_i ha
          exact absurd ha (hn s (by simp))
        · split at h
          · rename_i ha
            injection h with h; subst h
            exact Or.inr (Or.inr (Or.inr ⟨ha, rfl, rfl⟩))
          · cases h

theorem openingClass_settled (a b : Scrap) (h : a.e = cL ∨ a.e = cR) :
    Settled (openingClass a b).1 ∧ ∃ k : Nat, (openingClass a b).2 = -(k : Int) ∧ k ≤ 2 := by
  unfold openingClass
  unfold Scrap.e at h
  have ho : opposite a.ctx.embeddingDir = cL ∨ opposite a.ctx.embeddingDir = cR := by
    rcases h with h | h <;> rw [h]
    · exact Or.inr rfl
    · exact Or.inl rfl
  have hs : ∀ c, c = cL ∨ c = cR → Settled c := fun c h => h.elim Or.inl fun h => Or.inr (Or.inl h)
  split
  · exact ⟨hs _ h, 2, rfl, Nat.le_refl _⟩
  · split
    · split
      · exact ⟨hs _ ho, 2, rfl, Nat.le_refl _⟩
      · exact ⟨hs _ h, 2, rfl, Nat.le_refl _⟩
    · exact ⟨Or.inr (Or.inr rfl), 1, rfl, by omega⟩

theorem weight_settled {s : Scrap} {c : Class} (h : Settled c) : weight { s with clz := c } ≤ 2 := by
  rcases h with rfl | rfl | rfl
  · exact (by decide : 1 ≤ 2)
  · exact (by decide : 1 ≤ 2)
  · exact (by decide : 2 ≤ 2)

theorem pass2B_total {σ : Type} {E : Env σ} {J : List Scrap → List Scrap → σ → Prop} (hQ : Inv2B E J) :
    ∀ (k : Nat) (pre suf : List Scrap) (p : Parser σ), 3 * (pre.map weight).sum + work suf ≤ k → J pre suf p.env →
    p.stack = pre ++ suf → p.sp = pre.length →
    ∃ N p', pass2Loop E 0 N p = .returns p' ∧ J p'.stack [] p'.env ∧ p'.sp = p'.stack.length ∧ p'.eof = p.eof ∧ p'.depth = p.depth := by
  intro k
  induction k using Nat.strongRecOn with
  | ind k ih =>
    intro pre suf p hk h hst hsp
    -- the scrap before is no PDI
    have hpass : p.passed cPDI = false := by
      unfold Parser.passed
      split
      · rename_i hpos
        have hlt : p.sp - 1 < pre.length := by omega
        rw [hst, List.getElem?_append_left hlt, List.getElem?_eq_getElem hlt]
        have := hQ.closed h _ (List.getElem_mem hlt)
        simpa using this
      · rfl
    cases suf with
    | nil =>
      refine ⟨1, p, ?_, by rw [hst, List.append_nil]; exact h, by rw [hst, List.append_nil, hsp], rfl, rfl⟩
      rw [pass2Loop, hpass, if_neg (by simp), hst, hsp, List.append_nil, List.getElem?_eq_none (Nat.le_refl _)]
    | cons s t =>
      have hget : p.stack[p.sp]? = some s := by
        rw [hst, hsp, List.getElem?_append_right (Nat.le_refl _), Nat.sub_self, List.getElem?_cons_zero]
      have hdrop : p.stack.drop p.sp = s :: t := by rw [hst, hsp, List.drop_left]
      have htake : p.stack.take p.sp = pre := by rw [hst, hsp, List.take_left]
      have hset : ∀ x, p.stack.set p.sp x = pre ++ x :: t := by
        intro x
        rw [hst, hsp, List.set_append_right _ _ (Nat.le_refl _), Nat.sub_self, List.set_cons_zero]
      -- going on at a position further left
      have hgo' : ∀ (q : Parser σ) (suf' : List Scrap) (b : Nat),
          J (pre.take (pre.length - min b pre.length)) (pre.drop (pre.length - min b pre.length) ++ suf') q.env → q.stack = pre ++ suf' →
          q.sp = jump 0 pre.length (-(b : Int)) → work suf' + b < work (s :: t) → q.eof = p.eof → q.depth = p.depth →
          ∃ N p', pass2Loop E 0 N q = .returns p' ∧ J p'.stack [] p'.env ∧ p'.sp = p'.stack.length ∧ p'.eof = p.eof ∧
            p'.depth = p.depth := by
        intro q suf' b h3 q3 q4 q5 q6 q7
        obtain ⟨N, p', e1, e2, e3, e5, e6⟩ := ih _ (by
          refine Nat.lt_of_lt_of_le ?_ hk
          have hw : (pre.map weight).sum = ((pre.take (pre.length - min b pre.length)).map weight).sum +
              ((pre.drop (pre.length - min b pre.length)).map weight).sum := by
            rw [← List.sum_append, ← List.map_append, List.take_append_drop]
          rw [hw]
          unfold work at q5 ⊢
          simp only [List.map_append, List.sum_append, List.length_append, List.length_drop] at q5 ⊢
          omega) _ _ q (Nat.le_refl _) h3 (by
            rw [q3, ← List.append_assoc, List.take_append_drop]) (by
            rw [q4, List.length_take]; unfold jump; omega)
        exact ⟨N, p', e1, e2, e3, by rw [e5, q6], by rw [e6, q7]⟩
      have hgo : ∀ (q : Parser σ) (suf' : List Scrap) (b : Nat), J pre suf' q.env → q.stack = pre ++ suf' →
          q.sp = jump 0 pre.length (-(b : Int)) → work suf' + b < work (s :: t) → q.eof = p.eof → q.depth = p.depth →
          ∃ N p', pass2Loop E 0 N q = .returns p' ∧ J p'.stack [] p'.env ∧ p'.sp = p'.stack.length ∧ p'.eof = p.eof ∧
            p'.depth = p.depth :=
        fun q suf' b q1 => hgo' q suf' b (backs_of hQ.back (min b pre.length) _ _ _ (Nat.min_le_right _ _) q1)
      -- going on behind the scrap
      have hon : ∀ (q : Parser σ) (x : Scrap), J (pre ++ [x]) t q.env → q.stack = pre ++ x :: t → q.sp = pre.length + 1 →
          weight x ≤ weight s → q.eof = p.eof → q.depth = p.depth →
          ∃ N p', pass2Loop E 0 N q = .returns p' ∧ J p'.stack [] p'.env ∧ p'.sp = p'.stack.length ∧ p'.eof = p.eof ∧
            p'.depth = p.depth := by
        intro q x q1 q3 q4 q5 q6 q7
        obtain ⟨N, p', e1, e2, e3, e5, e6⟩ := ih _ (by
          refine Nat.lt_of_lt_of_le ?_ hk
          unfold work
          simp only [List.map_append, List.sum_append, List.map_cons, List.map_nil, List.sum_cons, List.sum_nil, List.length_cons]
          omega) (pre ++ [x]) t q (Nat.le_refl _) q1 (by rw [q3]; simp) (by rw [q4]; simp)
        exact ⟨N, p', e1, e2, e3, by rw [e5, q6], by rw [e6, q7]⟩
      have hj1 : jump 0 pre.length 1 = pre.length + 1 := by unfold jump; omega
      have hone : ∀ n, pass2Loop E 0 (n + 1) p = (if isBracket s then
          pass2Loop E 0 n { (p.ruleN0 E s).2 with sp := jump 0 (p.ruleN0 E s).2.sp (p.ruleN0 E s).1 }
        else match lookupRules ((s :: t).map (·.clz)) 2 with
          | none => .panics
          | some (long, short) =>
            match (long.filter (·.pass ≥ 2)).or (short.filter (·.pass ≥ 2)) with
            | none => pass2Loop E 0 n { p with sp := p.sp + 1 }
            | some rule =>
              match rule.action (s :: t) with
              | none => .panics
              | some (rhs, jmp, _) =>
                (p.reduce rule.lhsLen rhs 0).andThen fun p =>
                  pass2Loop E 0 n { p with sp := jump 0 p.sp jmp }) := by
        intro n
        rw [pass2Loop, hpass, if_neg (by simp), hget]
        dsimp only
        rw [hdrop]
        rfl
      by_cases hbr : isBracket s = true
      · -- rule N0
        suffices hx : ∃ N p', pass2Loop E 0 N { (p.ruleN0 E s).2 with sp := jump 0 (p.ruleN0 E s).2.sp (p.ruleN0 E s).1 } = .returns p' ∧
            J p'.stack [] p'.env ∧ p'.sp = p'.stack.length ∧ p'.eof = p.eof ∧ p'.depth = p.depth by
          obtain ⟨N, p', e⟩ := hx
          refine ⟨N + 1, p', ?_⟩
          rw [hone, if_pos hbr]
          exact e
        by_cases ho : s.clz = cBRACKO
        · unfold Parser.ruleN0 Parser.corresponding
          rw [if_pos ho]
          rcases hpr : E.pairing p.env s with ⟨pr, env1⟩
          cases pr with
          | none =>
            dsimp only
            have hk := hQ.skip h ho (by rw [hpr])
            rw [hpr] at hk
            exact hon _ s hk hst (by rw [hsp]; exact hj1) (Nat.le_refl _) rfl rfl
          | some pr =>
            dsimp only
            rw [if_pos ho]
            obtain ⟨c1, j, c2, c3⟩ := openingClass_settled s pr.closing (hQ.emb h)
            have o2 := hQ.opening h ho (pr := pr) (by rw [hpr])
            refine hgo' _ ({ s with clz := (openingClass s pr.closing).1 } :: t) j ?_ (hset _) ?_ ?_ rfl rfl
            · have o3 := o2 j c2
              rw [hpr] at o3; exact o3
            · rw [← c2]; show jump 0 p.sp _ = _; rw [hsp]
            · have w1 := weight_settled (s := s) c1
              have w2 : weight s = 3 := by unfold weight; rw [ho]; rfl
              unfold work
              simp only [List.map_cons, List.sum_cons, List.length_cons]
              omega
        · have hc : s.clz = cBRACKC := by
            unfold isBracket at hbr
            simp only [Bool.or_eq_true, beq_iff_eq] at hbr
            rcases hbr with hb | hb
            · exact absurd hb ho
            · exact hb
          have w2 : weight s = 4 := by unfold weight; rw [hc]; rfl
          unfold Parser.ruleN0 Parser.corresponding
          rw [if_neg ho]
          rcases hpr : E.pairing p.env s with ⟨pr, env1⟩
          cases pr with
          | none =>
            dsimp only
            have hk := hQ.alone h hc (by rw [hpr])
            rw [hpr] at hk
            exact hon _ { s with clz := cNI } hk (hset _) (by rw [hsp]; exact hj1) (by
              have := weight_settled (s := s) (c := cNI) (Or.inr (Or.inr rfl))
              omega) rfl rfl
          | some pr =>
            dsimp only
            rw [if_neg ho]
            obtain ⟨hn0, hcl⟩ := hQ.closing h hc (pr := pr) (by rw [hpr])
            have w1 : weight { s with clz := pr.opening.clz } ≤ 3 := by
              rcases hcl with hcl | hcl
              · have := weight_settled (s := s) hcl; omega
              · rw [hcl]; exact (by decide : 3 ≤ 3)
            by_cases hni : pr.opening.clz = cNI
            · -- no going back: the scrap is passed as NI
              rw [if_neg (by rw [hni]; simp)]
              have hk := hQ.neutral h hc (pr := pr) (by rw [hpr]) hni
              rw [hpr] at hk
              refine hon _ { s with clz := cNI } hk (by rw [← hni]; exact hset _) (by rw [hsp]; exact hj1) ?_ rfl rfl
              have := weight_settled (s := s) (c := cNI) (Or.inr (Or.inr rfl))
              omega
            · rw [if_pos (by simpa using hni)]
              have hn1 := hn0 hni
              rw [hpr] at hn1
              refine hgo' _ _ 2 hn1 (hset _) (by show jump 0 p.sp _ = _; rw [hsp]; rfl) ?_ rfl rfl
              unfold work
              simp only [List.map_cons, List.sum_cons, List.length_cons]
              omega
      · have hbr' : isBracket s = false := by simpa using hbr
        have hlk : lookupRules ((s :: t).map (·.clz)) 2 = some (longAmong keptRules ((s :: t).map (·.clz)), shortAmong keptRules ((s :: t).map (·.clz))) :=
          lookupRules_eq _ _ (Nat.le_refl _) (by
            intro c hc
            rw [List.mem_map] at hc
            obtain ⟨x, hx, rfl⟩ := hc
            exact (hQ.known h x hx).1)
        have hch : ((longAmong keptRules ((s :: t).map (·.clz))).filter (·.pass ≥ 2)).or
            ((shortAmong keptRules ((s :: t).map (·.clz))).filter (·.pass ≥ 2)) = _ := choose2_eq s t
        cases hp : pick2 s.clz (t[0]?.map (·.clz)) (t[1]?.map (·.clz)) with
        | none =>
          obtain ⟨N, p', e⟩ := hon { p with sp := p.sp + 1 } s (hQ.walk h hbr' hp) hst (by rw [← hsp]) (Nat.le_refl _) rfl rfl
          refine ⟨N + 1, p', ?_⟩
          rw [hone, if_neg hbr, hlk]
          dsimp only
          rw [hch, hp]
          exact e
        | some rule =>
          -- carrying out a rule
          have hrule : ∀ (rhs : List Scrap) (jmp : Int) (fl : Bool), rule.action (s :: t) = some (rhs, jmp, fl) → rhs.length ≤ rule.lhsLen → rule.lhsLen ≤ (s :: t).length →
              (∃ N p', pass2Loop E 0 N { p with stack := pre ++ rhs ++ (s :: t).drop rule.lhsLen, sp := jump 0 p.sp jmp } = .returns p' ∧
                J p'.stack [] p'.env ∧ p'.sp = p'.stack.length ∧ p'.eof = p.eof ∧ p'.depth = p.depth) →
              ∃ N p', pass2Loop E 0 N p = .returns p' ∧ J p'.stack [] p'.env ∧ p'.sp = p'.stack.length ∧ p'.eof = p.eof ∧
                p'.depth = p.depth := by
            intro rhs jmp fl a1 a2 hlen ⟨N, p', e1, e2⟩
            refine ⟨N + 1, p', ?_, e2⟩
            rw [hone, if_neg hbr, hlk]
            dsimp only
            rw [hch, hp]
            dsimp only
            rw [a1]
            dsimp only
            rw [reduce_eq p rule.lhsLen rhs 0 a2 (by rw [hst, hsp, List.length_append]; omega) (Nat.zero_le _), Run.andThen_returns]
            rw [htake, ← List.drop_drop, hdrop]
            exact e1
          rcases pick2_some (fun x hx => (hQ.known h x hx).2) hp with ⟨c, b, d, post, hc, h1, rfl, h2, h3, h4, h5⟩ |
            ⟨c, b, post, hc, h1, rfl, h2, h4, h5⟩ | ⟨b, d, post, h1, rfl, h2, h3, h4, h5⟩ | ⟨h1, h4, h5⟩
          · refine hrule _ _ _ (h4.trans (squash_fuse c 3 0 [s, b, d] post rfl (by omega))) (by rw [h5]; simp) (by rw [h5]; simp) ?_
            refine hgo _ (fuse c [s, b, d] :: post) 0 (hQ.n1 h hc h1 h2 h3) (by rw [h5]; simp) (by rw [← hsp]; rfl) ?_ rfl rfl
            have w0 : weight (fuse c [s, b, d]) = 1 := by rcases hc with rfl | rfl <;> rfl
            have w1 := weight_pos s
            unfold work
            simp only [List.map_cons, List.sum_cons, List.length_cons]
            omega
          · refine hrule _ _ _ (h4.trans (squash_fuse c 2 0 [s, b] post rfl (by omega))) (by rw [h5]; simp) (by rw [h5]; simp) ?_
            refine hgo _ (fuse c [s, b] :: post) 0 (hQ.same h hc h1 h2) (by rw [h5]; simp) (by rw [← hsp]; rfl) ?_ rfl rfl
            have w0 : weight (fuse c [s, b]) = 1 := by rcases hc with rfl | rfl <;> rfl
            have w1 := weight_pos s
            unfold work
            simp only [List.map_cons, List.sum_cons, List.length_cons]
            omega
          · refine hrule _ _ _ h4 (by rw [h5]; simp) (by rw [h5]; simp) ?_
            obtain ⟨N, p', e1, e2, e3, e5, e6⟩ := ih _ (by
              refine Nat.lt_of_lt_of_le ?_ hk
              have w0 : weight { b with clz := cAN, children := b.children ++ d.children } = 1 := rfl
              have w1 := weight_pos b
              unfold work
              simp only [List.map_append, List.map_cons, List.map_nil, List.sum_append, List.sum_cons, List.sum_nil, List.length_cons]
              rw [w0]
              omega) (pre ++ [s]) ({ b with clz := cAN, children := b.children ++ d.children } :: post)
              { p with stack := pre ++ [s, { b with clz := cAN, children := b.children ++ d.children }] ++ (s :: b :: d :: post).drop rule.lhsLen,
                       sp := jump 0 p.sp 1 } (Nat.le_refl _) (hQ.absorb h h1 h2 h3) (by rw [h5]; simp) (by
                show jump 0 p.sp 1 = _; rw [hsp, hj1]; simp)
            exact ⟨N, p', e1, e2, e3, e5, e6⟩
          · refine hrule _ _ _ h4 (by rw [h5]; simp) (by rw [h5]; simp) ?_
            have hmoved : J (pre.take (pre.length - min 1 pre.length)) (pre.drop (pre.length - min 1 pre.length) ++ { s with clz := s.e } :: t) p.env := by
              obtain ⟨m1, m2⟩ := hQ.n2 h h1
              rcases List.eq_nil_or_concat pre with rfl | ⟨pre', x, rfl⟩
              · exact m1 rfl
              · have := m2 pre' x (by simp)
                simpa using this
            refine hgo' _ ({ s with clz := s.e } :: t) 1 hmoved (by rw [h5]; simp) (by show jump 0 p.sp _ = _; rw [hsp]; rfl) ?_ rfl rfl
            have w0 : weight { s with clz := s.e } = 1 := by
              rcases hQ.emb h with he | he <;> rw [he] <;> rfl
            have w1 : weight s = 2 := by unfold weight; rw [h1]; rfl
            unfold work
            simp only [List.map_cons, List.sum_cons, List.length_cons]
            omega

theorem pass2J_total {σ : Type} {E : Env σ} {J : List Scrap → List Scrap → σ → Prop} (hQ : Inv2J E J) :
    ∀ (k : Nat) (pre suf : List Scrap) (p : Parser σ), 3 * (pre.map weight).sum + work suf ≤ k → J pre suf p.env →
    p.stack = pre ++ suf → p.sp = pre.length →
    ∃ N p', pass2Loop E 0 N p = .returns p' ∧ J p'.stack [] p'.env ∧ p'.sp = p'.stack.length ∧ p'.eof = p.eof ∧ p'.depth = p.depth :=
  pass2B_total hQ.weak

theorem pass2_total {σ : Type} {E : Env σ} {Q : List Scrap → List Scrap → Prop} {G : σ → Prop} (hQ : Inv2 E Q G) :
    ∀ (k : Nat) (pre suf : List Scrap) (p : Parser σ), 3 * (pre.map weight).sum + work suf ≤ k → Q pre suf → G p.env →
    p.stack = pre ++ suf → p.sp = pre.length →
    ∃ N p', pass2Loop E 0 N p = .returns p' ∧ Q p'.stack [] ∧ p'.sp = p'.stack.length ∧ G p'.env ∧ p'.eof = p.eof ∧ p'.depth = p.depth := by
  intro k pre suf p hk h hG hst hsp
  obtain ⟨N, p', e1, e2, e3, e4⟩ := pass2J_total hQ.joint k pre suf p hk ⟨h, hG⟩ hst hsp
  exact ⟨N, p', e1, e2.1, e3, e2.2, e4⟩

end Uax.Bidi
