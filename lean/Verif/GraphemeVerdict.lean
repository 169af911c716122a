import Verif.GraphemeProofs
import Verif.SpecGrapheme
import Verif.SegmentEarly
import Verif.SimpleWordProofs

/-! What the grapheme breaker says about every position. -/

namespace Uax
open Seg

namespace Graph

variable (T : GTables)

/-- State after some classes. -/
def GA.run (a : GA) (cs : List GClass) : GA := cs.foldl GA.next a

theorem stepO_rep {a : GA} {b : GBrk} (h : Rep a b) (r : Int) :
    ∃ b', stepO T b r = some b' ∧ Rep (a.next (classOf T r)) b' ∧
      b'.longest = (a.next (classOf T r)).len ∧ b'.penalties = a.pens (classOf T r) :=
  step_rep h r (classOf T r)

theorem step_eq {a : GA} {b : GBrk} (h : Rep a b) (r : Int) :
    Rep (a.next (classOf T r)) ((breaker T).step b r).1 ∧
    ((breaker T).step b r).2 = (max 1 (a.next (classOf T r)).len, a.pens (classOf T r)) := by
  obtain ⟨b', e, h1, h2, h3⟩ := stepO_rep T h r
  simp only [breaker, e]
  exact ⟨h1, by rw [h2, h3]⟩

theorem run_rep : ∀ (rs : List Int) {a : GA} {b : GBrk}, Rep a b →
    Rep (a.run (rs.map (classOf T))) ((breaker T).run b rs) := by
  intro rs
  induction rs with
  | nil => intro a b h; exact h
  | cons r rs ih => intro a b h; exact ih (step_eq T h r).1

theorem verdict_eq {a : GA} {b : GBrk} (h : Rep a b) (r : Int) :
    verdict (breaker T) [b] r = ⟨max 1 (a.next (classOf T r)).len, a.pens (classOf T r), []⟩ := by
  have := (step_eq T h r).2
  simp only [verdict, List.map_cons, List.map_nil, List.head?_cons, Option.map_some, Option.getD_some, List.tail_cons, maxLam, this]
  rw [Int.max_eq_left (by omega)]

/-- The verdict at index `i`. -/
def verd (a : GA) (cs : List GClass) (i : Nat) : Option Verdict :=
  cs[i]?.map fun c => ⟨max 1 ((a.run (cs.take i)).next c).len, (a.run (cs.take i)).pens c, []⟩

theorem verdicts_eq {a : GA} {b : GBrk} (h : Rep a b) (rs : List Int) (i : Nat) :
    (verdicts (breaker T) [b] rs)[i]? = verd a (rs.map (classOf T)) i := by
  rw [verdicts_get, verd, List.getElem?_map, Option.map_map]
  congr 1
  funext r
  rw [verdict_eq T (run_rep T (rs.take i) h)]
  simp only [Function.comp, List.map_take]

/-! ### Facts about the automaton -/

def p0 (a : GA) (c : GClass) : Int :=
  if c = .LF then (if a = .cr then 2 * BANG else BANG) else if c = .Control then BANG else if c = .Prepend then JOIN else 0

theorem pens_0 (a : GA) (c : GClass) : (a.pens c).getD 0 0 = p0 a c := by
  cases a <;> cases c <;> rfl

theorem pens_2 (a : GA) (c : GClass) : (a.pens c).getD 2 0 = if a = .cr ∧ c ≠ .LF then BANG else 0 := by
  cases a <;> cases c <;> rfl

theorem pens_len (a : GA) (c : GClass) : (a.pens c).length ≤ 3 := by
  cases a <;> cases c <;> exact Nat.le_of_ble_eq_true rfl

theorem pens_3 (a : GA) (c : GClass) (j : Nat) (h : 3 ≤ j) : (a.pens c).getD j 0 = 0 := by
  have := pens_len a c
  rw [List.getD_eq_getElem?_getD, List.getElem?_eq_none (by omega)]; rfl

/-- Index 1 of the penalties. -/
def p1 (a : GA) (c : GClass) : Int := (a.pens c).getD 1 0

/-- What is said about a position by the time the next rune has been read. -/
def X (a : GA) (c d : GClass) : Int := p0 a c + p1 (a.next c) d

theorem p1_vals (a : GA) (d : GClass) : p1 a d = -10 ∨ p1 a d = 10000 ∨ p1 a d = -20000 ∨ p1 a d = -40000 ∨ (p1 a d = -10000 ∧ a = .cr) := by
  cases a <;> cases d <;> simp [p1, GA.pens, GA.old, fresh, Pub.addPens, setPenalty1, BANG, JOIN, penalty999]

theorem p0_cr (a : GA) (c : GClass) (h : a.next c = .cr) : p0 a c = 0 := by
  cases a <;> cases c <;> simp [GA.next] at h <;> rfl

theorem p0_vals (a : GA) (c : GClass) : p0 a c = 0 ∨ p0 a c = 10000 ∨ p0 a c = -20000 ∨ p0 a c = -40000 := by
  unfold p0 BANG JOIN; split
  · split <;> simp
  · split
    · simp
    · split <;> simp

theorem X_vals (a : GA) (c d : GClass) : X a c d ≠ 0 := by
  unfold X
  have h0 := p0_vals a c
  have h1 := p0_cr a c
  generalize p0 a c = x at *
  rcases p1_vals (a.next c) d with h | h | h | h | ⟨h, h'⟩
  · rw [h]; omega
  · rw [h]; omega
  · rw [h]; omega
  · rw [h]; omega
  · rw [h, h1 h']; decide

theorem X_cr (a : GA) (c : GClass) : X a c .CR < 10000 := by
  have := p0_vals a c
  have h2 : p1 (a.next c) .CR ≤ -10 := by cases a.next c <;> exact of_decide_eq_true rfl
  unfold X; omega

theorem X_long (a : GA) (c d : GClass) (h : 1 < ((a.next c).next d).len) : X a c d = 10000 := by
  have key : ∃ n, a.next c = .pict n ∧ (d = .Extend ∨ d = .ZWJ) := by
    generalize a.next c = s at h
    cases d <;> cases s <;> simp [GA.next, GA.len, GA.act] at h ⊢
  obtain ⟨n, h1, h2⟩ := key
  have h3 : p0 a c = 0 := by
    cases a <;> cases c <;> simp [GA.next] at h1 <;> rfl
  unfold X
  rw [h1, h3]
  rcases h2 with rfl | rfl <;> rfl

theorem next_cr (a : GA) (c : GClass) : a.next c = .cr ↔ c = .CR := by
  cases a <;> cases c <;> simp [GA.next]

/-! ### Steadiness -/

theorem fut0_far : ∀ (vs : List Verdict) (k : Nat), (∀ v ∈ vs, ∀ j, 3 ≤ j → v.prim.getD j 0 = 0) → 3 ≤ k → fut0 vs k = 0 := by
  intro vs
  induction vs with
  | nil => intros; rfl
  | cons v vs ih =>
    intro k h hk
    rw [fut0_cons, ih (k + 1) (fun v hv => h v (List.mem_cons_of_mem _ hv)) (by omega)]
    have := h v (List.mem_cons_self ..) k hk
    simp only [c0, this]; rfl

/-- What has been said about position `i`, at least one rune later, by breakers that look back two
runes at most. -/
theorem soFar0_two (vs : List Verdict) (h : ∀ v ∈ vs, ∀ j, 3 ≤ j → v.prim.getD j 0 = 0) (i m : Nat) (v v' : Verdict)
    (h0 : vs[i]? = some v) (h1 : vs[i + 1]? = some v') :
    soFar0 vs i (m + 1) = v.prim.getD 0 0 + v'.prim.getD 1 0 +
      (if m = 0 then 0 else (vs[i + 2]?.map fun w => w.prim.getD 2 0).getD 0) := by
  rw [soFar0_eq]
  have hd : ∀ v ∈ vs.drop i, ∀ j, 3 ≤ j → v.prim.getD j 0 = 0 := fun v hv => h v (List.mem_of_mem_drop hv)
  rw [show vs[i + 2]? = (vs.drop i)[2]? by rw [List.getElem?_drop]]
  rw [show vs[i]? = (vs.drop i)[0]? by rw [List.getElem?_drop]; rfl] at h0
  rw [show vs[i + 1]? = (vs.drop i)[1]? by rw [List.getElem?_drop]] at h1
  generalize vs.drop i = ws at *
  match ws with
  | [] => simp at h0
  | [w] => simp at h1
  | w :: w' :: ws =>
    simp only [List.getElem?_cons_zero, Option.some.injEq, List.getElem?_cons_succ] at h0 h1
    subst h0 h1
    rw [List.take_succ_cons, List.take_succ_cons, fut0_cons, fut0_cons]
    have : fut0 (ws.take m) 2 = if m = 0 then 0 else ((w :: w' :: ws)[2]?.map fun w => w.prim.getD 2 0).getD 0 := by
      cases m with
      | zero => simp [fut0]
      | succ m =>
        cases ws with
        | nil => simp [fut0]
        | cons u us =>
          rw [List.take_succ_cons, fut0_cons, fut0_far _ 3 (fun x hx j hj => hd x (by simp [List.mem_of_mem_take hx]) j hj) (by omega)]
          simp [c0]
    simp only [c0, Nat.zero_add] at this ⊢
    rw [this]
    omega

variable {T}

/-- Everything about one position: `a` is the state before, `c` its class, `d` the class of the
next rune. -/
theorem early {a : GA} {b : GBrk} (h : Rep a b) (rs : List Int) (i : Nat) (c d : GClass)
    (hc : (rs.map (classOf T))[i]? = some c) (hd : (rs.map (classOf T))[i + 1]? = some d) :
    let s := a.run ((rs.map (classOf T)).take i)
    soFar0 (verdicts (breaker T) [b] rs) i 1 = X s c d ∧
    (∀ n, 1 ≤ n → soFar0 (verdicts (breaker T) [b] rs) i n = X s c d ∨ (d = .CR ∧ soFar0 (verdicts (breaker T) [b] rs) i n = X s c d - 20000)) ∧
    (ripe (verdicts (breaker T) [b] rs) i 0 = false) ∧
    (ripe (verdicts (breaker T) [b] rs) i 1 = false → X s c d = 10000) := by
  intro s
  have h3 : ∀ v ∈ verdicts (breaker T) [b] rs, ∀ j, 3 ≤ j → v.prim.getD j 0 = 0 := by
    intro v hv j hj
    obtain ⟨k, hk⟩ := List.getElem?_of_mem hv
    rw [verdicts_eq T h, verd] at hk
    obtain ⟨x, _, rfl⟩ := Option.map_eq_some_iff.mp hk
    exact pens_3 _ _ j hj
  have hs : a.run ((rs.map (classOf T)).take (i + 1)) = s.next c := by
    rw [List.take_add_one, hc]
    simp only [GA.run, Option.toList_some, List.foldl_append, List.foldl_cons, List.foldl_nil, s]
  have e0 : (verdicts (breaker T) [b] rs)[i]? = some ⟨max 1 (s.next c).len, s.pens c, []⟩ := by
    rw [verdicts_eq T h, verd, hc]; rfl
  have e1 : (verdicts (breaker T) [b] rs)[i + 1]? = some ⟨max 1 ((s.next c).next d).len, (s.next c).pens d, []⟩ := by
    rw [verdicts_eq T h, verd, hd, hs]; rfl
  have hX : s.pens c |>.getD 0 0 |> (· + ((s.next c).pens d).getD 1 0) |> (· = X s c d) := by
    simp only [X, p1, pens_0]
  have main := fun m => soFar0_two _ h3 i m _ _ e0 e1
  simp only at main hX
  refine ⟨?_, ?_, ?_, ?_⟩
  · rw [main 0, hX]; simp
  · intro n hn
    obtain ⟨m, rfl⟩ : ∃ m, n = m + 1 := ⟨n - 1, by omega⟩
    rw [main m, hX]
    by_cases hm : m = 0
    · rw [if_pos hm]; left; omega
    · rw [if_neg hm, verdicts_eq T h, verd]
      cases hk : (rs.map (classOf T))[i + 2]? with
      | none => left; simp
      | some k =>
        have hs2 : a.run ((rs.map (classOf T)).take (i + 2)) = (s.next c).next d := by
          rw [show i + 2 = i + 1 + 1 by omega, List.take_add_one, hd]
          simp only [GA.run, Option.toList_some, List.foldl_append, List.foldl_cons, List.foldl_nil] at hs ⊢
          rw [hs]
        simp only [Option.map_some, Option.getD_some, hs2, pens_2]
        split
        · next h => right; exact ⟨(next_cr _ _).mp h.1, by unfold BANG; omega⟩
        · left; omega
  · unfold ripe; rw [Nat.add_zero, e0]
    simp only [Option.map_some, Option.getD_some, decide_eq_false_iff_not]
    omega
  · unfold ripe; rw [e1]
    simp only [Option.map_some, Option.getD_some, decide_eq_false_iff_not]
    intro hl
    exact X_long _ _ _ (by omega)

theorem ok_X (z y' : Bool) {x y : Int} (hx : x ≠ 0) : (Tester.ok ⟨z, y', false⟩ x y) = decide (x < 10000) := by
  simp [Tester.ok, Feasible, hx]

/-- Text classes, with the end-of-text mark. -/
theorem get_cls (rs : List Int) (i : Nat) (hi : i < rs.length) :
    ((rs ++ [0]).map (classOf T))[i]? = some (classOf T rs[i]) := by
  rw [List.getElem?_map, List.getElem?_append_left hi, List.getElem?_eq_getElem hi]; rfl

variable (z0 z1 : Bool)

theorem okAt_X {a : GA} {b : GBrk} (h : Rep a b) (text : List Int) (i : Nat) (c d : GClass)
    (hc : ((text ++ [0]).map (classOf T))[i]? = some c) (hd : ((text ++ [0]).map (classOf T))[i + 1]? = some d) (n : Nat) (hn : 1 ≤ n) :
    okAt ⟨z0, z1, false⟩ (verdicts (breaker T) [b] (text ++ [0])) text.length i n =
      decide (X (a.run (((text ++ [0]).map (classOf T)).take i)) c d < 10000) := by
  obtain ⟨e1, e2, e3, e4⟩ := early h (text ++ [0]) i c d hc hd
  have hb : base text.length i = 0 := by
    unfold base; rw [if_neg]
    intro h; subst h
    rw [List.getElem?_eq_none (by simp)] at hd; cases hd
  unfold okAt
  rw [hb, Int.zero_add]
  have hne := X_vals (a.run (((text ++ [0]).map (classOf T)).take i)) c d
  rcases e2 n hn with e | ⟨rfl, e⟩
  · rw [e, ok_X _ _ hne]
  · have := X_cr (a.run (((text ++ [0]).map (classOf T)).take i)) c
    rw [e, ok_X _ _ (by omega), decide_eq_true (by omega), decide_eq_true (by omega)]

theorem text_next (text : List Int) (i : Nat) (hi : i + 1 < (text ++ [0]).length) :
    ∃ c d, ((text ++ [0]).map (classOf T))[i]? = some c ∧ ((text ++ [0]).map (classOf T))[i + 1]? = some d :=
  ⟨_, _, List.getElem?_eq_getElem (by simp at hi ⊢; omega), List.getElem?_eq_getElem (by simp at hi ⊢; omega)⟩

theorem ripe_zero {a : GA} {b : GBrk} (h : Rep a b) (rs : List Int) (i : Nat) :
    ripe (verdicts (breaker T) [b] rs) i 0 = false := by
  unfold ripe
  rw [Nat.add_zero, verdicts_eq T h, verd]
  cases (rs.map (classOf T))[i]? with
  | none => rfl
  | some c => simp only [Option.map_some, Option.getD_some, decide_eq_false_iff_not]; omega

theorem steady {a : GA} {b : GBrk} (h : Rep a b) (text : List Int) :
    Steady ⟨z0, z1, false⟩ (verdicts (breaker T) [b] (text ++ [0])) text.length := by
  intro i n m _ h1 h2 h3 h4
  rw [verdicts_length] at h4
  cases n with
  | zero => rw [ripe_zero h] at h1; cases h1
  | succ n =>
    obtain ⟨c, d, hc, hd⟩ := text_next (T := T) text i (by omega)
    rw [okAt_X z0 z1 h text i c d hc hd _ (by omega)] at h2 ⊢
    exact h2

/-- Where the text is cut. -/
theorem cutTime_X {a : GA} {b : GBrk} (h : Rep a b) (text : List Int) (i : Nat) (c d : GClass)
    (hc : ((text ++ [0]).map (classOf T))[i]? = some c) (hd : ((text ++ [0]).map (classOf T))[i + 1]? = some d) :
    cutTime ⟨z0, z1, false⟩ (verdicts (breaker T) [b] (text ++ [0])) text.length i =
      if X (a.run (((text ++ [0]).map (classOf T)).take i)) c d < 10000 then some 1 else none := by
  obtain ⟨e1, e2, e3, e4⟩ := early h (text ++ [0]) i c d hc hd
  have hlen : i + 1 < (text ++ [0]).length := by
    rw [List.getElem?_eq_some_iff] at hd; obtain ⟨hd, _⟩ := hd; simpa using hd
  unfold cutTime
  rw [verdicts_length]
  split
  · next hX =>
    obtain ⟨k, hk⟩ : ∃ k, (text ++ [0]).length - i = k + 2 := ⟨(text ++ [0]).length - i - 2, by omega⟩
    rw [hk, List.range_succ_eq_map, List.find?_cons, e3, Bool.false_and]
    simp only
    rw [List.find?_map, List.range_succ_eq_map, List.find?_cons]
    have hr : ripe (verdicts (breaker T) [b] (text ++ [0])) i 1 = true := by
      cases hr : ripe (verdicts (breaker T) [b] (text ++ [0])) i 1 with
      | true => rfl
      | false => have := e4 hr; omega
    have : ((fun n => ripe (verdicts (breaker T) [b] (text ++ [0])) i n &&
        okAt ⟨z0, z1, false⟩ (verdicts (breaker T) [b] (text ++ [0])) text.length i n) ∘ Nat.succ) 0 = true := by
      simp only [Function.comp, Nat.succ_eq_add_one, Nat.zero_add, hr, Bool.true_and]
      rw [okAt_X z0 z1 h text i c d hc hd _ (by omega)]
      simpa using hX
    rw [this]
    rfl
  · next hX =>
    rw [List.find?_eq_none]
    intro n _
    simp only [Bool.and_eq_true, not_and, Bool.not_eq_true]
    intro hr
    cases n with
    | zero => rw [e3] at hr; cases hr
    | succ n =>
      rw [okAt_X z0 z1 h text i c d hc hd _ (by omega)]
      simpa using hX

theorem cutTime_mark {a : GA} {b : GBrk} (h : Rep a b) (text : List Int) :
    cutTime ⟨z0, z1, false⟩ (verdicts (breaker T) [b] (text ++ [0])) text.length text.length = none := by
  unfold cutTime
  rw [verdicts_length, List.find?_eq_none]
  intro n hn
  simp only [List.length_append, List.length_cons, List.length_nil, Nat.zero_add, List.mem_range] at hn
  have : n = 0 := by omega
  subst this
  simp [ripe_zero h]

end Graph
end Uax
