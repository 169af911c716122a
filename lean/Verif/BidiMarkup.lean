import Verif.BidiSim
import Verif.BidiScanProofs
import Verif.SpecBidiMarkup
import Verif.SpecBidiText
import Verif.Utf8Proofs

/-
The scanner with out-of-line markup: it comes to rest within the steps it is given, and it does
what a scanner does for a text with delimiters in it.
-/
namespace Uax.Bidi
open Spec

/-! ### The scanner comes to rest -/

/-- A bound for the number of calls of nextRune to come. -/
def callsToCome (sc : Scanner) (pos : Nat) : Nat :=
  3 * sc.input.length + (if sc.lastMarkup > 0 then 1 else if sc.lastMarkupPos < pos then 2 else 0)

theorem readRune_calls {T : Tables} {o : Options} {sc sc' : Scanner} {r n : Nat} {c : Class} (pos : Nat)
    (h0 : sc.lastMarkup = 0) (h : readRune T o sc = (some (r, n, c), sc')) :
    callsToCome sc' (pos + n) < callsToCome sc pos ∧ sc'.current = sc.current ∧ sc'.pc = sc.pc := by
  unfold readRune at h
  split at h
  · cases h
  · rename_i r' n' rest hi
    dsimp only at h
    split at h
    · cases h
    · cases h
      refine ⟨?_, rfl, rfl⟩
      unfold callsToCome
      dsimp only
      rw [hi, List.length_cons]
      repeat' split
      all_goals omega

theorem nextRune_calls {T : Tables} {o : Options} {sc sc' : Scanner} {pos r n : Nat} {c : Class}
    (h : nextRune T o sc pos = (some (r, n, c), sc')) :
    ((∃ m, o.markup = some m) → callsToCome sc' (pos + n) < callsToCome sc pos) ∧
    (o.markup = none → sc'.input.length < sc.input.length) ∧ sc'.current = sc.current ∧ sc'.pc = sc.pc := by
  unfold nextRune at h
  split at h
  · rename_i hm
    rw [hm]
    refine ⟨fun ⟨m, hm⟩ => (Option.some_ne_none m hm.symm).elim, fun _ => ?_, ?_⟩
    all_goals
      unfold readRune at h
      split at h
      · cases h
      · rename_i r' n' rest hi
        dsimp only at h
        split at h
        · cases h
        · cases h
          first
          | (rw [hi]; exact Nat.lt_succ_self _)
          | exact ⟨rfl, rfl⟩
  · rename_i m hm
    refine ⟨fun _ => ?_, fun h => (by rw [hm] at h; cases h), ?_⟩
    all_goals
      split at h
      · rename_i hl
        cases h
        first
        | exact ⟨rfl, rfl⟩
        | (unfold callsToCome
           dsimp only
           rw [if_pos hl]
           simp)
      · rename_i hl
        have hl : sc.lastMarkup = 0 := by omega
        split at h
        · rename_i hp
          dsimp only at h
          split at h
          · split at h
            · cases h
              first
              | exact ⟨rfl, rfl⟩
              | (unfold callsToCome
                 dsimp only
                 rw [hl]
                 simp only [Nat.lt_irrefl, if_false, gt_iff_lt, Nat.add_zero, if_pos hp]
                 split <;> omega)
            · cases h
              first
              | exact ⟨rfl, rfl⟩
              | (unfold callsToCome
                 dsimp only
                 rw [hl]
                 simp only [Nat.lt_irrefl, if_false, gt_iff_lt, Nat.add_zero, if_pos hp]
                 omega)
          · first
            | exact (readRune_calls pos hl h).1
            | exact (readRune_calls pos hl h).2
        · first
          | exact (readRune_calls pos hl h).1
          | exact (readRune_calls pos hl h).2

/-- A bound for the number of steps to come. -/
def stepsToCome (o : Options) (sc : Scanner) : Nat :=
  match o.markup with
  | none => sc.input.length
  | some _ => callsToCome sc sc.current.r

theorem isolatingRunSwitch_input (s : Scanner) (x : Scrap) : (isolatingRunSwitch s x).pc = s.pc ∧
    (isolatingRunSwitch s x).lastMarkup = s.lastMarkup ∧ (isolatingRunSwitch s x).lastMarkupPos = s.lastMarkupPos := by
  unfold isolatingRunSwitch
  split
  · split
    · exact ⟨rfl, rfl, rfl⟩
    · dsimp only; split <;> exact ⟨rfl, rfl, rfl⟩
  · exact ⟨rfl, rfl, rfl⟩

theorem proceed_input (sc : Scanner) (r : Nat) (la : Scrap) (isAL : Bool) :
    (proceed sc r la isAL).input = sc.input ∧ (proceed sc r la isAL).lastMarkup = sc.lastMarkup ∧
    (proceed sc r la isAL).lastMarkupPos = sc.lastMarkupPos ∧ (proceed sc r la isAL).current.r = la.r ∧
    (proceed sc r la isAL).current.clz = la.clz := by
  have hp : ∀ (s : Scanner) (x : Scrap), (prepareRuleBD16 s r x).lastMarkup = s.lastMarkup ∧
      (prepareRuleBD16 s r x).lastMarkupPos = s.lastMarkupPos := by
    intro s x
    unfold prepareRuleBD16
    split
    · exact ⟨rfl, rfl⟩
    · split <;> exact ⟨rfl, rfl⟩
  have hl : ∀ (d s : Scrap) (a : Option Nat), (inheritStrongTypes d s a).r = d.r ∧ (inheritStrongTypes d s a).clz = d.clz := by
    intro d s a
    unfold inheritStrongTypes
    split
    · exact ⟨rfl, rfl⟩
    · split <;> exact ⟨rfl, rfl⟩
  refine ⟨(proceed_eq sc r la isAL).1, ?_, ?_, ?_, ?_⟩
  · unfold proceed; dsimp only; rw [(hp _ _).1]
  · unfold proceed; dsimp only; rw [(hp _ _).2]
  · rw [(proceed_eq sc r la isAL).2.2.1, (hl _ _ _).1]
  · rw [(proceed_eq sc r la isAL).2.2.1, (hl _ _ _).2]

theorem fuel_congr {o : Options} {s s' : Scanner} (h1 : s'.input = s.input) (h2 : s'.lastMarkup = s.lastMarkup)
    (h3 : s'.lastMarkupPos = s.lastMarkupPos) (h4 : s'.current.r = s.current.r) : stepsToCome o s' = stepsToCome o s := by
  unfold stepsToCome callsToCome
  rw [h1, h2, h3, h4]

/-- An iteration of the loop ends at a send, or there are fewer steps to come. -/
theorem scanLoop_fuel {T : Tables} {o : Options} {sc : Scanner} (h : sc.pc = .run) :
    ((scanLoop T o sc).step T o = none) ∨ ((scanLoop T o sc).pc = .run ∧ stepsToCome o (scanLoop T o sc) < stepsToCome o sc) := by
  unfold scanLoop
  split
  · exact Or.inl rfl
  · rename_i r n c sc' hn
    obtain ⟨h1, h2, h3, h4⟩ := nextRune_calls hn
    have hf : ∀ x : Scanner, x.input = sc'.input → x.lastMarkup = sc'.lastMarkup → x.lastMarkupPos = sc'.lastMarkupPos →
        x.current.r = sc.current.r + n → stepsToCome o x < stepsToCome o sc := by
      intro x e1 e2 e3 e4
      unfold stepsToCome
      cases hm : o.markup with
      | none => dsimp only; rw [e1]; exact h2 hm
      | some m =>
        dsimp only
        have := h1 ⟨m, hm⟩
        unfold callsToCome at this ⊢
        rw [e1, e2, e3, e4]
        exact this
    dsimp only
    split
    · split
      · exact Or.inl rfl
      · right
        obtain ⟨p1, p2, p3, p4, -⟩ := proceed_input sc' r
          { clz := rulesW1to3 (testingClass T o r c) sc'.current, l := sc'.current.r, r := sc'.current.r + n } (testingClass T o r c == cAL)
        exact ⟨(proceed_eq _ _ _ _).2.1, hf _ p1 p2 p3 (by rw [p4, h3])⟩
    · right
      exact ⟨by rw [← h, ← h4], hf _ rfl rfl rfl (by show sc'.current.r + n = _; rw [h3])⟩

theorem rests_run {T : Tables} {o : Options} : ∀ (k : Nat) (sc : Scanner), sc.pc = .run → stepsToCome o sc < k →
    (sc.steps T o k).step T o = none := by
  intro k
  induction k with
  | zero => intro sc _ h; omega
  | succ k ih =>
    intro sc hp hf
    rw [steps_succ (show sc.step T o = some (scanLoop T o sc) by unfold Scanner.step; rw [hp])]
    rcases scanLoop_fuel (T := T) (o := o) hp with h | ⟨h1, h2⟩
    · rw [steps_stuck h]; exact h
    · exact ih _ h1 (by omega)

theorem fuel_le (o : Options) (sc : Scanner) : stepsToCome o sc ≤ 3 * sc.input.length + 2 := by
  unfold stepsToCome callsToCome
  repeat' split
  all_goals omega

/-- The steps which the surroundings of the parser make suffice. -/
theorem rests (T : Tables) (o : Options) (sc : Scanner) (k : Nat) (hk : 3 * sc.input.length + 4 ≤ k) :
    (sc.steps T o k).step T o = none := by
  have hf := fuel_le o sc
  cases hp : sc.pc with
  | run => exact rests_run _ sc hp (by omega)
  | resume r la isAL =>
    obtain ⟨k, rfl⟩ : ∃ j, k = j + 1 := ⟨k - 1, by omega⟩
    rw [steps_succ (show sc.step T o = some (proceed sc r la isAL) by unfold Scanner.step; rw [hp])]
    have hf' := fuel_le o (proceed sc r la isAL)
    rw [(proceed_eq sc r la isAL).1] at hf'
    exact rests_run _ _ (proceed_eq sc r la isAL).2.1 (by omega)
  | _ =>
    have : sc.step T o = none := by unfold Scanner.step; rw [hp]
    rw [steps_stuck this]
    exact this

theorem steps_add {T : Tables} {o : Options} : ∀ (a b : Nat) (sc : Scanner),
    sc.steps T o (a + b) = (sc.steps T o a).steps T o b := by
  intro a
  induction a with
  | zero => intro b sc; rw [Nat.zero_add]; rfl
  | succ a ih =>
    intro b sc
    rw [show a + 1 + b = (a + b) + 1 by omega]
    cases hst : sc.step T o with
    | none => rw [steps_stuck hst, steps_stuck hst, steps_stuck hst]
    | some s => rw [steps_succ hst, steps_succ hst]; exact ih b s

/-! ### Without brackets the schedule does not matter -/

/-- No brackets have been read, none are to come, and no pairs have been found. -/
structure Quiet (T : Tables) (sc : Scanner) : Prop where
  handlers : ∀ h ∈ sc.handlers, h.pairings = []
  input : ∀ x ∈ sc.input, T.bracket x.1 = none
  current : isBracket sc.current = false
  pc : match sc.pc with
    | .send _ _ la _ => isBracket la = false
    | .resume _ la _ => isBracket la = false
    | _ => True

theorem quiet_modify {hs : List Handler} (h : ∀ x ∈ hs, x.pairings = []) (i : Nat) (f : Handler → Handler)
    (hf : ∀ x, (f x).pairings = x.pairings) : ∀ x ∈ setHandler hs i f, x.pairings = [] := by
  intro x hx
  unfold setHandler at hx
  obtain ⟨j, hj, rfl⟩ := List.mem_iff_getElem.mp hx
  rw [List.getElem_modify]
  rw [List.length_modify] at hj
  split
  · rw [hf]; exact h _ (List.getElem_mem hj)
  · exact h _ (List.getElem_mem hj)

theorem switch_quiet {s : Scanner} (h : ∀ x ∈ s.handlers, x.pairings = []) (x : Scrap) :
    ∀ y ∈ (isolatingRunSwitch s x).handlers, y.pairings = [] := by
  unfold isolatingRunSwitch
  split
  · split
    · exact h
    · dsimp only; split <;> exact quiet_modify h _ _ fun _ => rfl
  · intro y hy
    dsimp only at hy
    rw [List.mem_append] at hy
    rcases hy with hy | hy
    · exact quiet_modify h _ (fun h => { h with next := some s.handlers.length }) (fun _ => rfl) y hy
    · simp only [List.mem_singleton] at hy
      subst hy
      rfl

theorem proceed_quiet {T : Tables} {sc : Scanner} (h : Quiet T sc) (r : Nat) {la : Scrap} (hl : isBracket la = false) (isAL : Bool) :
    Quiet T (proceed sc r la isAL) := by
  obtain ⟨p1, -, -, -, p5⟩ := proceed_input sc r la isAL
  refine ⟨?_, by rw [p1]; exact h.input, by unfold isBracket at hl ⊢; rw [p5]; exact hl, by rw [(proceed_eq sc r la isAL).2.1]; trivial⟩
  have hb : isBracket (proceed sc r la isAL).current = false := by unfold isBracket at hl ⊢; rw [p5]; exact hl
  rw [(proceed_eq sc r la isAL).2.2.1] at hb
  unfold proceed
  dsimp only
  show ∀ x ∈ (prepareRuleBD16 _ _ (inheritStrongTypes la (switchContext sc.current sc.ctxstack la).1 sc.lastAL)).handlers, _
  unfold prepareRuleBD16
  rw [if_pos hb]
  exact h.handlers

/-- nextRune gives no bracket. -/
theorem nextRune_quiet {T : Tables} {o : Options} (hT : KnownClasses T) {sc sc' : Scanner} (h : Quiet T sc) {pos : Nat} {x : NextRune}
    (hn : nextRune T o sc pos = (x, sc')) :
    sc'.handlers = sc.handlers ∧ (∀ y ∈ sc'.input, T.bracket y.1 = none) ∧ sc'.current = sc.current ∧
    ∀ r n c, x = some (r, n, c) → c ≤ cPDI := by
  have hread : ∀ x sc', readRune T o sc = (x, sc') → sc'.handlers = sc.handlers ∧ (∀ y ∈ sc'.input, T.bracket y.1 = none) ∧
      sc'.current = sc.current ∧ ∀ r n c, x = some (r, n, c) → c ≤ cPDI := by
    intro x sc' hr
    unfold readRune at hr
    split at hr
    · cases hr
      exact ⟨rfl, h.input, rfl, fun _ _ _ h => by cases h⟩
    · rename_i r n rest hi
      have hrest : ∀ y ∈ rest, T.bracket y.1 = none := fun y hy => h.input y (by rw [hi]; exact List.mem_cons_of_mem _ hy)
      have hb : T.bracket r = none := h.input (r, n) (by rw [hi]; exact List.mem_cons_self)
      dsimp only at hr
      split at hr
      · cases hr
        exact ⟨rfl, hrest, rfl, fun _ _ _ h => by cases h⟩
      · cases hr
        refine ⟨rfl, hrest, rfl, fun r' n' c' he => ?_⟩
        rw [hb] at he
        cases he
        dsimp only
        split
        · decide
        · exact hT r
  have hmark : ∀ d, markupToBidi d ≤ cPDI := by
    intro d
    unfold markupToBidi
    repeat' split
    all_goals decide
  unfold nextRune at hn
  split at hn
  · exact hread _ _ hn
  · split at hn
    · cases hn
      exact ⟨rfl, h.input, rfl, fun _ _ _ he => by cases he; exact hmark _⟩
    · split at hn
      · dsimp only at hn
        split at hn
        · split at hn
          · cases hn
            exact ⟨rfl, h.input, rfl, fun _ _ _ he => by cases he; decide⟩
          · cases hn
            exact ⟨rfl, h.input, rfl, fun _ _ _ he => by cases he; exact hmark _⟩
        · exact hread _ _ hn
      · exact hread _ _ hn

theorem notBracket_of_le {c : Class} (h : c ≤ cPDI) (s : Scrap) (hs : s.clz = c) : isBracket s = false := by
  unfold isBracket
  rw [hs]
  simp only [Bool.or_eq_false_iff, beq_eq_false_iff_ne]
  exact ⟨fun e => absurd (e ▸ h : cBRACKO ≤ cPDI) (by decide), fun e => absurd (e ▸ h : cBRACKC ≤ cPDI) (by decide)⟩

theorem lookahead_quiet {T : Tables} {o : Options} {r : Nat} {c : Class} (hc : c ≤ cPDI) {cur : Scrap} (h : isBracket cur = false)
    (s : Scrap) (hs : s.clz = rulesW1to3 (testingClass T o r c) cur) : isBracket s = false := by
  have ht : testingClass T o r c ≤ cPDI := by
    unfold testingClass testingDelimiter
    repeat' split
    all_goals first | exact hc | decide
  generalize testingClass T o r c = c' at ht hs
  unfold rulesW1to3 at hs
  repeat' split at hs
  all_goals first
    | exact notBracket_of_le ht s hs
    | (unfold isBracket at h ⊢; rw [hs]; exact h)
    | (unfold isBracket; rw [hs]; decide)

theorem step_quiet {T : Tables} {o : Options} (hT : KnownClasses T) {sc sc' : Scanner} (h : Quiet T sc)
    (hs : sc.step T o = some sc') : Quiet T sc' := by
  unfold Scanner.step at hs
  split at hs
  · rename_i hp
    cases hs
    unfold scanLoop
    split
    · rename_i s' hn
      obtain ⟨h1, h2, h3, -⟩ := nextRune_quiet hT h hn
      refine ⟨?_, ?_, ?_, trivial⟩
      · dsimp only
        split
        · exact switch_quiet (by rw [h1]; exact h.handlers) _
        · rw [h1]; exact h.handlers
      · dsimp only
        split
        · rw [(switch_current _ _).2.1]; exact h2
        · exact h2
      · dsimp only
        split
        · rw [(switch_current _ _).1, h3]; exact h.current
        · rw [h3]; exact h.current
    · rename_i r n c s' hn
      obtain ⟨h1, h2, h3, h4⟩ := nextRune_quiet hT h hn
      have hc := h4 _ _ _ rfl
      have hcur : isBracket s'.current = false := by rw [h3]; exact h.current
      dsimp only
      split
      · split
        · refine ⟨?_, ?_, ?_, lookahead_quiet hc hcur _ rfl⟩
          · dsimp only
            split
            · exact switch_quiet (by rw [h1]; exact h.handlers) _
            · rw [h1]; exact h.handlers
          · dsimp only
            split
            · rw [(switch_current _ _).2.1]; exact h2
            · exact h2
          · dsimp only
            split
            · rw [(switch_current _ _).1]; exact hcur
            · exact hcur
        · refine proceed_quiet ⟨by rw [h1]; exact h.handlers, h2, hcur, ?_⟩ _ (lookahead_quiet hc hcur _ rfl) _
          have := (nextRune_calls hn).2.2.2
          rw [this, hp]
          trivial
      · refine ⟨by rw [h1]; exact h.handlers, h2, ?_, ?_⟩
        · exact hcur
        · dsimp only
          rw [(nextRune_calls hn).2.2.2, hp]
          trivial
  · rename_i r la isAL hp
    cases hs
    have := h.pc
    rw [hp] at this
    exact proceed_quiet h r this isAL
  · cases hs

theorem steps_quiet {T : Tables} {o : Options} (hT : KnownClasses T) : ∀ (k : Nat) (sc : Scanner), Quiet T sc → Quiet T (sc.steps T o k) := by
  intro k
  induction k with
  | zero => intro sc h; exact h
  | succ k ih =>
    intro sc h
    cases hst : sc.step T o with
    | none => rw [steps_stuck hst]; exact h
    | some s => rw [steps_succ hst]; exact ih s (step_quiet hT h hst)

theorem find_quiet {T : Tables} {sc : Scanner} (h : Quiet T sc) (i : Nat) (s : Scrap) : (sc.handlers[i]?).bind (·.find s) = none := by
  cases hi : sc.handlers[i]? with
  | none => rfl
  | some x =>
    show x.find s = none
    unfold Handler.find
    rw [h.handlers x (List.mem_of_getElem? hi)]
    rfl

theorem change_quiet {T : Tables} {sc : Scanner} (h : Quiet T sc) (i : Nat) (s : Scrap) :
    ({ sc with handlers := setHandler sc.handlers i (·.changeOpening s) } : Scanner) = sc := by
  have : setHandler sc.handlers i (·.changeOpening s) = sc.handlers := by
    unfold setHandler
    apply List.ext_getElem?
    intro j
    rw [List.getElem?_modify]
    cases hj : sc.handlers[j]? with
    | none => rfl
    | some x =>
      have := h.handlers x (List.mem_of_getElem? hj)
      show some _ = some x
      congr 1
      split
      · unfold Handler.changeOpening
        obtain ⟨a, b, c, d, e⟩ := x
        dsimp only at this
        subst this
        rfl
      · rfl
  rw [this]

/-- One of the scanners is some steps ahead of the other. -/
def Ahead (T : Tables) (o : Options) (a b : Scanner) : Prop := (∃ k, b = a.steps T o k) ∨ ∃ k, a = b.steps T o k

theorem ahead_rests {T : Tables} {o : Options} {a b : Scanner} (h : Ahead T o a b) :
    a.steps T o (3 * a.input.length + 4) = b.steps T o (3 * b.input.length + 4) := by
  have key : ∀ (a : Scanner) (k : Nat), a.steps T o (3 * a.input.length + 4) =
      (a.steps T o k).steps T o (3 * (a.steps T o k).input.length + 4) := by
    intro a k
    have h1 := rests T o a _ (Nat.le_refl _)
    have h2 := rests T o (a.steps T o k) _ (Nat.le_refl _)
    rw [← steps_add] at h2 ⊢
    rcases Nat.le_total (3 * a.input.length + 4) (k + (3 * (a.steps T o k).input.length + 4)) with hle | hle
    · exact (settles _ a _ rfl h1 _ hle).symm
    · exact settles _ a _ rfl h2 _ hle
  rcases h with ⟨k, rfl⟩ | ⟨k, rfl⟩
  · exact key a k
  · exact (key b k).symm

theorem ahead_steps {T : Tables} {o : Options} {a b : Scanner} (h : Ahead T o a b) (i j : Nat) :
    Ahead T o (a.steps T o i) (b.steps T o j) := by
  have key : ∀ (a : Scanner) (i k : Nat), Ahead T o (a.steps T o i) (a.steps T o k) := by
    intro a i k
    rcases Nat.le_total i k with hle | hle
    · exact Or.inl ⟨k - i, by rw [← steps_add]; congr 1; omega⟩
    · exact Or.inr ⟨i - k, by rw [← steps_add]; congr 1; omega⟩
  rcases h with ⟨k, rfl⟩ | ⟨k, rfl⟩
  · rw [← steps_add]; exact key a i (k + j)
  · rw [← steps_add]; exact key b (k + i) j

theorem receive_quiet {T : Tables} {sc sc' : Scanner} {x : Scrap} (h : Quiet T sc) (hr : sc.receive = some (x, sc')) : Quiet T sc' := by
  have hpc := h.pc
  unfold Scanner.receive at hr
  split at hr
  · rename_i hp
    cases hr
    rw [hp] at hpc
    exact ⟨h.handlers, h.input, h.current, hpc⟩
  · cases hr; exact ⟨h.handlers, h.input, h.current, trivial⟩
  · cases hr; exact ⟨h.handlers, h.input, h.current, trivial⟩
  · cases hr; exact h
  · cases hr

/-- Two scanners with different schedules, without brackets. -/
theorem quiet_sim {T : Tables} (o : Options) (hT : KnownClasses T) (s1 s2 : Nat → Nat) :
    Sim (scannerEnv T o s1) (scannerEnv T o s2) fun a b => Quiet T a.1 ∧ Quiet T b.1 ∧ Ahead T o a.1 b.1 := by
  refine ⟨?_, ?_, ?_⟩
  · rintro ⟨a, i⟩ ⟨b, j⟩ ⟨ha, hb, hab⟩
    show ((_ : Option (Scrap × Scanner)).map _ = _ ∧ (_ : Option (Scrap × Scanner)).map _ = _) ∨ ∃ x s' t',
      (_ : Option (Scrap × Scanner)).map _ = _ ∧ (_ : Option (Scrap × Scanner)).map _ = _ ∧ _
    dsimp only at hab ⊢
    rw [← ahead_rests hab]
    have hq := steps_quiet (o := o) hT (3 * a.input.length + 4) a ha
    cases hr : (a.steps T o (3 * a.input.length + 4)).receive with
    | none => exact Or.inl ⟨rfl, rfl⟩
    | some y =>
      obtain ⟨x, s'⟩ := y
      exact Or.inr ⟨x, _, _, rfl, rfl, receive_quiet hq hr, receive_quiet hq hr, Or.inl ⟨0, rfl⟩⟩
  · rintro ⟨a, i⟩ ⟨b, j⟩ x ⟨ha, hb, hab⟩
    have hqa := steps_quiet (o := o) hT (s1 i) a ha
    have hqb := steps_quiet (o := o) hT (s2 j) b hb
    exact ⟨(find_quiet hqa _ _).trans (find_quiet hqb _ _).symm, hqa, hqb, ahead_steps hab _ _⟩
  · rintro ⟨a, i⟩ ⟨b, j⟩ x ⟨ha, hb, hab⟩
    have hqa := steps_quiet (o := o) hT (s1 i) a ha
    have hqb := steps_quiet (o := o) hT (s2 j) b hb
    show Quiet T { a.steps T o (s1 i) with handlers := _ } ∧ Quiet T { b.steps T o (s2 j) with handlers := _ } ∧
      Ahead T o { a.steps T o (s1 i) with handlers := _ } { b.steps T o (s2 j) with handlers := _ }
    rw [change_quiet hqa, change_quiet hqb]
    exact ⟨hqa, hqb, ahead_steps hab _ _⟩

/-! ### Markup acts like delimiters -/

/-- A scanner at the same place of a text without markup. -/
def updScan (sc : Scanner) (inp : List (Nat × Nat)) (pc : Pc) : Scanner :=
  { sc with input := inp, lastMarkup := 0, lastMarkupPos := 0, pc := pc }

/-- The runes to come after the delimiters at this position. -/
def tailOf (m : Nat → Nat) (pos : Nat) : List (Nat × Nat) → List (Nat × Nat)
  | [] => []
  | (r, n) :: t => (r, n) :: marked m (pos + n) t

/-- The runes and delimiters to come. -/
def restOf (m : Nat → Nat) (sc : Scanner) (pos : Nat) : List (Nat × Nat) :=
  if sc.lastMarkup > 0 then (delimiters sc.lastMarkup).map (fun d => (d, 0)) ++ tailOf m pos sc.input
  else if sc.lastMarkupPos < pos then marked m pos sc.input else tailOf m pos sc.input

theorem marked_eq (m : Nat → Nat) (pos : Nat) (inp : List (Nat × Nat)) :
    marked m pos inp = (delimiters (m pos)).map (fun d => (d, 0)) ++ tailOf m pos inp := by
  cases inp with
  | nil => rw [marked, tailOf, List.append_nil]
  | cons x t => rfl

/-- What is left over of an answer is an initiator, positions grow. -/
structure MInv (sc : Scanner) (pos : Nat) : Prop where
  left : sc.lastMarkup = 0 ∨ sc.lastMarkup = markupLRI ∨ sc.lastMarkup = markupRLI
  pos : sc.lastMarkupPos ≤ pos
  lens : ∀ x ∈ sc.input, 0 < x.2

/-- What nextRune gives with markup and with delimiters. -/
theorem nextRune_marked {T : Tables} {o : Options} {m : Nat → Nat} (hD : KnownDelimiters T) (hm : ValidMarkup m) (ho : o.markup = some m)
    {sc : Scanner} {pos : Nat} (hi : MInv sc pos) (pc : Pc) :
    (∃ i j, nextRune T o sc pos = (none, { sc with input := i }) ∧
      nextRune T { o with markup := none } (updScan sc (restOf m sc pos) pc) pos = (none, updScan sc j pc)) ∨
    ∃ r r' n c i l p, nextRune T o sc pos = (some (r, n, c), { sc with input := i, lastMarkup := l, lastMarkupPos := p }) ∧
      nextRune T { o with markup := none } (updScan sc (restOf m sc pos) pc) pos =
        (some (r', n, c), updScan sc (restOf m { sc with input := i, lastMarkup := l, lastMarkupPos := p } (pos + n)) pc) ∧
      MInv { sc with input := i, lastMarkup := l, lastMarkupPos := p } (pos + n) ∧
      testingClass T { o with markup := none } r' c = testingClass T o r c ∧
      (r = r' ∨ testingClass T o r c ∈ [cLRI, cRLI, cPDI]) := by
  have htest : ∀ d ∈ [0, uLRI, uRLI, uPDI], ∀ (o : Options) c, testingClass T o d c = c := by
    intro d hd o c
    unfold testingClass
    rw [hD.upper d hd]
    have : testingDelimiter d c = c := by
      simp only [List.mem_cons, List.not_mem_nil, or_false] at hd
      rcases hd with rfl | rfl | rfl | rfl <;> rfl
    simp [this]
  -- a rune is read
  have hrune : sc.lastMarkup = 0 → (∃ i j, readRune T o sc = (none, { sc with input := i }) ∧
      nextRune T { o with markup := none } (updScan sc (tailOf m pos sc.input) pc) pos = (none, updScan sc j pc)) ∨
    ∃ r r' n c i l p, readRune T o sc = (some (r, n, c), { sc with input := i, lastMarkup := l, lastMarkupPos := p }) ∧
      nextRune T { o with markup := none } (updScan sc (tailOf m pos sc.input) pc) pos =
        (some (r', n, c), updScan sc (restOf m { sc with input := i, lastMarkup := l, lastMarkupPos := p } (pos + n)) pc) ∧
      MInv { sc with input := i, lastMarkup := l, lastMarkupPos := p } (pos + n) ∧
      testingClass T { o with markup := none } r' c = testingClass T o r c ∧
      (r = r' ∨ testingClass T o r c ∈ [cLRI, cRLI, cPDI]) := by
    intro hl
    cases hin : sc.input with
    | nil =>
      refine Or.inl ⟨[], [], ?_, ?_⟩
      · unfold readRune; rw [hin]; dsimp only; rw [← hin]
      · rfl
    | cons x t =>
      obtain ⟨r, n⟩ := x
      have hn : 0 < n := hi.lens (r, n) (by rw [hin]; exact List.mem_cons_self)
      have ht : ∀ x ∈ t, 0 < x.2 := fun x hx => hi.lens x (by rw [hin]; exact List.mem_cons_of_mem _ hx)
      by_cases hB : T.cls r = cB ∧ o.ignoreParSep = false
      · refine Or.inl ⟨t, marked m (pos + n) t, ?_, ?_⟩
        · unfold readRune; rw [hin]; dsimp only; rw [if_pos hB]
        · rw [nextRune_plain rfl]
          unfold readRune updScan tailOf
          dsimp only
          rw [if_pos hB]
      · refine Or.inr ⟨r, r, n, match T.bracket r with
            | none => if T.cls r = cB then cWS else T.cls r
            | some true => cBRACKO
            | some false => cBRACKC, t, 0, sc.lastMarkupPos, ?_, ?_, ⟨Or.inl rfl, ?_, ht⟩, rfl, Or.inl rfl⟩
        · unfold readRune; rw [hin]; dsimp only; rw [if_neg hB, ← hl]; rfl
        · rw [nextRune_plain rfl]
          unfold readRune updScan tailOf
          dsimp only
          rw [if_neg hB]
          have : restOf m { sc with input := t, lastMarkup := 0, lastMarkupPos := sc.lastMarkupPos } (pos + n) = marked m (pos + n) t := by
            unfold restOf
            dsimp only
            rw [if_neg (by omega), if_pos (by have := hi.pos; omega)]
          rw [this]
          rfl
        · have := hi.pos
          show sc.lastMarkupPos ≤ pos + n
          omega
  -- a delimiter is read
  have hdelim : ∀ d c, (d = uLRI ∧ c = cLRI) ∨ (d = uRLI ∧ c = cRLI) ∨ (d = uPDI ∧ c = cPDI) → ∀ tl,
      nextRune T { o with markup := none } (updScan sc ((d, 0) :: tl) pc) pos = (some (d, 0, c), updScan sc tl pc) ∧
      testingClass T { o with markup := none } d c = testingClass T o 0 c ∧ (0 = d ∨ testingClass T o 0 c ∈ [cLRI, cRLI, cPDI]) := by
    intro d c hdc tl
    have hmem : d ∈ [0, uLRI, uRLI, uPDI] ∧ d ∈ [uLRI, uRLI, uPDI] ∧ T.cls d = c ∧ c ∈ [cLRI, cRLI, cPDI] := by
      rcases hdc with ⟨rfl, rfl⟩ | ⟨rfl, rfl⟩ | ⟨rfl, rfl⟩
      · exact ⟨by decide, by decide, hD.lri, by decide⟩
      · exact ⟨by decide, by decide, hD.rli, by decide⟩
      · exact ⟨by decide, by decide, hD.pdi, by decide⟩
    have hcB : c ≠ cB := by rcases hdc with ⟨-, rfl⟩ | ⟨-, rfl⟩ | ⟨-, rfl⟩ <;> decide
    refine ⟨?_, by rw [htest d hmem.1, htest 0 (by decide)], Or.inr (by rw [htest 0 (by decide)]; exact hmem.2.2.2)⟩
    rw [nextRune_plain rfl]
    unfold readRune updScan
    dsimp only
    rw [hmem.2.2.1, if_neg (fun h => hcB h.1), hD.brackets d hmem.2.1, if_neg hcB]
  have hnext : nextRune T o sc pos = (if sc.lastMarkup > 0 then
      (some (0, 0, markupToBidi sc.lastMarkup), { sc with lastMarkupPos := pos, lastMarkup := 0 })
    else if sc.lastMarkupPos < pos then
      let d := m pos
      if d > 0 then
        if (d &&& markupPDI) > 0 then (some (0, 0, cPDI), { sc with lastMarkupPos := pos, lastMarkup := d - markupPDI })
        else (some (0, 0, markupToBidi d), { sc with lastMarkupPos := pos, lastMarkup := 0 })
      else readRune T o sc
    else readRune T o sc) := by unfold nextRune; rw [ho]
  have hdone : ∀ sc' : Scanner, sc'.lastMarkup = 0 → sc'.lastMarkupPos = pos → restOf m sc' (pos + 0) = tailOf m pos sc'.input := by
    intro sc' h1 h2
    unfold restOf
    rw [h1, h2, if_neg (by omega), if_neg (by omega)]
    rfl
  have hrest : restOf m sc pos = (if sc.lastMarkup > 0 then (delimiters sc.lastMarkup).map (fun d => (d, 0)) ++ tailOf m pos sc.input
      else if sc.lastMarkupPos < pos then marked m pos sc.input else tailOf m pos sc.input) := rfl
  rcases hi.left with hl | hl
  · rw [if_neg (show ¬ sc.lastMarkup > 0 by omega)] at hnext hrest
    by_cases hp : sc.lastMarkupPos < pos
    · rw [if_pos hp] at hnext hrest
      rw [marked_eq] at hrest
      rw [hrest, hnext]
      clear hrest hnext
      dsimp only
      obtain ⟨ds, hds⟩ := hm pos
      have hmi : ∀ l, (l = 0 ∨ l = markupLRI ∨ l = markupRLI) →
          MInv { sc with input := sc.input, lastMarkup := l, lastMarkupPos := pos } (pos + 0) :=
        fun l hl => ⟨hl, Nat.le_refl _, hi.lens⟩
      simp only [answers, List.mem_cons, Prod.mk.injEq, List.not_mem_nil, or_false] at hds
      have hone : ∀ d c, (d = uLRI ∧ c = cLRI) ∨ (d = uRLI ∧ c = cRLI) ∨ (d = uPDI ∧ c = cPDI) → ∀ a l, delimiters a = d :: (if l = 0 then [] else delimiters l) →
          (l = 0 ∨ l = markupLRI ∨ l = markupRLI) →
          ∃ r r' n c' i l' p, ((some (0, 0, c), { sc with lastMarkupPos := pos, lastMarkup := l }) : NextRune × Scanner) =
              (some (r, n, c'), { sc with input := i, lastMarkup := l', lastMarkupPos := p }) ∧
            nextRune T { o with markup := none } (updScan sc ((delimiters a).map (fun d => (d, 0)) ++ tailOf m pos sc.input) pc) pos =
              (some (r', n, c'), updScan sc (restOf m { sc with input := i, lastMarkup := l', lastMarkupPos := p } (pos + n)) pc) ∧
            MInv { sc with input := i, lastMarkup := l', lastMarkupPos := p } (pos + n) ∧
            testingClass T { o with markup := none } r' c' = testingClass T o r c' ∧
            (r = r' ∨ testingClass T o r c' ∈ [cLRI, cRLI, cPDI]) := by
        intro d c hdc a l ha hll
        refine ⟨0, d, 0, c, sc.input, l, pos, rfl, ?_, hmi l hll, ?_⟩
        · rw [ha, List.map_cons, List.cons_append, (hdelim d c hdc _).1]
          congr 2
          unfold restOf
          dsimp only
          by_cases h0 : l = 0
          · subst h0
            rw [if_pos rfl, if_neg (show ¬ (0 : Nat) > 0 by omega), if_neg (show ¬ pos < pos + 0 by omega)]
            rfl
          · rw [if_neg h0, if_pos (by omega)]
            rfl
        · exact (hdelim d c hdc []).2
      rcases hds with ⟨h, -⟩ | ⟨h, -⟩ | ⟨h, -⟩ | ⟨h, -⟩ | ⟨h, -⟩ | ⟨h, -⟩
      · rw [h, if_neg (by omega), show delimiters 0 = [] from rfl]
        exact hrune hl
      · rw [h, if_pos (by decide), if_neg (by decide)]
        exact Or.inr (hone uLRI cLRI (by decide) _ 0 rfl (Or.inl rfl))
      · rw [h, if_pos (by decide), if_neg (by decide)]
        exact Or.inr (hone uRLI cRLI (by decide) _ 0 rfl (Or.inl rfl))
      · rw [h, if_pos (by decide), if_pos (by decide)]
        exact Or.inr (hone uPDI cPDI (by decide) _ 0 rfl (Or.inl rfl))
      · rw [h, if_pos (by decide), if_pos (by decide)]
        exact Or.inr (hone uPDI cPDI (by decide) _ markupLRI rfl (by decide))
      · rw [h, if_pos (by decide), if_pos (by decide)]
        exact Or.inr (hone uPDI cPDI (by decide) _ markupRLI rfl (by decide))
    · rw [if_neg hp] at hnext hrest
      rw [hrest, hnext]
      exact hrune hl
  · have hpos : sc.lastMarkup > 0 := by rcases hl with h | h <;> rw [h] <;> decide
    rw [if_pos hpos] at hnext hrest
    rw [hrest, hnext]
    right
    have hmi : MInv { sc with input := sc.input, lastMarkup := 0, lastMarkupPos := pos } (pos + 0) := ⟨Or.inl rfl, Nat.le_refl _, hi.lens⟩
    rcases hl with h | h
    · refine ⟨0, uLRI, 0, cLRI, sc.input, 0, pos, by rw [h]; rfl, ?_, hmi, (hdelim uLRI cLRI (by decide) []).2⟩
      rw [hdone _ rfl rfl, h]
      exact (hdelim uLRI cLRI (by decide) _).1
    · refine ⟨0, uRLI, 0, cRLI, sc.input, 0, pos, by rw [h]; rfl, ?_, hmi, (hdelim uRLI cRLI (by decide) []).2⟩
      rw [hdone _ rfl rfl, h]
      exact (hdelim uRLI cRLI (by decide) _).1

/-- Change what differs between the two scanners. -/
def over (sc : Scanner) (i : List (Nat × Nat)) (l p : Nat) (pc : Pc) : Scanner :=
  { sc with input := i, lastMarkup := l, lastMarkupPos := p, pc := pc }

theorem switch_over (sc : Scanner) (i : List (Nat × Nat)) (l p : Nat) (pc : Pc) (x : Scrap) :
    isolatingRunSwitch (over sc i l p pc) x = over (isolatingRunSwitch sc x) i l p pc := by
  obtain ⟨a1, a2, a3, a4, a5, st, a6, a7, a8, a9, a10⟩ := sc
  unfold isolatingRunSwitch over
  split
  · cases st with
    | nil => rfl
    | cons a t => cases t <;> rfl
  · rfl

theorem proceed_over (sc : Scanner) (i : List (Nat × Nat)) (l p : Nat) (pc : Pc) (r r' : Nat) (la : Scrap) (isAL : Bool)
    (h : r = r' ∨ isBracket la = false) :
    proceed (over sc i l p pc) r' la isAL = over (proceed sc r la isAL) i l p .run := by
  have hc : isBracket (inheritStrongTypes la (switchContext sc.current sc.ctxstack la).1 sc.lastAL) = isBracket la := by
    unfold isBracket
    rw [← (proceed_eq sc r la isAL).2.2.1, (proceed_input sc r la isAL).2.2.2.2]
  have hprep : ∀ (s : Scanner) (x : Scrap), isBracket x = isBracket la →
      prepareRuleBD16 (over s i l p pc) r' x = over (prepareRuleBD16 s r x) i l p pc := by
    intro s x hx
    unfold prepareRuleBD16
    rcases h with rfl | h
    · split
      · rfl
      · split <;> rfl
    · rw [hx, h]; rfl
  have h1 : proceed (over sc i l p pc) r' la isAL = { prepareRuleBD16
        (over { sc with ctxstack := (switchContext sc.current sc.ctxstack la).2 } i l p pc) r'
        (inheritStrongTypes la (switchContext sc.current sc.ctxstack la).1 sc.lastAL) with
      current := inheritStrongTypes la (switchContext sc.current sc.ctxstack la).1 sc.lastAL
      lastAL := if isAL then some (inheritStrongTypes la (switchContext sc.current sc.ctxstack la).1 sc.lastAL).l
        else (prepareRuleBD16 (over { sc with ctxstack := (switchContext sc.current sc.ctxstack la).2 } i l p pc) r'
          (inheritStrongTypes la (switchContext sc.current sc.ctxstack la).1 sc.lastAL)).lastAL
      pc := .run } := rfl
  rw [h1, hprep _ _ hc]
  rfl

/-- The two scanners are at the same place. -/
def Same (m : Nat → Nat) (a b : Scanner) : Prop :=
  ∃ inp pc, b = updScan a inp pc ∧
    match a.pc, pc with
    | .run, .run => MInv a a.current.r ∧ inp = restOf m a a.current.r
    | .send s r la al, .send s' r' la' al' => s = s' ∧ la = la' ∧ al = al' ∧ (r = r' ∨ isBracket la = false) ∧
        MInv a la.r ∧ inp = restOf m a la.r
    | .resume r la al, .resume r' la' al' => la = la' ∧ al = al' ∧ (r = r' ∨ isBracket la = false) ∧
        MInv a la.r ∧ inp = restOf m a la.r
    | .sendLast s, .sendLast s' => s = s'
    | .sendStop, .sendStop => True
    | .closed, .closed => True
    | _, _ => False

theorem minv_congr {a b : Scanner} {pos : Nat} (h : MInv a pos) (h1 : b.input = a.input) (h2 : b.lastMarkup = a.lastMarkup)
    (h3 : b.lastMarkupPos = a.lastMarkupPos) : MInv b pos :=
  ⟨by rw [h2]; exact h.left, by rw [h3]; exact h.pos, by rw [h1]; exact h.lens⟩

theorem restOf_congr {m : Nat → Nat} {a b : Scanner} {pos : Nat} (h1 : b.input = a.input) (h2 : b.lastMarkup = a.lastMarkup)
    (h3 : b.lastMarkupPos = a.lastMarkupPos) : restOf m b pos = restOf m a pos := by
  unfold restOf
  rw [h1, h2, h3]

theorem proceed_same {m : Nat → Nat} {a : Scanner} {inp : List (Nat × Nat)} {pc : Pc} {r r' : Nat} {la : Scrap} {al : Bool}
    (hr : r = r' ∨ isBracket la = false) (hi : MInv a la.r) (he : inp = restOf m a la.r) :
    Same m (proceed a r la al) (proceed (updScan a inp pc) r' la al) := by
  obtain ⟨p1, p2, p3, p4, -⟩ := proceed_input a r la al
  refine ⟨inp, .run, proceed_over a inp 0 0 pc r r' la al hr, ?_⟩
  rw [(proceed_eq a r la al).2.1]
  dsimp only
  rw [p4]
  exact ⟨minv_congr hi p1 p2 p3, by rw [he, restOf_congr p1 p2 p3]⟩

theorem scanLoop_same {T : Tables} {o : Options} {m : Nat → Nat} (hD : KnownDelimiters T) (hm : ValidMarkup m) (ho : o.markup = some m)
    {a : Scanner} (ha : a.pc = .run) (hi : MInv a a.current.r) :
    Same m (scanLoop T o a) (scanLoop T { o with markup := none } (updScan a (restOf m a a.current.r) .run)) := by
  unfold scanLoop
  rw [show (updScan a (restOf m a a.current.r) .run).current = a.current from rfl]
  rcases nextRune_marked hD hm ho hi .run with ⟨i, j, h1, h2⟩ | ⟨r, r', n, c, i, l, p, h1, h2, h3, h4, h5⟩
  · rw [h1, h2]
    dsimp only
    have hcur : (updScan a j Pc.run).current = a.current := rfl
    by_cases hiso : isIsolate a.current = true
    · rw [if_pos hiso, hcur, if_pos hiso]
      refine ⟨j, .sendLast (isolatingRunSwitch { a with input := i } a.current).current, ?_, rfl⟩
      rw [show updScan a j .run = over { a with input := i } j 0 0 .run from rfl, switch_over]
      rfl
    · rw [if_neg hiso, hcur, if_neg hiso]
      exact ⟨j, .sendLast a.current, rfl, rfl⟩
  · rw [h1, h2]
    dsimp only
    rw [h4]
    generalize hc : testingClass T o r c = c' at h5
    have hcur : ∀ inp, (updScan a inp Pc.run).current = a.current := fun _ => rfl
    simp only [hcur]
    have hr : r = r' ∨ isBracket ({ clz := rulesW1to3 c' a.current, l := a.current.r, r := a.current.r + n } : Scrap) = false := by
      rcases h5 with h | h
      · exact Or.inl h
      · right
        have : rulesW1to3 c' a.current = c' := by
          simp only [List.mem_cons, List.not_mem_nil, or_false] at h
          rcases h with rfl | rfl | rfl <;> rfl
        rw [this]
        simp only [List.mem_cons, List.not_mem_nil, or_false] at h
        rcases h with rfl | rfl | rfl <;> rfl
    split
    · split
      · by_cases hiso : isIsolate a.current = true
        · simp only [if_pos hiso]
          refine ⟨restOf m { a with input := i, lastMarkup := l, lastMarkupPos := p } (a.current.r + n),
            .send a.current r' { clz := rulesW1to3 c' a.current, l := a.current.r, r := a.current.r + n } (c' == cAL), ?_, ?_⟩
          · rw [show updScan a (restOf m { a with input := i, lastMarkup := l, lastMarkupPos := p } (a.current.r + n)) .run =
              over { a with input := i, lastMarkup := l, lastMarkupPos := p }
              (restOf m { a with input := i, lastMarkup := l, lastMarkupPos := p } (a.current.r + n)) 0 0 .run from rfl, switch_over]
            rfl
          · dsimp only
            have hs := isolatingRunSwitch_input { a with input := i, lastMarkup := l, lastMarkupPos := p } a.current
            have hs1 := (switch_current { a with input := i, lastMarkup := l, lastMarkupPos := p } a.current).2.1
            exact ⟨rfl, rfl, rfl, hr, minv_congr h3 hs1 hs.2.1 hs.2.2, (restOf_congr hs1 hs.2.1 hs.2.2).symm⟩
        · simp only [if_neg hiso]
          exact ⟨restOf m { a with input := i, lastMarkup := l, lastMarkupPos := p } (a.current.r + n),
            .send a.current r' { clz := rulesW1to3 c' a.current, l := a.current.r, r := a.current.r + n } (c' == cAL), rfl,
            rfl, rfl, rfl, hr, minv_congr h3 rfl rfl rfl, (restOf_congr rfl rfl rfl).symm⟩
      · exact proceed_same (a := { a with input := i, lastMarkup := l, lastMarkupPos := p }) hr h3 rfl
    · refine ⟨restOf m { a with input := i, lastMarkup := l, lastMarkupPos := p } (a.current.r + n), .run, rfl, ?_⟩
      dsimp only
      rw [ha]
      exact ⟨minv_congr h3 rfl rfl rfl, (restOf_congr rfl rfl rfl).symm⟩

/-- The two scanners make the same steps. -/
theorem step_same {T : Tables} {o : Options} {m : Nat → Nat} (hD : KnownDelimiters T) (hm : ValidMarkup m) (ho : o.markup = some m)
    {a b : Scanner} (h : Same m a b) :
    (a.step T o = none ∧ b.step T { o with markup := none } = none) ∨
    ∃ a' b', a.step T o = some a' ∧ b.step T { o with markup := none } = some b' ∧ Same m a' b' := by
  obtain ⟨inp, pc, rfl, h⟩ := h
  unfold Scanner.step
  rw [show (updScan a inp pc).pc = pc from rfl]
  cases hp : a.pc <;> cases pc <;> rw [hp] at h <;> dsimp only at h ⊢ <;> first | exact h.elim | skip
  · obtain ⟨h1, rfl⟩ := h
    exact Or.inr ⟨_, _, rfl, rfl, scanLoop_same hD hm ho hp h1⟩
  · exact Or.inl ⟨rfl, rfl⟩
  · obtain ⟨rfl, rfl, h3, h4, h5⟩ := h
    exact Or.inr ⟨_, _, rfl, rfl, proceed_same h3 h4 h5⟩
  · exact Or.inl ⟨rfl, rfl⟩
  · exact Or.inl ⟨rfl, rfl⟩
  · exact Or.inl ⟨rfl, rfl⟩

theorem steps_same {T : Tables} {o : Options} {m : Nat → Nat} (hD : KnownDelimiters T) (hm : ValidMarkup m) (ho : o.markup = some m) :
    ∀ (k : Nat) (a b : Scanner), Same m a b → Same m (a.steps T o k) (b.steps T { o with markup := none } k) := by
  intro k
  induction k with
  | zero => intro a b h; exact h
  | succ k ih =>
    intro a b h
    rcases step_same hD hm ho h with ⟨h1, h2⟩ | ⟨a', b', h1, h2, h3⟩
    · rw [steps_stuck h1, steps_stuck h2]; exact h
    · rw [steps_succ h1, steps_succ h2]; exact ih _ _ h3

theorem receive_same {m : Nat → Nat} {a b : Scanner} (h : Same m a b) :
    (a.receive = none ∧ b.receive = none) ∨ ∃ x a' b', a.receive = some (x, a') ∧ b.receive = some (x, b') ∧ Same m a' b' := by
  obtain ⟨inp, pc, rfl, h⟩ := h
  unfold Scanner.receive
  rw [show (updScan a inp pc).pc = pc from rfl]
  cases hp : a.pc <;> cases pc <;> rw [hp] at h <;> dsimp only at h ⊢ <;> first | exact h.elim | skip
  · exact Or.inl ⟨rfl, rfl⟩
  · rename_i s r la al s' r' la' al'
    obtain ⟨rfl, rfl, rfl, h3, h4, h5⟩ := h
    exact Or.inr ⟨_, _, _, rfl, rfl, inp, .resume r' la al, rfl, rfl, rfl, h3, minv_congr h4 rfl rfl rfl, by rw [h5]; exact (restOf_congr rfl rfl rfl).symm⟩
  · exact Or.inl ⟨rfl, rfl⟩
  · subst h
    exact Or.inr ⟨_, _, _, rfl, rfl, inp, .sendStop, rfl, trivial⟩
  · exact Or.inr ⟨_, _, _, rfl, rfl, inp, .closed, rfl, trivial⟩
  · exact Or.inr ⟨_, _, _, rfl, rfl, inp, .closed, rfl, by rw [hp]; trivial⟩

/-- A scanner with markup and a scanner for a text with delimiters. -/
theorem marked_sim {T : Tables} {o : Options} {m : Nat → Nat} (hD : KnownDelimiters T) (hm : ValidMarkup m) (ho : o.markup = some m)
    (sched : Nat → Nat) :
    Sim (scannerEnv T o sched) (scannerEnv T { o with markup := none } sched) fun a b => a.2 = b.2 ∧ Same m a.1 b.1 := by
  refine ⟨?_, ?_, ?_⟩
  · rintro ⟨a, i⟩ ⟨b, j⟩ ⟨hij, hab⟩
    dsimp only at hij hab
    subst hij
    show ((_ : Option (Scrap × Scanner)).map _ = _ ∧ (_ : Option (Scrap × Scanner)).map _ = _) ∨ ∃ x s' t',
      (_ : Option (Scrap × Scanner)).map _ = _ ∧ (_ : Option (Scrap × Scanner)).map _ = _ ∧ _
    have h1 := rests T o a _ (Nat.le_refl _)
    have h2 := rests T { o with markup := none } b _ (Nat.le_refl _)
    have h3 := steps_same hD hm ho (3 * a.input.length + 4) a b hab
    have h4 : (b.steps T { o with markup := none } (3 * a.input.length + 4)).step T { o with markup := none } = none := by
      rcases step_same hD hm ho h3 with h | ⟨a', b', h, -⟩
      · exact h.2
      · rw [h1] at h; cases h
    have h5 : b.steps T { o with markup := none } (3 * b.input.length + 4) = b.steps T { o with markup := none } (3 * a.input.length + 4) := by
      rcases Nat.le_total (3 * a.input.length + 4) (3 * b.input.length + 4) with hle | hle
      · exact settles _ b _ rfl h4 _ hle
      · exact (settles _ b _ rfl h2 _ hle).symm
    rw [h5]
    rcases receive_same h3 with ⟨e1, e2⟩ | ⟨x, a', b', e1, e2, e3⟩
    · rw [e1, e2]; exact Or.inl ⟨rfl, rfl⟩
    · rw [e1, e2]; exact Or.inr ⟨x, (a', i), (b', i), rfl, rfl, rfl, e3⟩
  · rintro ⟨a, i⟩ ⟨b, j⟩ x ⟨hij, hab⟩
    dsimp only at hij hab
    subst hij
    have h3 := steps_same hD hm ho (sched i) a b hab
    refine ⟨?_, rfl, h3⟩
    show ((a.steps T o (sched i)).handlers[(a.steps T o (sched i)).bd16For x.l]?).bind (·.find x) =
      ((b.steps T { o with markup := none } (sched i)).handlers[(b.steps T { o with markup := none } (sched i)).bd16For x.l]?).bind (·.find x)
    obtain ⟨inp, pc, e, -⟩ := h3
    rw [e]
    rfl
  · rintro ⟨a, i⟩ ⟨b, j⟩ x ⟨hij, hab⟩
    dsimp only at hij hab
    subst hij
    obtain ⟨inp, pc, e, h⟩ := steps_same hD hm ho (sched i) a b hab
    refine ⟨rfl, ?_⟩
    show Same m { a.steps T o (sched i) with handlers := _ } { b.steps T { o with markup := none } (sched i) with handlers := _ }
    rw [e]
    refine ⟨inp, pc, rfl, ?_⟩
    dsimp only
    cases hp : (a.steps T o (sched i)).pc <;> cases pc <;> rw [hp] at h <;> dsimp only at h ⊢ <;> first | exact h.elim | skip
    · exact ⟨minv_congr h.1 rfl rfl rfl, by rw [h.2]; exact (restOf_congr rfl rfl rfl).symm⟩
    · obtain ⟨h1, h2, h3, h4, h5, h6⟩ := h
      exact ⟨h1, h2, h3, h4, minv_congr h5 rfl rfl rfl, by rw [h6]; exact (restOf_congr rfl rfl rfl).symm⟩
    · obtain ⟨h2, h3, h4, h5, h6⟩ := h
      exact ⟨h2, h3, h4, minv_congr h5 rfl rfl rfl, by rw [h6]; exact (restOf_congr rfl rfl rfl).symm⟩
    · exact h

theorem scanRunes_lens : ∀ (n : Nat) (b : List Nat), ∀ x ∈ scanRunes n b, 0 < x.2 := by
  intro n
  induction n with
  | zero => intro b x hx; cases hx
  | succ n ih =>
    intro b x hx
    cases b with
    | nil => cases hx
    | cons b0 b =>
      rw [scanRunes] at hx
      · split at hx
        · rcases List.mem_cons.mp hx with h | h
          · subst h; decide
          · exact ih _ x h
        · rcases List.mem_cons.mp hx with h | h
          · subst h
            rcases Utf8.decode_cases (b0 :: b) with ⟨h, -⟩ | ⟨-, h⟩ | ⟨r, rest, -, -, h⟩
            · cases h
            · rw [h]; decide
            · rw [h]
              exact List.length_pos_iff.mpr (Utf8.encodeNat_ne r)
          · exact ih _ x h
      · intro h; cases h

/-- With markup, and with delimiters of length zero. -/
theorem resolve_marked {T : Tables} {o : Options} {m : Nat → Nat} (hD : KnownDelimiters T) (hm : ValidMarkup m) (ho : o.markup = some m)
    (h0 : m 0 = 0) (sched : Nat → Nat) (b : List Nat) (n : Nat) :
    outcome (resolveParagraph T o sched b n) = outcome (resolveRunes T { o with markup := none } sched (marked m 0 (runesOf b)) n) := by
  have hstart : Same m (newScanner o b) { input := marked m 0 (runesOf b), current := initialOuterScrap o false } := by
    refine ⟨marked m 0 (runesOf b), .run, rfl, ⟨Or.inl rfl, Nat.zero_le _, fun x hx => scanRunes_lens _ _ x hx⟩, ?_⟩
    rw [marked_eq, h0, show delimiters 0 = [] from rfl]
    rfl
  have := resolveIn_rel (marked_sim hD hm ho sched) (o := o) (o' := { o with markup := none }) rfl
    (s := (newScanner o b, 0)) (t := ({ input := marked m 0 (runesOf b), current := initialOuterScrap o false }, 0)) ⟨rfl, hstart⟩ n
  unfold resolveRunes resolveParagraph
  rw [show initialOuterScrap { o with markup := none } false = initialOuterScrap o false from rfl]
  revert this
  unfold outcome
  cases resolveIn (scannerEnv T o sched) o (newScanner o b, 0) n <;>
    cases resolveIn (scannerEnv T { o with markup := none } sched) { o with markup := none }
      ({ input := marked m 0 (runesOf b), current := initialOuterScrap o false }, 0) n <;> intro this
  · exact congrArg Run.returns this.1
  all_goals first | exact this.elim | rfl

/-- A markup function which has no answers. -/
theorem marked_silent : ∀ (inp : List (Nat × Nat)) (pos : Nat), marked (fun _ => 0) pos inp = inp := by
  intro inp
  induction inp with
  | nil => intro pos; rfl
  | cons x t ih =>
    intro pos
    obtain ⟨r, n⟩ := x
    rw [marked, ih]
    rfl

/-- Without brackets all schedules lead to the same result. -/
theorem resolve_quiet {T : Tables} (hT : KnownClasses T) (o : Options) (s1 s2 : Nat → Nat) (b : List Nat)
    (hb : ∀ x ∈ runesOf b, T.bracket x.1 = none) (n : Nat) :
    outcome (resolveParagraph T o s1 b n) = outcome (resolveParagraph T o s2 b n) := by
  have hq : Quiet T (newScanner o b) := by
    refine ⟨?_, hb, ?_, trivial⟩
    · intro h hh
      simp only [newScanner, List.mem_singleton] at hh
      subst hh
      rfl
    · show isBracket (initialOuterScrap o false) = false
      unfold initialOuterScrap
      rfl
  have := resolveIn_rel (quiet_sim o hT s1 s2) (o := o) (o' := o) rfl
    (s := (newScanner o b, 0)) (t := (newScanner o b, 0)) ⟨hq, hq, Or.inl ⟨0, rfl⟩⟩ n
  unfold resolveParagraph
  revert this
  unfold outcome
  cases resolveIn (scannerEnv T o s1) o (newScanner o b, 0) n <;>
    cases resolveIn (scannerEnv T o s2) o (newScanner o b, 0) n <;> intro this
  · exact congrArg Run.returns this.1
  all_goals first | exact this.elim | rfl

/-! ### The answer at position 0 -/

theorem nextRune_start {T : Tables} {o : Options} {m m' : Nat → Nat} (h : ∀ p, 0 < p → m p = m' p) (sc : Scanner) (pos : Nat) :
    nextRune T { o with markup := some m } sc pos = nextRune T { o with markup := some m' } sc pos := by
  unfold nextRune
  dsimp only
  split
  · rfl
  · split
    · rename_i hp
      rw [h pos (by omega)]
      rfl
    · rfl

theorem step_start {T : Tables} {o : Options} {m m' : Nat → Nat} (h : ∀ p, 0 < p → m p = m' p) (sc : Scanner) :
    sc.step T { o with markup := some m } = sc.step T { o with markup := some m' } := by
  unfold Scanner.step
  split
  · unfold scanLoop
    rw [nextRune_start h]
    rfl
  · rfl
  · rfl

theorem steps_start {T : Tables} {o : Options} {m m' : Nat → Nat} (h : ∀ p, 0 < p → m p = m' p) : ∀ (k : Nat) (sc : Scanner),
    sc.steps T { o with markup := some m } k = sc.steps T { o with markup := some m' } k := by
  intro k
  induction k with
  | zero => intro sc; rfl
  | succ k ih =>
    intro sc
    rw [Scanner.steps, Scanner.steps, step_start h]
    split
    · exact ih _
    · rfl

/-- The answer at position 0 does not matter. -/
theorem resolve_start {T : Tables} {o : Options} {m m' : Nat → Nat} (h : ∀ p, 0 < p → m p = m' p) (sched : Nat → Nat) (b : List Nat) (n : Nat) :
    resolveParagraph T { o with markup := some m } sched b n = resolveParagraph T { o with markup := some m' } sched b n := by
  have : scannerEnv T { o with markup := some m } sched = scannerEnv T { o with markup := some m' } sched := by
    unfold scannerEnv
    simp only [steps_start h]
  unfold resolveParagraph
  rw [this]
  rfl

end Uax.Bidi
