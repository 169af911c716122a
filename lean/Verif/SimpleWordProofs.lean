import Verif.SegmentReuse
import Mathlib.Data.List.SplitBy

/-! Proofs about the simple word breaker. -/

namespace Uax
open Seg

variable {β : Type} (B : Breaker β)

/-! ### Verdicts of a single breaker -/


theorem verdicts_get : ∀ (rs : List Int) (b : β) (i : Nat),
    (verdicts B [b] rs)[i]? = rs[i]?.map fun r => verdict B [B.run b (rs.take i)] r := by
  intro rs
  induction rs with
  | nil => intro b i; simp [verdicts]
  | cons r rs ih =>
    intro b i
    rw [verdicts_cons]
    cases i with
    | zero => rfl
    | succ i =>
      simp only [List.getElem?_cons_succ, List.map_cons, List.map_nil, List.take_succ_cons]
      exact ih _ i

theorem fut0_small : ∀ (vs : List Verdict) (k : Nat), (∀ v ∈ vs, ∀ j, 2 ≤ j → v.prim.getD j 0 = 0) → 2 ≤ k → fut0 vs k = 0 := by
  intro vs
  induction vs with
  | nil => intros; rfl
  | cons v vs ih =>
    intro k h hk
    rw [fut0_cons, ih (k + 1) (fun v hv => h v (List.mem_cons_of_mem _ hv)) (by omega)]
    have := h v (List.mem_cons_self ..) k hk
    simp only [c0, this]; rfl

/-- Breakers that only talk about the position before the rune just read. -/
theorem total0_next (vs : List Verdict) (h : ∀ v ∈ vs, ∀ j, j ≠ 1 → v.prim.getD j 0 = 0) (i : Nat) :
    total0 vs i = (vs[i + 1]?.map fun v => v.prim.getD 1 0).getD 0 := by
  rw [total0_eq]
  have hd : ∀ v ∈ vs.drop i, ∀ j, j ≠ 1 → v.prim.getD j 0 = 0 := fun v hv => h v (List.mem_of_mem_drop hv)
  rw [show vs[i + 1]? = (vs.drop i)[1]? by rw [List.getElem?_drop]]
  generalize vs.drop i = ws at *
  match ws with
  | [] => rfl
  | [v] =>
    have := hd v (by simp) 0 (by decide)
    simp only [fut0_cons, c0, this]
    rfl
  | v :: v' :: ws =>
    have h0 := hd v (by simp) 0 (by decide)
    rw [fut0_cons, fut0_cons, fut0_small ws 2 (fun x hx j hj => hd x (by simp [hx]) j (by omega)) (Nat.le_refl _)]
    simp only [c0, h0]
    simp

theorem total1_single (b : β) (rs : List Int) (i : Nat) : total1 (verdicts B [b] rs) i = 0 := by
  rw [others_are_secondary]; rfl

/-! ### Runs -/

/-- Mark the last element and those whose successor is not related. -/
def runMarks {α : Type} (R : α → α → Bool) : List α → List (α × Bool)
  | [] => []
  | [a] => [(a, true)]
  | a :: b :: l => (a, !R a b) :: runMarks R (b :: l)

theorem pieces_runs {α : Type} (R : α → α → Bool) : ∀ (as : List α) (ag : α) (g : List α) (gs : List (List α)) (acc : List (α × Bool)),
    acc.map (·.1) = g.reverse →
    List.splitBy.loop R as ag g gs = gs.reverse ++ (pieces (·.2) acc (runMarks R (ag :: as))).map (·.map (·.1)) := by
  intro as
  induction as with
  | nil =>
    intro ag g gs acc h
    simp [List.splitBy.loop, runMarks, pieces, h]
  | cons a as ih =>
    intro ag g gs acc h
    simp only [List.splitBy.loop, runMarks, pieces]
    cases hR : R ag a with
    | true =>
      simp only [Bool.not_true, Bool.false_eq_true, if_false]
      exact ih a (ag :: g) gs _ (by simp [h])
    | false =>
      simp only [Bool.not_false, if_true]
      rw [ih a [] _ [] rfl]
      simp [h]

theorem splitBy_pieces {α : Type} (R : α → α → Bool) (l : List α) :
    l.splitBy R = (pieces (·.2) [] (runMarks R l)).map (·.map (·.1)) := by
  cases l with
  | nil => rfl
  | cons a l => exact pieces_runs R l a [] [] [] rfl

theorem runMarks_get {α : Type} (R : α → α → Bool) : ∀ (l : List α) (i : Nat),
    (runMarks R l)[i]? = l[i]?.map fun a => (a, (l[i + 1]?.map fun b => !R a b).getD true) := by
  intro l
  induction l with
  | nil => intro i; rfl
  | cons a l ih =>
    intro i
    cases l with
    | nil => cases i <;> simp [runMarks]
    | cons b l =>
      cases i with
      | zero => simp [runMarks]
      | succ i =>
        simp only [runMarks, List.getElem?_cons_succ]
        have := ih i
        simpa using this

theorem pieces_map {α γ : Type} (f : α → γ) (m : α → Bool) (m' : γ → Bool) (h : ∀ a, m' (f a) = m a) :
    ∀ (l acc : List α), pieces m' (acc.map f) (l.map f) = (pieces m acc l).map (·.map f) := by
  intro l
  induction l with
  | nil => intro acc; rfl
  | cons a l ih =>
    intro acc
    simp only [List.map_cons, pieces, h]
    split
    · rw [List.map_cons]
      have := ih []
      simp only [List.map_nil] at this
      rw [this]; simp
    · have := ih (acc ++ [a])
      simp only [List.map_append, List.map_cons, List.map_nil] at this
      exact this

theorem pieces_snoc_unmarked {α : Type} (m : α → Bool) (x : α) (hx : m x = false) :
    ∀ (l acc : List α), pieces m acc (l ++ [x]) = pieces m acc l := by
  intro l
  induction l with
  | nil => intro acc; simp [pieces, hx]
  | cons a l ih => intro acc; simp only [List.cons_append, pieces, ih]

/-! ### The breaker -/

namespace SWB

variable (isSpace : Int → Bool)

/-- Penalties that concern the position before the last rune only. -/
def PensOK (b : SWB) : Prop := b.penalties = [] ∨ b.penalties = [0, -100] ∨ b.penalties = [0, 100]

/-- Between two texts. -/
structure Idle (b : SWB) : Prop where
  pens : b.PensOK
  len : b.len b.matchType = 0
  eof : b.len2 = 0
  typ : b.matchType < 3

/-- Within a run of class `c`. -/
structure In (c : Nat) (b : SWB) : Prop where
  pens : b.PensOK
  typ : b.matchType = c
  small : c < 2
  len : 1 ≤ b.len c
  eof : b.len2 = 0

theorem new_idle : Idle SWB.new := ⟨Or.inl rfl, rfl, rfl, by decide⟩

theorem classFor_text {r : Int} (h : r ≠ 0) : classFor isSpace r = if isSpace r then 0 else 1 := by
  unfold classFor; rw [if_neg h]

/-- First rune of a text. -/
theorem step_idle {b : SWB} (h : Idle b) {r : Int} (hr : r ≠ 0) :
    In (classFor isSpace r) ((breaker isSpace).step b r).1 := by
  have hc : classFor isSpace r < 2 := by rw [classFor_text isSpace hr]; split <;> omega
  show In _ (b.proceed r (classFor isSpace r))
  generalize classFor isSpace r = c at *
  obtain ⟨pens, l0, l1, l2, mt⟩ := b
  obtain ⟨h1, h2, h3, h4⟩ := h
  simp only [PensOK] at h1
  simp only at h3 h4
  have hcc : c = 0 ∨ c = 1 := by omega
  have hmm : mt = 0 ∨ mt = 1 ∨ mt = 2 := by omega
  rcases hcc with rfl | rfl <;> rcases hmm with rfl | rfl | rfl <;> simp [len] at h2 <;>
    constructor <;> simp [proceed, hr, setLen, len, close, h2, h3, PensOK, h1]

/-- A further rune of a text. -/
theorem step_in {b : SWB} {c : Nat} (h : In c b) {r : Int} (hr : r ≠ 0) :
    In (classFor isSpace r) ((breaker isSpace).step b r).1 ∧
    1 ≤ ((breaker isSpace).step b r).2.1 ∧
    ((breaker isSpace).step b r).2.2 = if classFor isSpace r = c then [] else if c = 0 then [0, -100] else [0, 100] := by
  have hc : classFor isSpace r < 2 := by rw [classFor_text isSpace hr]; split <;> omega
  show In _ (b.proceed r (classFor isSpace r)) ∧ 1 ≤ (b.proceed r (classFor isSpace r)).len (b.proceed r (classFor isSpace r)).matchType ∧
    (b.proceed r (classFor isSpace r)).penalties = _
  generalize classFor isSpace r = k at *
  obtain ⟨pens, l0, l1, l2, mt⟩ := b
  obtain ⟨h1, h2, h3, h4, h5⟩ := h
  simp only [PensOK] at h1
  simp only at h2 h5
  subst h2
  have hcc : k = 0 ∨ k = 1 := by omega
  have hmm : mt = 0 ∨ mt = 1 := by omega
  rcases hcc with rfl | rfl <;> rcases hmm with rfl | rfl <;> simp [len] at h4 <;>
    have h6 := Int.lt_of_lt_of_le Int.zero_lt_one h4 <;>
    refine ⟨⟨?_, ?_, ?_, ?_, ?_⟩, ?_, ?_⟩ <;> simp [proceed, hr, setLen, len, close, h5, PensOK, h6] <;> omega

/-- The end-of-text mark. -/
theorem step_end (hz : isSpace 0 = false) {b : SWB} {c : Nat} (h : In c b) :
    Idle ((breaker isSpace).step b 0).1 ∧ ((breaker isSpace).step b 0).2.1 = 0 ∧
    ((breaker isSpace).step b 0).2.2 = if c = 0 then [0, -100] else [0, 100] := by
  have hcf : classFor isSpace 0 = 2 := by unfold classFor; rw [hz]; rfl
  show Idle (b.proceed 0 (classFor isSpace 0)) ∧ (b.proceed 0 (classFor isSpace 0)).len (b.proceed 0 (classFor isSpace 0)).matchType = 0 ∧
    (b.proceed 0 (classFor isSpace 0)).penalties = _
  rw [hcf]
  obtain ⟨pens, l0, l1, l2, mt⟩ := b
  obtain ⟨h1, h2, h3, h4, h5⟩ := h
  simp only at h2 h5
  subst h2
  have hmm : mt = 0 ∨ mt = 1 := by omega
  rcases hmm with rfl | rfl <;> simp [len] at h4 <;>
    have h6 := Int.lt_of_lt_of_le Int.zero_lt_one h4 <;>
    refine ⟨⟨?_, ?_, ?_, ?_⟩, ?_, ?_⟩ <;> simp [proceed, len, close, h5, PensOK, h6]

/-- The empty text. -/
theorem step_end_idle (hz : isSpace 0 = false) {b : SWB} (h : Idle b) :
    Idle ((breaker isSpace).step b 0).1 ∧ ((breaker isSpace).step b 0).2.1 = 0 ∧ ((breaker isSpace).step b 0).2.2 = b.penalties := by
  have hcf : classFor isSpace 0 = 2 := by unfold classFor; rw [hz]; rfl
  show Idle (b.proceed 0 (classFor isSpace 0)) ∧ (b.proceed 0 (classFor isSpace 0)).len (b.proceed 0 (classFor isSpace 0)).matchType = 0 ∧
    (b.proceed 0 (classFor isSpace 0)).penalties = _
  rw [hcf]
  obtain ⟨pens, l0, l1, l2, mt⟩ := b
  obtain ⟨h1, h2, h3, h4⟩ := h
  simp only [PensOK] at h1
  simp only at h3 h4
  have hmm : mt = 0 ∨ mt = 1 ∨ mt = 2 := by omega
  rcases hmm with rfl | rfl | rfl <;> simp [len] at h2 <;>
    refine ⟨⟨?_, ?_, ?_, ?_⟩, ?_, ?_⟩ <;> simp [proceed, len, close, h2, h3, PensOK, h1]

/-- State after some runes. -/
theorem run_in {b : SWB} (h : Idle b) : ∀ (rs : List Int) (r : Int), (∀ x ∈ rs ++ [r], x ≠ 0) →
    In (classFor isSpace r) ((breaker isSpace).run b (rs ++ [r])) := by
  intro rs
  induction rs using List.reverseRecOn with
  | nil => intro r hr; exact step_idle isSpace h (hr r (by simp))
  | append_singleton rs x ih =>
    intro r hr
    have := ih x (fun y hy => hr y (List.mem_append_left _ hy))
    unfold Breaker.run
    rw [List.foldl_append]
    exact (step_in isSpace this (hr r (by simp))).1

end SWB
end Uax

namespace Uax
open Seg
namespace SWB

variable (isSpace : Int → Bool)

/-- State after a prefix of the text. -/
theorem run_state {b : SWB} (h : Idle b) (rs : List Int) (hrs : ∀ x ∈ rs, x ≠ 0) :
    (rs = [] ∧ (breaker isSpace).run b rs = b) ∨ ∃ r, rs.getLast? = some r ∧ In (classFor isSpace r) ((breaker isSpace).run b rs) := by
  rcases List.eq_nil_or_concat rs with rfl | ⟨q, r, rfl⟩
  · exact Or.inl ⟨rfl, rfl⟩
  · rw [List.concat_eq_append] at *
    exact Or.inr ⟨r, by simp, run_in isSpace h q r hrs⟩

/-- After a text and its end-of-text mark the breaker is ready for the next text. -/
theorem run_idle (hz : isSpace 0 = false) {b : SWB} (h : Idle b) (text : List Int) (ht : ∀ x ∈ text, x ≠ 0) :
    Idle ((breaker isSpace).run b (text ++ [0])) := by
  unfold Breaker.run
  rw [List.foldl_append]
  rcases run_state isSpace h text ht with ⟨_, e⟩ | ⟨r, _, e⟩
  · unfold Breaker.run at e
    rw [e]; exact (step_end_idle isSpace hz h).1
  · exact (step_end isSpace hz e).1

theorem idle_step_pens {b : SWB} (h : Idle b) {r : Int} (hr : r ≠ 0) : ((breaker isSpace).step b r).1.PensOK ∧ 1 ≤ ((breaker isSpace).step b r).2.1 := by
  have h' := step_idle isSpace h hr
  refine ⟨h'.pens, ?_⟩
  have := h'.len
  rw [← h'.typ] at this
  exact this

theorem pens_zero {b : SWB} (h : b.PensOK) (j : Nat) (hj : j ≠ 1) : b.penalties.getD j 0 = 0 := by
  rcases h with h | h | h <;> rw [h]
  · simp
  all_goals
    match j with
    | 0 => rfl
    | 1 => exact absurd rfl hj
    | j + 2 => simp

/-- The verdict about each rune. -/
theorem verdict_at (hz : isSpace 0 = false) {b : SWB} (h : Idle b) (text : List Int) (ht : ∀ x ∈ text, x ≠ 0)
    (i : Nat) (v : Verdict) (hv : (verdicts (breaker isSpace) [b] (text ++ [0]))[i]? = some v) :
    (∀ j, j ≠ 1 → v.prim.getD j 0 = 0) ∧ v.sec = [] ∧ (i < text.length → 1 ≤ v.lam) ∧ (i = text.length → v.lam = 0) ∧
    ∀ (i' : Nat) (a : Int), i = i' + 1 → text[i']? = some a →
      v.prim.getD 1 0 = if (text[i]?.map fun c => (isSpace a == isSpace c)).getD false then 0
        else if isSpace a then -100 else 100 := by
  rw [verdicts_get] at hv
  have hi : i < (text ++ [0]).length := by
    refine Classical.byContradiction fun hc => ?_
    rw [List.getElem?_eq_none (by omega)] at hv; cases hv
  rw [List.length_append, List.length_singleton] at hi
  have htk : (text ++ [0]).take i = text.take i := List.take_append_of_le_length (by omega)
  rw [htk] at hv
  have hpre := run_state isSpace h (text.take i) (fun x hx => ht x (List.mem_of_mem_take hx))
  generalize (breaker isSpace).run b (text.take i) = st at *
  -- the rune
  obtain ⟨r, hr, rfl⟩ := Option.map_eq_some_iff.mp hv
  have hV : ∀ x : SWB × Int × List Int, (breaker isSpace).step st r = x →
      (verdict (breaker isSpace) [st] r).prim = x.2.2 ∧ (verdict (breaker isSpace) [st] r).sec = [] ∧
      (verdict (breaker isSpace) [st] r).lam = max x.2.1 0 := by
    rintro x rfl
    exact ⟨rfl, rfl, rfl⟩
  obtain ⟨e1, e2, e3⟩ := hV _ rfl
  rw [e1, e2, e3]
  have hcls : ∀ a c : Int, a ≠ 0 → c ≠ 0 → (classFor isSpace c = classFor isSpace a ↔ isSpace a = isSpace c) := by
    intro a c ha hc
    rw [classFor_text isSpace ha, classFor_text isSpace hc]
    cases isSpace a <;> cases isSpace c <;> simp
  have hz2 : ∀ a : Int, a ≠ 0 → (classFor isSpace a = 0 ↔ isSpace a = true) := by
    intro a ha
    rw [classFor_text isSpace ha]
    cases isSpace a <;> simp
  by_cases hlt : i < text.length
  · rw [List.getElem?_append_left hlt] at hr
    have hr0 : r ≠ 0 := ht r (List.mem_of_getElem? hr)
    rcases hpre with ⟨hnil, hst⟩ | ⟨a, ha, hst⟩
    · have hi0 : i = 0 := by
        have := congrArg List.length hnil
        rw [List.length_take, List.length_nil] at this; omega
      rw [hst]
      obtain ⟨p1, p2⟩ := idle_step_pens isSpace h hr0
      exact ⟨fun j hj => pens_zero p1 j hj, rfl, fun _ => by omega, fun hh => by omega, fun i' a hh => by omega⟩
    · obtain ⟨p1, p2, p3⟩ := step_in isSpace hst hr0
      refine ⟨fun j hj => pens_zero p1.pens j hj, rfl, fun _ => by omega, fun hh => by omega, ?_⟩
      intro i' a' hi' ha'
      have haa : a = a' := by
        rw [hi', List.getLast?_eq_getElem?, List.length_take, Nat.min_eq_left (by omega), List.getElem?_take,
          if_pos (by omega), Nat.add_sub_cancel, ha'] at ha
        exact (Option.some.inj ha).symm
      subst haa
      have ha0 : a ≠ 0 := ht a (List.mem_of_getElem? ha')
      rw [p3, hr]
      simp only [hcls a r ha0 hr0, hz2 a ha0, Option.map_some, Option.getD_some, beq_iff_eq]
      by_cases h1 : isSpace a = isSpace r
      · rw [if_pos h1, if_pos h1]; rfl
      · rw [if_neg h1, if_neg h1]; split <;> rfl
  · have hie : i = text.length := by omega
    rw [hie, List.getElem?_append_right (Nat.le_refl _), Nat.sub_self] at hr
    simp only [List.getElem?_cons_zero, Option.some.injEq] at hr
    subst hr
    rcases hpre with ⟨hnil, hst⟩ | ⟨a, ha, hst⟩
    · rw [hst]
      obtain ⟨p1, p2, p3⟩ := step_end_idle isSpace hz h
      refine ⟨fun j hj => pens_zero p1.pens j hj, rfl, fun _ => by omega, fun _ => by rw [p2]; rfl, ?_⟩
      intro i' a hi' ha'
      exfalso
      rw [hie, List.take_length] at hnil
      rw [hnil] at ha'; cases ha'
    · obtain ⟨p1, p2, p3⟩ := step_end isSpace hz hst
      refine ⟨fun j hj => pens_zero p1.pens j hj, rfl, fun _ => by omega, fun _ => by rw [p2]; rfl, ?_⟩
      intro i' a' hi' ha'
      have haa : a = a' := by
        rw [hi', List.getLast?_eq_getElem?, List.length_take, Nat.min_eq_left (by omega), List.getElem?_take,
          if_pos (by omega), Nat.add_sub_cancel, ha'] at ha
        exact (Option.some.inj ha).symm
      subst haa
      have ha0 : a ≠ 0 := ht a (List.mem_of_getElem? ha')
      rw [p3, hie, List.getElem?_eq_none (Nat.le_refl _)]
      simp only [hz2 a ha0, Option.map_none, Option.getD_none, Bool.false_eq_true, if_false]
      split <;> rfl

theorem honest (hz : isSpace 0 = false) {b : SWB} (h : Idle b) (text : List Int) (ht : ∀ x ∈ text, x ≠ 0) :
    Honest (verdicts (breaker isSpace) [b] (text ++ [0])) := by
  intro i j v j' v' hv hlam hjj hv'
  rw [List.getElem?_drop] at hv hv'
  obtain ⟨_, _, a3, a4, _⟩ := verdict_at isSpace hz h text ht _ v hv
  obtain ⟨b1, b2, _, _, _⟩ := verdict_at isSpace hz h text ht _ v' hv'
  rw [b2]
  refine ⟨b1 j' ?_, by simp⟩
  rintro rfl
  have : j = 0 := by omega
  subst this
  have hlt : i + 1 < (text ++ [0]).length := by
    refine Classical.byContradiction fun hc => ?_
    rw [verdicts_get, List.getElem?_eq_none (by omega)] at hv'
    cases hv'
  rw [List.length_append, List.length_singleton] at hlt
  have := a3 (by omega)
  omega

/-- The place that belongs to a marked rune. -/
def placeOf (x : Int × Bool) : Place := ⟨x.1, if x.2 then (if isSpace x.1 then -100 else 100) else 0, 0, x.2⟩

theorem places_eq (hz : isSpace 0 = false) {b : SWB} (h : Idle b) (z1 : Bool) (text : List Int) (ht : ∀ x ∈ text, x ≠ 0) :
    places (breaker isSpace) [b] false z1 text =
      (runMarks (fun a c => isSpace a == isSpace c) text).map (placeOf isSpace) ++ [⟨0, 10000, 10000, false⟩] := by
  have hv := verdict_at isSpace hz h text ht
  have hvl : (verdicts (breaker isSpace) [b] (text ++ [0])).length = text.length + 1 := by
    rw [verdicts_length]; simp
  have ht0 := total0_next (verdicts (breaker isSpace) [b] (text ++ [0])) (fun v hm j hj => by
    obtain ⟨i, hi⟩ := List.mem_iff_getElem?.mp hm
    exact (hv i v hi).1 j hj)
  have ht1 := total1_single (breaker isSpace) b (text ++ [0])
  have hset : ∀ i, i ≤ text.length → settled (verdicts (breaker isSpace) [b] (text ++ [0])) i = true := by
    intro i hi
    unfold settled
    rw [List.any_eq_true]
    refine ⟨true, ?_, rfl⟩
    rw [List.mem_iff_getElem?]
    refine ⟨text.length - i, ?_⟩
    have hlt : text.length < (verdicts (breaker isSpace) [b] (text ++ [0])).length := by rw [hvl]; omega
    have he := List.getElem?_eq_getElem hlt
    rw [List.getElem?_mapIdx, List.getElem?_drop, show i + (text.length - i) = text.length by omega, he]
    rw [Option.map_some, (hv _ _ he).2.2.2.1 rfl]
    simp
  apply List.ext_getElem?
  intro i
  unfold places
  simp only
  rw [List.getElem?_mapIdx]
  have hml : (runMarks (fun a c => isSpace a == isSpace c) text).length = text.length := by
    generalize (fun a c => isSpace a == isSpace c) = R
    induction text using runMarks.induct with
    | case1 => rfl
    | case2 => rfl
    | case3 a b l ih =>
      rw [runMarks, List.length_cons, List.length_cons]
      clear ih hset ht1 ht0 hvl hv ht
      congr 1
      generalize b :: l = l'
      induction l' using runMarks.induct with
      | case1 => rfl
      | case2 => rfl
      | case3 a b l ih => simp [runMarks, ih]
  by_cases hlt : i < text.length
  · rw [List.getElem?_append_left hlt, List.getElem?_append_left (by rw [List.length_map, hml]; exact hlt), List.getElem?_map, runMarks_get]
    obtain ⟨a, ha⟩ : ∃ a, text[i]? = some a := ⟨_, List.getElem?_eq_getElem hlt⟩
    rw [ha]
    simp only [Option.map_some]
    congr 1
    have hlt' : i + 1 < (verdicts (breaker isSpace) [b] (text ++ [0])).length := by rw [hvl]; omega
    have he := List.getElem?_eq_getElem hlt'
    have hp := (hv _ _ he).2.2.2.2 i a rfl ha
    rw [if_neg (by omega), ht0, ht1, he, Option.map_some, Option.getD_some, hp, hset i (by omega)]
    unfold placeOf
    simp only [List.length_singleton, Nat.lt_irrefl, false_and, or_false, true_and]
    cases hc : text[i + 1]? with
    | none =>
      simp only [Option.map_none, Option.getD_none, Bool.false_eq_true, if_false, if_true]
      generalize isSpace a = sa
      cases sa <;> rfl
    | some c =>
      simp only [Option.map_some, Option.getD_some]
      rcases Bool.eq_false_or_eq_true (isSpace a) with e | e <;> rcases Bool.eq_false_or_eq_true (isSpace c) with e' | e' <;>
        simp [e, e', Feasible]
  · rw [List.getElem?_append_right (by omega), List.getElem?_append_right (by rw [List.length_map, hml]; omega), List.length_map, hml]
    by_cases hie : i = text.length
    · rw [hie, Nat.sub_self]
      simp only [List.getElem?_cons_zero, Option.map_some]
      congr 1
      rw [ht0, ht1, List.getElem?_eq_none (by rw [hvl])]
      simp only [if_true, List.length_singleton, Nat.lt_irrefl, false_and, or_false, Option.map_none, Option.getD_none, Int.add_zero, Place.mk.injEq, true_and]
      rw [decide_eq_false_iff_not]
      rintro ⟨_, hf, _⟩
      exact absurd hf (by decide)
    · rw [List.getElem?_eq_none (by simp; omega), List.getElem?_eq_none (by simp; omega)]
      rfl

end SWB
end Uax
