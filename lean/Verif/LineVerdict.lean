import Verif.LineNumbers
import Verif.Decide
import Verif.SimpleWordProofs

/-! What the line breaker says about every position. -/

namespace Uax
open Seg

namespace Line

open Bank SpecLine

variable (T : LTables)

/-- The class of LB1. -/
def raw (r : Int) : LClass := resolve T r (classForRune T r)

/-- The class the rules see after `h`. -/
def cls (h : List LC) (r : Int) : LC := (substitute (raw T r) (last h), decide (raw T r ≠ substitute (raw T r) (last h)))

/-- The classes the rules see for a text that is read after `h`. -/
def sees (h : List LC) : List Int → List LC
  | [] => []
  | r :: rs => cls T h r :: sees (cls T h r :: h) rs

theorem stepO_rep {h : List LC} {b : LBrk} (hR : Rep h b) (r : Int) :
    ∃ b', stepO T b r = some b' ∧ Rep (cls T h r :: h) b' ∧ Longest V b'.longest (acts (cls T h r :: h)) ∧
      (∀ j, b'.penalties.getD j 0 = lift (fixed (dflt h (cls T h r)) (tot h (cls T h r)) j)) ∧ b'.penalties.length = plen h (cls T h r) := by
  have e : classFor T b r = cls T h r := by unfold classFor cls; rw [hR.last]; rfl
  unfold stepO
  rw [e]
  exact step_rep hR r (cls T h r)

theorem step_eq {h : List LC} {b : LBrk} (hR : Rep h b) (r : Int) :
    Rep (cls T h r :: h) ((breaker T).step b r).1 ∧
    (∃ l, ((breaker T).step b r).2.1 = max 1 l ∧ Longest V l (acts (cls T h r :: h))) ∧
    (∀ j, ((breaker T).step b r).2.2.getD j 0 = lift (fixed (dflt h (cls T h r)) (tot h (cls T h r)) j)) ∧
    ((breaker T).step b r).2.2.length = plen h (cls T h r) := by
  obtain ⟨b', e, h1, h2, h3⟩ := stepO_rep T hR r
  simp only [breaker, e]
  exact ⟨h1, ⟨_, rfl, h2⟩, h3⟩

theorem run_rep : ∀ (rs : List Int) {h : List LC} {b : LBrk}, Rep h b → Rep ((sees T h rs).reverse ++ h) ((breaker T).run b rs) := by
  intro rs
  induction rs with
  | nil => intro h b hR; exact hR
  | cons r rs ih =>
    intro h b hR
    have := ih (step_eq T hR r).1
    simp only [sees, List.reverse_cons, List.append_assoc, List.singleton_append]
    exact this

theorem new_rep : Rep [] Line.new := ⟨empty_holds V, rfl, rfl⟩

/-- Classes read before index `i`, nearest first. -/
def H (cs : List LC) (i : Nat) : List LC := (cs.take i).reverse

theorem H_succ (cs : List LC) (i : Nat) (c : LC) (h : cs[i]? = some c) : H cs (i + 1) = c :: H cs i := by
  unfold H
  rw [List.take_add_one, h]
  simp

theorem sees_take : ∀ (rs : List Int) (h : List LC) (i : Nat), (sees T h rs).take i = sees T h (rs.take i) := by
  intro rs
  induction rs with
  | nil => intro h i; simp [sees]
  | cons r rs ih =>
    intro h i
    cases i with
    | zero => rfl
    | succ i => simp only [sees, List.take_succ_cons, ih]

theorem sees_append : ∀ (rs rs' : List Int) (h : List LC), sees T h (rs ++ rs') = sees T h rs ++ sees T ((sees T h rs).reverse ++ h) rs' := by
  intro rs
  induction rs with
  | nil => intro rs' h; rfl
  | cons r rs ih =>
    intro rs' h
    simp only [sees, List.cons_append, ih, List.reverse_cons, List.append_assoc, List.nil_append]

theorem sees_length : ∀ (rs : List Int) (h : List LC), (sees T h rs).length = rs.length := by
  intro rs
  induction rs with
  | nil => intro h; rfl
  | cons r rs ih => intro h; simp only [sees, List.length_cons, ih]

theorem sees_get (rs : List Int) (i : Nat) (hi : i < rs.length) : (sees T [] rs)[i]? = some (cls T (H (sees T [] rs) i) rs[i]) := by
  have e : rs = rs.take i ++ rs[i] :: rs.drop (i + 1) := by
    rw [List.getElem_cons_drop, List.take_append_drop]
  have hl : (sees T [] (rs.take i)).length = i := by rw [sees_length, List.length_take]; omega
  have h1 : (sees T [] rs)[i]? = (sees T [] (rs.take i) ++ sees T ((sees T [] (rs.take i)).reverse ++ []) (rs[i] :: rs.drop (i + 1)))[i]? := by
    rw [← sees_append, ← e]
  rw [h1, List.getElem?_append_right (by omega), hl, Nat.sub_self]
  simp only [sees, List.getElem?_cons_zero, List.append_nil]
  unfold H
  rw [sees_take]

theorem verd {b : LBrk} (hR : Rep [] b) (rs : List Int) (i : Nat) (c : LC) (hc : (sees T [] rs)[i]? = some c) :
    ∃ v, (verdicts (breaker T) [b] rs)[i]? = some v ∧ (∃ l, v.lam = max 1 l ∧ Longest V l (acts (c :: H (sees T [] rs) i))) ∧
      (∀ j, v.prim.getD j 0 = lift (fixed (dflt (H (sees T [] rs) i) c) (tot (H (sees T [] rs) i) c) j)) ∧ v.prim.length = plen (H (sees T [] rs) i) c ∧
      v.sec = [] := by
  have hi : i < rs.length := by
    have := (List.getElem?_eq_some_iff.mp hc).1
    rw [sees_length] at this; exact this
  rw [sees_get T rs i hi, Option.some.injEq] at hc
  subst hc
  have hrun := run_rep T (rs.take i) hR
  rw [List.append_nil, ← sees_take] at hrun
  obtain ⟨h1, ⟨l, h2, h2'⟩, h3, h4⟩ := step_eq T hrun rs[i]
  rw [verdicts_get, List.getElem?_eq_getElem hi]
  refine ⟨_, rfl, ⟨l, ?_, h2'⟩, ?_, ?_, rfl⟩
  · simp only [verdict, List.map_cons, List.map_nil, maxLam]
    rw [h2]; omega
  · simpa [verdict, H] using h3
  · simpa [verdict, H] using h4

/-! ### One position -/

/-- There is a break opportunity between the classes `h` (nearest first) and `d :: rest`. -/
def lb (h : List LC) (d : LC) (rest : List LC) : Bool :=
  if d.1 = .eot then true else if d.2 = true ∧ last h = d.1 then false else allowed (odd h) (cl h) d.1 (cl rest).head?

/-- Position `i` of a text. -/
structure At (vs : List Verdict) (i : Nat) (h : List LC) (d : LC) (rest : List LC) : Prop where
  len : vs.length = i + 2 + rest.length
  zero : soFar0 vs i 0 = lift (y0 (last h.tail == .HL) (last h.tail == .CR) (last h))
  one : term vs i 1 = lift (fix1 (dflt h d) (fin (last h) (last (skip h)) (odd h) d.1 d.2 1 + n25 h d 1))
  late : ∀ m c, rest[m]? = some c → term vs i (m + 2) = lift ((if m = 0 ∧ d.1 = .CR then 10000 else 0) + n25 ((rest.take m).reverse ++ d :: h) c (m + 2))
  ripe0 : ripe vs i 0 = false
  open' : ∀ m, m ≤ rest.length → (ripe vs i (m + 1) = true ↔ ∀ k ∈ acts ((rest.take m).reverse ++ d :: h), k.ml ≤ ((m + 1 : Nat) : Int))

/-- The classes of a text. -/
def Good (h : List LC) : Prop := ∀ c ∈ h, c.1 ∈ real

/-- A class that can follow `h`. -/
def Follows (h : List LC) (d : LC) : Prop :=
  d = (.eot, false) ∨ (d.1 ∈ real ∧ (d.2 = true → (d.1 = last h ∧ alone [d.1] = false) ∨ (d.1 = .AL ∧ last h ≠ .AL)))

theorem real_not {c : LClass} (h : c ∈ real) : c ≠ .eot ∧ c ≠ .sot := by
  constructor <;> (rintro rfl; revert h; decide)

theorem good_last {h : List LC} (hg : Good h) : last h = (cl h).headD .sot := by
  cases h with
  | nil => rfl
  | cons c h =>
    rw [last_cons, if_neg (real_not (hg c List.mem_cons_self)).1]
    rfl

theorem good_skip {h : List LC} (hg : Good h) : last (skip h) = beforeSpaces (cl h) := by
  induction h with
  | nil => rfl
  | cons c h ih =>
    by_cases hc : c.1 = .SP
    · rw [skip_sp hc, ih fun x hx => hg x (List.mem_cons_of_mem _ hx)]
      unfold beforeSpaces
      simp [cl, hc]
    · rw [skip_not hc, good_last hg]
      unfold beforeSpaces
      simp [cl, hc]

theorem good_b {h : List LC} (hg : Good h) : last (skip h) ∈ LClass.sot :: real ∧ last (skip h) ≠ .SP := by
  induction h with
  | nil => exact ⟨List.mem_cons_self, by decide⟩
  | cons c h ih =>
    by_cases hc : c.1 = .SP
    · rw [skip_sp hc]; exact ih fun x hx => hg x (List.mem_cons_of_mem _ hx)
    · rw [skip_not hc, last_cons, if_neg (real_not (hg c List.mem_cons_self)).1]
      exact ⟨List.mem_cons_of_mem _ (hg c List.mem_cons_self), hc⟩

theorem good_tail {h : List LC} (hg : Good h) : decide ((cl h).tail.head? = some .HL) = (last h.tail == .HL) := by
  match h with
  | [] => rfl
  | [_] => rfl
  | c :: d :: h =>
    have : d.1 ∈ real := hg d (by simp)
    simp only [cl, List.map_cons, List.tail_cons, List.head?_cons, last_cons, if_neg (real_not this).1, Option.some.injEq]
    rfl

theorem odd_RI {h : List LC} (hg : Good h) (ho : odd h = true) : last h = .RI := by
  cases h with
  | nil => cases ho
  | cons c h =>
    rw [last_cons, if_neg (real_not (hg c List.mem_cons_self)).1]
    simp only [odd, Bool.and_eq_true, beq_iff_eq] at ho
    exact ho.1

theorem lift_nonneg {x : Int} (h : 0 ≤ x) : 0 ≤ lift x := by unfold lift noBreak; split <;> omega

theorem lift_ge {x : Int} (h : 4 ≤ x) : 10000 ≤ lift x := by unfold lift noBreak DefaultPenalty; split <;> omega

section
variable {vs : List Verdict} {i : Nat} {h : List LC} {d : LC} {rest : List LC} (A : At vs i h d rest)
include A

theorem At.mono : ∀ n m, 1 ≤ n → n ≤ m → i + m < vs.length → soFar0 vs i n ≤ soFar0 vs i m := by
  intro n m h1 h2
  induction m with
  | zero => omega
  | succ m ih =>
    intro h3
    by_cases he : n = m + 1
    · rw [he]; omega
    · have := ih (by omega) (by omega)
      obtain ⟨m', rfl⟩ : ∃ m', m = m' + 1 := ⟨m - 1, by omega⟩
      have hm : m' < rest.length := by have := A.len; omega
      rw [soFar0_succ, A.late m' _ (List.getElem?_eq_getElem hm)]
      have h4 := n25_nonneg ((rest.take m').reverse ++ d :: h) rest[m'] (m' + 2)
      have : 0 ≤ lift ((if m' = 0 ∧ d.1 = .CR then 10000 else 0) + n25 ((rest.take m').reverse ++ d :: h) rest[m'] (m' + 2)) := by
        apply lift_nonneg
        split <;> omega
      omega

theorem At.no_now (h1 : 10000 ≤ soFar0 vs i 1) (z0 : Bool) : SaysNo z0 vs i := by
  refine ⟨A.mono, ?_, fun h => by rw [A.ripe0] at h; cases h⟩
  intro n h2 h3 _
  have := A.mono 1 n (by omega) h2 h3
  omega

theorem At.no_late (h1 : 0 ≤ soFar0 vs i 1) (hj : join2 h d.1 (cl rest).head? = true) (z0 : Bool) : SaysNo z0 vs i := by
  refine ⟨A.mono, ?_, fun h => by rw [A.ripe0] at h; cases h⟩
  intro n h2 h3 h4
  obtain ⟨m, rfl⟩ : ∃ m, n = m + 1 := ⟨n - 1, by omega⟩
  have hm : m ≤ rest.length := by have := A.len; omega
  rcases old_kept hj m hm with ⟨k, hk, hml, _⟩ | ⟨m', c, e1, e2, e3⟩
  · have := (A.open' m hm).mp h4 k (by unfold acts; exact List.mem_append_right _ hk)
    omega
  · have h5 := A.mono (m' + 2) (m + 1) (by omega) (by omega) h3
    have h6 := A.mono 1 (m' + 1) (by omega) (by omega) (by omega)
    have h7 : soFar0 vs i (m' + 2) = soFar0 vs i (m' + 1) + term vs i (m' + 2) := soFar0_succ vs i (m' + 1)
    rw [A.late m' c e2] at h7
    have : 10000 ≤ lift ((if m' = 0 ∧ d.1 = .CR then 10000 else 0) + n25 ((rest.take m').reverse ++ d :: h) c (m' + 2)) := by
      apply lift_ge
      split <;> omega
    omega

theorem At.yes (h1 : soFar0 vs i 1 < 10000 ∧ soFar0 vs i 1 ≠ 0) (hc : d.1 = .CR → soFar0 vs i 1 ≠ -20000) (hj : join2 h d.1 (cl rest).head? = false) :
    SaysYes vs i ∨ (SaysOnce vs i ∧ d.1 = .CR) := by
  have key : ∀ n, 2 ≤ n → i + n < vs.length → soFar0 vs i n = soFar0 vs i 1 + (if d.1 = .CR then 20000 else 0) := by
    intro n
    induction n with
    | zero => intro h; omega
    | succ n ih =>
      intro h2 h3
      obtain ⟨m, rfl⟩ : ∃ m, n = m + 1 := ⟨n - 1, by omega⟩
      have hm : m < rest.length := by have := A.len; omega
      have hget : rest[m]? = some rest[m] := List.getElem?_eq_getElem hm
      rw [soFar0_succ, A.late m _ hget, late_none hj hget]
      cases m with
      | zero =>
        by_cases hcr : d.1 = .CR
        · rw [if_pos ⟨rfl, hcr⟩, if_pos hcr]; rfl
        · rw [if_neg (fun h => hcr h.2), if_neg hcr]; rfl
      | succ m =>
        rw [ih (by omega) (by omega), if_neg (show ¬ (m + 1 = 0 ∧ d.1 = .CR) by omega)]
        simp [lift, DefaultPenalty]
  by_cases hcr : d.1 = .CR
  · have hne := hc hcr
    by_cases hs : soFar0 vs i 1 + 20000 < 10000
    · left
      constructor
      intro n h2 h3
      by_cases hn : n = 1
      · rw [hn]; exact h1
      · rw [key n (by omega) h3, if_pos hcr]; omega
    · right
      refine ⟨⟨by have := A.len; omega, ?_, h1, ?_⟩, hcr⟩
      · refine (A.open' 0 (by omega)).mpr ?_
        intro k hk
        simp only [List.take_zero, List.reverse_nil, List.nil_append] at hk
        unfold acts at hk
        simp only [List.mem_append] at hk
        rcases hk with ((hk | hk) | hk) | hk
        · rw [(pairs_are _ k hk).2]; omega
        · rw [(spaced_are _ k hk).2]; omega
        · unfold flag at hk
          split at hk
          · simp only [List.mem_singleton] at hk; subst hk; simp
          · cases hk
        · rcases mem_nums_cons.mp hk with ⟨k0, h4, h5, _⟩ | ⟨_, h4⟩
          · exfalso
            rw [hcr] at h5
            have := (nums_are h k0 h4).2
            simp only [List.mem_cons, List.not_mem_nil, or_false] at this
            rcases this with e | e | e | e <;> rw [e] at h5 <;> cases h5
          · omega
      · intro n h2 h3
        rw [key n h2 h3, if_pos hcr]; omega
  · left
    constructor
    intro n h2 h3
    by_cases hn : n = 1
    · rw [hn]; exact h1
    · rw [key n (by omega) h3, if_neg hcr]; omega

end

theorem table6_use : ∀ hl cr : Bool, ∀ a ∈ real, ∀ b ∈ LClass.sot :: real, ∀ o : Bool, S1 hl cr a b o .CR false 1 0 ≠ -20000 := by
  have : (bools.all fun hl => bools.all fun cr => real.all fun a => (LClass.sot :: real).all fun b => bools.all fun o => S1 hl cr a b o .CR false 1 0 != -20000) = true := by
    decide +kernel
  intro hl cr a ha b hb o
  have := all_mem (all_mem (all_mem (all_mem (all_mem this (mem_bools hl)) (mem_bools cr)) ha) hb) (mem_bools o)
  simpa using this

theorem says_what {vs : List Verdict} {i : Nat} {h : List LC} {d : LC} {rest : List LC} (A : At vs i h d rest)
    (hh : h ≠ []) (hg : Good h) (hd : Follows h d) (z0 : Bool) :
    (lb h d rest = true → SaysYes vs i ∨ (SaysOnce vs i ∧ d.1 = .CR)) ∧ (lb h d rest = false → SaysNo z0 vs i) := by
  have ha : last h ∈ real := by
    cases h with
    | nil => exact absurd rfl hh
    | cons c h => rw [last_cons, if_neg (real_not (hg c List.mem_cons_self)).1]; exact hg c List.mem_cons_self
  have hcr : ¬ ((last h.tail == .HL) = true ∧ (last h.tail == .CR) = true) := by
    rintro ⟨h1, h2⟩
    rw [beq_iff_eq] at h1 h2
    rw [h1] at h2; cases h2
  have hS : soFar0 vs i 1 = S1 (last h.tail == .HL) (last h.tail == .CR) (last h) (last (skip h)) (odd h) d.1 d.2 (dflt h d) (n25 h d 1) := by
    rw [soFar0_succ, A.zero, A.one]; rfl
  obtain ⟨hb1, hb2⟩ := good_b hg
  have hj1 : join2 h d.1 (cl rest).head? = true ∨ join1 h d.1 = true → pair25 (last h) d.1 = true := by
    intro hx
    rw [good_last hg]
    apply lb25_pair (next := (cl rest).head?)
    rw [lb25_eq, Bool.or_eq_true]; exact hx
  rcases hd with hd | ⟨hd, hsub⟩
  · -- the end of the text
    subst hd
    have hnp : ∀ a, pair25 a .eot = false := by intro a; cases a <;> rfl
    have j1 : join1 h .eot = false := by
      cases e : join1 h .eot with
      | false => rfl
      | true => have := hj1 (Or.inr e); rw [hnp] at this; cases this
    have j2 : join2 h .eot (cl rest).head? = false := by
      cases e : join2 h .eot (cl rest).head? with
      | false => rfl
      | true => have := hj1 (Or.inl e); rw [hnp] at this; cases this
    have hdf : dflt h (.eot, false) = 1 := rfl
    rw [n25_one_not (c := (.eot, false)) j1, hdf] at hS
    have ht := table4_use ha hb1 (last h.tail == .HL) (last h.tail == .CR) (odd h)
    rw [← hS] at ht
    refine ⟨fun _ => A.yes (by omega) (fun h => by cases h) j2, fun hf => ?_⟩
    unfold lb at hf
    rw [if_pos rfl] at hf; cases hf
  · have hne := (real_not hd).1
    by_cases hdup : d.2 = true ∧ last h = d.1
    · -- a mark
      have hl : lb h d rest = false := by unfold lb; rw [if_neg hne, if_pos hdup]
      refine ⟨fun hf => absurd hf (by rw [hl]; simp), fun _ => ?_⟩
      have halone : alone [d.1] = false := by
        rcases hsub hdup.1 with h1 | h1
        · exact h1.2
        · rw [h1.1]; rfl
      have hnp : pair25 d.1 d.1 = true → d.1 ∉ [LClass.PR, .PO] := by
        generalize d.1 = x
        cases x <;> decide
      have j1 : join1 h d.1 = false := by
        cases e : join1 h d.1 with
        | false => rfl
        | true =>
          have := hj1 (Or.inr e)
          rw [hdup.2] at this
          exact absurd ((join1_iff h d.1).mp e).2 (hnp this)
      have hsp : last h ≠ .SP := by
        rw [hdup.2]; intro e; rw [e] at halone; cases halone
      have hbe : last (skip h) = last h := by
        cases h with
        | nil => rfl
        | cons c h =>
          rw [last_cons, if_neg (real_not (hg c List.mem_cons_self)).1] at hsp
          rw [skip_not hsp]
      have hdf : dflt h d = 10000 := by unfold dflt; rw [if_pos hdup]; rfl
      rw [n25_one_not j1, hdf, hbe, ← hdup.2, hdup.1] at hS
      have ht := table3_use ha (by rw [hdup.2]; exact halone) (o := odd h) (odd_RI hg) hcr
      rw [← hS] at ht
      exact A.no_now ht z0
    · have hdf : dflt h d = 1 := by unfold dflt; rw [if_neg hdup]; rfl
      have hs2 : fin (last h) (last (skip h)) (odd h) d.1 d.2 1 = fin (last h) (last (skip h)) (odd h) d.1 false 1 := by
        cases e : d.2 with
        | false => rfl
        | true =>
          rcases hsub e with h1 | h1
          · exact absurd ⟨e, h1.1.symm⟩ hdup
          · rw [h1.1, fin_one_AL]
      have hS' : soFar0 vs i 1 = S1 (last h.tail == .HL) (last h.tail == .CR) (last h) (last (skip h)) (odd h) d.1 false 1 (n25 h d 1) := by
        rw [hS, hdf]; unfold S1; rw [hs2]
      have hl : lb h d rest = allowedQ (last h.tail == .HL) (lb25 (cl h) d.1 (cl rest).head?) (odd h) (last h) (last (skip h)) d.1 := by
        unfold lb
        rw [if_neg hne, if_neg hdup, allowed_eq, good_tail hg, good_last hg, good_skip hg]
      rw [hl]
      cases hq : lb25 (cl h) d.1 (cl rest).head? with
      | true =>
        have hp := lb25_pair hq
        rw [← good_last hg] at hp
        obtain ⟨t1, t2, t3, t4, t5, t6, t7⟩ := table5_use ha hd hp hcr
        have hbe : last (skip h) = last h := by
          cases h with
          | nil => rfl
          | cons c h =>
            rw [last_cons, if_neg (real_not (hg c List.mem_cons_self)).1] at t5
            rw [skip_not t5]
        have ho : odd h = false := by
          cases e : odd h with
          | false => rfl
          | true => exact absurd (odd_RI hg e) t6
        rw [hbe, ho] at hS' ⊢
        rw [t4]
        refine ⟨fun hf => absurd hf (by simp), fun _ => ?_⟩
        rw [lb25_eq, Bool.or_eq_true] at hq
        cases hj : join1 h d.1 with
        | true =>
          have h4 := n25_one_join (c := d) hj
          apply A.no_now
          rw [hS']
          unfold S1
          have : 10000 ≤ lift (fix1 1 (fin (last h) (last h) false d.1 false 1 + n25 h d 1)) := by
            apply lift_ge
            unfold fix1
            rw [if_neg (by omega)]; omega
          omega
        | false =>
          rw [n25_one_not (c := d) hj] at hS'
          exact A.no_late (by rw [hS']; exact t1) (hq.resolve_right (by rw [hj]; simp)) z0
      | false =>
        rw [lb25_eq, Bool.or_eq_false_iff] at hq
        rw [n25_one_not (c := d) hq.2] at hS'
        have htab : (S1 (last h.tail == .HL) (last h.tail == .CR) (last h) (last (skip h)) (odd h) d.1 false 1 0 < 10000 ↔
            allowedQ (last h.tail == .HL) false (odd h) (last h) (last (skip h)) d.1 = true) ∧
            S1 (last h.tail == .HL) (last h.tail == .CR) (last h) (last (skip h)) (odd h) d.1 false 1 0 ≠ 0 := by
          by_cases hsp : last h = .SP
          · have ho : odd h = false := by
              cases e : odd h with
              | false => rfl
              | true => have := odd_RI hg e; rw [hsp] at this; cases this
            rw [hsp, ho]
            exact table2_use hb1 hd hb2 hcr
          · have hbe : last (skip h) = last h := by
              cases h with
              | nil => rfl
              | cons c h =>
                rw [last_cons, if_neg (real_not (hg c List.mem_cons_self)).1] at hsp
                rw [skip_not hsp]
            rw [hbe]
            exact table1_use ha hd hsp (odd_RI hg) hcr
        rw [← hS'] at htab
        constructor
        · intro hy
          refine A.yes ⟨htab.1.mpr hy, htab.2⟩ ?_ hq.1
          intro hcrd
          rw [hS', hcrd]
          exact table6_use _ _ _ ha _ hb1 _
        · intro hn
          apply A.no_now
          have : ¬ soFar0 vs i 1 < 10000 := by
            rw [htab.1, hn]; simp
          omega

/-! ### All positions -/

theorem at_of {b : LBrk} (hR : Rep [] b) (rs : List Int) (i : Nat) (hi : i + 1 < rs.length) (hg : Good (H (sees T [] rs) (i + 1))) :
    At (verdicts (breaker T) [b] rs) i (H (sees T [] rs) (i + 1)) (cls T (H (sees T [] rs) (i + 1)) rs[i + 1]) ((sees T [] rs).drop (i + 2)) := by
  have hget := fun j hj => sees_get T rs j hj
  have hterm : ∀ n (hj : i + n < rs.length), term (verdicts (breaker T) [b] rs) i n =
      lift (fixed (dflt (H (sees T [] rs) (i + n)) (cls T (H (sees T [] rs) (i + n)) rs[i + n])) (tot (H (sees T [] rs) (i + n)) (cls T (H (sees T [] rs) (i + n)) rs[i + n])) n) := by
    intro n hj
    obtain ⟨v, h1, _, h3, _⟩ := verd T hR rs (i + n) _ (hget _ hj)
    unfold term
    rw [h1]
    exact h3 n
  have hH : ∀ m, H (sees T [] rs) (i + 2 + m) =
      (((sees T [] rs).drop (i + 2)).take m).reverse ++ cls T (H (sees T [] rs) (i + 1)) rs[i + 1] :: H (sees T [] rs) (i + 1) := by
    intro m
    rw [← H_succ _ _ _ (hget (i + 1) hi)]
    unfold H
    rw [List.take_add, List.reverse_append]
  have hh : H (sees T [] rs) (i + 1) = cls T (H (sees T [] rs) i) rs[i] :: H (sees T [] rs) i := H_succ _ _ _ (hget i (by omega))
  have hlast : last (H (sees T [] rs) (i + 1)) = (cls T (H (sees T [] rs) i) rs[i]).1 := by
    rw [hh] at hg ⊢
    rw [last_cons, if_neg (real_not (hg _ List.mem_cons_self)).1]
  refine ⟨?_, ?_, ?_, ?_, ?_, ?_⟩
  · rw [verdicts_length, List.length_drop, sees_length]; omega
  · have := hterm 0 (by omega)
    simp only [Nat.add_zero] at this
    rw [soFar0_zero, this, hlast]
    have ht : (H (sees T [] rs) (i + 1)).tail = H (sees T [] rs) i := by rw [hh]; rfl
    rw [ht]
    congr 1
    unfold fixed
    rw [if_neg (by omega), tot_parts, n25_zero, fin_zero, x0_y0]
    omega
  · rw [hterm 1 hi]
    congr 1
    unfold fixed fix1
    simp only [tot_parts, true_and]
  · intro m c hc
    have hm : m < (sees T [] rs).length - (i + 2) := by
      have := (List.getElem?_eq_some_iff.mp hc).1
      rw [List.length_drop] at this; exact this
    have hm' : i + (m + 2) < rs.length := by rw [sees_length] at hm; omega
    rw [List.getElem?_drop, show i + 2 + m = i + (m + 2) by omega, hget _ hm'] at hc
    rw [Option.some.injEq] at hc
    rw [hterm (m + 2) hm', hc, show i + (m + 2) = i + 2 + m by omega, hH m]
    congr 1
    unfold fixed
    rw [if_neg (by omega), tot_parts, fin_late]
    congr 1
    cases m with
    | zero =>
      simp only [List.take_zero, List.reverse_nil, List.nil_append, true_and]
      rw [last_cons]
      generalize (cls T (H (sees T [] rs) (i + 1)) rs[i + 1]).1 = x
      cases x <;> rfl
    | succ m => rw [if_neg (by omega), if_neg (by omega)]
  · obtain ⟨v, h1, ⟨l, h2, _⟩, _⟩ := verd T hR rs i _ (hget i (by omega))
    unfold ripe
    rw [Nat.add_zero, h1]
    simp only [Option.map_some, Option.getD_some, decide_eq_false_iff_not]
    omega
  · intro m hm
    rw [List.length_drop, sees_length] at hm
    have hj : i + (m + 1) < rs.length := by omega
    obtain ⟨v, h1, ⟨l, h2, h2'⟩, _⟩ := verd T hR rs (i + (m + 1)) _ (hget _ hj)
    unfold ripe
    rw [h1]
    simp only [Option.map_some, Option.getD_some, decide_eq_true_eq]
    rw [← H_succ _ _ _ (hget _ hj), show i + (m + 1) + 1 = i + 2 + m by omega, hH m] at h2'
    constructor
    · intro hl k hk
      have := h2'.ge k hk
      have e : V.ml k = k.ml := rfl
      omega
    · intro hk
      rcases h2'.eq with h | ⟨k, hk', h⟩
      · omega
      · have := hk k hk'
        have e : V.ml k = k.ml := rfl
        omega

theorem acts_eot (s : Bool) (h : List LC) : acts ((.eot, s) :: h) = [] := by
  have hn : nums ((.eot, s) :: h) = [] := by
    rw [List.eq_nil_iff_forall_not_mem]
    intro k hk
    rcases mem_nums_cons.mp hk with ⟨k0, h1, h2, _⟩ | ⟨h1, _⟩
    · have := (nums_are h k0 h1).2
      simp only [List.mem_cons, List.not_mem_nil, or_false] at this
      rcases this with e | e | e | e <;> rw [e] at h2 <;> cases h2
    · cases h1
  unfold acts
  rw [hn]
  rfl

theorem rep_eot {s : Bool} {h : List LC} {b : LBrk} (hR : Rep ((.eot, s) :: h) b) : Rep [] b := by
  obtain ⟨h1, h2, h3⟩ := hR
  rw [acts_eot] at h1
  exact ⟨h1, h2, h3⟩

theorem raw_zero : raw T 0 = .eot := rfl

theorem cls_zero (h : List LC) : cls T h 0 = (.eot, false) := by
  unfold cls
  rw [raw_zero]
  unfold substitute
  split <;> rfl

/-- The classes of LB1. -/
theorem raw_real (r : Int) (hr : r ≠ 0) : raw T r ∈ real ∨ mark (raw T r) = true := by
  unfold raw classForRune
  rw [if_neg hr]
  have : ∀ c, c ∈ tabled → resolve T r c ∈ real ∨ mark (resolve T r c) = true := by
    intro c hc
    unfold resolve
    revert hc
    cases T.mark r <;> cases c <;> decide
  cases hf : tabled.find? fun c => T.is c r with
  | none => exact this .XX (by decide)
  | some c => exact this c (List.mem_of_find?_eq_some hf)

theorem sub_mark {c : LClass} (hc : mark c = true) (l : LClass) :
    substitute c l = if l ∈ [LClass.sot, .BK, .CR, .LF, .NL, .SP, .ZW] then .AL else l := by
  unfold substitute
  have : c = .CM ∨ c = .ZWJ := by unfold mark at hc; simpa using hc
  simp only [if_pos this]

theorem sub_not {c : LClass} (hc : mark c = false) (l : LClass) : substitute c l = c := by
  unfold substitute
  have : ¬ (c = .CM ∨ c = .ZWJ) := by unfold mark at hc; simpa using hc
  simp only [if_neg this, ite_self]

theorem cls_cr {h : List LC} {r : Int} (e : (cls T h r).1 = .CR) : raw T r = .CR := by
  cases hm : mark (raw T r) with
  | true =>
    simp only [cls, sub_mark hm] at e
    split at e
    · cases e
    · rename_i hl
      rw [e] at hl
      exact absurd (by decide) hl
  | false =>
    simp only [cls, sub_not hm] at e
    exact e

theorem good_cls {h : List LC} (hg : Good h) (r : Int) (hr : r ≠ 0) : (cls T h r).1 ∈ real ∧ Follows h (cls T h r) := by
  have hlast : last h ∈ real ∨ last h = .sot := by
    cases h with
    | nil => exact Or.inr rfl
    | cons c h => left; rw [last_cons, if_neg (real_not (hg c List.mem_cons_self)).1]; exact hg c List.mem_cons_self
  have key : (cls T h r).1 ∈ real ∧ ((cls T h r).2 = true → ((cls T h r).1 = last h ∧ alone [(cls T h r).1] = false) ∨ ((cls T h r).1 = .AL ∧ last h ≠ .AL)) := by
    cases hm : mark (raw T r) with
    | true =>
      simp only [cls, sub_mark hm]
      by_cases hl : last h ∈ [LClass.sot, .BK, .CR, .LF, .NL, .SP, .ZW]
      · rw [if_pos hl]
        refine ⟨by decide, fun _ => Or.inr ⟨rfl, fun e => ?_⟩⟩
        rw [e] at hl; revert hl; decide
      · rw [if_neg hl]
        have h1 : last h ∈ real := by
          rcases hlast with h | h
          · exact h
          · rw [h] at hl; exact absurd List.mem_cons_self hl
        refine ⟨h1, fun _ => Or.inl ⟨rfl, ?_⟩⟩
        unfold alone
        rw [decide_eq_false_iff_not]
        exact fun h => hl (List.mem_cons_of_mem _ h)
    | false =>
      have h1 := (raw_real T r hr).resolve_right (by rw [hm]; simp)
      simp only [cls, sub_not hm]
      exact ⟨h1, fun h => by simp at h⟩
  exact ⟨key.1, Or.inr key⟩

theorem good_sees (text : List Int) (ht : ∀ x ∈ text, x ≠ 0) : ∀ c ∈ sees T [] text, c.1 ∈ real := by
  suffices h : ∀ (text : List Int) (h : List LC), (∀ x ∈ text, x ≠ 0) → Good h → ∀ c ∈ sees T h text, c.1 ∈ real from h text [] ht (fun c hc => by cases hc)
  intro text
  induction text with
  | nil => intro h _ _ c hc; cases hc
  | cons r rs ih =>
    intro h ht hg c hc
    have h1 := (good_cls T hg r (ht r List.mem_cons_self)).1
    rcases List.mem_cons.mp hc with rfl | hc
    · exact h1
    · refine ih _ (fun x hx => ht x (List.mem_cons_of_mem _ hx)) ?_ c hc
      intro x hx
      rcases List.mem_cons.mp hx with rfl | hx
      · exact h1
      · exact hg x hx

theorem H_text (text : List Int) (i : Nat) (hi : i ≤ text.length) : H (sees T [] (text ++ [0])) i = H (sees T [] text) i := by
  unfold H
  rw [sees_take, sees_take, List.take_append_of_le_length hi]

theorem H_good (text : List Int) (ht : ∀ x ∈ text, x ≠ 0) (i : Nat) : Good (H (sees T [] text) i) := by
  intro c hc
  exact good_sees T text ht c (List.mem_of_mem_take (List.mem_reverse.mp hc))

/-- Where the text is cut. -/
def cutL (text : List Int) (i : Nat) : Bool :=
  lb (H (sees T [] text) (i + 1)) (((sees T [] (text ++ [0]))[i + 1]?).getD (.eot, false)) ((sees T [] (text ++ [0])).drop (i + 2))

section
variable {T}
variable {b : LBrk} (hR : Rep [] b) (text : List Int) (ht : ∀ x ∈ text, x ≠ 0) (z0 z1 : Bool)

include hR

include ht in
theorem cut_says_cr (i : Nat) (hi : i < text.length) :
    (cutL T text i = true → SaysYes (verdicts (breaker T) [b] (text ++ [0])) i ∨ (SaysOnce (verdicts (breaker T) [b] (text ++ [0])) i ∧ ∃ r, text[i + 1]? = some r ∧ raw T r = .CR)) ∧
    (cutL T text i = false → SaysNo z0 (verdicts (breaker T) [b] (text ++ [0])) i) := by
  have hlt : i + 1 < (text ++ [0]).length := by rw [List.length_append, List.length_singleton]; omega
  have hg : Good (H (sees T [] text) (i + 1)) := H_good T text ht _
  have A := at_of T hR (text ++ [0]) i hlt (by rw [H_text T text _ (by omega)]; exact hg)
  have e : ((sees T [] (text ++ [0]))[i + 1]?).getD (.eot, false) = cls T (H (sees T [] text) (i + 1)) (text ++ [0])[i + 1] := by
    rw [sees_get T _ _ hlt, H_text T text _ (by omega)]; rfl
  rw [H_text T text _ (by omega)] at A
  unfold cutL
  rw [e]
  have hsw := says_what A ?_ hg ?_ z0
  · refine ⟨fun hy => ?_, hsw.2⟩
    rcases hsw.1 hy with h | ⟨h, hcr⟩
    · exact .inl h
    · refine .inr ⟨h, ?_⟩
      have hraw := cls_cr (T := T) hcr
      by_cases hl : i + 1 < text.length
      · rw [List.getElem_append_left hl] at hraw
        exact ⟨_, List.getElem?_eq_getElem hl, hraw⟩
      · rw [List.getElem_append_right (by omega)] at hraw
        simp only [List.getElem_singleton] at hraw
        cases hraw
  · unfold H
    intro hx
    have := congrArg List.length hx
    rw [List.length_reverse, List.length_take, sees_length] at this
    simp only [List.length_nil] at this
    omega
  · by_cases hl : i + 1 < text.length
    · rw [List.getElem_append_left hl]
      exact (good_cls T hg _ (ht _ (List.getElem_mem _))).2
    · left
      have : (text ++ [0])[i + 1] = 0 := by
        rw [List.getElem_append_right (by omega)]; simp
      rw [this]
      exact cls_zero T _

include ht in
theorem cut_says (i : Nat) (hi : i < text.length) :
    (cutL T text i = true → SaysYes (verdicts (breaker T) [b] (text ++ [0])) i ∨ SaysOnce (verdicts (breaker T) [b] (text ++ [0])) i) ∧
    (cutL T text i = false → SaysNo z0 (verdicts (breaker T) [b] (text ++ [0])) i) :=
  ⟨fun h => ((cut_says_cr hR text ht z0 i hi).1 h).imp id (·.1), (cut_says_cr hR text ht z0 i hi).2⟩

theorem verd_last : ∃ v, (verdicts (breaker T) [b] (text ++ [0]))[text.length]? = some v ∧ v.lam = 1 := by
  have hlt : text.length < (text ++ [0]).length := by simp
  have hc := sees_get T (text ++ [0]) text.length hlt
  have e0 : (text ++ [0])[text.length] = 0 := by rw [List.getElem_append_right (Nat.le_refl _)]; simp
  rw [e0, cls_zero] at hc
  obtain ⟨v, h1, ⟨l, h2, h2'⟩, _⟩ := verd T hR (text ++ [0]) text.length _ hc
  refine ⟨v, h1, ?_⟩
  rw [acts_eot] at h2'
  rcases h2'.eq with h | ⟨k, hk, _⟩
  · omega
  · cases hk

include ht in
theorem line_steady : Steady ⟨z0, z1, false⟩ (verdicts (breaker T) [b] (text ++ [0])) text.length :=
  decide_steady_once z0 z1 _ _ (cutL T text) (by rw [verdicts_length]; simp)
    (fun i hi => (cut_says hR text ht z0 i hi).1) (fun i hi => (cut_says hR text ht z0 i hi).2)

include ht in
theorem line_cut (i : Nat) (hi : i < text.length) :
    (cutTime ⟨z0, z1, false⟩ (verdicts (breaker T) [b] (text ++ [0])) text.length i).isSome = cutL T text i :=
  decide_cut_once z0 z1 _ _ (cutL T text) (by rw [verdicts_length]; simp)
    (by obtain ⟨v, h1, h2⟩ := verd_last (T := T) hR text; intro v' hv; rw [h1, Option.some.injEq] at hv; subst hv; omega)
    (fun i hi => (cut_says hR text ht z0 i hi).1) (fun i hi => (cut_says hR text ht z0 i hi).2) i hi

theorem line_mark : cutTime ⟨z0, z1, false⟩ (verdicts (breaker T) [b] (text ++ [0])) text.length text.length = none := by
  refine decide_mark z0 z1 _ _ (by rw [verdicts_length]; simp) ?_
  intro hr
  obtain ⟨v, h1, h2⟩ := verd_last (T := T) hR text
  unfold ripe at hr
  rw [Nat.add_zero, h1] at hr
  simp only [Option.map_some, Option.getD_some, decide_eq_true_eq] at hr
  omega

end

end Line
end Uax
