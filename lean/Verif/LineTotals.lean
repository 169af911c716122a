import Verif.LineProofs

/-! What the line breaker's rules say in total when a class is read. -/

namespace Uax
namespace Line

open Bank

theorem p_vals : p 8 = 417 ∧ p 11 = 190 ∧ p 12 = 146 ∧ p 13 = 112 ∧ p 14 = 86 ∧ p 15 = 66 ∧ p 16 = 51 ∧ p 17 = 39 ∧ p 18 = 30 ∧ p 19 = 23 ∧
    p 20 = 17 ∧ p 21 = 13 ∧ p 22 = 10 ∧ p 23 = 8 ∧ p 25 = 4 ∧ p 26 = 3 ∧ p 27 = 2 ∧ p 28 = 2 ∧ p 29 = 2 ∧ p 30 = 2 := by decide +kernel

/-- What a rule that waits for one more class says when it gets it. -/
def pairPens : Rule → LClass → List Int
  | .CRLF, d => if d = .LF then [-19000, 10000, 10000] else [0, -19000, 10000]
  | .fLB21a, d => if d ∈ [LClass.HY, .BA] then [13] else []
  | .fLB21b, d => if d ∈ [LClass.HL] then [0, 13] else []
  | .fLB22, d => if d ∈ [LClass.IN] then [0, 10] else []
  | .fLB23_1, d => if d ∈ [LClass.NU] then [0, 8] else []
  | .fLB23_2, d => if d ∈ [LClass.AL, .HL] then [0, 8] else []
  | .fLB23a_1, d => if d ∈ [LClass.ID, .EB, .EM] then [0, 8] else []
  | .fLB23a_2, d => if d ∈ [LClass.PO] then [0, 8] else []
  | .fLB24a_1, d => if d ∈ [LClass.AL, .HL] then [0, 8] else []
  | .fLB24a_2, d => if d ∈ [LClass.PR, .PO] then [0, 8] else []
  | .fLB26_1, d => if d ∈ [LClass.JL, .JV, .H2, .H3] then [0, 3] else []
  | .fLB26_2, d => if d ∈ [LClass.JV, .JT] then [0, 3] else []
  | .fLB26_3, d => if d ∈ [LClass.JT] then [0, 3] else []
  | .fLB27_1, d => if d ∈ [LClass.IN, .PO] then [0, 2] else []
  | .fLB27_2, d => if d ∈ [LClass.JL, .JV, .JT, .H2, .H3] then [0, 2] else []
  | .fLB28, d => if d ∈ [LClass.AL, .HL] then [0, 2] else []
  | .fLB29, d => if d ∈ [LClass.AL, .HL] then [0, 2] else []
  | .fLB30_1, d => if d ∈ [LClass.OP] then [0, 2] else []
  | .fLB30_2, d => if d ∈ [LClass.AL, .HL, .NU] then [0, 2] else []
  | .fLB30b, d => if d ∈ [LClass.EM] then [0, 2] else []
  | _, _ => []

/-- What a rule that skips spaces says. -/
def spPens : Rule → LClass → List Int
  | .fLB8, d => if d = .SP then [] else [0, -417]
  | .fLB14, d => if d = .SP then [] else [0, 86]
  | .fLB15, d => if d = .OP then [0, 66] else []
  | .fLB16, d => if d = .NS then [0, 51] else []
  | .fLB17, d => if d = .B2 then [0, 39] else []
  | _, _ => []

/-- What a new recognizer says at once; `a` is the class before. -/
def newPens (a : LClass) (s : Bool) : Rule → LClass → List Int
  | .LB3, _ => [0, -19000]
  | .NewLine, d => if d ∈ [LClass.BK, .NL, .LF] then [-19000] else []
  | .HardBreak, d => if d ∈ [LClass.BK, .NL, .LF, .CR] then [0, 10000] else []
  | .LB7, _ => [0, 10000]
  | .LB8a, _ => [417]
  | .LB11, _ => [190, 190]
  | .LB12, _ => if a = .SP ∨ a = .BA ∨ a = .HY then [146] else [146, 146]
  | .LB13, _ => [0, 112]
  | .LB18, _ => [-30]
  | .LB19, _ => [23, 23]
  | .LB20, _ => if a = .CB ∧ s = true then [-17, 17] else [-17, -17]
  | .LB21, _ => [0, 13]
  | .LB21x, _ => [13]
  | _, _ => []

def flagPens (o s : Bool) (d : LClass) : List Int := if o = true ∧ d = .RI ∧ s = false then [0, 2] else []

theorem pair_pens (g : Ctx) (k : LK) (hk : isPair k.fn = true) (hm : k.ml = 1) (d : LClass) : (evOf g k d.num).2 = pairPens k.fn d := by
  obtain ⟨fn, ml⟩ := k
  simp only at hk hm
  subst hm
  obtain ⟨v1, v2, v3, v4, v5, v6, v7, v8, v9, v10, v11, v12, v13, v14, v15, v16, v17, v18, v19, v20⟩ := p_vals
  revert hk
  cases fn <;> intro hk <;> first
    | (cases hk; done)
    | (simp only [ev_eq, run, accIf, isIn_num, pairPens, decide_eq_true_eq, v1, v2, v3, v4, v5, v6, v7, v8, v9, v10, v11, v12, v13, v14, v15, v16, v17, v18, v19, v20, List.mem_singleton]; split <;> rfl)

theorem sp_pens (g : Ctx) (k : LK) (hk : isSp k.fn = true) (hm : k.ml = 1) (d : LClass) : (evOf g k d.num).2 = spPens k.fn d := by
  obtain ⟨fn, ml⟩ := k
  simp only at hk hm
  subst hm
  obtain ⟨v1, v2, v3, v4, v5, v6, v7, v8, v9, v10, v11, v12, v13, v14, v15, v16, v17, v18, v19, v20⟩ := p_vals
  revert hk
  by_cases hd : d = .SP
  · subst hd
    cases fn <;> intro hk <;> first | (cases hk; done) | rfl
  · cases fn <;> intro hk <;> first
      | (cases hk; done)
      | (simp only [ev_eq, run, accIf, isIn_num, spPens, decide_eq_true_eq, v1, v2, v3, v4, v5, v6, v7, v8, v9, v10, v11, v12, v13, v14, v15, v16, v17, v18, v19, v20, List.mem_singleton, hd, if_false]; first | rfl | (split <;> rfl))

theorem new_pens (a : LClass) (s : Bool) (d : LClass) (k : LK) (hk : k ∈ starts d) : (evOf ⟨false, a, s, false⟩ k d.num).2 = newPens a s k.fn d := by
  have h0 : k.ml = 0 ∧ isPair k.fn = false ∧ isSp k.fn = false ∧ numFn k.fn = false ∧ touches k = false := by
    have : ∀ k ∈ starts d, k.ml = 0 ∧ isPair k.fn = false ∧ isSp k.fn = false ∧ numFn k.fn = false ∧ touches k = false := by cases d <;> decide
    exact this k hk
  clear hk
  obtain ⟨fn, ml⟩ := k
  obtain ⟨hm, h1, h2, h3, h4⟩ := h0
  simp only at hm h1 h2 h3
  subst hm
  obtain ⟨v1, v2, v3, v4, v5, v6, v7, v8, v9, v10, v11, v12, v13, v14, v15, v16, v17, v18, v19, v20⟩ := p_vals
  revert h1 h2 h3 h4
  cases fn <;> intro h1 h2 h3 h4 <;> first
    | (cases h1; done)
    | (cases h2; done)
    | (cases h3; done)
    | (cases h4; done)
    | rfl
    | (cases d <;> rfl; done)
    | (simp only [ev_eq, run, accIf, isIn_num, newPens, decide_eq_true_eq, v1, v2, v3, v4, v5, v6, v7, v8, v9, v10, v11, v12, v13, v14, v15, v16, v17, v18, v19, v20]; split <;> rfl)

theorem flag_pens (a : LClass) (o s : Bool) (d : LClass) (j : Nat) :
    ((flag o ++ startsFlag d o).map fun k => (evOf ⟨false, a, s, false⟩ k d.num).2.getD j 0).sum = (flagPens o s d).getD j 0 := by
  have v20 : p 30 = 2 := p_vals.2.2.2.2.2.2.2.2.2.2.2.2.2.2.2.2.2.2.2
  by_cases hc : d = .RI
  · subst hc
    have h1 : isIn LClass.RI.num [LClass.RI] = true := rfl
    cases o <;> cases s <;> simp [flag, startsFlag, flagPens, ev_eq, run, h1, more, stay, acc, Rec.doAccept, v20]
  · have h1 : isIn d.num [LClass.RI] = false := by rw [isIn_num]; simpa using hc
    cases o <;> simp [flag, startsFlag, flagPens, hc, ev_eq, run, h1, abort, Rec.doAbort]

/-- Sums of penalties at an index. -/
def sumAt (j : Nat) (l : List (List Int)) : Int := (l.map fun x => x.getD j 0).sum

def P1 (a d : LClass) (j : Nat) : Int := sumAt j ((pairs a).map fun k => pairPens k.fn d)
def PS (b d : LClass) (j : Nat) : Int := sumAt j ((spaced b).map fun k => spPens k.fn d)
def PN (a : LClass) (s : Bool) (d : LClass) (j : Nat) : Int := sumAt j ((starts d).map fun k => newPens a s k.fn d)
def PF (o s : Bool) (d : LClass) (j : Nat) : Int := (flagPens o s d).getD j 0

/-- What all rules except those for numbers say. -/
def fin (a b : LClass) (o : Bool) (d : LClass) (s : Bool) (j : Nat) : Int := P1 a d j + PS b d j + PN a s d j + PF o s d j

/-- What the rules for numbers say. -/
def n25 (h : List LC) (c : LC) (j : Nat) : Int := ((nums h ++ startsNum c.1).map fun k => (evOf (gOf h c) k c.1.num).2.getD j 0).sum

theorem map_congr' {α β : Type} {l : List α} {f g : α → β} (h : ∀ a ∈ l, f a = g a) : l.map f = l.map g := List.map_congr_left h

theorem tot_parts (h : List LC) (c : LC) (j : Nat) :
    tot h c j = fin (last h) (last (skip h)) (odd h) c.1 c.2 j + n25 h c j := by
  unfold tot listen acts n25
  have e1 : ((pairs (last h)).map fun k => (evOf (gOf h c) k c.1.num).2.getD j 0).sum = P1 (last h) c.1 j := by
    unfold P1 sumAt
    rw [List.map_map]
    congr 1
    exact map_congr' fun k hk => by rw [pair_pens _ k (pairs_are _ k hk).1 (pairs_are _ k hk).2]; rfl
  have e2 : ((spaced (last (skip h))).map fun k => (evOf (gOf h c) k c.1.num).2.getD j 0).sum = PS (last (skip h)) c.1 j := by
    unfold PS sumAt
    rw [List.map_map]
    congr 1
    exact map_congr' fun k hk => by rw [sp_pens _ k (spaced_are _ k hk).1 (spaced_are _ k hk).2]; rfl
  have e3 : ((starts c.1).map fun k => (evOf (gOf h c) k c.1.num).2.getD j 0).sum = PN (last h) c.2 c.1 j := by
    unfold PN sumAt
    rw [List.map_map]
    congr 1
    exact map_congr' fun k hk => by unfold gOf; rw [new_pens _ _ _ k hk]; rfl
  have e4 := flag_pens (last h) (odd h) c.2 c.1 j
  rw [List.map_append, List.sum_append] at e4
  have e4' : ((flag (odd h)).map fun k => (evOf (gOf h c) k c.1.num).2.getD j 0).sum +
      ((startsFlag c.1 (odd h)).map fun k => (evOf (gOf h c) k c.1.num).2.getD j 0).sum = PF (odd h) c.2 c.1 j := e4
  simp only [List.map_append, List.sum_append]
  unfold fin
  omega

end Line
end Uax
