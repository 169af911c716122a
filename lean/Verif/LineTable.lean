import Verif.LineTotals
import Verif.SpecLine

/-! The penalties of the line breaker, compared with UAX#14 for all combinations of classes. The
rules for numbers are left out here. -/

namespace Uax
namespace Line

open SpecLine

/-- What is said about a position before the class after it is read; `a'` and `a` are the classes before. -/
def x0 (a' a : LClass) : Int := P1 a' a 0 + PN a' false a 0

/-- The same, with only what matters of `a'`. -/
def y0 (hl cr : Bool) (a : LClass) : Int := x0 (if hl then .HL else if cr then .CR else .AL) a

theorem x0_y0 (a' a : LClass) : x0 a' a = y0 (a' == .HL) (a' == .CR) a := by
  have : (classes.all fun a' => classes.all fun a => x0 a' a == y0 (a' == .HL) (a' == .CR) a) = true := by decide +kernel
  rw [List.all_eq_true] at this
  have := this a' (mem_classes a')
  rw [List.all_eq_true] at this
  simpa using this a (mem_classes a)

/-- Value at index 1, with default. -/
def fix1 (df x : Int) : Int := if x = 0 then df else x

/-- What is said after one more class; `n` comes from the rules for numbers. -/
def S1 (hl cr : Bool) (a b : LClass) (o : Bool) (d : LClass) (s : Bool) (df n : Int) : Int :=
  lift (y0 hl cr a) + lift (fix1 df (fin a b o d s 1 + n))

/-- `SpecLine.allowed`, with only what matters of the text before and after. -/
def allowedQ (hl q flags : Bool) (a b d : LClass) : Bool :=
  if a ∈ [LClass.BK, .LF, .NL] then true
  else if a = .CR then decide (d ≠ .LF)
  else if d ∈ [LClass.BK, .CR, .LF, .NL] then false
  else if d ∈ [LClass.SP, .ZW] then false
  else if b = .ZW then true
  else if d = .WJ ∨ a = .WJ then false
  else if a = .GL then false
  else if d = .GL ∧ a ∉ [LClass.SP, .BA, .HY] then false
  else if d ∈ [LClass.CL, .CP, .EX, .IS, .SY] then false
  else if b = .OP then false
  else if b = .QU ∧ d = .OP then false
  else if b ∈ [LClass.CL, .CP] ∧ d = .NS then false
  else if b = .B2 ∧ d = .B2 then false
  else if a = .SP then true
  else if d = .QU ∨ a = .QU then false
  else if d = .CB ∨ a = .CB then true
  else if d ∈ [LClass.BA, .HY, .NS] ∨ a = .BB then false
  else if a ∈ [LClass.HY, .BA] ∧ hl = true then false
  else if a = .SY ∧ d = .HL then false
  else if a ∈ [LClass.AL, .HL, .EX, .ID, .EB, .EM, .IN, .NU] ∧ d = .IN then false
  else if a ∈ [LClass.AL, .HL] ∧ d = .NU then false
  else if a = .NU ∧ d ∈ [LClass.AL, .HL] then false
  else if a = .PR ∧ d ∈ [LClass.ID, .EB, .EM] then false
  else if a ∈ [LClass.ID, .EB, .EM] ∧ d = .PO then false
  else if a ∈ [LClass.PR, .PO] ∧ d ∈ [LClass.AL, .HL] then false
  else if a ∈ [LClass.AL, .HL] ∧ d ∈ [LClass.PR, .PO] then false
  else if q = true then false
  else if a = .JL ∧ d ∈ [LClass.JL, .JV, .H2, .H3] then false
  else if a ∈ [LClass.JV, .H2] ∧ d ∈ [LClass.JV, .JT] then false
  else if a ∈ [LClass.JT, .H3] ∧ d = .JT then false
  else if a ∈ [LClass.JL, .JV, .JT, .H2, .H3] ∧ d ∈ [LClass.IN, .PO] then false
  else if a = .PR ∧ d ∈ [LClass.JL, .JV, .JT, .H2, .H3] then false
  else if a ∈ [LClass.AL, .HL] ∧ d ∈ [LClass.AL, .HL] then false
  else if a = .IS ∧ d ∈ [LClass.AL, .HL] then false
  else if a ∈ [LClass.AL, .HL, .NU] ∧ d = .OP then false
  else if a = .CP ∧ d ∈ [LClass.AL, .HL, .NU] then false
  else if flags = true ∧ d = .RI then false
  else if a = .EB ∧ d = .EM then false
  else true

theorem allowed_eq (flags : Bool) (h : List LClass) (d : LClass) (next : Option LClass) :
    allowed flags h d next = allowedQ (decide (h.tail.head? = some .HL)) (lb25 h d next) flags (h.headD .sot) (beforeSpaces h) d := by
  unfold allowed allowedQ
  simp only [decide_eq_true_eq]

/-- The classes next to a break that LB25 can suppress. -/
def pair25 (a d : LClass) : Bool :=
  decide (a ∈ [LClass.PR, .PO]) && decide (d ∈ [LClass.NU, .OP, .HY]) || decide (a ∈ [LClass.OP, .HY]) && d == .NU
  || decide (a ∈ [LClass.NU, .SY, .IS]) && decide (d ∈ [LClass.NU, .SY, .IS, .CL, .CP, .PO, .PR])
  || decide (a ∈ [LClass.CL, .CP]) && decide (d ∈ [LClass.PO, .PR])

/-- The classes that occur in texts. -/
def real : List LClass := [.AL, .B2, .BA, .BB, .BK, .CB, .CL, .CP, .CR, .EB, .EM, .EX, .GL, .H2, .H3, .HL, .HY,
  .ID, .IN, .IS, .JL, .JT, .JV, .LF, .NL, .NS, .NU, .OP, .PO, .PR, .QU, .RI, .SP, .SY, .WJ, .ZW]

def bools : List Bool := [false, true]

/-- Positions not after a space. -/
def table1 : Bool := real.all fun a => a == .SP || real.all fun d => bools.all fun hl => bools.all fun cr => bools.all fun o =>
  (o && a != .RI) || (hl && cr) ||
  (decide (S1 hl cr a a o d false 1 0 < 10000) == allowedQ hl false o a a d && S1 hl cr a a o d false 1 0 != 0)

theorem table1_ok : table1 = true := by decide +kernel

/-- Positions after spaces; `b` is before the spaces. -/
def table2 : Bool := (.sot :: real).all fun b => b == .SP || real.all fun d => bools.all fun hl => bools.all fun cr =>
  (hl && cr) || (decide (S1 hl cr .SP b false d false 1 0 < 10000) == allowedQ hl false false .SP b d && S1 hl cr .SP b false d false 1 0 != 0)

theorem table2_ok : table2 = true := by decide +kernel

/-- Positions between a character and a mark that combines with it. -/
def table3 : Bool := real.all fun a => alone [a] || bools.all fun hl => bools.all fun cr => bools.all fun o =>
  (o && a != .RI) || (hl && cr) || decide (10000 ≤ S1 hl cr a a o a true 10000 0)

theorem table3_ok : table3 = true := by decide +kernel

/-- The end of the text. -/
def table4 : Bool := real.all fun a => (.sot :: real).all fun b => bools.all fun hl => bools.all fun cr => bools.all fun o =>
  decide (S1 hl cr a b o .eot false 1 0 < 0)

theorem table4_ok : table4 = true := by decide +kernel

/-- Positions to which LB25 may apply. -/
def table5 : Bool := real.all fun a => real.all fun d => !pair25 a d || bools.all fun hl => bools.all fun cr => (hl && cr) ||
  (decide (0 ≤ S1 hl cr a a false d false 1 0) && decide (0 ≤ lift (y0 hl cr a)) && decide (0 ≤ fin a a false d false 1) && !allowedQ hl true false a a d &&
    a != .SP && a != .RI && d != .CR)

theorem table5_ok : table5 = true := by decide +kernel

theorem all_mem {α : Type} {l : List α} {f : α → Bool} (h : l.all f = true) {a : α} (ha : a ∈ l) : f a = true := List.all_eq_true.mp h a ha

theorem mem_bools (b : Bool) : b ∈ bools := by cases b <;> decide

theorem table1_use {a d : LClass} (ha : a ∈ real) (hd : d ∈ real) (hs : a ≠ .SP) {hl cr o : Bool} (ho : o = true → a = .RI) (hc : ¬ (hl = true ∧ cr = true)) :
    (S1 hl cr a a o d false 1 0 < 10000 ↔ allowedQ hl false o a a d = true) ∧ S1 hl cr a a o d false 1 0 ≠ 0 := by
  have h := all_mem table1_ok ha
  rw [Bool.or_eq_true, beq_iff_eq] at h
  have h := all_mem (all_mem (all_mem (all_mem (h.resolve_left hs) hd) (mem_bools hl)) (mem_bools cr)) (mem_bools o)
  simp only [Bool.or_eq_true, Bool.and_eq_true, bne_iff_ne, ne_eq, beq_iff_eq] at h
  rcases h with (⟨h1, h2⟩ | h) | ⟨h1, h2⟩
  · exact absurd (ho h1) h2
  · exact absurd h hc
  · exact ⟨by rw [← h1, decide_eq_true_eq], h2⟩

theorem table2_use {b d : LClass} (hb : b ∈ LClass.sot :: real) (hd : d ∈ real) (hs : b ≠ .SP) {hl cr : Bool} (hc : ¬ (hl = true ∧ cr = true)) :
    (S1 hl cr .SP b false d false 1 0 < 10000 ↔ allowedQ hl false false .SP b d = true) ∧ S1 hl cr .SP b false d false 1 0 ≠ 0 := by
  have h := all_mem table2_ok hb
  rw [Bool.or_eq_true, beq_iff_eq] at h
  have h := all_mem (all_mem (all_mem (h.resolve_left hs) hd) (mem_bools hl)) (mem_bools cr)
  simp only [Bool.or_eq_true, Bool.and_eq_true, bne_iff_ne, ne_eq, beq_iff_eq] at h
  rcases h with h | ⟨h1, h2⟩
  · exact absurd h hc
  · exact ⟨by rw [← h1, decide_eq_true_eq], h2⟩

theorem table3_use {a : LClass} (ha : a ∈ real) (hs : alone [a] = false) {hl cr o : Bool} (ho : o = true → a = .RI) (hc : ¬ (hl = true ∧ cr = true)) :
    10000 ≤ S1 hl cr a a o a true 10000 0 := by
  have h := all_mem table3_ok ha
  rw [Bool.or_eq_true, hs] at h
  have h := all_mem (all_mem (all_mem (h.resolve_left (by simp)) (mem_bools hl)) (mem_bools cr)) (mem_bools o)
  simp only [Bool.or_eq_true, Bool.and_eq_true, bne_iff_ne, ne_eq, decide_eq_true_eq] at h
  rcases h with (⟨h1, h2⟩ | h) | h
  · exact absurd (ho h1) h2
  · exact absurd h hc
  · exact h

theorem table4_use {a b : LClass} (ha : a ∈ real) (hb : b ∈ LClass.sot :: real) (hl cr o : Bool) : S1 hl cr a b o .eot false 1 0 < 0 := by
  have h := all_mem (all_mem (all_mem (all_mem (all_mem table4_ok ha) hb) (mem_bools hl)) (mem_bools cr)) (mem_bools o)
  exact of_decide_eq_true h

theorem table5_use {a d : LClass} (ha : a ∈ real) (hd : d ∈ real) (hp : pair25 a d = true) {hl cr : Bool} (hc : ¬ (hl = true ∧ cr = true)) :
    0 ≤ S1 hl cr a a false d false 1 0 ∧ 0 ≤ lift (y0 hl cr a) ∧ 0 ≤ fin a a false d false 1 ∧ allowedQ hl true false a a d = false ∧
    a ≠ .SP ∧ a ≠ .RI ∧ d ≠ .CR := by
  have h := all_mem (all_mem table5_ok ha) hd
  rw [hp, Bool.not_true, Bool.false_or] at h
  have h := all_mem (all_mem h (mem_bools hl)) (mem_bools cr)
  simp only [Bool.or_eq_true, Bool.and_eq_true, bne_iff_ne, ne_eq, decide_eq_true_eq, Bool.not_eq_true'] at h
  rcases h with h | ⟨⟨⟨⟨⟨⟨h1, h2⟩, h3⟩, h4⟩, h5⟩, h6⟩, h7⟩
  · exact absurd h hc
  · exact ⟨h1, h2, h3, h4, h5, h6, h7⟩

/-! ### Other positions in the lists of penalties -/

theorem fin_zero (a b : LClass) (o : Bool) (d : LClass) (s : Bool) : fin a b o d s 0 = x0 a d := by
  have h1 : ∀ b d, PS b d 0 = 0 := by
    have : (classes.all fun b => classes.all fun d => PS b d 0 == 0) = true := by decide +kernel
    intro b d
    simpa using all_mem (all_mem this (mem_classes b)) (mem_classes d)
  have h2 : ∀ a s d, PN a s d 0 = PN a false d 0 := by
    have : (classes.all fun a => bools.all fun s => classes.all fun d => PN a s d 0 == PN a false d 0) = true := by decide +kernel
    intro a s d
    simpa using all_mem (all_mem (all_mem this (mem_classes a)) (mem_bools s)) (mem_classes d)
  have h3 : PF o s d 0 = 0 := by unfold PF flagPens; split <;> rfl
  unfold fin x0
  rw [h1, h2, h3]
  omega

theorem fin_one_AL (a b : LClass) (o s : Bool) : fin a b o .AL s 1 = fin a b o .AL false 1 := by
  have h1 : PF o s .AL 1 = PF o false .AL 1 := by cases o <;> cases s <;> rfl
  unfold fin
  rw [h1]
  rfl

theorem sumAt_zero (j : Nat) (l : List (List Int)) (h : ∀ x ∈ l, x.length ≤ j) : sumAt j l = 0 := by
  unfold sumAt
  induction l with
  | nil => rfl
  | cons x l ih =>
    rw [List.map_cons, List.sum_cons, ih fun y hy => h y (List.mem_cons_of_mem _ hy)]
    have := h x List.mem_cons_self
    rw [List.getD_eq_getElem?_getD, List.getElem?_eq_none this]
    rfl

theorem fin_late (a b : LClass) (o : Bool) (d : LClass) (s : Bool) (m : Nat) : fin a b o d s (m + 2) = if m = 0 ∧ a = .CR then 10000 else 0 := by
  have h1 : PS b d (m + 2) = 0 := by
    have : (classes.all fun b => classes.all fun d => (spaced b).all fun k => decide ((spPens k.fn d).length ≤ 2)) = true := by decide +kernel
    have := all_mem (all_mem this (mem_classes b)) (mem_classes d)
    apply sumAt_zero
    intro x hx
    obtain ⟨k, hk, rfl⟩ := List.mem_map.mp hx
    have := of_decide_eq_true (all_mem this hk)
    omega
  have h2 : PN a s d (m + 2) = 0 := by
    have : (classes.all fun a => bools.all fun s => classes.all fun d => (starts d).all fun k => decide ((newPens a s k.fn d).length ≤ 2)) = true := by decide +kernel
    have := all_mem (all_mem (all_mem this (mem_classes a)) (mem_bools s)) (mem_classes d)
    apply sumAt_zero
    intro x hx
    obtain ⟨k, hk, rfl⟩ := List.mem_map.mp hx
    have := of_decide_eq_true (all_mem this hk)
    omega
  have h3 : PF o s d (m + 2) = 0 := by unfold PF flagPens; split <;> rfl
  have h4 : P1 a d (m + 2) = if m = 0 ∧ a = .CR then 10000 else 0 := by
    cases m with
    | zero =>
      have : (classes.all fun a => classes.all fun d => P1 a d 2 == if a = .CR then 10000 else 0) = true := by decide +kernel
      have := all_mem (all_mem this (mem_classes a)) (mem_classes d)
      simpa using this
    | succ m =>
      rw [if_neg (by omega)]
      have : (classes.all fun a => classes.all fun d => (pairs a).all fun k => decide ((pairPens k.fn d).length ≤ 3)) = true := by decide +kernel
      have := all_mem (all_mem this (mem_classes a)) (mem_classes d)
      apply sumAt_zero
      intro x hx
      obtain ⟨k, hk, rfl⟩ := List.mem_map.mp hx
      have := of_decide_eq_true (all_mem this hk)
      omega
  unfold fin
  rw [h1, h2, h3, h4]
  omega

end Line
end Uax
