import Verif.WordVerdict
import Verif.SpecWord

/-! The breaker decides as the rules of UAX#29 do. -/

namespace Uax
open Seg

namespace Word
open SpecWord

/-- The class the breaker sees. -/
def toC (x : WChar) : WClass := if x.wb = .Other then (if x.pict then .Pict else .Other) else x.wb

/-- A property of the Unicode character database. -/
def Real (x : WChar) : Prop := x.wb ≠ .Pict ∧ x.wb ≠ .eot

theorem toC_mem {x : WChar} (hx : Real x) (c : WClass) (h1 : c ≠ .Pict) (h2 : c ≠ .Other) : toC x = c ↔ x.wb = c := by
  unfold toC
  split
  · rename_i h
    rw [h]
    split
    · exact ⟨fun h => absurd h.symm h1, fun h => absurd h.symm h2⟩
    · exact Iff.rfl
  · exact Iff.rfl

theorem toC_ign {x : WChar} : (toC x).ign = ignorable x := by
  obtain ⟨c, p⟩ := x
  cases c <;> cases p <;> rfl

theorem skip_map (l : List WChar) : (strip l).map toC = skip (l.map toC) := by
  unfold strip skip
  induction l with
  | nil => rfl
  | cons x l ih =>
    rw [List.map_cons, List.dropWhile_cons, List.dropWhile_cons, toC_ign]
    split
    · exact ih
    · rfl

theorem starts_hd (cs : List WClass) (P : WClass → Bool) (hP : ∀ x, Real x → P (toC x) = decide (x.wb ∈ cs)) (l : List WChar) (hl : ∀ x ∈ l, Real x) :
    starts cs l = hd P (l.map toC) := by
  cases l with
  | nil => rfl
  | cons x l => exact (hP x (hl x List.mem_cons_self)).symm

theorem hd_end (P : WClass → Bool) (hP : P .eot = false) (l : List WClass) : hd P (l ++ [.eot]) = hd P l := by
  cases l with
  | nil => exact hP
  | cons x l => rfl

theorem skip_end (P : WClass → Bool) (hP : P .eot = false) (l : List WClass) : hd P (skip (l ++ [.eot])) = hd P (skip l) := by
  induction l with
  | nil => exact hP
  | cons x l ih =>
    cases hx : x.ign with
    | true => rw [List.cons_append, skip_ign hx, skip_ign hx, ih]
    | false => rw [List.cons_append, skip_not hx, skip_not hx]; rfl

theorem odd_count (l : List WChar) (hl : ∀ x ∈ l, Real x) :
    odd (l.map toC) = decide (((l.filter fun x => !ignorable x).takeWhile fun x => x.wb == .RI).length % 2 = 1) := by
  induction l with
  | nil => rfl
  | cons x l ih =>
    have ih := ih fun y hy => hl y (List.mem_cons_of_mem _ hy)
    rw [List.map_cons]
    unfold odd
    rw [toC_ign]
    cases hx : ignorable x with
    | true => rw [if_pos rfl, List.filter_cons_of_neg (by simp [hx])]; exact ih
    | false =>
      rw [if_neg (by simp), List.filter_cons_of_pos (by simp [hx])]
      by_cases hr : x.wb = .RI
      · rw [if_pos ((toC_mem (hl x List.mem_cons_self) _ (by simp) (by simp)).mpr hr), List.takeWhile_cons_of_pos (by simpa using hr), ih, List.length_cons]
        generalize List.length _ = n
        by_cases h : n % 2 = 1
        · rw [decide_eq_true h, decide_eq_false (by omega)]; rfl
        · rw [decide_eq_false h, decide_eq_true (by omega)]; rfl
      · rw [if_neg (fun h => hr ((toC_mem (hl x List.mem_cons_self) _ (by simp) (by simp)).mp h)), List.takeWhile_cons_of_neg (by simpa using hr)]; rfl

theorem strip_real {l : List WChar} (hl : ∀ x ∈ l, Real x) : ∀ x ∈ strip l, Real x := fun x hx => hl x ((List.dropWhile_sublist _).subset hx)

theorem tail_real {l : List WChar} (hl : ∀ x ∈ l, Real x) : ∀ x ∈ l.tail, Real x := fun x hx => hl x (List.mem_of_mem_tail hx)

theorem tail_map (l : List WChar) : (l.tail).map toC = (l.map toC).tail := by cases l <;> rfl

theorem lft_names : lft .WB5 = WClass.ah ∧ lft .WB6_7 = WClass.ah ∧ lft .WB9 = WClass.ah ∧ lft .WB8 = (· == .Numeric) ∧ lft .WB10 = (· == .Numeric) ∧
    lft .WB11 = (· == .Numeric) ∧ lft .WB7a = (· == .HebrewLetter) ∧ lft .WB7bc = (· == .HebrewLetter) ∧ lft .WB13 = (· == .Katakana) ∧
    lft .WB13b = (· == .ExtendNumLet) := by
  refine ⟨?_, ?_, ?_, ?_, ?_, ?_, ?_, ?_, ?_, ?_⟩ <;> funext c <;> rfl

theorem rgt_names : rgt .WB6_7 = WClass.ah ∧ rgt .WB7bc = (· == .HebrewLetter) ∧ rgt .WB11 = (· == .Numeric) ∧ mid .WB7bc = (· == .DoubleQuote) := by
  refine ⟨?_, ?_, ?_, ?_⟩ <;> funext c <;> rfl

theorem mid_pair {R : Rule} (h : isTriple R = false) (l : List WClass) : hd (mid R) l = false := by
  cases l with
  | nil => rfl
  | cons c l => cases R <;> first | rfl | (cases h; done)

/-- The rules, on the classes the breaker sees. -/
theorem wb_boundary (a b : WChar) (bef aft : List WChar) (ha : ∀ x ∈ a :: bef, Real x) (hb : Real b) (hr : ∀ x ∈ aft, Real x)
    (hp : b.pict = true → b.wb = .Other) :
    wb ((a :: bef).map toC) (toC b) (aft.map toC ++ [.eot]) = wBoundary false (a :: bef) (b :: aft) := by
  have hprev := strip_real ha
  have hbefore := strip_real (tail_real hprev)
  have hnext := strip_real hr
  have key : ∀ (cs : List WClass) (P : WClass → Bool), (∀ c p, c ≠ .Pict → c ≠ .eot → P (toC ⟨c, p⟩) = decide (c ∈ cs)) →
      starts cs (strip (a :: bef)) = hd P (skip ((a :: bef).map toC)) ∧
      starts cs (strip (strip (a :: bef)).tail) = hd P (skip (skip ((a :: bef).map toC)).tail) ∧
      starts cs (strip aft) = hd P (skip (aft.map toC)) ∧ starts cs aft = hd P (aft.map toC) := by
    intro cs P hP'
    have hP : ∀ x, Real x → P (toC x) = decide (x.wb ∈ cs) := fun x hx => hP' x.wb x.pict hx.1 hx.2
    refine ⟨?_, ?_, ?_, ?_⟩
    · rw [starts_hd cs P hP _ hprev, skip_map]
    · rw [starts_hd cs P hP _ hbefore, skip_map, tail_map, skip_map]
    · rw [starts_hd cs P hP _ hnext, skip_map]
    · rw [starts_hd cs P hP _ hr]
  have kAH := key AHLetter WClass.ah (by intro c p; cases c <;> cases p <;> simp [toC, AHLetter, WClass.ah])
  have kHL := key [.HebrewLetter] (· == .HebrewLetter) (by intro c p; cases c <;> cases p <;> simp [toC])
  have kN := key [.Numeric] (· == .Numeric) (by intro c p; cases c <;> cases p <;> simp [toC])
  have kK := key [.Katakana] (· == .Katakana) (by intro c p; cases c <;> cases p <;> simp [toC])
  have kE := key [.ExtendNumLet] (· == .ExtendNumLet) (by intro c p; cases c <;> cases p <;> simp [toC])
  have kDQ := key [.DoubleQuote] (· == .DoubleQuote) (by intro c p; cases c <;> cases p <;> simp [toC])
  have kML := key (.MidLetter :: MidNumLetQ) (mid .WB6_7) (by intro c p; cases c <;> cases p <;> simp [toC, MidNumLetQ, mid])
  have kMN := key (.MidNum :: MidNumLetQ) (mid .WB11) (by intro c p; cases c <;> cases p <;> simp [toC, MidNumLetQ, mid])
  have kA := key [.ALetter, .HebrewLetter, .Numeric, .Katakana, .ExtendNumLet] (lft .WB13a) (by intro c p; cases c <;> cases p <;> simp [toC, lft, WClass.ah])
  have kOdd := odd_count (a :: bef) ha
  have hnl : hd WClass.nl ((a :: bef).map toC) = decide (a.wb ∈ [.Newline, .CR, .LF]) := by
    obtain ⟨c, p⟩ := a
    have := ha _ List.mem_cons_self
    cases c <;> cases p <;> rfl
  have hcr : hd (· == .CR) ((a :: bef).map toC) = decide (a.wb = .CR) := by
    obtain ⟨c, p⟩ := a
    cases c <;> cases p <;> rfl
  have hzwj : hd (· == .ZWJ) ((a :: bef).map toC) = decide (a.wb = .ZWJ) := by
    obtain ⟨c, p⟩ := a
    cases c <;> cases p <;> rfl
  have hws : hd (· == .WSegSpace) ((a :: bef).map toC) = decide (a.wb = .WSegSpace) := by
    obtain ⟨c, p⟩ := a
    cases c <;> cases p <;> rfl
  simp only [wBoundary, kAH, kHL, kN, kK, kE, kDQ, kML, kMN, kA, Bool.false_eq_true, if_false]
  have hodd : ((((a :: bef).filter fun x => !ignorable x).takeWhile fun x => x.wb == .RI).length % 2 = 1) ↔ odd ((a :: bef).map toC) = true := by
    rw [kOdd, decide_eq_true_eq]
  simp only [hodd]
  unfold wb
  simp only [hcr, hnl]
  have futs : ∀ R, (rgt R .eot = false) → fut R ((a :: bef).map toC) (toC b) (aft.map toC ++ [.eot]) = fut R ((a :: bef).map toC) (toC b) (aft.map toC) := by
    intro R hR
    unfold fut
    split
    · rw [hd_end _ hR]
    · rw [skip_end _ hR]
  have e1 : ∀ R ∈ triples, fut R ((a :: bef).map toC) (toC b) (aft.map toC ++ [.eot]) = fut R ((a :: bef).map toC) (toC b) (aft.map toC) :=
    fun R _ => futs R (by cases R <;> rfl)
  have e2 : (triples.any fun R => fut R ((a :: bef).map toC) (toC b) (aft.map toC ++ [.eot])) = triples.any fun R => fut R ((a :: bef).map toC) (toC b) (aft.map toC) := by
    simp only [triples, List.any_cons, List.any_nil]
    rw [e1 _ (by decide), e1 _ (by decide), e1 _ (by decide)]
  rw [e2]
  clear e1 e2 futs kOdd hodd kAH kHL kN kK kE kDQ kML kMN kA key hprev hbefore hnext
  simp only [allRules, triples, List.any_cons, List.any_nil, joins, fut, midRead, hzwj, hws, hnl]
  rw [mid_pair (R := .WB5) rfl, mid_pair (R := .WB7a) rfl, mid_pair (R := .WB8) rfl, mid_pair (R := .WB9) rfl, mid_pair (R := .WB10) rfl,
    mid_pair (R := .WB13) rfl, mid_pair (R := .WB13a) rfl, mid_pair (R := .WB13b) rfl]
  rw [show isTriple .WB5 = false from rfl, show isTriple .WB7a = false from rfl, show isTriple .WB8 = false from rfl, show isTriple .WB9 = false from rfl,
    show isTriple .WB10 = false from rfl, show isTriple .WB13 = false from rfl, show isTriple .WB13a = false from rfl, show isTriple .WB13b = false from rfl,
    show isTriple .WB6_7 = true from rfl, show isTriple .WB7bc = true from rfl, show isTriple .WB11 = true from rfl]
  obtain ⟨l1, l2, l3, l4, l5, l6, l7, l8, l9, l10⟩ := lft_names
  obtain ⟨r1, r2, r3, r4⟩ := rgt_names
  simp only [l1, l2, l3, l4, l5, l6, l7, l8, l9, l10, r1, r2, r3, r4, if_true, reduceCtorEq, if_false]
  clear l1 l2 l3 l4 l5 l6 l7 l8 l9 l10 r1 r2 r3 r4 hnl hcr hzwj hws ha hr
  generalize hd WClass.ah (skip ((a :: bef).map toC)) = x1
  generalize hd (· == WClass.Numeric) (skip ((a :: bef).map toC)) = x2
  generalize hd (· == WClass.HebrewLetter) (skip ((a :: bef).map toC)) = x3
  generalize hd (· == WClass.Katakana) (skip ((a :: bef).map toC)) = x4
  generalize hd (· == WClass.ExtendNumLet) (skip ((a :: bef).map toC)) = x5
  generalize hd (· == WClass.DoubleQuote) (skip ((a :: bef).map toC)) = x6
  generalize hd (mid .WB6_7) (skip ((a :: bef).map toC)) = x7
  generalize hd (mid .WB11) (skip ((a :: bef).map toC)) = x8
  generalize hd (lft .WB13a) (skip ((a :: bef).map toC)) = x9
  generalize odd ((a :: bef).map toC) = x10
  generalize skip (skip ((a :: bef).map toC)).tail = l1
  generalize hd WClass.ah l1 = y1
  generalize hd (· == WClass.Numeric) l1 = y2
  generalize hd (· == WClass.HebrewLetter) l1 = y3
  generalize hd WClass.ah (skip (aft.map toC)) = z1
  generalize hd (· == WClass.Numeric) (skip (aft.map toC)) = z2
  generalize hd (· == WClass.HebrewLetter) (aft.map toC) = z3
  obtain ⟨c, p⟩ := b
  obtain ⟨hb1, hb2⟩ := hb
  simp only at hp hb1 hb2 ⊢
  have hp' : p = false ∨ c = .Other := by
    cases p with
    | false => exact Or.inl rfl
    | true => exact Or.inr (hp rfl)
  clear hp
  generalize a.wb = ac
  cases c <;> simp at hb1 hb2 hp' <;> (try subst hp') <;> (try cases p) <;>
    simp [toC, WClass.nl, WClass.ign, WClass.ah, rgt, mid, ignorable, AHLetter, MidNumLetQ] <;>
    (try (cases ac <;> simp <;> grind))

end Word
end Uax
