import Verif.SpecByLine
import Verif.SpecGrapheme
import Verif.SpecWord
import Verif.SpecLine

/-! Boundaries within a line do not depend on the lines around it. -/

namespace Uax

theorem pieces_append {α : Type} (m : α → Bool) : ∀ (l1 acc l2 : List α), (l1 = [] → acc = []) → (∀ x, l1.getLast? = some x → m x = true) →
    pieces m acc (l1 ++ l2) = pieces m acc l1 ++ pieces m [] l2
  | [], acc, l2, h, _ => by rw [h rfl]; rfl
  | a :: l1, acc, l2, _, h2 => by
    simp only [List.cons_append, pieces]
    split
    · rw [pieces_append m l1 [] l2 (fun _ => rfl)
        (fun x hx => h2 x (by cases l1 with | nil => cases hx | cons b l => rw [List.getLast?_cons_cons]; exact hx))]
      rfl
    · rename_i hm
      apply pieces_append m l1 _ l2
      · intro e
        subst e
        exact absurd (h2 a rfl) hm
      · intro x hx
        exact h2 x (by cases l1 with | nil => cases hx | cons b l => rw [List.getLast?_cons_cons]; exact hx)

/-- Cutting a text of two parts. -/
theorem cutAfter_append (c c1 c2 : Nat → Bool) (xs ys : List Int) (h1 : ∀ i, i < xs.length → c i = c1 i)
    (h2 : ∀ i, i < ys.length → c (xs.length + i) = c2 i) (hl : ∀ i, i + 1 = xs.length → c i = true) :
    cutAfter c (xs ++ ys) = cutAfter c1 xs ++ cutAfter c2 ys := by
  unfold cutAfter
  have e : ((xs ++ ys).mapIdx fun i r => (r, c i)) = (xs.mapIdx fun i r => (r, c1 i)) ++ (ys.mapIdx fun i r => (r, c2 i)) := by
    rw [List.mapIdx_append]
    congr 1
    · apply List.ext_getElem?
      intro i
      rw [List.getElem?_mapIdx, List.getElem?_mapIdx]
      cases hx : xs[i]? with
      | none => rfl
      | some r => rw [Option.map_some, Option.map_some, h1 i (List.getElem?_eq_some_iff.mp hx).1]
    · apply List.ext_getElem?
      intro i
      rw [List.getElem?_mapIdx, List.getElem?_mapIdx]
      cases hx : ys[i]? with
      | none => rfl
      | some r => rw [Option.map_some, Option.map_some, Nat.add_comm i, h2 i (List.getElem?_eq_some_iff.mp hx).1]
  rw [e, pieces_append, List.map_append]
  · intro _; rfl
  · intro x hx
    rw [List.getLast?_eq_getElem?, List.getElem?_mapIdx, List.length_mapIdx] at hx
    cases hy : xs[xs.length - 1]? with
    | none => rw [hy] at hx; cases hx
    | some r =>
      rw [hy] at hx
      have hlt := (List.getElem?_eq_some_iff.mp hy).1
      cases hx
      show c1 (xs.length - 1) = true
      rw [← h1 _ hlt]
      exact hl _ (by omega)

/-- Cutting with a boundary function. -/
def cutWith {γ : Type} (B : List γ → List γ → Bool) (cl : Int → γ) (text : List Int) : List (List Int) :=
  cutAfter (fun i => B ((text.take (i + 1)).map cl).reverse ((text.drop (i + 1)).map cl)) text

/-- The boundary function does not look over a line end `x`, which is followed by `second`. -/
structure Stops {γ : Type} (B : List γ → List γ → Bool) (x : γ) (second : List γ) : Prop where
  last : ∀ bef, B (x :: bef) [] = true
  cut : ∀ bef, B (x :: bef) second = true
  before : ∀ a bef post, B (a :: bef) (post ++ x :: second) = B (a :: bef) (post ++ [x])
  behind : ∀ a pre bef post, B (a :: (pre ++ x :: bef)) post = B (a :: pre) post

theorem cutWith_append {γ : Type} (B : List γ → List γ → Bool) (cl : Int → γ) (front second : List Int) (x : Int)
    (h : Stops B (cl x) (second.map cl)) :
    cutWith B cl ((front ++ [x]) ++ second) = cutWith B cl (front ++ [x]) ++ cutWith B cl second := by
  have hlast : ∀ i, i + 1 = (front ++ [x]).length →
      (B ((((front ++ [x]) ++ second).take (i + 1)).map cl).reverse ((((front ++ [x]) ++ second).drop (i + 1)).map cl)) = true := by
    intro i hi
    rw [hi, List.take_left, List.drop_left, List.map_append, List.reverse_append]
    exact h.cut _
  refine cutAfter_append _ _ _ _ _ ?_ ?_ hlast
  · intro i hi
    by_cases he : i + 1 = (front ++ [x]).length
    · rw [hlast i he, he, List.take_length, List.drop_length, List.map_append, List.reverse_append]
      exact (h.last _).symm
    · have hlt : i + 1 ≤ front.length := by rw [List.length_append] at hi he; simp only [List.length_singleton] at hi he; omega
      have hi' : i < front.length := hlt
      rw [List.append_assoc, List.take_append_of_le_length hlt, List.drop_append_of_le_length hlt, List.take_append_of_le_length hlt,
        List.drop_append_of_le_length hlt, List.take_succ_eq_append_getElem hi', List.map_append, List.reverse_append, List.map_append, List.map_append, List.map_append]
      exact h.before _ _ _
  · intro i hi
    have e : (front ++ [x]).length + i + 1 = (front ++ [x]).length + (i + 1) := by omega
    rw [e, List.take_length_add_append, List.drop_length_add_append, List.map_append, List.reverse_append,
      List.take_succ_eq_append_getElem hi, List.map_append, List.reverse_append, List.map_append, List.reverse_append]
    exact h.behind _ _ _ _

/-- Lines are cut on their own. -/
theorem cutWith_lines {γ : Type} (B : List γ → List γ → Bool) (cl : Int → γ) (ends cr lf : Int → Prop)
    (h : ∀ x second, ends x → ¬ (cr x ∧ ∃ y rest, second = y :: rest ∧ lf y) → Stops B (cl x) (second.map cl)) :
    ∀ ls : List (List Int), Lines ends cr lf ls → cutWith B cl ls.flatten = (ls.map (cutWith B cl)).flatten
  | [], _ => rfl
  | [l], _ => by rw [List.flatten_cons, List.flatten_nil, List.append_nil, List.map_cons, List.map_nil, List.flatten_cons, List.flatten_nil, List.append_nil]
  | l :: l' :: ls, ⟨⟨front, x, e, hx, hn⟩, hl⟩ => by
    show cutWith B cl (l ++ (l' :: ls).flatten) = cutWith B cl l ++ ((l' :: ls).map (cutWith B cl)).flatten
    rw [← cutWith_lines B cl ends cr lf h (l' :: ls) hl, e]
    apply cutWith_append
    apply h x _ hx
    intro ⟨h1, y, rest, e2, h2⟩
    cases l' with
    | cons z zs => injection e2 with e2 e3; subst e2; exact hn ⟨h1, z, zs, rfl, h2⟩
    | nil =>
      cases ls with
      | nil => cases e2
      | cons l'' ls => obtain ⟨f, w, e4, _⟩ := hl.1; cases f <;> cases e4

/-! ### Graphemes -/

theorem dropWhile_stop {α : Type} (p : α → Bool) (x : α) (hx : p x = false) : ∀ (pre bef : List α),
    (pre ++ x :: bef).dropWhile p = pre.dropWhile p ++ x :: bef
  | [], bef => by simp [hx]
  | a :: pre, bef => by
    simp only [List.cons_append, List.dropWhile_cons]
    split
    · exact dropWhile_stop p x hx pre bef
    · rfl

theorem takeWhile_stop {α : Type} (p : α → Bool) (x : α) (hx : p x = false) : ∀ (pre bef : List α),
    (pre ++ x :: bef).takeWhile p = pre.takeWhile p
  | [], bef => by simp [hx]
  | a :: pre, bef => by
    simp only [List.cons_append, List.takeWhile_cons]
    split
    · rw [takeWhile_stop p x hx pre bef]
    · rfl

theorem gStops (u : Bool) (x : GClass) (second : List GClass) (hx : x.isCtl = true) (hn : ¬ (x = .CR ∧ second.head? = some .LF)) :
    Stops (gBoundary u) x second where
  last _ := rfl
  cut bef := by
    cases second with
    | nil => rfl
    | cons b rest =>
      have hn' : ¬ (x = .CR ∧ b = .LF) := fun h => hn ⟨h.1, by rw [h.2]; rfl⟩
      simp only [gBoundary, if_neg hn', hx, if_true]
  before a bef post := by cases post <;> rfl
  behind a pre bef post := by
    cases post with
    | nil => rfl
    | cons b rest =>
      have h1 : (x == GClass.Extend) = false := by revert hx; cases x <;> decide
      have h2 : (x == GClass.RI) = false := by revert hx; cases x <;> decide
      have h3 : x ≠ .Pict := by revert hx; cases x <;> decide
      simp only [gBoundary]
      rw [← List.cons_append, takeWhile_stop _ x h2 (a :: pre) bef, dropWhile_stop _ x h1 pre bef]
      have e : ((pre.dropWhile (· == GClass.Extend) ++ x :: bef).head? = some GClass.Pict) = ((pre.dropWhile (· == GClass.Extend)).head? = some GClass.Pict) := by
        cases pre.dropWhile (· == GClass.Extend) with
        | nil => simp [h3]
        | cons c l => rfl
      simp only [e]

/-! ### Words -/

open SpecWord

theorem strip_stop (x : WChar) (hx : x.wb ∈ [WClass.Newline, .CR, .LF]) (pre bef : List WChar) : strip (pre ++ x :: bef) = strip pre ++ x :: bef := by
  apply dropWhile_stop
  unfold ignorable
  revert hx
  cases x.wb <;> decide

theorem starts_stop (cs : List WClass) (hc : WClass.Newline ∉ cs ∧ WClass.CR ∉ cs ∧ WClass.LF ∉ cs) (x : WChar) (hx : x.wb ∈ [WClass.Newline, .CR, .LF])
    (pre bef : List WChar) : starts cs (pre ++ x :: bef) = starts cs pre := by
  cases pre with
  | cons a l => rfl
  | nil =>
    have : x.wb ∉ cs := by
      simp only [List.mem_cons, List.not_mem_nil, or_false] at hx
      rcases hx with h | h | h <;> rw [h]
      · exact hc.1
      · exact hc.2.1
      · exact hc.2.2
    simp [starts, this]

theorem wStops (far : Bool) (x : WChar) (second : List WChar) (hx : x.wb ∈ [WClass.Newline, .CR, .LF])
    (hn : ¬ (x.wb = .CR ∧ second.head?.map (·.wb) = some .LF)) : Stops (wBoundary far) x second where
  last _ := rfl
  cut bef := by
    cases second with
    | nil => rfl
    | cons b rest =>
      have hn' : ¬ (x.wb = .CR ∧ b.wb = .LF) := fun h => hn ⟨h.1, by show some b.wb = _; rw [h.2]⟩
      simp only [wBoundary, if_neg hn', if_pos hx]
  before a bef post := by
    cases post with
    | nil =>
      simp only [List.nil_append, wBoundary]
      by_cases h1 : a.wb = .CR ∧ x.wb = .LF
      · rw [if_pos h1, if_pos h1]
      · rw [if_neg h1, if_neg h1, if_pos hx, if_pos hx]
    | cons b rest =>
      have e1 : ∀ cs, (WClass.Newline ∉ cs ∧ WClass.CR ∉ cs ∧ WClass.LF ∉ cs) → starts cs (strip (rest ++ x :: second)) = starts cs (strip (rest ++ [x])) := by
        intro cs hc
        rw [strip_stop x hx, strip_stop x hx, starts_stop cs hc x hx, starts_stop cs hc x hx]
      have e2 : ∀ cs, (WClass.Newline ∉ cs ∧ WClass.CR ∉ cs ∧ WClass.LF ∉ cs) →
          starts cs (if far = true then strip (rest ++ x :: second) else rest ++ x :: second) = starts cs (if far = true then strip (rest ++ [x]) else rest ++ [x]) := by
        intro cs hc
        split
        · exact e1 cs hc
        · rw [starts_stop cs hc x hx, starts_stop cs hc x hx]
      simp only [List.cons_append, wBoundary]
      rw [e1 AHLetter (by decide), e1 [.Numeric] (by decide), e2 [.HebrewLetter] (by decide)]
  behind a pre bef post := by
    cases post with
    | nil => rfl
    | cons b rest =>
      have e1 : strip (a :: (pre ++ x :: bef)) = strip (a :: pre) ++ x :: bef := strip_stop x hx (a :: pre) bef
      have e2 : ∀ cs, (WClass.Newline ∉ cs ∧ WClass.CR ∉ cs ∧ WClass.LF ∉ cs) → starts cs (strip (a :: pre) ++ x :: bef) = starts cs (strip (a :: pre)) :=
        fun cs hc => starts_stop cs hc x hx _ _
      have e3 : ∀ cs ds, (WClass.Newline ∉ cs ∧ WClass.CR ∉ cs ∧ WClass.LF ∉ cs) → (WClass.Newline ∉ ds ∧ WClass.CR ∉ ds ∧ WClass.LF ∉ ds) → ∀ p : Prop,
          (starts cs (strip (strip (a :: pre) ++ x :: bef).tail) = true ∧ starts ds (strip (a :: pre)) = true ∧ p) =
          (starts cs (strip (strip (a :: pre)).tail) = true ∧ starts ds (strip (a :: pre)) = true ∧ p) := by
        intro cs ds hc hd p
        cases hs : strip (a :: pre) with
        | nil => simp [starts]
        | cons c l =>
          rw [List.cons_append, List.tail_cons, List.tail_cons, strip_stop x hx, starts_stop cs hc x hx]
      have e4 : ((a :: (pre ++ x :: bef)).filter fun x => !ignorable x).takeWhile (fun x => x.wb == WClass.RI) =
          ((a :: pre).filter fun x => !ignorable x).takeWhile (fun x => x.wb == WClass.RI) := by
        have hi : ignorable x = false := by unfold ignorable; revert hx; cases x.wb <;> decide
        have hr : (x.wb == WClass.RI) = false := by revert hx; cases x.wb <;> decide
        rw [← List.cons_append, List.filter_append, List.filter_cons (x := x), hi]
        exact takeWhile_stop _ x hr _ _
      simp only [wBoundary]
      rw [e1, e4]
      simp only [e2 _ (by decide : WClass.Newline ∉ AHLetter ∧ WClass.CR ∉ AHLetter ∧ WClass.LF ∉ AHLetter),
        e2 [.HebrewLetter] (by decide), e2 [.DoubleQuote] (by decide), e2 [.Numeric] (by decide), e2 [.Katakana] (by decide), e2 [.ExtendNumLet] (by decide),
        e2 [.ALetter, .HebrewLetter, .Numeric, .Katakana, .ExtendNumLet] (by decide), e2 (.MidLetter :: MidNumLetQ) (by decide), e2 (.MidNum :: MidNumLetQ) (by decide),
        e3 AHLetter (.MidLetter :: MidNumLetQ) (by decide) (by decide), e3 [.HebrewLetter] [.DoubleQuote] (by decide) (by decide),
        e3 [.Numeric] (.MidNum :: MidNumLetQ) (by decide) (by decide)]

/-! ### Lines -/

open SpecLine

theorem alone_stop (x : LClass) (hx : x ∈ [LClass.BK, .CR, .LF, .NL]) (l : List LClass) : alone (x :: l) = true := by
  show decide (x ∈ [LClass.BK, .CR, .LF, .NL, .SP, .ZW]) = true
  clear l
  revert hx
  cases x <;> decide

theorem collapse_stop (x : LClass) (hx : x ∈ [LClass.BK, .CR, .LF, .NL]) : ∀ (pre bef : List LClass),
    collapse (pre ++ x :: bef) = collapse pre ++ x :: collapse bef
  | [], bef => by
    have : mark x = false := by revert hx; cases x <;> decide
    simp [collapse, this]
  | c :: pre, bef => by
    simp only [List.cons_append, collapse]
    rw [collapse_stop x hx pre bef]
    have e : alone (collapse pre ++ x :: collapse bef) = alone (collapse pre) := by
      cases collapse pre with
      | cons a l => rfl
      | nil => exact alone_stop x hx _
    rw [e]
    split
    · split <;> rfl
    · rfl

theorem repeated_stop (x : LClass) (hx : x ∈ [LClass.BK, .CR, .LF, .NL]) : ∀ (pre bef : List LClass),
    repeated (pre ++ x :: bef) = repeated pre ++ x :: repeated bef
  | [], bef => by
    have : mark x = false := by revert hx; cases x <;> decide
    simp [repeated, this]
  | c :: pre, bef => by
    simp only [List.cons_append, repeated]
    rw [repeated_stop x hx pre bef]
    cases hp : repeated pre with
    | cons a l => simp only [List.cons_append, alone, List.headD_cons]; split <;> rfl
    | nil =>
      have e : alone ([] ++ x :: repeated bef) = true := alone_stop x hx _
      rw [e]
      simp only [alone, if_true]
      split <;> rfl

theorem collapse_ne (c : LClass) (h : List LClass) : collapse (c :: h) ≠ [] := by
  simp only [collapse]
  split
  · split
    · exact List.cons_ne_nil _ _
    · rename_i ha
      intro e
      rw [e] at ha
      exact ha rfl
  · exact List.cons_ne_nil _ _

theorem repeated_ne (c : LClass) (h : List LClass) : repeated (c :: h) ≠ [] := by
  simp only [repeated]
  split <;> exact List.cons_ne_nil _ _

theorem oddFlags_stop (x : LClass) (hx : x ∈ [LClass.BK, .CR, .LF, .NL]) (pre bef : List LClass) : oddFlags (pre ++ x :: bef) = oddFlags pre := by
  unfold oddFlags
  rw [takeWhile_stop]
  revert hx; cases x <;> decide

theorem oddFlagsMarks_stop (x : LClass) (hx : x ∈ [LClass.BK, .CR, .LF, .NL]) : ∀ (pre bef : List LClass),
    oddFlagsMarks (pre ++ x :: bef) = oddFlagsMarks pre
  | [], bef => by
    simp only [List.nil_append, oddFlagsMarks]
    revert hx; cases x <;> simp [mark]
  | c :: pre, bef => by
    simp only [List.cons_append, oddFlagsMarks]
    rw [oddFlagsMarks_stop x hx pre bef, repeated_stop x hx]
    have e : ((repeated pre ++ x :: repeated bef).head? = some LClass.RI) = ((repeated pre).head? = some LClass.RI) := by
      cases repeated pre with
      | cons a l => rfl
      | nil => revert hx; cases x <;> simp
    simp only [e]

theorem number_stop (x : LClass) (hx : x ∈ [LClass.BK, .CR, .LF, .NL]) (pre bef : List LClass) : number (pre ++ x :: bef) = number pre := by
  unfold number
  rw [dropWhile_stop _ x (by revert hx; cases x <;> decide)]
  cases pre.dropWhile (fun c => c == LClass.SY || c == LClass.IS) with
  | cons a l => rfl
  | nil => revert hx; cases x <;> simp

theorem allowed_stop (x : LClass) (hx : x ∈ [LClass.BK, .CR, .LF, .NL]) (flags : Bool) (a : LClass) (pre bef : List LClass) (d : LClass) (next : Option LClass) :
    allowed flags (a :: pre ++ x :: bef) d next = allowed flags (a :: pre) d next := by
  have e1 : lb25 (a :: pre ++ x :: bef) d next = lb25 (a :: pre) d next := by
    unfold lb25
    rw [number_stop x hx]
    simp only [List.cons_append, List.headD_cons, List.tail_cons]
    rw [number_stop x hx]
    rfl
  have e2 : ((a :: pre ++ x :: bef).tail.head? = some LClass.HL) = ((a :: pre).tail.head? = some LClass.HL) := by
    simp only [List.cons_append, List.tail_cons]
    cases pre with
    | cons b l => rfl
    | nil => revert hx; cases x <;> simp
  have e3 : beforeSpaces (a :: pre ++ x :: bef) = beforeSpaces (a :: pre) ∨
      (beforeSpaces (a :: pre ++ x :: bef) = x ∧ beforeSpaces (a :: pre) = .sot) := by
    unfold beforeSpaces
    rw [dropWhile_stop _ x (by revert hx; cases x <;> decide)]
    cases (a :: pre).dropWhile (fun c => c == LClass.SP) with
    | cons b l => exact Or.inl rfl
    | nil => exact Or.inr ⟨rfl, rfl⟩
  unfold allowed
  simp only [e1, e2]
  rcases e3 with e3 | ⟨e3, e4⟩
  · rw [e3]; rfl
  · rw [e3, e4]
    have f : ∀ c : LClass, c ∉ [LClass.BK, .CR, .LF, .NL] → (x = c) = False := fun c hc => by
      apply eq_false; intro h; exact hc (h ▸ hx)
    have g : (x ∈ [LClass.CL, .CP]) = False := by apply eq_false; revert hx; cases x <;> decide
    have g' : (LClass.sot ∈ [LClass.CL, .CP]) = False := by apply eq_false; decide
    simp only [f .ZW (by decide), f .OP (by decide), f .QU (by decide), f .B2 (by decide), g, g', reduceCtorEq]
    rfl

theorem lStops (std : Bool) (x : LClass) (second : List LClass) (hx : x ∈ [LClass.BK, .CR, .LF, .NL]) (hn : ¬ (x = .CR ∧ second.head? = some .LF)) :
    Stops (lBoundary std) x second where
  last _ := rfl
  cut bef := by
    have hm : mark x = false := by revert hx; cases x <;> decide
    have hz : x ≠ .ZWJ := by revert hx; cases x <;> decide
    have key : ∀ (d : LClass) flags h next, (x = .CR → d ≠ .LF) → allowed flags (x :: h) d next = true := by
      intro d flags h next hd
      by_cases h1 : x ∈ [LClass.BK, .LF, .NL]
      · unfold allowed
        simp only [List.headD_cons, h1, if_true]
      · have h2 : x = .CR := by clear hm hz; revert h1 hx; cases x <;> decide
        subst h2
        exact decide_eq_true (hd rfl)
    cases second with
    | nil => rfl
    | cons d rest =>
      have hd : x = .CR → (if mark d = true then LClass.AL else d) ≠ .LF := by
        intro h e
        split at e
        · cases e
        · exact hn ⟨h, by rw [e]; rfl⟩
      have ec : collapse (x :: bef) = x :: collapse bef := by simp only [collapse, hm]; rfl
      have er : repeated (x :: bef) = x :: repeated bef := by simp only [repeated, hm]; rfl
      have ha : ∀ l, alone (x :: l) = true := alone_stop x hx
      simp only [lBoundary, ec, er, ha]
      split
      · rw [if_neg (fun h => nomatch h.2), if_neg (fun h => hz h.1)]
        exact key _ _ _ _ hd
      · rw [if_neg (fun h => nomatch h.2)]
        exact key _ _ _ _ hd
  before a bef post := by
    have hm : mark x = false := by revert hx; cases x <;> decide
    have key : ∀ flags h next next', allowed flags h x next = allowed flags h x next' := by
      intro flags h n1 n2
      unfold allowed
      simp only [if_pos hx]
    cases post with
    | nil =>
      simp only [List.nil_append, lBoundary, hm, Bool.false_eq_true, false_and, if_false]
      rw [key _ _ _ ([].dropWhile mark).head?, key _ _ second.head? [].head?]
    | cons d rest =>
      simp only [List.cons_append, lBoundary]
      have e1 : ((rest ++ x :: second).dropWhile mark).head? = ((rest ++ [x]).dropWhile mark).head? := by
        rw [dropWhile_stop _ x hm, dropWhile_stop _ x hm]
        cases rest.dropWhile mark <;> rfl
      have e2 : (rest ++ x :: second).head? = (rest ++ [x]).head? := by cases rest <;> rfl
      rw [e1, e2]
  behind a pre bef post := by
    cases post with
    | nil => rfl
    | cons d rest =>
      have ec : collapse (a :: (pre ++ x :: bef)) = collapse (a :: pre) ++ x :: collapse bef := collapse_stop x hx (a :: pre) bef
      have er : repeated (a :: (pre ++ x :: bef)) = repeated (a :: pre) ++ x :: repeated bef := repeated_stop x hx (a :: pre) bef
      have eo : oddFlagsMarks (a :: (pre ++ x :: bef)) = oddFlagsMarks (a :: pre) := oddFlagsMarks_stop x hx (a :: pre) bef
      simp only [lBoundary]
      rw [ec, er, eo, oddFlags_stop x hx]
      have hc := collapse_ne a pre
      have hr := repeated_ne a pre
      cases h1 : collapse (a :: pre) with
      | nil => exact absurd h1 hc
      | cons c l =>
        cases h2 : repeated (a :: pre) with
        | nil => exact absurd h2 hr
        | cons c' l' =>
          rw [allowed_stop x hx, allowed_stop x hx]
          rfl

end Uax
