import Verif.Props.Grapheme
import Verif.Props.Word
import Verif.Props.GString
import Verif.Props.ClassTables

/-! C58: what graphemes and words of ASCII texts are, with the tables of /repo. -/

namespace Uax

theorem splitBy_loop_eq {α : Type} (R : α → α → Bool) (m : α × Bool → Bool) (hm : ∀ x, m x = x.2) :
    ∀ (l : List α) (a : α) (cuts : List Bool) (c : Bool) (acc : List (α × Bool)) (g : List α) (gs : List (List α)),
      cuts.length = l.length →
      (∀ i x y, (a :: l)[i]? = some x → (a :: l)[i + 1]? = some y → (c :: cuts)[i]? = some (!R x y)) →
      (c :: cuts).getLast? = some true → acc.map (·.1) = g.reverse →
      List.splitBy.loop R l a g gs = gs.reverse ++ (pieces m acc ((a, c) :: l.zip cuts)).map (·.map (·.1)) := by
  intro l
  induction l with
  | nil =>
    intro a cuts c acc g gs hl h hlast hacc
    have : cuts = [] := List.length_eq_zero_iff.mp hl
    subst this
    simp only [List.getLast?_singleton, Option.some.injEq] at hlast
    subst hlast
    simp [List.splitBy.loop, pieces, hm, hacc]
  | cons b l ih =>
    intro a cuts c acc g gs hl h hlast hacc
    cases cuts with
    | nil => simp at hl
    | cons d cuts =>
      have h0 := h 0 a b rfl rfl
      simp only [List.getElem?_cons_zero, Option.some.injEq] at h0
      have h' : ∀ i x y, (b :: l)[i]? = some x → (b :: l)[i + 1]? = some y → (d :: cuts)[i]? = some (!R x y) := by
        intro i x y hx hy
        have := h (i + 1) x y (by simpa using hx) (by simpa using hy)
        simpa using this
      have hlast' : (d :: cuts).getLast? = some true := by rw [List.getLast?_cons_cons] at hlast; exact hlast
      have hl' : cuts.length = l.length := by simpa using hl
      unfold List.splitBy.loop
      rw [List.zip_cons_cons]
      unfold pieces
      rw [hm]
      cases hR : R a b with
      | true =>
        rw [hR] at h0
        subst h0
        simp only [Bool.not_true, Bool.false_eq_true, if_false]
        exact ih b cuts d _ _ _ hl' h' hlast' (by simp [hacc])
      | false =>
        rw [hR] at h0
        subst h0
        simp only [Bool.not_false, if_true]
        rw [ih b cuts d [] [] _ hl' h' hlast' rfl]
        simp [hacc]

/-- Cutting wherever two neighbours are not related is splitting by the relation. -/
theorem cutAfter_splitBy (R : Int → Int → Bool) (cut : Nat → Bool) (text : List Int)
    (h : ∀ i x y, text[i]? = some x → text[i + 1]? = some y → cut i = !R x y)
    (hlast : ∀ i, i + 1 = text.length → cut i = true) : cutAfter cut text = text.splitBy R := by
  cases text with
  | nil => rfl
  | cons a l =>
    have hcuts : ∀ i, i ≤ l.length → (cut 0 :: l.mapIdx fun i _ => cut (i + 1))[i]? = some (cut i) := by
      intro i hi
      cases i with
      | zero => rfl
      | succ i =>
        simp only [List.getElem?_cons_succ, List.getElem?_mapIdx]
        rw [List.getElem?_eq_getElem (by omega)]
        rfl
    have e : (a :: l).mapIdx (fun i r => (r, cut i)) = (a, cut 0) :: l.zip (l.mapIdx fun i _ => cut (i + 1)) := by
      rw [List.mapIdx_cons]
      congr 1
      apply List.ext_getElem
      · simp
      · intro i h1 h2
        simp
    unfold cutAfter
    rw [e]
    show _ = List.splitBy.loop R l a [] []
    rw [splitBy_loop_eq R (·.2) (fun _ => rfl) l a (l.mapIdx fun i _ => cut (i + 1)) (cut 0) [] [] []]
    · rfl
    · simp
    · intro i x y hx hy
      have hi := (List.getElem?_eq_some_iff.mp hx).1
      rw [hcuts i (by simp at hi; omega), h i x y hx hy]
    · rw [List.getLast?_eq_getElem?]
      simp only [List.length_cons, List.length_mapIdx, Nat.add_sub_cancel]
      rw [hcuts _ (Nat.le_refl _), hlast _ rfl]
    · rfl

/-! ### Specification -/

/-- All runes are ASCII characters but NUL. -/
def AsciiText (text : List Int) : Prop := ∀ r ∈ text, 0 < r ∧ r < 128

def isLetter (r : Int) : Bool := decide ((0x41 ≤ r ∧ r ≤ 0x5a) ∨ (0x61 ≤ r ∧ r ≤ 0x7a))
def isDigit (r : Int) : Bool := decide (0x30 ≤ r ∧ r ≤ 0x39)

/-- Letters, digits and the underscore. -/
def isWordChar (r : Int) : Bool := isLetter r || isDigit r || r == 0x5f

/-- The apostrophe, the full stop and the colon may be inside of words; -/
def insideWord (r : Int) : Bool := r == 0x27 || r == 0x2e || r == 0x3a

/-- the apostrophe, the full stop, the comma and the semicolon inside of numbers. -/
def insideNumber (r : Int) : Bool := r == 0x27 || r == 0x2e || r == 0x2c || r == 0x3b

/-- Do `a` and `b` belong to the same word, with `p` before them and `n` after them? -/
def sameWord (p : Option Int) (a b : Int) (n : Option Int) : Bool :=
  (a == 0x0d && b == 0x0a) || (a == 0x20 && b == 0x20) || (isWordChar a && isWordChar b) ||
  (isLetter a && insideWord b && n.any isLetter) || (p.any isLetter && insideWord a && isLetter b) ||
  (isDigit a && insideNumber b && n.any isDigit) || (p.any isDigit && insideNumber a && isDigit b)

/-- The words of an ASCII text. -/
def asciiWords (text : List Int) : List (List Int) :=
  cutAfter (fun i => match text[i]?, text[i + 1]? with
    | some a, some b => !sameWord (if i = 0 then none else text[i - 1]?) a b text[i + 2]?
    | _, _ => true) text

/-! ### C58 -/

theorem ascii_class {r : Int} (h : 0 < r ∧ r < 128) : Graph.classOf realG r =
    if r = 0x0d then .CR else if r = 0x0a then .LF else if r < 0x20 ∨ r = 0x7f then .Control else .Any := by
  obtain ⟨m, rfl⟩ : ∃ m : Nat, r = m := ⟨r.toNat, by omega⟩
  rw [C56_ascii_graphemes m (by omega) (by omega)]
  have key : ∀ m : Nat, m < 128 → (if m = 0x0d then GClass.CR else if m = 0x0a then .LF else if m < 0x20 ∨ m = 0x7f then .Control else .Any) =
      if (m : Int) = 0x0d then .CR else if (m : Int) = 0x0a then .LF else if (m : Int) < 0x20 ∨ (m : Int) = 0x7f then .Control else .Any := by
    decide +kernel
  exact key m (by omega)

/-- The clusters of an ASCII text are its characters, with CR LF kept together. -/
theorem ascii_clusters (text : List Int) (ht : AsciiText text) :
    clusters false (Graph.classOf realG) text = text.splitBy fun a b => a == 0x0d && b == 0x0a := by
  unfold clusters
  apply cutAfter_splitBy
  · intro i x y hx hy
    have hi := List.getElem?_eq_some_iff.mp hx
    have hj := List.getElem?_eq_some_iff.mp hy
    obtain ⟨hi, rfl⟩ := hi
    obtain ⟨hj, rfl⟩ := hj
    rw [List.take_succ_eq_append_getElem hi, List.map_append, List.reverse_append, List.drop_eq_getElem_cons hj, List.map_cons]
    simp only [List.map_cons, List.map_nil, List.reverse_cons, List.reverse_nil, List.nil_append, List.cons_append]
    have h1 := ascii_class (ht _ (List.getElem_mem hi))
    have h2 := ascii_class (ht _ (List.getElem_mem hj))
    generalize text[i] = x at h1 ⊢
    generalize text[i + 1] = y at h2 ⊢
    rw [h1, h2]
    generalize (List.map (Graph.classOf realG) (List.take i text)).reverse = bef
    generalize (List.map (Graph.classOf realG) (List.drop (i + 1 + 1) text)) = aft
    by_cases x1 : x = 13
    · subst x1
      by_cases y1 : y = 10
      · subst y1; rfl
      · simp only [if_true]
        rw [show ((13 : Int) == 13 && y == 10) = false by simp [y1]]
        by_cases y2 : y = 13
        · subst y2; rfl
        · rw [if_neg y2, if_neg y1]
          split <;> rfl
    · rw [show (x == 13 && y == 10) = false by simp [x1], if_neg x1]
      by_cases x2 : x = 10
      · subst x2
        simp only [if_true]
        split
        · rfl
        · split
          · rfl
          · split <;> rfl
      · rw [if_neg x2]
        split <;> split <;> first | rfl | (split <;> first | rfl | (split <;> simp [gBoundary, GClass.isCtl]))
  · intro i hi
    rw [List.drop_of_length_le (by omega), List.map_nil]
    cases ((text.take (i + 1)).map (Graph.classOf realG)).reverse <;> rfl

/-- The classes of ASCII characters, and the class of each. -/
def asciiWB : List WClass := [.CR, .LF, .Newline, .WSegSpace, .ALetter, .Numeric, .DoubleQuote, .SingleQuote, .MidNum, .MidNumLet, .MidLetter,
  .ExtendNumLet, .Other]

def asciiWClass (r : Nat) : WClass :=
  if r = 0x0d then .CR else if r = 0x0a then .LF else if r = 0x0b ∨ r = 0x0c then .Newline else
  if r = 0x20 then .WSegSpace else if (0x41 ≤ r ∧ r ≤ 0x5a) ∨ (0x61 ≤ r ∧ r ≤ 0x7a) then .ALetter else
  if 0x30 ≤ r ∧ r ≤ 0x39 then .Numeric else if r = 0x22 then .DoubleQuote else if r = 0x27 then .SingleQuote else
  if r = 0x2c ∨ r = 0x3b then .MidNum else if r = 0x2e then .MidNumLet else if r = 0x3a then .MidLetter else
  if r = 0x5f then .ExtendNumLet else .Other

theorem ascii_wclass {r : Nat} (h : 0 < r ∧ r < 128) : (wordChar realW r).wb = asciiWClass r := by
  have h1 := C56_ascii_words r h.1 h.2
  have h2 : Word.classOf realW r = asciiWClass r := h1
  unfold Word.classOf at h2
  unfold wordChar
  simp only
  by_cases hO : Word.classForRune realW r = .Other
  · rw [hO, if_pos rfl] at h2
    rw [hO]
    by_cases hp : realW.pict r = true
    · rw [hp, if_pos rfl] at h2
      have : ∀ m : Nat, m < 128 → asciiWClass m ≠ .Pict := by decide +kernel
      exact absurd h2.symm (this r h.2)
    · rw [if_neg hp] at h2
      exact h2
  · rw [if_neg hO] at h2
    exact h2

open SpecWord in
theorem wBoundary_ascii (a b : WChar) (bef aft : List WChar) (ha : a.wb ∈ asciiWB) (hb : b.wb ∈ asciiWB)
    (hp : ∀ x ∈ bef.head?, x.wb ∈ asciiWB) (hn : ∀ x ∈ aft.head?, x.wb ∈ asciiWB) :
    wBoundary true (a :: bef) (b :: aft) =
      !((a.wb == .CR && b.wb == .LF) || (a.wb == .WSegSpace && b.wb == .WSegSpace) ||
        (decide (a.wb ∈ [WClass.ALetter, .Numeric, .ExtendNumLet]) && decide (b.wb ∈ [WClass.ALetter, .Numeric, .ExtendNumLet])) ||
        (a.wb == .ALetter && decide (b.wb ∈ [WClass.SingleQuote, .MidNumLet, .MidLetter]) && starts [.ALetter] aft) ||
        (starts [.ALetter] bef && decide (a.wb ∈ [WClass.SingleQuote, .MidNumLet, .MidLetter]) && b.wb == .ALetter) ||
        (a.wb == .Numeric && decide (b.wb ∈ [WClass.SingleQuote, .MidNumLet, .MidNum]) && starts [.Numeric] aft) ||
        (starts [.Numeric] bef && decide (a.wb ∈ [WClass.SingleQuote, .MidNumLet, .MidNum]) && b.wb == .Numeric)) := by
  have hstrip : ∀ l : List WChar, (∀ x ∈ l.head?, x.wb ∈ asciiWB) → strip l = l := by
    intro l hl
    cases l with
    | nil => rfl
    | cons x l =>
      unfold strip
      rw [List.dropWhile_cons]
      have hx := hl x rfl
      have : ignorable x = false := by
        unfold ignorable
        generalize x.wb = w at hx ⊢
        have : ∀ w ∈ asciiWB, decide (w ∈ [WClass.Extend, .Format, .ZWJ]) = false := by decide
        exact this w hx
      rw [this]; rfl
  have hAH : ∀ l : List WChar, (∀ x ∈ l.head?, x.wb ∈ asciiWB) → starts AHLetter l = starts [.ALetter] l ∧ starts [.HebrewLetter] l = false := by
    intro l hl
    cases l with
    | nil => exact ⟨rfl, rfl⟩
    | cons x l =>
      have hx := hl x rfl
      have : ∀ w ∈ asciiWB, decide (w ∈ AHLetter) = decide (w ∈ [WClass.ALetter]) ∧ decide (w ∈ [WClass.HebrewLetter]) = false := by decide
      exact this _ hx
  have hs : ∀ cs, starts cs (a :: bef) = decide (a.wb ∈ cs) := fun _ => rfl
  unfold wBoundary
  simp only []
  rw [hstrip (a :: bef) (by intro x hx; cases hx; exact ha), List.tail_cons, hstrip bef hp, hstrip aft hn]
  have hRI : ¬ (b.wb = .RI ∧ (((a :: bef).filter fun x => !ignorable x).takeWhile fun x => x.wb == .RI).length % 2 = 1) := by
    rintro ⟨h, -⟩
    rw [h] at hb
    exact absurd hb (by decide)
  have hig : ignorable b = false := by
    unfold ignorable
    generalize b.wb = w at hb ⊢
    have : ∀ w ∈ asciiWB, decide (w ∈ [WClass.Extend, .Format, .ZWJ]) = false := by decide
    exact this w hb
  have hz : a.wb ≠ .ZWJ := by intro h; rw [h] at ha; exact absurd ha (by decide)
  rw [(hAH bef hp).1, (hAH bef hp).2, (hAH aft hn).1]
  simp only [hs, if_neg hRI, hig, hz, false_and, if_false, Bool.false_eq_true, if_true]
  rw [(hAH aft hn).2]
  generalize starts [.ALetter] bef = p1
  generalize starts [.Numeric] bef = p2
  generalize starts [.ALetter] aft = n1
  generalize starts [.Numeric] aft = n2
  generalize a.wb = x at ha ⊢
  generalize b.wb = y at hb ⊢
  clear hs hRI hz hig hAH hstrip hp hn
  revert p1 p2 n1 n2
  revert y
  revert x
  decide +kernel

theorem asciiWClass_mem (r : Nat) : asciiWClass r ∈ asciiWB := by
  unfold asciiWClass
  repeat' split
  all_goals decide

theorem ascii_props {r : Int} (h : 0 < r ∧ r < 128) :
    (wordChar realW r).wb ∈ asciiWB ∧
    ((wordChar realW r).wb == .CR) = (r == 0x0d) ∧ ((wordChar realW r).wb == .LF) = (r == 0x0a) ∧
    ((wordChar realW r).wb == .WSegSpace) = (r == 0x20) ∧
    decide ((wordChar realW r).wb ∈ [WClass.ALetter, .Numeric, .ExtendNumLet]) = isWordChar r ∧
    ((wordChar realW r).wb == .ALetter) = isLetter r ∧ ((wordChar realW r).wb == .Numeric) = isDigit r ∧
    decide ((wordChar realW r).wb ∈ [WClass.SingleQuote, .MidNumLet, .MidLetter]) = insideWord r ∧
    decide ((wordChar realW r).wb ∈ [WClass.SingleQuote, .MidNumLet, .MidNum]) = insideNumber r := by
  obtain ⟨m, rfl⟩ : ∃ m : Nat, r = m := ⟨r.toNat, by omega⟩
  rw [ascii_wclass (r := m) (by omega)]
  refine ⟨asciiWClass_mem m, ?_⟩
  have key : ∀ m : Nat, m < 128 → (asciiWClass m == .CR) = ((m : Int) == 0x0d) ∧ (asciiWClass m == .LF) = ((m : Int) == 0x0a) ∧
      (asciiWClass m == .WSegSpace) = ((m : Int) == 0x20) ∧
      decide (asciiWClass m ∈ [WClass.ALetter, .Numeric, .ExtendNumLet]) = isWordChar m ∧
      (asciiWClass m == .ALetter) = isLetter m ∧ (asciiWClass m == .Numeric) = isDigit m ∧
      decide (asciiWClass m ∈ [WClass.SingleQuote, .MidNumLet, .MidLetter]) = insideWord m ∧
      decide (asciiWClass m ∈ [WClass.SingleQuote, .MidNumLet, .MidNum]) = insideNumber m := by decide +kernel
  exact key m (by omega)

open SpecWord in
/-- The words of an ASCII text according to UAX#29. -/
theorem ascii_words (text : List Int) (ht : AsciiText text) : words true (wordChar realW) text = asciiWords text := by
  unfold words asciiWords cutAfter
  congr 2
  apply List.ext_getElem?
  intro i
  rw [List.getElem?_mapIdx, List.getElem?_mapIdx]
  cases hx : text[i]? with
  | none => rfl
  | some x =>
    simp only [Option.map_some, Option.some.injEq, Prod.mk.injEq, true_and]
    obtain ⟨hi, rfl⟩ := List.getElem?_eq_some_iff.mp hx
    rw [List.take_succ_eq_append_getElem hi, List.map_append, List.reverse_append]
    simp only [List.map_cons, List.map_nil, List.reverse_cons, List.reverse_nil, List.nil_append, List.cons_append]
    cases hy : text[i + 1]? with
    | none =>
      rw [List.drop_of_length_le (List.getElem?_eq_none_iff.mp hy)]
      simp only [hx]
      rfl
    | some y =>
      obtain ⟨hj, rfl⟩ := List.getElem?_eq_some_iff.mp hy
      rw [List.drop_eq_getElem_cons hj, List.map_cons]
      have hbef : ((text.take i).map (wordChar realW)).reverse.head? = (if i = 0 then none else text[i - 1]?).map (wordChar realW) := by
        rw [List.head?_reverse, List.getLast?_map, List.getLast?_take]
        split
        · rfl
        · rw [List.getElem?_eq_getElem (by omega)]; rfl
      have haft : ((text.drop (i + 1 + 1)).map (wordChar realW)).head? = text[i + 2]?.map (wordChar realW) := by
        rw [List.head?_map, List.head?_drop]
      have hmem : ∀ o : Option Int, (∀ z ∈ o, z ∈ text) → ∀ l : List WChar, l.head? = o.map (wordChar realW) →
          (∀ z ∈ l.head?, z.wb ∈ asciiWB) ∧ starts [.ALetter] l = o.any isLetter ∧ starts [.Numeric] l = o.any isDigit := by
        intro o ho l hl
        unfold starts
        rw [hl]
        cases o with
        | none => exact ⟨by simp, rfl, rfl⟩
        | some z =>
          obtain ⟨k1, -, -, -, -, k2, k3, -⟩ := ascii_props (ht z (ho z rfl))
          refine ⟨?_, ?_, ?_⟩
          · simpa using k1
          · simp only [Option.map_some, Option.getD_some, Option.any_some, ← k2]
            simp only [List.mem_singleton, beq_eq_decide]
          · simp only [Option.map_some, Option.getD_some, Option.any_some, ← k3]
            simp only [List.mem_singleton, beq_eq_decide]
      obtain ⟨p1, p2, p3⟩ := hmem _ (by
        intro z hz
        split at hz
        · cases hz
        · exact List.mem_of_getElem? hz) _ hbef
      obtain ⟨n1, n2, n3⟩ := hmem _ (fun z hz => List.mem_of_getElem? hz) _ haft
      obtain ⟨a0, a1, a2, a3, a4, a5, a6, a7, a8⟩ := ascii_props (ht _ (List.getElem_mem hi))
      obtain ⟨b0, b1, b2, b3, b4, b5, b6, b7, b8⟩ := ascii_props (ht _ (List.getElem_mem hj))
      rw [wBoundary_ascii _ _ _ _ a0 b0 p1 n1, p2, p3, n2, n3, a1, a3, a4, a5, a6, a7, a8, b2, b3, b4, b5, b6, b7, b8]
      simp only [hx]
      rfl

/-- An ASCII text has nothing of what C26 excludes. -/
theorem ascii_plain (text : List Int) (ht : AsciiText text) : PlainWords realW text := by
  intro i x y hx hy
  have h1 := (ascii_props (ht x (List.mem_of_getElem? hx))).1
  have h2 := (ascii_props (ht y (List.mem_of_getElem? hy))).1
  unfold wordChar at h1 h2
  simp only at h1 h2
  constructor
  · intro _ h
    generalize Word.classForRune realW y = w at h h2
    exact absurd h (by revert w; decide)
  · intro h _
    rw [h] at h1
    exact absurd h1 (by decide)

/-- The graphemes of an ASCII text are its single characters, and CR LF is one grapheme. -/
theorem C58_graphemes (past : List Int) (hp : CompletePast past) {s : Seg Graph.GBrk}
    (hr : Seg.Reachable (Graph.breaker realG) s) (hb : s.brk = [(Graph.breaker realG).run Graph.new past]) (text : List Int)
    (ht : AsciiText text) (n : Nat) (hn : text.length + 1 < n) :
    ∃ segs, (s.initSlice text).collect (Graph.breaker realG) n = some (segs, true) ∧
      segs.map (·.runes) = text.splitBy fun a b => a == 0x0d && b == 0x0a := by
  obtain ⟨segs, h1, h2⟩ := C22_slice_clusters_without_GB9b_partial realG past hp hr hb text (fun x hx => by have := ht x hx; omega) n hn
  exact ⟨segs, h1, by rw [h2, ascii_clusters text ht]⟩

example : AsciiText [0x61, 0x0d, 0x0a, 0x0d, 0x62] ∧
    ([0x61, 0x0d, 0x0a, 0x0d, 0x62] : List Int).splitBy (fun a b => a == 0x0d && b == 0x0a) = [[0x61], [0x0d, 0x0a], [0x0d], [0x62]] := by
  constructor
  · unfold AsciiText; decide
  · decide

/-- The words of an ASCII text are the runs of word characters, with single inner punctuation between letters or
between digits, the runs of spaces, CR LF, and all other characters one by one. -/
theorem C58_words (past : List Int) (hp : CompletePast past) {s : Seg Word.WBrk}
    (hr : Seg.Reachable (Word.breaker realW) s) (hb : s.brk = [(Word.breaker realW).run Word.new past]) (hz : s.zero0 = false) (text : List Int)
    (ht : AsciiText text) (n : Nat) (hn : text.length + 1 < n) :
    ∃ segs, (s.initSlice text).collect (Word.breaker realW) n = some (segs, true) ∧ segs.map (·.runes) = asciiWords text := by
  obtain ⟨segs, h1, h2⟩ := C26_slice_words_partial realW past hp hr hb hz text (fun x hx => by have := ht x hx; omega) n hn (ascii_plain text ht)
  exact ⟨segs, h1, by rw [h2, ascii_words text ht]⟩

/-- "can't pay $3.50, Bob:" -/
example : AsciiText [0x63, 0x61, 0x6e, 0x27, 0x74, 0x20, 0x20, 0x24, 0x33, 0x2e, 0x35, 0x30, 0x2c, 0x20, 0x42, 0x3a] ∧
    asciiWords [0x63, 0x61, 0x6e, 0x27, 0x74, 0x20, 0x20, 0x24, 0x33, 0x2e, 0x35, 0x30, 0x2c, 0x20, 0x42, 0x3a] =
      [[0x63, 0x61, 0x6e, 0x27, 0x74], [0x20, 0x20], [0x24], [0x33, 0x2e, 0x35, 0x30], [0x2c], [0x20], [0x42], [0x3a]] := by
  constructor
  · unfold AsciiText; decide
  · decide

/-- The words of a text of word characters and spaces are its maximal runs. -/
theorem C58_runs (past : List Int) (hp : CompletePast past) {s : Seg Word.WBrk}
    (hr : Seg.Reachable (Word.breaker realW) s) (hb : s.brk = [(Word.breaker realW).run Word.new past]) (hz : s.zero0 = false) (text : List Int)
    (ht : ∀ r ∈ text, isWordChar r = true ∨ r = 0x20) (n : Nat) (hn : text.length + 1 < n) :
    ∃ segs, (s.initSlice text).collect (Word.breaker realW) n = some (segs, true) ∧
      segs.map (·.runes) = text.splitBy fun a b => isWordChar a == isWordChar b := by
  have hw : ∀ r, isWordChar r = true ∨ r = 0x20 → (0 < r ∧ r < 128) ∧ insideWord r = false ∧ insideNumber r = false ∧
      (r == 0x0d) = false ∧ (r == 0x20) = !isWordChar r := by
    intro r h
    have hb : 0 < r ∧ r < 128 := by
      rcases h with h | rfl
      · simp only [isWordChar, isLetter, isDigit, Bool.or_eq_true, decide_eq_true_eq, beq_iff_eq] at h; omega
      · decide
    refine ⟨hb, ?_⟩
    obtain ⟨m, rfl⟩ : ∃ m : Nat, r = m := ⟨r.toNat, by omega⟩
    have key : ∀ m : Nat, m < 128 → (isWordChar m = true ∨ (m : Int) = 0x20) → insideWord m = false ∧ insideNumber m = false ∧
      ((m : Int) == 0x0d) = false ∧ ((m : Int) == 0x20) = !isWordChar m := by decide +kernel
    exact key m (by omega) h
  obtain ⟨segs, h1, h2⟩ := C58_words past hp hr hb hz text (fun r h => (hw r (ht r h)).1) n hn
  refine ⟨segs, h1, ?_⟩
  rw [h2]
  unfold asciiWords
  apply cutAfter_splitBy
  · intro i x y hx hy
    simp only [hx, hy]
    obtain ⟨-, x1, x2, x3, x4⟩ := hw x (ht x (List.mem_of_getElem? hx))
    obtain ⟨-, y1, y2, y3, y4⟩ := hw y (ht y (List.mem_of_getElem? hy))
    unfold sameWord
    rw [x1, x2, x3, x4, y1, y2, y4]
    cases isWordChar x <;> cases isWordChar y <;> simp
  · intro i hi
    simp only [List.getElem?_eq_none (show text.length ≤ i + 1 by omega)]
    cases text[i]? <;> rfl

/-- A new segmenter meets the hypotheses. -/
example : Seg.Reachable (Word.breaker realW) (Seg.new [Word.new]) ∧ (Seg.new [Word.new]).brk = [(Word.breaker realW).run Word.new []] ∧
    (Seg.new [Word.new]).zero0 = false ∧ CompletePast [] := ⟨Seg.Reachable.new _, rfl, rfl, Or.inl rfl⟩

theorem splitBy_none {α : Type} (R : α → α → Bool) (l : List α) (h : ∀ a ∈ l, ∀ b, R a b = false) : l.splitBy R = l.map fun a => [a] := by
  cases l with
  | nil => rfl
  | cons a l =>
    show List.splitBy.loop R l a [] [] = _
    suffices key : ∀ (l : List α) (a : α) (gs : List (List α)), (∀ x ∈ a :: l, ∀ b, R x b = false) →
        List.splitBy.loop R l a [] gs = gs.reverse ++ (a :: l).map (fun a => [a]) by simpa using key l a [] h
    intro l
    induction l with
    | nil => intro a gs _; simp [List.splitBy.loop]
    | cons b l ih =>
      intro a gs h
      unfold List.splitBy.loop
      rw [h a (by simp) b]
      simp only [List.reverse_cons, List.reverse_nil, List.nil_append]
      rw [ih b _ (fun x hx => h x (by simp [hx]))]
      simp

theorem ascii_utf8 (b : List Nat) (hb : ∀ x ∈ b, x < 128) : utf8 (b.map Char.ofNat) = b := by
  have one : ∀ x : Nat, x < 128 → utf8 [Char.ofNat x] = [x] := by decide +kernel
  induction b with
  | nil => rfl
  | cons x b ih =>
    rw [List.map_cons, show Char.ofNat x :: b.map Char.ofNat = [Char.ofNat x] ++ b.map Char.ofNat from rfl, utf8_append,
      one x (hb x (by simp)), ih (fun y hy => hb y (by simp [hy]))]
    rfl

/-- The length of a grapheme string of ASCII characters without CR is the number of its bytes, and its graphemes are these bytes. -/
theorem C58_strings (b : List Nat) (h0 : b ≠ []) (hb : ∀ x ∈ b, 0 < x ∧ x < 128 ∧ x ≠ 0x0d) (hl : b.length < 65535) :
    ∃ g, Returns realG b g ∧ g.str = b ∧ g.len = b.length ∧ ∀ (i : Nat) x, b[i]? = some x → g.nth i = some [x] := by
  have hu := ascii_utf8 b (fun x hx => (hb x hx).2.1)
  have hnat : ∀ x : Nat, x < 128 → (Char.ofNat x).toNat = x := by decide +kernel
  have hcodes : codes (b.map Char.ofNat) = b.map (fun x : Nat => (x : Int)) := by
    unfold codes
    rw [List.map_map]
    apply List.map_congr_left
    intro x hx
    show (((Char.ofNat x).toNat : Nat) : Int) = x
    rw [hnat x (hb x hx).2.1]
  have hcl : clusters false (Graph.classOf realG) (codes (b.map Char.ofNat)) = (b.map Char.ofNat).map fun c => codes [c] := by
    rw [ascii_clusters]
    · rw [splitBy_none]
      · unfold codes
        rw [List.map_map]
        apply List.map_congr_left
        intro c _
        rfl
      · rw [hcodes]
        intro a ha c
        obtain ⟨x, hx, rfl⟩ := List.mem_map.mp ha
        have : ((x : Int) == 13) = false := by
          have := (hb x hx).2.2
          rw [beq_eq_false_iff_ne]
          omega
        rw [this]; rfl
    · rw [hcodes]
      intro r hr
      obtain ⟨x, hx, rfl⟩ := List.mem_map.mp hr
      have := hb x hx
      omega
  have hnot : ∀ k : Nat, (k = 0 ∨ k = 0xFFFD) → Char.ofNat k ∉ b.map Char.ofNat := by
    intro k hk h
    obtain ⟨x, hx, e⟩ := List.mem_map.mp h
    have e2 := congrArg Char.toNat e
    rw [hnat x (hb x hx).2.1] at e2
    have := hb x hx
    rcases hk with rfl | rfl
    · have : (Char.ofNat 0).toNat = 0 := by decide
      omega
    · have : (Char.ofNat 0xFFFD).toNat = 0xFFFD := by decide
      omega
  obtain ⟨g, parts, h1, h2, h3, h4, h5, h6, h7, -⟩ := C30_graphemes_partial realG (b.map Char.ofNat) (by simpa using h0)
    (hnot _ (Or.inr rfl)) (hnot _ (Or.inl rfl)) (by rw [hu]; exact hl) (by
      rw [hcl]
      intro c hc
      obtain ⟨x, -, rfl⟩ := List.mem_map.mp hc
      simp [codes])
  rw [hu] at h1 h2
  have hlen : parts.length = b.length := by
    have := congrArg List.length (h5.trans hcl)
    simpa using this
  refine ⟨g, h1, h2, by rw [h6, hlen], ?_⟩
  intro i x hx
  have hi := (List.getElem?_eq_some_iff.mp hx).1
  have h8 := congrArg (fun l => l[i]?) (h5.trans hcl)
  simp only [List.getElem?_map, hx, Option.map_some] at h8
  cases hp : parts[i]? with
  | none => rw [hp] at h8; cases h8
  | some p =>
    rw [hp] at h8
    simp only [Option.map_some, Option.some.injEq] at h8
    have hpx : p = [Char.ofNat x] := by
      unfold codes at h8
      refine List.map_injective_iff.mpr ?_ h8
      intro c d hcd
      simp only [Int.natCast_inj] at hcd
      exact Char.toNat_inj.mp hcd
    rw [(h7 i p hp).1, hpx, show [Char.ofNat x] = [x].map Char.ofNat from rfl, ascii_utf8 [x] (by simpa using (hb x (List.mem_of_getElem? hx)).2.1)]

example : ∀ x ∈ [0x48, 0x69, 0x20, 0x0a], 0 < x ∧ x < 128 ∧ x ≠ 0x0d := by decide

end Uax
