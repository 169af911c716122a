import Verif.SpecUcd

/-! Lemmas on lines of UCD files. -/

namespace Uax.Ucd

theorem findIdx_lf (a b : List Nat) (h : 10 ∉ a) : (a ++ 10 :: b).findIdx? (· == 10) = some a.length := by
  induction a with
  | nil => rfl
  | cons x a ih =>
    rw [List.cons_append, List.findIdx?_cons, if_neg (by simp only [beq_iff_eq]; rintro rfl; exact h (by simp)), ih fun e => h (by simp [e])]
    rfl

theorem findIdx_none (a : List Nat) (h : 10 ∉ a) : a.findIdx? (· == 10) = none := by
  rw [List.findIdx?_eq_none_iff]
  intro x hx
  simp only [beq_eq_false_iff_ne, ne_eq]
  rintro rfl
  exact h hx

theorem dropCR_ne (a : List Nat) (h : 13 ∉ a) : (if a.getLast? = some 13 then a.dropLast else a) = a := by
  rw [if_neg fun e => h (List.mem_of_getLast? e)]

theorem loneCR_none (data : List Nat) (n : Nat) (h : ∀ i, i < n → data[i]? ≠ some 13) : loneCR data n = none := by
  unfold loneCR
  rw [List.find?_eq_none]
  intro i _ hi
  simp only [Bool.and_eq_true, beq_iff_eq, decide_eq_true_eq] at hi
  exact h i hi.1.2 hi.1.1.1

theorem loneCR_some (l rest : List Nat) (n : Nat) (h : 13 ∉ l) (hn : l.length < n) (hr : rest ≠ []) (h10 : rest.head? ≠ some 10) :
    loneCR (l ++ 13 :: rest) n = some l.length := by
  unfold loneCR
  rw [List.find?_range_eq_some]
  obtain ⟨x, rest, rfl⟩ := List.exists_cons_of_ne_nil hr
  refine ⟨?_, by simp, ?_⟩
  · have h1 : (l ++ 13 :: x :: rest)[l.length]? = some 13 := by simp
    have h2 : (l ++ 13 :: x :: rest)[l.length + 1]? = some x := by
      rw [List.getElem?_append_right (by omega)]
      simp
    rw [h1, h2]
    have : x ≠ 10 := by simpa using h10
    simp [hn, this]
  · intro j hj
    rw [List.getElem?_append_left hj]
    have : l[j]? ≠ some 13 := fun e => h (List.mem_of_getElem? e)
    simp [this]

theorem get_ne {l : List Nat} (rest : List Nat) (h : 13 ∉ l) (i : Nat) (hi : i < l.length) : (l ++ rest)[i]? ≠ some 13 := by
  rw [List.getElem?_append_left hi]
  exact fun e => h (List.mem_of_getElem? e)

theorem split_lf (l rest : List Nat) (e : Bool) (h1 : 10 ∉ l) (h2 : 13 ∉ l) : splitFn (l ++ 10 :: rest) e = (l.length + 1, some l) := by
  have hs : scanLinesFn (l ++ 10 :: rest) e = (l.length + 1, some l) := by
    unfold scanLinesFn
    simp only
    rw [if_neg (by simp), findIdx_lf _ _ h1]
    simp only [List.take_left]
    rw [dropCR_ne l h2]
  unfold splitFn
  rw [hs]
  simp only [Option.getD_some]
  rw [loneCR_none _ _ fun i hi => get_ne _ h2 i hi]

theorem split_crlf (l rest : List Nat) (e : Bool) (h1 : 10 ∉ l) (h2 : 13 ∉ l) :
    splitFn (l ++ 13 :: 10 :: rest) e = (l.length + 2, some l) := by
  have hs : scanLinesFn (l ++ 13 :: 10 :: rest) e = (l.length + 2, some l) := by
    unfold scanLinesFn
    simp only
    have hx : l ++ 13 :: 10 :: rest = (l ++ [13]) ++ 10 :: rest := by simp
    rw [if_neg (by simp), hx, findIdx_lf _ _ (by simp [h1])]
    simp only [List.take_left]
    rw [if_pos (by simp)]
    simp
  unfold splitFn
  rw [hs]
  simp only [Option.getD_some]
  rw [loneCR_none _ _ fun i hi => get_ne _ h2 i hi]

theorem dropCR_length (l : List Nat) : l.length - 1 ≤ (if l.getLast? = some 13 then l.dropLast else l).length := by
  split
  · simp
  · omega

theorem first_lf (l : List Nat) (h : 10 ∈ l) : ∃ a b, l = a ++ 10 :: b ∧ 10 ∉ a := by
  induction l with
  | nil => cases h
  | cons x l ih =>
    by_cases hx : x = 10
    · exact ⟨[], l, by simp [hx], by simp⟩
    · obtain ⟨a, b, e, ha⟩ := ih (by simpa [Ne.symm hx] using h)
      exact ⟨x :: a, b, by simp [e], by simp [ha, Ne.symm hx]⟩

theorem split_cr (l rest : List Nat) (e : Bool) (h1 : 10 ∉ l) (h2 : 13 ∉ l) (h3 : rest.head? ≠ some 10) (h4 : rest ≠ [])
    (h5 : e = true ∨ 10 ∈ rest) : splitFn (l ++ 13 :: rest) e = (l.length + 1, some l) := by
  have hs : ∃ n t, scanLinesFn (l ++ 13 :: rest) e = (n, some t) ∧ l.length < t.length := by
    unfold scanLinesFn
    simp only
    rw [if_neg (by simp)]
    by_cases hr : 10 ∈ rest
    · obtain ⟨a, b, rfl, ha⟩ := first_lf rest hr
      have hx : l ++ 13 :: (a ++ 10 :: b) = (l ++ 13 :: a) ++ 10 :: b := by simp
      rw [hx, findIdx_lf _ _ (by simp [h1, ha])]
      refine ⟨_, _, rfl, ?_⟩
      rw [List.take_left]
      refine Nat.lt_of_lt_of_le ?_ (dropCR_length _)
      cases a with
      | nil => exact absurd rfl h3
      | cons x a => simp
    · rw [findIdx_none _ (by simp [h1, hr])]
      have he : e = true := h5.resolve_right hr
      subst he
      simp only [if_true]
      refine ⟨_, _, rfl, Nat.lt_of_lt_of_le ?_ (dropCR_length _)⟩
      cases rest with
      | nil => exact absurd rfl h4
      | cons x a => simp
  obtain ⟨n, t, hs, ht⟩ := hs
  unfold splitFn
  rw [hs]
  simp only [Option.getD_some]
  rw [loneCR_some l rest _ h2 ht h4 h3]
  simp

theorem split_last (l : List Nat) (h1 : 10 ∉ l) (h2 : 13 ∉ l) (h0 : l ≠ []) : splitFn l true = (l.length, some l) := by
  have hs : scanLinesFn l true = (l.length, some l) := by
    unfold scanLinesFn
    simp only
    rw [if_neg (by simp [h0]), findIdx_none _ h1]
    simp only [if_true]
    rw [dropCR_ne l h2]
  unfold splitFn
  rw [hs]
  simp only [Option.getD_some]
  rw [loneCR_none _ _ fun i hi => by have := get_ne [] h2 i hi; rwa [List.append_nil] at this]

theorem split_lastCR (l : List Nat) (h1 : 10 ∉ l) (h2 : 13 ∉ l) : splitFn (l ++ [13]) true = (l.length + 1, some l) := by
  have hs : scanLinesFn (l ++ [13]) true = (l.length + 1, some l) := by
    unfold scanLinesFn
    simp only
    rw [if_neg (by simp), findIdx_none _ (by simp [h1])]
    simp
  unfold splitFn
  rw [hs]
  simp only [Option.getD_some]
  rw [loneCR_none _ _ fun i hi => get_ne _ h2 i hi]

theorem split_more (data : List Nat) (h : 10 ∉ data) : splitFn data false = (0, none) := by
  have hs : scanLinesFn data false = (0, none) := by
    unfold scanLinesFn
    simp only
    rw [if_neg (by simp), findIdx_none _ h]
    rfl
  unfold splitFn
  rw [hs]
  simp only [Option.getD_none]
  rw [loneCR_none _ [].length fun i (hi : i < 0) => absurd hi (Nat.not_lt_zero _)]

/-- At the end of the file, the first line is split off. -/
theorem split_eof (l : List Nat) (t : Term) (is : List (List Nat × Term)) (h : WellEnded ((l, t) :: is)) :
    splitFn (document ((l, t) :: is)) true = (l.length + t.bytes.length, some l) := by
  obtain ⟨h1, h2, h3, h4, _⟩ := h
  unfold document
  cases t with
  | lf => exact split_lf l _ true h1 h2
  | crlf => exact split_crlf l _ true h1 h2
  | cr =>
    cases hd : document is with
    | nil => exact split_lastCR l h1 h2
    | cons x d => rw [hd] at h4; exact split_cr l _ true h1 h2 (h4 rfl) (by simp) (.inl rfl)
  | eof =>
    obtain ⟨h0, rfl⟩ := h3 rfl
    have := split_last l h1 h2 h0
    simpa [document, Term.bytes] using this

/-- Before the end of the file, it is split off, or more is needed. -/
theorem split_chunk (l : List Nat) (t : Term) (is : List (List Nat × Term)) (h : WellEnded ((l, t) :: is)) (buffer more : List Nat)
    (hb : buffer ++ more = document ((l, t) :: is)) :
    splitFn buffer false = (0, none) ∨
      (splitFn buffer false = (l.length + t.bytes.length, some l) ∧ buffer.drop (l.length + t.bytes.length) ++ more = document is) := by
  obtain ⟨h1, h2, h3, h4, _⟩ := h
  by_cases h10 : 10 ∈ buffer
  · right
    have hlong : ∀ pre : List Nat, 10 ∉ pre → ∀ rest, buffer ++ more = pre ++ rest → ∃ b, buffer = pre ++ b ∧ b ++ more = rest ∧ 10 ∈ b := by
      intro pre hp rest e
      rcases List.append_eq_append_iff.mp e with ⟨c, rfl, hc⟩ | ⟨c, rfl, hc⟩
      · exact absurd (List.mem_append_left _ h10) hp
      · refine ⟨c, rfl, hc.symm, ?_⟩
        rcases List.mem_append.mp h10 with h | h
        · exact absurd h hp
        · exact h
    unfold document at hb
    cases t with
    | lf =>
      obtain ⟨b, rfl, e, hb10⟩ := hlong l h1 _ hb
      cases b with
      | nil => cases hb10
      | cons x b =>
        obtain ⟨rfl, e⟩ := List.cons.inj e
        exact ⟨split_lf l b false h1 h2, by simpa [Term.bytes] using e⟩
    | crlf =>
      obtain ⟨b, rfl, e, hb10⟩ := hlong (l ++ [13]) (by simp [h1]) (10 :: document is) (by rw [hb]; simp [Term.bytes])
      cases b with
      | nil => cases hb10
      | cons x b =>
        obtain ⟨rfl, e'⟩ := List.cons.inj e
        have hx : l ++ [13] ++ 10 :: b = l ++ 13 :: 10 :: b := by simp
        rw [hx]
        exact ⟨split_crlf l b false h1 h2, by rw [← e', show l ++ 13 :: 10 :: b = l ++ ([13, 10] ++ b) from rfl, ← List.append_assoc,
          List.drop_left' (by simp [Term.bytes])]; rfl⟩
    | cr =>
      obtain ⟨b, rfl, e, hb10⟩ := hlong (l ++ [13]) (by simp [h1]) (document is) (by rw [hb]; simp [Term.bytes])
      have hx : l ++ [13] ++ b = l ++ 13 :: b := by simp
      have h4 := h4 rfl
      refine ⟨?_, by rw [← e, List.drop_left' (by simp [Term.bytes])]⟩
      rw [hx]
      refine split_cr l b false h1 h2 ?_ (by rintro rfl; cases hb10) (.inr hb10)
      intro hh
      cases b with
      | nil => cases hb10
      | cons x b => rw [← e] at h4; exact h4 hh
    | eof =>
      obtain ⟨h0, rfl⟩ := h3 rfl
      exfalso
      have : 10 ∈ buffer ++ more := List.mem_append_left _ h10
      rw [hb] at this
      simp [document, Term.bytes] at this
      exact h1 this
  · exact .inl (split_more buffer h10)

theorem scanLines_eq : ∀ (n : Nat) (is : List (List Nat × Term)) (buffer : List Nat) (chunks : List (List Nat)), WellEnded is →
    buffer ++ chunks.flatten = document is → is.length + chunks.length < n → scanLines n buffer chunks = is.map Prod.fst := by
  intro n
  induction n with
  | zero => intro is buffer chunks _ _ h; omega
  | succ n ih =>
    intro is buffer chunks hw hb hn
    cases chunks with
    | nil =>
      simp only [List.flatten_nil, List.append_nil] at hb
      subst hb
      cases is with
      | nil => rfl
      | cons x is =>
        obtain ⟨l, t⟩ := x
        unfold scanLines
        rw [split_eof l t is hw]
        simp only [List.map_cons]
        rw [ih is _ [] hw.2.2.2.2 ?_ (by simp at hn ⊢; omega)]
        rw [document, ← List.append_assoc, List.drop_left' (by simp)]
        simp
    | cons c chunks =>
      have hstep : scanLines n (buffer ++ c) chunks = is.map Prod.fst :=
        ih is _ chunks hw (by rw [← hb]; simp) (by simp at hn ⊢; omega)
      unfold scanLines
      cases hbuf : buffer.isEmpty with
      | true => exact hstep
      | false =>
        simp only [Bool.false_eq_true, if_false]
        cases is with
        | nil =>
          have : buffer = [] := (List.append_eq_nil_iff.mp hb).1
          subst this
          cases hbuf
        | cons x is =>
          obtain ⟨l, t⟩ := x
          rcases split_chunk l t is hw buffer _ hb with h | ⟨h, h'⟩
          · rw [h]; exact hstep
          · rw [h]
            simp only [List.map_cons]
            rw [ih is _ (c :: chunks) hw.2.2.2.2 h' (by simp at hn ⊢; omega)]

theorem document_length : ∀ is : List (List Nat × Term), WellEnded is → is.length ≤ (document is).length := by
  intro is
  induction is with
  | nil => intro _; exact Nat.le_refl _
  | cons x is ih =>
    intro h
    obtain ⟨l, t⟩ := x
    have h1 := ih h.2.2.2.2
    have h2 : 0 < l.length + t.bytes.length := by
      cases t with
      | eof =>
        have := List.length_pos_iff.mpr (h.2.2.1 rfl).1
        omega
      | _ => simp [Term.bytes]
    simp only [document, List.length_append, List.length_cons]
    omega

theorem linesOf_eq (is : List (List Nat × Term)) (chunks : List (List Nat)) (hw : WellEnded is) (hb : chunks.flatten = document is) :
    linesOf chunks = is.map Prod.fst := by
  have := document_length is hw
  unfold linesOf
  exact scanLines_eq _ is [] chunks hw (by simpa using hb) (by rw [hb]; omega)

end Uax.Ucd
