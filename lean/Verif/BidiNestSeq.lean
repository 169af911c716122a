import Verif.BidiNestOut
import Verif.BidiPairsResolve

/-
The isolating run sequence of a text with isolates, and the classes of its bytes.
-/
namespace Uax.Bidi

open Spec

/-! ### Isolate formatting characters are neutral -/

/-- ON instead of isolate formatting characters -/
def plainIso (c : Class) : Class := if c ∈ [cLRI, cRLI, cFSI, cPDI] then cON else c

theorem plainIso_known {c : Class} (h : c ∉ [cLRI, cRLI, cFSI, cPDI]) : plainIso c = c := if_neg h

theorem plainIso_eq {c d : Class} (hd : d ∉ [cLRI, cRLI, cFSI, cPDI]) (hn : d ≠ cON) : plainIso c = d ↔ c = d := by
  unfold plainIso
  split
  · rename_i h
    constructor
    · intro hh; exact absurd hh.symm hn
    · intro hh; rw [hh] at h; exact absurd h hd
  · exact Iff.rfl

theorem w1_plainIso : ∀ (cs : List Class) (p : Class), (w1 p cs).map plainIso = w1 (plainIso p) (cs.map plainIso) := by
  intro cs
  induction cs with
  | nil => intro p; rfl
  | cons c cs ih =>
    intro p
    rw [w1, List.map_cons, List.map_cons, w1, ih]
    have h : plainIso (if c = cNSM then (if p ∈ [cLRI, cRLI, cFSI, cPDI] then cON else p) else c) =
        (if plainIso c = cNSM then (if plainIso p ∈ [cLRI, cRLI, cFSI, cPDI] then cON else plainIso p) else plainIso c) := by
      simp only [plainIso_eq (c := c) (d := cNSM) (by decide) (by decide)]
      split
      · have hp : plainIso p ∉ [cLRI, cRLI, cFSI, cPDI] := by
          unfold plainIso
          split
          · decide
          · assumption
        rw [if_neg hp]
        by_cases h : p ∈ [cLRI, cRLI, cFSI, cPDI]
        · rw [if_pos h, plainIso, if_neg (by decide), plainIso, if_pos h]
        · rw [if_neg h]
      · rfl
    rw [h]

theorem strongAfter_plainIso (s c : Class) : strongAfter s (plainIso c) = strongAfter s c := by
  unfold strongAfter
  by_cases h : c ∈ [cLRI, cRLI, cFSI, cPDI]
  · have : plainIso c = cON := if_pos h
    rw [this, if_neg (by decide), if_neg]
    rintro (h' | h' | h') <;> rw [h'] at h <;> exact absurd h (by decide)
  · rw [plainIso_known h]

theorem w2_plainIso : ∀ (cs : List Class) (s : Class), (w2 s cs).map plainIso = w2 s (cs.map plainIso) := by
  intro cs
  induction cs with
  | nil => intro s; rfl
  | cons c cs ih =>
    intro s
    rw [w2, List.map_cons, List.map_cons, w2, ih, strongAfter_plainIso]
    have h : (plainIso c = cEN) = (c = cEN) := propext (plainIso_eq (by decide) (by decide))
    simp only [h]
    split <;> rfl

theorem w3_plainIso (cs : List Class) : (w3 cs).map plainIso = w3 (cs.map plainIso) := by
  unfold w3
  rw [List.map_map, List.map_map]
  refine List.map_congr_left fun c _ => ?_
  show plainIso (if c = cAL then cR else c) = if plainIso c = cAL then cR else plainIso c
  have h : (plainIso c = cAL) = (c = cAL) := propext (plainIso_eq (by decide) (by decide))
  simp only [h]
  split <;> rfl

theorem head_plainIso {d : Class} (hd : d ∉ [cLRI, cRLI, cFSI, cPDI]) (hn : d ≠ cON) (cs : List Class) : ((cs.map plainIso).head? = some d) = (cs.head? = some d) := by
  cases cs with
  | nil => rfl
  | cons c cs =>
    rw [List.map_cons, List.head?_cons, List.head?_cons, Option.some.injEq, Option.some.injEq]
    exact propext (plainIso_eq hd hn)

theorem w4_plainIso : ∀ (cs : List Class) (p : Class), (w4 p cs).map plainIso = w4 (plainIso p) (cs.map plainIso) := by
  intro cs
  induction cs with
  | nil => intro p; rfl
  | cons c cs ih =>
    intro p
    rw [w4, List.map_cons, List.map_cons, w4, ih]
    have e1 : (plainIso c = cES) = (c = cES) := propext (plainIso_eq (by decide) (by decide))
    have e2 : (plainIso c = cCS) = (c = cCS) := propext (plainIso_eq (by decide) (by decide))
    have e3 : (plainIso p = cEN) = (p = cEN) := propext (plainIso_eq (by decide) (by decide))
    have e4 : (plainIso p = cAN) = (p = cAN) := propext (plainIso_eq (by decide) (by decide))
    simp only [e1, e2, e3, e4, head_plainIso (d := cEN) (by decide) (by decide)]
    congr 1
    by_cases h1 : c = cES ∧ p = cEN ∧ cs.head? = some cEN
    · rw [if_pos h1, if_pos h1]; rfl
    · rw [if_neg h1, if_neg h1]
      by_cases h2 : c = cCS ∧ (p = cEN ∨ p = cAN)
      · have hp : p ∉ [cLRI, cRLI, cFSI, cPDI] ∧ p ≠ cON := by rcases h2.2 with h | h <;> rw [h] <;> decide
        simp only [plainIso_known hp.1, head_plainIso hp.1 hp.2]
        by_cases h3 : cs.head? = some p
        · rw [if_pos ⟨h2.1, h2.2, h3⟩, if_pos ⟨h2.1, h2.2, h3⟩, plainIso_known hp.1]
        · rw [if_neg (fun h => h3 h.2.2), if_neg (fun h => h3 h.2.2)]
      · rw [if_neg (fun h => h2 ⟨h.1, h.2.1⟩), if_neg (fun h => h2 ⟨h.1, h.2.1⟩)]

theorem w5_plainIso : ∀ (cs : List Class) (p : Class), (w5 p cs).map plainIso = w5 (plainIso p) (cs.map plainIso) := by
  intro cs
  induction cs with
  | nil => intro p; rfl
  | cons c cs ih =>
    intro p
    rw [w5_cons, List.map_cons, List.map_cons, w5_cons, ih]
    have e1 : (plainIso c = cET) = (c = cET) := propext (plainIso_eq (by decide) (by decide))
    have e3 : (plainIso p = cEN) = (p = cEN) := propext (plainIso_eq (by decide) (by decide))
    have e5 : (cs.map plainIso).dropWhile (· = cET) = (cs.dropWhile (· = cET)).map plainIso := by
      rw [List.dropWhile_map]
      congr 2
      funext x
      exact decide_eq_decide.mpr (plainIso_eq (by decide) (by decide))
    have h : plainIso (if c = cET ∧ (p = cEN ∨ (cs.dropWhile (· = cET)).head? = some cEN) then cEN else c) =
        (if plainIso c = cET ∧ (plainIso p = cEN ∨ ((cs.map plainIso).dropWhile (· = cET)).head? = some cEN) then cEN else plainIso c) := by
      simp only [e1, e3, e5, head_plainIso (d := cEN) (by decide) (by decide)]
      split <;> rfl
    rw [h]

theorem w6_plainIso (cs : List Class) : (w6 cs).map plainIso = w6 (cs.map plainIso) := by
  unfold w6
  rw [List.map_map, List.map_map]
  refine List.map_congr_left fun c _ => ?_
  show plainIso (if c = cES ∨ c = cET ∨ c = cCS then cON else c) = if plainIso c = cES ∨ plainIso c = cET ∨ plainIso c = cCS then cON else plainIso c
  have e1 : (plainIso c = cES) = (c = cES) := propext (plainIso_eq (by decide) (by decide))
  have e2 : (plainIso c = cET) = (c = cET) := propext (plainIso_eq (by decide) (by decide))
  have e3 : (plainIso c = cCS) = (c = cCS) := propext (plainIso_eq (by decide) (by decide))
  simp only [e1, e2, e3]
  split <;> rfl

theorem w7_plainIso : ∀ (cs : List Class) (s : Class), (w7 s cs).map plainIso = w7 s (cs.map plainIso) := by
  intro cs
  induction cs with
  | nil => intro s; rfl
  | cons c cs ih =>
    intro s
    rw [w7, List.map_cons, List.map_cons, w7, ih, strongAfter_plainIso]
    have h : (plainIso c = cEN) = (c = cEN) := propext (plainIso_eq (by decide) (by decide))
    simp only [h]
    split <;> rfl

theorem neutral_plainIso (c : Class) : neutral (plainIso c) = neutral c := by
  by_cases h : c ∈ [cLRI, cRLI, cFSI, cPDI]
  · rw [plainIso, if_pos h]
    simp only [List.mem_cons, List.not_mem_nil, or_false] at h
    rcases h with rfl | rfl | rfl | rfl <;> decide
  · rw [plainIso_known h]

theorem plainIso_strong {c : Class} (h : neutral c ≠ true) : plainIso c = c := by
  refine plainIso_known fun hm => h ?_
  simp only [List.mem_cons, List.not_mem_nil, or_false] at hm
  rcases hm with rfl | rfl | rfl | rfl <;> decide

theorem n12_plainIso (e : Class) : ∀ (cs : List Class) (b : Class), n12 e b (cs.map plainIso) = n12 e b cs := by
  have hs : ∀ cs : List Class, sideOf e (cs.map plainIso) = sideOf e cs := by
    intro cs
    induction cs with
    | nil => rfl
    | cons c cs ih =>
      rw [List.map_cons, sideOf_cons, sideOf_cons, ih, neutral_plainIso]
      split
      · rfl
      · rename_i h
        rw [plainIso_strong h]
  intro cs
  induction cs with
  | nil => intro b; rfl
  | cons c cs ih =>
    intro b
    rw [List.map_cons, n12, n12, ih, ih, hs, neutral_plainIso]
    split
    · rfl
    · rename_i h
      rw [plainIso_strong h]

/-- Isolate formatting characters are resolved as ON is. -/
theorem resolved_plainIso {e : Class} (he : e = cL ∨ e = cR) (cs : List Class) : resolved e (cs.map plainIso) = resolved e cs := by
  have hp : plainIso e = e := plainIso_known (by rcases he with rfl | rfl <;> decide)
  have ho : plainIso cON = cON := rfl
  unfold resolved weak
  rw [← n12_plainIso e (w7 e (w6 (w5 cON (w4 cON (w3 (w2 e (w1 e cs))))))), w7_plainIso, w6_plainIso, w5_plainIso, w4_plainIso, w3_plainIso, w2_plainIso, w1_plainIso, hp, ho]

/-! ### Widths -/

/-- Each class as often as the width says. -/
def widen (ws : List Nat) (xs : List Class) : List Class := (ws.zip xs).flatMap fun x => List.replicate x.1 x.2

theorem widen_cons (w : Nat) (ws : List Nat) (x : Class) (xs : List Class) : widen (w :: ws) (x :: xs) = List.replicate w x ++ widen ws xs := rfl

theorem widen_append : ∀ (ws : List Nat) (xs : List Class) (ws' : List Nat) (xs' : List Class), ws.length = xs.length →
    widen (ws ++ ws') (xs ++ xs') = widen ws xs ++ widen ws' xs'
  | [], [], _, _, _ => rfl
  | w :: ws, x :: xs, ws', xs', h => by
    rw [List.cons_append, List.cons_append, widen_cons, widen_cons, widen_append ws xs ws' xs' (by simpa using h), List.append_assoc]

theorem widen_map (f : Class → Class) : ∀ (ws : List Nat) (xs : List Class), (widen ws xs).map f = widen ws (xs.map f)
  | [], xs => by cases xs <;> rfl
  | w :: ws, [] => rfl
  | w :: ws, x :: xs => by
    rw [widen_cons, List.map_append, List.map_replicate, List.map_cons, widen_cons, widen_map f ws xs]

theorem widen_side (e : Class) : ∀ (ws : List Nat) (xs : List Class), ws.length = xs.length → (∀ w ∈ ws, 0 < w) → sideOf e (widen ws xs) = sideOf e xs
  | [], [], _, _ => rfl
  | w :: ws, x :: xs, h, hp => by
    have ih := widen_side e ws xs (by simpa using h) (fun v hv => hp v (by simp [hv]))
    rw [widen_cons, sideOf_cons, ← ih]
    have : ∀ n, 0 < n → sideOf e (List.replicate n x ++ widen ws xs) = if neutral x = true then sideOf e (widen ws xs) else side x := by
      intro n
      induction n with
      | zero => intro h; omega
      | succ n ihn =>
        intro _
        rw [List.replicate_succ, List.cons_append, sideOf_cons]
        by_cases h0 : n = 0
        · subst h0; rfl
        · rw [ihn (by omega)]
          split <;> rfl
    exact this _ (hp w (by simp))

theorem widen_n12 (e : Class) : ∀ (ws : List Nat) (xs : List Class) (b : Class), ws.length = xs.length → (∀ w ∈ ws, 0 < w) →
    n12 e b (widen ws xs) = widen ws (n12 e b xs)
  | [], [], _, _, _ => rfl
  | w :: ws, x :: xs, b, h, hp => by
    have hl : ws.length = xs.length := by simpa using h
    have hp' : ∀ v ∈ ws, 0 < v := fun v hv => hp v (by simp [hv])
    rw [widen_cons, n12_rep e x _ _ b (hp w (by simp)), widen_side e ws xs hl hp', n12]
    split
    · rw [widen_cons, widen_n12 e ws xs b hl hp']
    · rw [widen_cons, widen_n12 e ws xs _ hl hp']

theorem widen_get : ∀ (ws : List Nat) (xs : List Class) (i w k : Nat), ws.length = xs.length → ws[i]? = some w → k < w →
    (widen ws xs)[(ws.take i).sum + k]? = xs[i]?
  | [], _, i, w, k, _, hw, _ => by simp at hw
  | v :: ws, x :: xs, 0, w, k, _, hw, hk => by
    rw [List.getElem?_cons_zero, Option.some.injEq] at hw
    subst hw
    rw [widen_cons, List.take_zero, List.sum_nil, Nat.zero_add, List.getElem?_append_left (by rw [List.length_replicate]; exact hk),
      List.getElem?_replicate, if_pos hk]
    rfl
  | v :: ws, x :: xs, i + 1, w, k, h, hw, hk => by
    rw [widen_cons, List.take_succ_cons, List.sum_cons, List.getElem?_append_right (by rw [List.length_replicate]; omega), List.length_replicate,
      show v + (ws.take i).sum + k - v = (ws.take i).sum + k by omega, List.getElem?_cons_succ,
      widen_get ws xs i w k (by simpa using h) (by simpa using hw) hk]

/-- The widths of the characters of a text. -/
def widthsOf (t : List Char) : List Nat := t.map fun c => (utf8 [c]).length

theorem spread_widen : ∀ (t : List Char) (xs : List Class), spread t xs = widen (widthsOf t) xs
  | [], xs => rfl
  | c :: t, [] => rfl
  | c :: t, x :: xs => by
    rw [spread_cons, spread_widen t xs]
    rfl

theorem widthsOf_sum (t : List Char) : (widthsOf t).sum = (utf8 t).length := by
  induction t with
  | nil => rfl
  | cons c t ih => rw [utf8_len, ← ih]; rfl

/-! ### The isolating run sequence -/

/-- The widths of the characters of the sequence, where the text in an isolate counts as part of
its initiator. -/
def seqWidths : Isolates → List Nat
  | .none => []
  | .more op lead inner cl after rest => (utf8 (op :: (lead ++ inner.chars))).length :: (utf8 [cl]).length :: (widthsOf after ++ seqWidths rest)

/-- The classes of the characters of the sequence. -/
def seqClasses (T : Tables) (o : Options) : Isolates → List Class
  | .none => []
  | .more op _ _ cl after rest => charClass T o op :: charClass T o cl :: (classes T o after ++ seqClasses T o rest)

/-- The same, after the rules W1 and W3. -/
def seqScanned (T : Tables) (o : Options) : Isolates → List Class
  | .none => []
  | .more _ _ _ _ after rest => cNI :: cNI :: (scanned cNI (classes T o after) ++ seqScanned T o rest)

theorem charsAt_chars : ∀ (t : List Char) (pos : Nat), (charsAt pos t).map (·.1) = t
  | [], _ => rfl
  | c :: t, pos => by rw [charsAt, List.map_cons, charsAt_chars t]

theorem sequence_classes (T : Tables) (o : Options) : ∀ (is : Isolates) (pos : Nat), classes T o ((is.sequence pos).map (·.1)) = seqClasses T o is := by
  intro is
  induction is with
  | none => intro pos; rfl
  | more op lead inner cl after rest _ ih =>
    intro pos
    rw [Isolates.sequence, List.map_cons, List.map_cons, List.map_append, charsAt_chars, classes_cons, classes_cons, classes_append, ih]
    rfl

theorem outerSequence_classes (T : Tables) (o : Options) (lead : List Char) (is : Isolates) :
    classes T o ((outerSequence lead is).map (·.1)) = classes T o lead ++ seqClasses T o is := by
  rw [outerSequence, List.map_append, charsAt_chars, classes_append, sequence_classes]

theorem charsAt_get : ∀ (t : List Char) (pos i : Nat) (c : Char) (q : Nat), (charsAt pos t)[i]? = some (c, q) →
    (widthsOf t)[i]? = some (utf8 [c]).length ∧ q = pos + ((widthsOf t).take i).sum
  | [], _, i, c, q, h => by simp [charsAt] at h
  | d :: t, pos, 0, c, q, h => by
    rw [charsAt, List.getElem?_cons_zero, Option.some.injEq, Prod.mk.injEq] at h
    obtain ⟨rfl, rfl⟩ := h
    exact ⟨rfl, rfl⟩
  | d :: t, pos, i + 1, c, q, h => by
    rw [charsAt, List.getElem?_cons_succ] at h
    obtain ⟨h1, h2⟩ := charsAt_get t _ i c q h
    refine ⟨h1, ?_⟩
    rw [h2]
    show _ = pos + (List.take (i + 1) ((utf8 [d]).length :: widthsOf t)).sum
    rw [List.take_succ_cons, List.sum_cons]
    omega

theorem charsAt_length (t : List Char) (pos : Nat) : (charsAt pos t).length = (widthsOf t).length := by
  rw [← List.length_map (f := fun x : Char × Nat => x.1), charsAt_chars, widthsOf, List.length_map]

theorem sequence_get : ∀ (is : Isolates) (pos i : Nat) (c : Char) (q : Nat), (is.sequence pos)[i]? = some (c, q) →
    (∃ w, (seqWidths is)[i]? = some w ∧ (utf8 [c]).length ≤ w) ∧ q = pos + ((seqWidths is).take i).sum := by
  intro is
  induction is with
  | none => intro pos i c q h; simp [Isolates.sequence] at h
  | more op lead inner cl after rest _ ih =>
    intro pos i c q h
    rw [Isolates.sequence] at h
    rw [seqWidths]
    match i, h with
    | 0, h =>
      rw [List.getElem?_cons_zero, Option.some.injEq, Prod.mk.injEq] at h
      obtain ⟨rfl, rfl⟩ := h
      refine ⟨⟨_, rfl, ?_⟩, rfl⟩
      rw [utf8_len op (lead ++ inner.chars)]
      omega
    | 1, h =>
      rw [List.getElem?_cons_succ, List.getElem?_cons_zero, Option.some.injEq, Prod.mk.injEq] at h
      obtain ⟨rfl, rfl⟩ := h
      exact ⟨⟨_, rfl, Nat.le_refl _⟩, rfl⟩
    | i + 2, h =>
      rw [List.getElem?_cons_succ, List.getElem?_cons_succ] at h
      rw [List.getElem?_cons_succ, List.getElem?_cons_succ, List.take_succ_cons, List.take_succ_cons, List.sum_cons, List.sum_cons]
      have hw : (utf8 (op :: (lead ++ inner.chars) ++ [cl])).length = (utf8 (op :: (lead ++ inner.chars))).length + (utf8 [cl]).length := utf8_len_append _ _
      have hw2 : (utf8 (op :: (lead ++ inner.chars) ++ cl :: after)).length = (utf8 (op :: (lead ++ inner.chars))).length + (utf8 [cl]).length + (utf8 after).length := by
        rw [utf8_len_append, utf8_len cl after]; omega
      by_cases hi : i < (widthsOf after).length
      · rw [List.getElem?_append_left (by rw [charsAt_length]; exact hi)] at h
        obtain ⟨h1, h2⟩ := charsAt_get _ _ _ _ _ h
        rw [List.getElem?_append_left hi, List.take_append_of_le_length (by omega)]
        refine ⟨⟨_, h1, Nat.le_refl _⟩, ?_⟩
        rw [h2, hw]; omega
      · rw [List.getElem?_append_right (by rw [charsAt_length]; omega), charsAt_length] at h
        obtain ⟨h1, h2⟩ := ih _ _ _ _ h
        rw [List.getElem?_append_right (by omega), List.take_append, List.take_of_length_le (by omega), List.sum_append, widthsOf_sum]
        refine ⟨h1, ?_⟩
        rw [h2, hw2]; omega

/-- Where the characters of the sequence are. -/
theorem outerSequence_get {lead : List Char} {is : Isolates} {i : Nat} {c : Char} {q : Nat} (h : (outerSequence lead is)[i]? = some (c, q)) :
    (∃ w, (widthsOf lead ++ seqWidths is)[i]? = some w ∧ (utf8 [c]).length ≤ w) ∧ q = ((widthsOf lead ++ seqWidths is).take i).sum := by
  rw [outerSequence] at h
  by_cases hi : i < (widthsOf lead).length
  · rw [List.getElem?_append_left (by rw [charsAt_length]; exact hi)] at h
    obtain ⟨h1, h2⟩ := charsAt_get _ _ _ _ _ h
    rw [List.getElem?_append_left hi, List.take_append_of_le_length (by omega)]
    exact ⟨⟨_, h1, Nat.le_refl _⟩, by rw [h2]; omega⟩
  · rw [List.getElem?_append_right (by rw [charsAt_length]; omega), charsAt_length] at h
    obtain ⟨h1, h2⟩ := sequence_get _ _ _ _ _ h
    rw [List.getElem?_append_right (by omega), List.take_append, List.take_of_length_le (by omega), List.sum_append, widthsOf_sum]
    exact ⟨h1, h2⟩

theorem seqWidths_length (T : Tables) (o : Options) : ∀ is : Isolates, (seqWidths is).length = (seqScanned T o is).length := by
  intro is
  induction is with
  | none => rfl
  | more op lead inner cl after rest _ ih =>
    simp only [seqWidths, seqScanned, List.length_cons, List.length_append, ih, scanned_length, widthsOf, classes, List.length_map]

theorem seqClasses_length (T : Tables) (o : Options) : ∀ is : Isolates, (seqClasses T o is).length = (seqScanned T o is).length := by
  intro is
  induction is with
  | none => rfl
  | more op lead inner cl after rest _ ih =>
    simp only [seqClasses, seqScanned, List.length_cons, List.length_append, ih, scanned_length]

theorem seqWidths_pos : ∀ is : Isolates, ∀ w ∈ seqWidths is, 0 < w := by
  intro is
  induction is with
  | none => intro w hw; cases hw
  | more op lead inner cl after rest _ ih =>
    intro w hw
    rw [seqWidths, List.mem_cons, List.mem_cons, List.mem_append] at hw
    rcases hw with rfl | rfl | hw | hw
    · have := utf8_pos op
      rw [utf8_len op]; omega
    · exact utf8_pos cl
    · rw [widthsOf, List.mem_map] at hw
      obtain ⟨c, -, rfl⟩ := hw
      exact utf8_pos c
    · exact ih w hw

theorem outBytes_widen (T : Tables) (o : Options) : ∀ is : Isolates, outBytes T o is = widen (seqWidths is) (seqScanned T o is) := by
  intro is
  induction is with
  | none => rfl
  | more op lead inner cl after rest _ ih =>
    rw [outBytes, seqWidths, seqScanned, widen_cons, widen_cons, widen_append _ _ _ _ (by rw [scanned_length, widthsOf, classes, List.length_map, List.length_map]),
      ← ih, ← spread_widen, utf8_len_append, ← List.replicate_append_replicate, List.append_assoc]

theorem scanned_append : ∀ (xs ys : List Class) (p : Class), scanned p (xs ++ ys) = scanned p xs ++ scanned ((scanned p xs).getLast?.getD p) ys := by
  intro xs
  induction xs with
  | nil => intros; rfl
  | cons x xs ih =>
    intro ys p
    rw [List.cons_append, scanned, scanned, ih, List.cons_append]
    congr 3
    generalize (if x = cNSM then p else if x = cAL then cR else oneNeutral x) = q
    cases h : scanned q xs with
    | nil => rfl
    | cons y ys => rw [List.getLast?_cons_cons, List.getLast?_cons]; rfl

theorem scanned_seq {T : Tables} {o : Options} : ∀ (is : Isolates) (p : Class), is.Good T o false → Spec.NoIsolates (classes T o is.outer) → scanned p ((seqClasses T o is).map plainIso) = seqScanned T o is := by
  intro is
  induction is with
  | none => intros; rfl
  | more op lead inner cl after rest _ ih =>
    intro p hg hn
    obtain ⟨g1, g2, -, -, -, -, -, -, -, g10⟩ := hg
    have h1 : plainIso (charClass T o op) = cON := by rcases g1 with h | h <;> rw [h] <;> rfl
    have h2 : plainIso (charClass T o cl) = cON := by rw [g2]; rfl
    have ha : (classes T o after).map plainIso = classes T o after := by
      conv => rhs; rw [← List.map_id (classes T o after)]
      refine List.map_congr_left fun c hc => plainIso_known (hn c ?_)
      show c ∈ classes T o (after ++ rest.outer)
      rw [classes_append]
      exact List.mem_append_left _ hc
    rw [seqClasses, List.map_cons, List.map_cons, h1, h2, List.map_append, ha, scanned, scanned]
    show cNI :: cNI :: scanned cNI (classes T o after ++ _) = _
    rw [scanned_append, seqScanned]
    congr 3
    refine ih _ g10 fun c hc => hn c ?_
    show c ∈ classes T o (after ++ rest.outer)
    rw [classes_append]
    exact List.mem_append_right _ hc

/-! ### The rules for the sequence -/

theorem quiet_insert {a b : List Class} (h : QuietText (a ++ b)) : QuietText (a ++ cON :: b) := by
  intro pre post e
  rcases List.append_eq_append_iff.mp e with ⟨x, h1, h2⟩ | ⟨x, h1, h2⟩
  · cases x with
    | nil => rw [List.nil_append, List.cons.injEq] at h2; exact absurd h2.1 (by decide)
    | cons y x =>
      rw [List.cons_append, List.cons.injEq] at h2
      obtain ⟨rfl, h2⟩ := h2
      obtain ⟨q1, q2⟩ := h (a ++ x) post (by rw [h2, List.append_assoc])
      rw [List.mem_append, not_or] at q1 q2
      rw [h1]
      simp only [List.mem_append, List.mem_cons, not_or]
      exact ⟨⟨q1.1, by decide, q1.2⟩, q2.1, by decide, q2.2⟩
  · cases x with
    | nil => rw [List.nil_append, List.cons.injEq] at h2; exact absurd h2.1 (by decide)
    | cons y x =>
      rw [List.cons_append, List.cons.injEq] at h2
      exact h pre (x ++ b) (by rw [h1, h2.1]; simp)

theorem plain_after {T : Tables} {o : Options} {t : List Char} (h : Spec.NoIsolates (classes T o t)) : (classes T o t).map plainIso = classes T o t := by
  conv => rhs; rw [← List.map_id (classes T o t)]
  exact List.map_congr_left fun c hc => plainIso_known (h c hc)

theorem noIsolates_append {T : Tables} {o : Options} {a b : List Char} (h : Spec.NoIsolates (classes T o (a ++ b))) :
    Spec.NoIsolates (classes T o a) ∧ Spec.NoIsolates (classes T o b) := by
  rw [classes_append] at h
  exact ⟨fun c hc => h c (List.mem_append_left _ hc), fun c hc => h c (List.mem_append_right _ hc)⟩

theorem good_classes {T : Tables} {o : Options} {op cl : Char} {lead aft : List Char} {inner rest : Isolates} (hg : (Isolates.more op lead inner cl aft rest).Good T o false) :
    plainIso (charClass T o op) = cON ∧ plainIso (charClass T o cl) = cON ∧ rest.Good T o false := by
  obtain ⟨g1, g2, -, -, -, -, -, -, -, g10⟩ := hg
  refine ⟨?_, by rw [g2]; rfl, g10⟩
  rcases g1 with h | h <;> rw [h] <;> rfl

theorem seq_quiet {T : Tables} {o : Options} : ∀ (is : Isolates) (a : List Class), is.Good T o false → Spec.NoIsolates (classes T o is.outer) →
    QuietText (a ++ classes T o is.outer) → QuietText (a ++ (seqClasses T o is).map plainIso) := by
  intro is
  induction is with
  | none => intro a _ _ h; exact h
  | more op lead inner cl aft rest _ ih =>
    intro a hg hn hq
    obtain ⟨g1, g2, g3⟩ := good_classes hg
    obtain ⟨n1, n2⟩ := noIsolates_append (a := aft) (b := rest.outer) hn
    rw [seqClasses, List.map_cons, List.map_cons, g1, g2, List.map_append, plain_after n1]
    refine quiet_insert (quiet_insert ?_)
    rw [← List.append_assoc]
    refine ih _ g3 n2 ?_
    rw [List.append_assoc, ← classes_append]
    exact hq

theorem seq_simple {T : Tables} {o : Options} : ∀ (is : Isolates), is.Good T o false → SimpleClasses (classes T o is.outer) →
    SimpleClasses ((seqClasses T o is).map plainIso) := by
  intro is
  induction is with
  | none => intro _ _ c hc; cases hc
  | more op lead inner cl aft rest _ ih =>
    intro hg hs
    obtain ⟨g1, g2, g3⟩ := good_classes hg
    have hs' : SimpleClasses (classes T o aft) ∧ SimpleClasses (classes T o rest.outer) := by
      have : SimpleClasses (classes T o (aft ++ rest.outer)) := hs
      rw [classes_append] at this
      exact ⟨fun c hc => this c (List.mem_append_left _ hc), fun c hc => this c (List.mem_append_right _ hc)⟩
    have n1 : Spec.NoIsolates (classes T o aft) := by
      intro c hc hm
      have := hs'.1 c hc
      simp only [List.mem_cons, List.not_mem_nil, or_false] at hm
      rcases hm with rfl | rfl | rfl | rfl <;> exact absurd this (by decide)
    intro c hc
    rw [seqClasses, List.map_cons, List.map_cons, g1, g2, List.map_append, plain_after n1, List.mem_cons, List.mem_cons, List.mem_append] at hc
    rcases hc with rfl | rfl | hc | hc
    · decide
    · decide
    · exact hs'.1 c hc
    · exact ih g3 hs'.2 c hc

theorem simple_noIsolates {cs : List Class} (h : SimpleClasses cs) : Spec.NoIsolates cs := by
  intro c hc hm
  have := h c hc
  simp only [List.mem_cons, List.not_mem_nil, or_false] at hm
  rcases hm with rfl | rfl | rfl | rfl <;> exact absurd this (by decide)

theorem spread_single (xs : List Class) : spread (List.replicate xs.length 'a') xs = xs := by
  induction xs with
  | nil => rfl
  | cons x xs ih => rw [List.length_cons, List.replicate_succ, spread_cons, ih]; rfl

/-- The classes of the sequence before pass 1. -/
def seqStart (T : Tables) (o : Options) (lead : List Char) (is : Isolates) : List Class := scanned cNULL (classes T o lead) ++ seqScanned T o is

/-- The rules give the classes of the sequence. -/
theorem seq_resolved_at {T : Tables} {o : Options} {lead : List Char} {is : Isolates} {e : Class} (he : e = cL ∨ e = cR) (hg : is.Good T o false) (hs : SimpleClasses (classes T o (lead ++ is.outer)))
    (hnum : NumbersLTR e ((classes T o lead ++ seqClasses T o is).map plainIso)) (hh : (classes T o lead).head? ≠ some cNSM) :
    ((w1 e (classes T o lead ++ seqClasses T o is)).map plainIso).map (fun c => oneNeutral (if c = cAL then cR else c)) = seqStart T o lead is ∧
    resolved e (classes T o lead ++ seqClasses T o is) = n12 e e ((seqStart T o lead is).map settle) ∧
    ∀ c ∈ seqStart T o lead is, c ∈ [cL, cR, cNI, cEN] := by
  have hs2 : SimpleClasses (classes T o lead) ∧ SimpleClasses (classes T o is.outer) := by
    rw [classes_append] at hs
    exact ⟨fun c hc => hs c (List.mem_append_left _ hc), fun c hc => hs c (List.mem_append_right _ hc)⟩
  have n1 := simple_noIsolates hs2.1
  have n2 := simple_noIsolates hs2.2
  have hcs : (classes T o lead ++ seqClasses T o is).map plainIso = classes T o lead ++ (seqClasses T o is).map plainIso := by
    rw [List.map_append, plain_after n1]
  have hsimple : SimpleClasses ((classes T o lead ++ seqClasses T o is).map plainIso) := by
    rw [hcs]
    intro c hc
    rw [List.mem_append] at hc
    exact hc.elim (hs2.1 c) (seq_simple is hg hs2.2 c)
  have hni := simple_noIsolates hsimple
  have hplain : PlainClasses ((classes T o lead ++ seqClasses T o is).map plainIso) := by
    intro c hc
    have := hsimple c hc
    simp only [List.mem_cons, List.not_mem_nil, or_false] at this
    rcases this with rfl | rfl | rfl | rfl | rfl | rfl | rfl | rfl <;> decide
  have hei : e ∉ [cLRI, cRLI, cFSI, cPDI] := by rcases he with rfl | rfl <;> decide
  obtain ⟨h2, -, h3⟩ := plain_scanned he hplain hnum
  have hw1 : (w1 e (classes T o lead ++ seqClasses T o is)).map plainIso = w1 e ((classes T o lead ++ seqClasses T o is).map plainIso) := (w1_plainIso _ e).trans (by rw [plainIso_known hei])
  have hV : (w3 (w1 e ((classes T o lead ++ seqClasses T o is).map plainIso))).map oneNeutral = seqStart T o lead is := by
    rw [← scanned_w1 _ e hni hei, hcs, scanned_append, scanned_seq is _ hg n2, seqStart]
    congr 1
    exact scanned_head _ _ _ hh
  have hsc : ∀ c ∈ seqStart T o lead is, c ∈ [cL, cR, cNI, cEN] := by
    intro c hc
    rw [← hV, List.mem_map] at hc
    obtain ⟨d, hd, rfl⟩ := hc
    have hd' : d = cR ∨ d = e ∨ (d ∈ (classes T o lead ++ seqClasses T o is).map plainIso ∧ d ≠ cNSM ∧ d ≠ cAL) := by
      unfold w3 at hd
      rw [List.mem_map] at hd
      obtain ⟨x, hx, rfl⟩ := hd
      split
      · exact Or.inl rfl
      · rename_i hx'
        rcases w1_mem _ e hei hni x hx with h | ⟨h, h'⟩
        · exact Or.inr (Or.inl h)
        · exact Or.inr (Or.inr ⟨h, h', hx'⟩)
    rcases hd' with rfl | rfl | ⟨h, h4, h5⟩
    · decide
    · rcases he with rfl | rfl <;> decide
    · have := hsimple d h
      simp only [List.mem_cons, List.not_mem_nil, or_false] at this
      rcases this with rfl | rfl | rfl | rfl | rfl | rfl | rfl | rfl <;> first | decide | exact absurd rfl h4 | exact absurd rfl h5
  refine ⟨?_, ?_, hsc⟩
  · rw [hw1, ← hV]
    unfold w3
    rw [List.map_map]
    rfl
  · have hlen : ((classes T o lead ++ seqClasses T o is).map plainIso).length = (List.replicate (seqStart T o lead is).length 'a').length := by
      rw [List.length_replicate, ← hV]
      unfold w3
      rw [List.length_map (f := oneNeutral), List.length_map (as := w1 _ _), w1_length]
    have hres := resolved_bytes he hplain hnum _ hlen
    have hl2 : (resolved e ((classes T o lead ++ seqClasses T o is).map plainIso)).length = (seqStart T o lead is).length := by
      unfold resolved weak
      rw [n12_length, w7_length, show w6 = List.map (fun c => if c = cES ∨ c = cET ∨ c = cCS then cON else c) from rfl, List.length_map, w5_length, w4_length, h2]
      unfold w3
      rw [List.length_map (as := w1 _ _), w1_length, hlen, List.length_replicate]
    rw [← resolved_plainIso he]
    rw [h2, hV, spread_single] at hres
    rw [← hl2, spread_single] at hres
    rw [hres]
    congr 2
    have := w5_plain (seqStart T o lead is) [] cON fun hm => absurd (hsc _ hm) (by decide)
    rwa [List.append_nil, show ∀ q, w5 q [] = [] from fun _ => rfl, List.append_nil] at this

theorem seq_resolved {T : Tables} {o : Options} {lead : List Char} {is : Isolates} (hg : is.Good T o false) (hs : SimpleClasses (classes T o (lead ++ is.outer)))
    (hq : QuietText (classes T o (lead ++ is.outer))) (hh : (classes T o lead).head? ≠ some cNSM) :
    ((w1 cL (classes T o lead ++ seqClasses T o is)).map plainIso).map (fun c => oneNeutral (if c = cAL then cR else c)) = seqStart T o lead is ∧
    resolved cL (classes T o lead ++ seqClasses T o is) = n12 cL cL ((seqStart T o lead is).map settle) ∧
    ∀ c ∈ seqStart T o lead is, c ∈ [cL, cR, cNI, cEN] := by
  refine seq_resolved_at (Or.inl rfl) hg hs ?_ hh
  rw [classes_append] at hs hq
  have n1 := simple_noIsolates (cs := classes T o lead) fun c hc => hs c (List.mem_append_left _ hc)
  have n2 := simple_noIsolates (cs := classes T o is.outer) fun c hc => hs c (List.mem_append_right _ hc)
  rw [List.map_append, plain_after n1]
  exact quiet_numbers (seq_quiet is _ hg n2 hq)

/-! ### Neutrals before isolates -/

theorem w1_append : ∀ (xs ys : List Class) (p : Class), w1 p (xs ++ ys) = w1 p xs ++ w1 ((w1 p xs).getLast?.getD p) ys := by
  intro xs
  induction xs with
  | nil => intros; rfl
  | cons x xs ih =>
    intro ys p
    rw [List.cons_append, w1, w1, ih, List.cons_append]
    congr 3
    generalize (if x = cNSM then (if p ∈ [cLRI, cRLI, cFSI, cPDI] then cON else p) else x) = q
    cases h : w1 q xs with
    | nil => rfl
    | cons y ys => rw [List.getLast?_cons_cons, List.getLast?_cons]; rfl

theorem w1_same {c p : Class} {cs : List Class} (h : c ≠ cNSM) : w1 p (c :: cs) = c :: w1 c cs := by
  rw [w1, if_neg h]

/-- A neutral before pass 1 is a neutral of the standard. -/
theorem last_neutral {cs : List Class} {p : Class} (hp : p ∉ [cLRI, cRLI, cFSI, cPDI]) (hpn : p ≠ cNI) (hs : SimpleClasses cs)
    (h : (scanned (asScanned p) cs).getLast? = some cNI) : ∃ x ∈ [cS, cWS, cON], (w1 p cs).getLast? = some x := by
  rw [scanned_w1 cs p (simple_noIsolates hs) hp] at h
  unfold w3 at h
  rw [List.getLast?_map, List.getLast?_map, Option.map_map] at h
  obtain ⟨x, hx, hn⟩ := Option.map_eq_some_iff.mp h
  refine ⟨x, ?_, hx⟩
  dsimp only [Function.comp] at hn
  have hxn : x ≠ cNI := by
    rintro rfl
    rcases w1_mem cs p hp (simple_noIsolates hs) _ (List.mem_of_getLast? hx) with e | ⟨e, -⟩
    · exact hpn e.symm
    · exact absurd (hs _ e) (by decide)
  by_cases ha : x = cAL
  · rw [if_pos ha] at hn
    exact absurd hn (by decide)
  · rw [if_neg ha] at hn
    unfold oneNeutral at hn
    split at hn
    · rename_i h'
      simpa using h'
    · exact absurd hn hxn

/-- The same after an isolate. -/
theorem last_neutral_pdi {cs : List Class} (hs : SimpleClasses cs) (h : (scanned cNI cs).getLast? = some cNI) :
    ∃ x ∈ [cS, cWS, cON], (w1 cPDI cs).getLast? = some x := by
  cases cs with
  | nil => cases h
  | cons c cs =>
    by_cases hc : c = cNSM
    · subst hc
      have hw : w1 cPDI (cNSM :: cs) = cON :: w1 cON cs := rfl
      have hs' : SimpleClasses cs := fun c hc => hs c (List.mem_cons_of_mem _ hc)
      rw [scanned] at h
      rw [if_pos rfl] at h
      rw [hw]
      cases cs with
      | nil => exact ⟨cON, by decide, rfl⟩
      | cons d cs =>
        have hne : scanned cNI (d :: cs) ≠ [] := by rw [scanned]; simp
        obtain ⟨x, hx, hl⟩ := last_neutral (p := cON) (by decide) (by decide) hs' (by
          rw [show asScanned cON = cNI from rfl]
          rw [List.getLast?_cons] at h
          obtain ⟨y, hy⟩ : ∃ y, (scanned cNI (d :: cs)).getLast? = some y := by
            cases hq : (scanned cNI (d :: cs)).getLast? with
            | none => exact absurd (List.getLast?_eq_none_iff.mp hq) hne
            | some y => exact ⟨y, rfl⟩
          rw [hy] at h ⊢
          simpa using h)
        refine ⟨x, hx, ?_⟩
        rw [List.getLast?_cons, hl]
        rfl
    · rw [scanned_head (c :: cs) cNI (asScanned cL) (by simpa using hc)] at h
      obtain ⟨x, hx, hl⟩ := last_neutral (p := cL) (by decide) (by decide) hs h
      refine ⟨x, hx, ?_⟩
      rw [w1_same hc] at hl ⊢
      exact hl

theorem getLast_index {α : Type} {xs ys : List α} {x : α} (h : xs.getLast? = some x) : (xs ++ ys)[xs.length - 1]? = some x ∧ 0 < xs.length := by
  have hl : 0 < xs.length := by
    cases xs with
    | nil => cases h
    | cons _ _ => simp
  refine ⟨?_, hl⟩
  rw [List.getElem?_append_left (by omega), ← List.getLast?_eq_getElem?]
  exact h

theorem seq_clear {T : Tables} {o : Options} {R : List Class} : ∀ (is : Isolates) (C : List Class) (W : List Nat) (seg : List Class),
    is.Good T o false → SimpleClasses (classes T o is.outer) → C.length = W.length → R.length = (C ++ seqClasses T o is).length →
    (∀ i x y, (w1 cL (C ++ seqClasses T o is))[i]? = some x → (w1 cL (C ++ seqClasses T o is))[i + 1]? = some y → y ∈ [cLRI, cRLI, cFSI] → x ∈ [cS, cWS, cON] →
      R[i + 1]? = some cL) →
    (seg.getLast? = some cNI → ∃ x ∈ [cS, cWS, cON], (w1 cL C).getLast? = some x) →
    Clear T o cL (widen (W ++ seqWidths is) R) W.sum seg is := by
  intro is
  induction is with
  | none => intros; trivial
  | more op lead inner cl aft rest _ ih =>
    intro C W seg hg hs hCW hR hset hseg
    have hg0 := hg
    obtain ⟨g1, g2, -, -, -, -, -, -, -, g10⟩ := hg
    have hopn : charClass T o op ≠ cNSM := by rcases g1 with h | h <;> rw [h] <;> decide
    have hopi : charClass T o op ∈ [cLRI, cRLI, cFSI] := by rcases g1 with h | h <;> rw [h] <;> decide
    have hs' : SimpleClasses (classes T o aft) ∧ SimpleClasses (classes T o rest.outer) := by
      have : SimpleClasses (classes T o (aft ++ rest.outer)) := hs
      rw [classes_append] at this
      exact ⟨fun c hc => this c (List.mem_append_left _ hc), fun c hc => this c (List.mem_append_right _ hc)⟩
    have hlen : (W ++ seqWidths (.more op lead inner cl aft rest)).length = R.length := by
      rw [hR, List.length_append, List.length_append, hCW, seqWidths_length T o, seqClasses_length]
    refine ⟨fun hl => ?_, ?_⟩
    · obtain ⟨x, hx, hlast⟩ := hseg hl
      have hget := getLast_index (ys := w1 ((w1 cL C).getLast?.getD cL) (seqClasses T o (.more op lead inner cl aft rest))) hlast
      rw [← w1_append, w1_length] at hget
      have := hset (C.length - 1) x (charClass T o op) hget.1 (by
        rw [w1_append, show C.length - 1 + 1 = C.length by omega, List.getElem?_append_right (by rw [w1_length]; omega), w1_length, Nat.sub_self, seqClasses, w1_same hopn]
        rfl) hopi hx
      rw [show C.length - 1 + 1 = C.length by omega] at this
      have hw := widen_get (W ++ seqWidths (.more op lead inner cl aft rest)) R C.length ((utf8 (op :: (lead ++ inner.chars))).length) 0 hlen
        (by rw [hCW, List.getElem?_append_right (Nat.le_refl _), Nat.sub_self]; rfl) (by rw [utf8_len op]; have := utf8_pos op; omega)
      rw [hCW, List.take_left, Nat.add_zero, ← hCW, this] at hw
      exact hw
    · have := ih (C ++ (charClass T o op :: charClass T o cl :: classes T o aft))
        (W ++ ((utf8 (op :: (lead ++ inner.chars))).length :: (utf8 [cl]).length :: widthsOf aft)) (scanned cNI (classes T o aft)) g10 hs'.2
        (by simp [hCW, classes, widthsOf]) (by rw [hR, seqClasses]; simp)
        (by
          rw [show C ++ (charClass T o op :: charClass T o cl :: classes T o aft) ++ seqClasses T o rest = C ++ seqClasses T o (.more op lead inner cl aft rest) by
            rw [seqClasses]; simp]
          exact hset)
        (by
          intro hl
          obtain ⟨x, hx, hw⟩ := last_neutral_pdi hs'.1 hl
          refine ⟨x, hx, ?_⟩
          rw [w1_append, w1_same hopn, w1_same (by rw [g2]; decide), g2]
          cases hq : w1 cPDI (classes T o aft) with
          | nil => rw [hq] at hw; cases hw
          | cons y ys => rw [List.getLast?_append, List.getLast?_cons_cons, List.getLast?_cons_cons, ← hq, hw]; rfl)
      have e1 : W ++ ((utf8 (op :: (lead ++ inner.chars))).length :: (utf8 [cl]).length :: widthsOf aft) ++ seqWidths rest = W ++ seqWidths (.more op lead inner cl aft rest) := by
        rw [seqWidths]; simp
      have e2 : (W ++ ((utf8 (op :: (lead ++ inner.chars))).length :: (utf8 [cl]).length :: widthsOf aft)).sum = W.sum + (utf8 (op :: (lead ++ inner.chars) ++ cl :: aft)).length := by
        rw [List.sum_append, List.sum_cons, List.sum_cons, widthsOf_sum, utf8_len_append, utf8_len cl aft]
      rw [e1, e2] at this
      exact this

/-! ### Texts with isolates -/

theorem seq_lengths (T : Tables) (o : Options) (lead : List Char) (is : Isolates) : (widthsOf lead ++ seqWidths is).length = (seqStart T o lead is).length := by
  rw [seqStart, List.length_append, List.length_append, seqWidths_length T o, scanned_length, widthsOf, classes, List.length_map, List.length_map]

theorem seq_widths_pos (lead : List Char) (is : Isolates) : ∀ w ∈ widthsOf lead ++ seqWidths is, 0 < w := by
  intro w hw
  rw [List.mem_append] at hw
  rcases hw with hw | hw
  · rw [widthsOf, List.mem_map] at hw
    obtain ⟨c, -, rfl⟩ := hw
    exact utf8_pos c
  · exact seqWidths_pos is w hw

theorem mem_widen : ∀ (ws : List Nat) (xs : List Class) (x : Class), x ∈ widen ws xs → x ∈ xs
  | [], xs, x, h => by cases xs <;> cases h
  | w :: ws, [], x, h => by cases h
  | w :: ws, y :: xs, x, h => by
    rw [widen_cons, List.mem_append] at h
    rcases h with h | h
    · rw [(List.mem_replicate.mp h).2]; exact List.mem_cons_self
    · exact List.mem_cons_of_mem _ (mem_widen ws xs x h)

/-- A text with isolates in a paragraph from left to right: the bytes outside of the isolates have
the classes which the rules give to the sequence. -/
theorem resolve_outside {T : Tables} {o : Options} (hT : KnownClasses T) (ho : o.markup = none) (hL : o.outerR2L = false) (sched : Nat → Nat)
    {t lead : List Char} {is : Isolates} (ht : firstParagraph T o t = lead ++ is.chars) (h : NestedIsolates T o lead is)
    (hs : SimpleClasses (classes T o (lead ++ is.outer))) (h3 : cAN ∉ classes T o (firstParagraph T o t)) (h4 : (classes T o (firstParagraph T o t)).head? ≠ some cNSM)
    (h5 : InitiatorsSettled cL (classes T o lead ++ seqClasses T o is)) :
    ∃ N p ys, resolveParagraph T o sched (utf8 t) N = .returns (levelsOf o p.stack, p) ∧ p.stack = initialOuterScrap o true :: ys ∧
      Tiles 0 (utf8 (firstParagraph T o t)).length ys ∧ (∀ s ∈ ys, (s.clz = cL ∨ s.clz = cR) ∧ s.l < s.r) ∧
      byteClasses ys = widen (widthsOf lead ++ seqWidths is) (resolved cL (classes T o lead ++ seqClasses T o is)) := by
  obtain ⟨fin, h1, h2, -⟩ := scanner_feeds ho (known_notNull hT) sched (utf8 t)
  have h3' : cAN ∉ classes T o (lead ++ is.chars) := by rw [← ht]; exact h3
  have hi : GoodIn T o True is false := goodIn_of hT is false h.good (fun c hc => h.outer c (by rw [classes_append]; exact List.mem_append_right _ hc))
    (fun _ hm => h3' (by rw [classes_append]; exact List.mem_append_right _ hm))
  have hl : ∀ c ∈ lead, PlainClass True (charClass T o c) := by
    intro c hc
    refine ⟨charClass_known hT o c, h.outer _ (List.mem_map_of_mem (List.mem_append_left _ hc)), fun _ he => h3' ?_⟩
    rw [← he]
    exact List.mem_map_of_mem (List.mem_append_left _ hc)
  have hq : QuietText (classes T o (lead ++ is.outer)) := h.numbersOutside
  have hr : Ready True (initialOuterScrap o false) none (classes T o (lead ++ is.outer)) := by
    refine ⟨Or.inl rfl, ?_, (by decide : cNULL ≠ cAL), fun _ => ⟨Or.inl rfl, fun _ => rfl, quiet_numbers hq⟩, fun h => absurd rfl h⟩
    unfold initialOuterScrap Scrap.e
    dsimp only
    split <;> simp
  obtain ⟨os, -, -, e, -, w⟩ := emit_nest is false lead (initialOuterScrap o false) none [] hr (fun _ => ⟨fun _ => ⟨rfl, rfl⟩, hq⟩)
    (fun h => absurd rfl h) h.numbers hl hi rfl
  have hscr : emit T o ((lead ++ is.chars).map token) (initialOuterScrap o false) none [] = scrapsOf T o (utf8 t) := by
    rw [scrapsOf, paragraph_text, ht]
    rfl
  have hz : (initialOuterScrap o false).clz = cNULL := rfl
  have hr0 : (initialOuterScrap o false).r = 0 := rfl
  have hl0 : (initialOuterScrap o false).l = 0 := rfl
  have he0 : (initialOuterScrap o false).e = cL := by
    unfold initialOuterScrap Scrap.e
    rw [hL]
    rfl
  rw [hscr, if_pos hz, hr0, Nat.zero_add, Nat.zero_add, ← ht] at e
  rw [if_pos hz, if_pos hz, hr0, hl0, Nat.zero_add, ← ht, hz, he0, List.replicate_zero, List.nil_append, List.nil_append] at w
  have hfar : Far 0 (scrapsOf T o (utf8 t)) := by
    have := e.far 0 [] (by omega) ⟨trivial, fun _ => rfl, by omega⟩
    simpa using this
  have hsd : Sound fin := sound_feeds (e := (newScanner o (utf8 t), 0)) (by
    intro x hx
    have : x = {} := by simpa [newScanner] using hx
    subst this
    exact ⟨by simp, by simp⟩) h1
  have hlh : (classes T o lead).head? ≠ some cNSM := by
    rw [ht, classes_append] at h4
    cases hlead : classes T o lead with
    | nil => simp
    | cons c cs => rw [hlead] at h4; exact h4
  obtain ⟨r1, r2, r3⟩ := seq_resolved h.good hs hq hlh
  have hs2 : SimpleClasses (classes T o lead) ∧ SimpleClasses (classes T o is.outer) := by
    rw [classes_append] at hs
    exact ⟨fun c hc => hs c (List.mem_append_left _ hc), fun c hc => hs c (List.mem_append_right _ hc)⟩
  have hbytes : byteClasses os = widen (widthsOf lead ++ seqWidths is) (seqStart T o lead is) := by
    rw [w.bytes trivial ⟨Nat.le_refl _, fun _ => h4⟩ hT, seqStart, widen_append _ _ _ _ (by rw [scanned_length, widthsOf, classes, List.length_map, List.length_map]),
      spread_widen, outBytes_widen]
  have hD : n12 cL cL ((widen (widthsOf lead ++ seqWidths is) (seqStart T o lead is)).map settle) =
      widen (widthsOf lead ++ seqWidths is) (resolved cL (classes T o lead ++ seqClasses T o is)) := by
    rw [widen_map, widen_n12 cL _ _ _ (by rw [List.length_map]; exact seq_lengths T o lead is) (seq_widths_pos lead is), r2]
  have hRlen : (resolved cL (classes T o lead ++ seqClasses T o is)).length = (classes T o lead ++ seqClasses T o is).length := by
    rw [r2, n12_length, List.length_map, seqStart, List.length_append, List.length_append, scanned_length, seqClasses_length]
  have hclear : Clear T o cL (widen (widthsOf lead ++ seqWidths is) (resolved cL (classes T o lead ++ seqClasses T o is))) (utf8 lead).length
      (scanned cNULL (classes T o lead)) is := by
    have := seq_clear is (classes T o lead) (widthsOf lead) (scanned cNULL (classes T o lead)) h.good hs2.2 (by simp [classes, widthsOf]) hRlen h5 (by
      intro hlast
      rw [scanned_head _ cNULL (asScanned cL) hlh] at hlast
      exact last_neutral (by decide) (by decide) hs2.1 hlast)
    rwa [widthsOf_sum] at this
  have hgap := w.gap trivial ⟨Nat.le_refl _, fun _ => h4⟩ hT cL _ hclear
  have hpos : ∀ s ∈ os, s.l < s.r := fun s hs => ((e.fine s hs).1.2.2.2 trivial).2.elim (fun h => absurd h.1 (by rw [(e.fine s hs).2]; decide)) id
  obtain ⟨N, p, ys, e1, e2, e3, e4, e5⟩ := resolve_outline_bytes (resting_brackets T o sched fin.pc) (o := o) (len := (utf8 (firstParagraph T o t)).length) (e := cL)
    (B := (widen (widthsOf lead ++ seqWidths is) (seqStart T o lead is)).map settle) (Or.inl rfl) h1 hfar e.outline
    ⟨⟨by simpa using e.fine, by simpa using e.num, fun _ => by rw [List.nil_append]; exact e.tiles trivial (fun _ => h4), by simp⟩, by
      intro s hsm
      rw [List.nil_append] at hsm
      have hm := mem_bytes hsm (hpos s hsm)
      rw [hbytes] at hm
      exact ⟨r3 _ (mem_widen _ _ _ hm), (w.emb s hsm).elim id And.left, hpos s hsm⟩, by rw [List.nil_append, hbytes], by rw [hD]; exact hgap, by
      cases os with
      | nil => trivial
      | cons x xs => trivial⟩
    ⟨⟨ended_atRest h2, by
      intro x hx p hp
      exact ⟨Or.inr ((hsd x hx).2 p hp), trivial⟩⟩, rfl⟩
  exact ⟨N, p, ys, e1, e2, e3, e4, by rw [e5, hD]⟩

end Uax.Bidi
