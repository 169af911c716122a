import Verif.BidiScan

/-
The rules W4 to W7, N1 and N2 for texts without Arabic numbers whose European
numbers stand in left-to-right context. There rule W4 makes no difference, and
the other rules are the same for characters and for bytes.
-/
namespace Uax.Bidi
open Spec

/-- Classes in rules N1 and N2: numbers have become L, separators and terminators neutral. -/
def settle (c : Class) : Class := if c = cEN then cL else if c ∈ [cES, cET, cCS, cNI, cS, cWS, cON] then cON else c

/-! ### W5 -/

theorem w5_cons (q c : Class) (cs : List Class) : w5 q (c :: cs) =
    (if c = cET ∧ (q = cEN ∨ (cs.dropWhile (· = cET)).head? = some cEN) then cEN else c) ::
      w5 (if c = cET ∧ (q = cEN ∨ (cs.dropWhile (· = cET)).head? = some cEN) then cEN else c) cs := rfl

theorem w5_other {q c : Class} {cs : List Class} (h : c ≠ cET) : w5 q (c :: cs) = c :: w5 c cs := by
  rw [w5_cons, if_neg (fun hh => h hh.1)]

theorem w5_plain : ∀ (xs ys : List Class) (q : Class), cET ∉ xs → w5 q (xs ++ ys) = xs ++ w5 (xs.getLast?.getD q) ys := by
  intro xs
  induction xs with
  | nil => intro ys q _; rfl
  | cons x xs ih =>
    intro ys q h
    simp only [List.mem_cons, not_or] at h
    rw [List.cons_append, w5_other (Ne.symm h.1), ih _ _ h.2]
    rw [List.getLast?_cons]
    simp

/-- What is before matters only for terminators, and only whether it is a number. -/
theorem w5_state {q q' : Class} (cs : List Class) (h : (q = cEN ↔ q' = cEN) ∨ cs.head? ≠ some cET) : w5 q cs = w5 q' cs := by
  cases cs with
  | nil => rfl
  | cons c cs =>
    rw [w5_cons, w5_cons]
    by_cases hc : c = cET
    · rcases h with h | h
      · simp only [h]
      · exact absurd (by rw [hc]; rfl) h
    · rw [if_neg (fun hh => hc hh.1), if_neg (fun hh => hc hh.1)]

theorem dropWhile_rep (n : Nat) (ys : List Class) : (List.replicate n cET ++ ys).dropWhile (· = cET) = ys.dropWhile (· = cET) := by
  induction n with
  | zero => rfl
  | succ n ih =>
    rw [List.replicate_succ, List.cons_append, List.dropWhile_cons]
    simp [ih]

theorem dropWhile_head {ys : List Class} (h : ys.head? ≠ some cET) : ys.dropWhile (· = cET) = ys := by
  cases ys with
  | nil => rfl
  | cons y ys =>
    rw [List.dropWhile_cons, if_neg]
    simpa using h

/-- Terminators beside a number. -/
theorem w5_beside {q : Class} {ys : List Class} (hy : ys.head? ≠ some cET) (n : Nat) (h : q = cEN ∨ ys.head? = some cEN) :
    w5 q (List.replicate n cET ++ ys) = List.replicate n cEN ++ w5 (if n = 0 then q else cEN) ys := by
  induction n generalizing q with
  | zero => rfl
  | succ n ih =>
    rw [List.replicate_succ, List.cons_append, w5_cons, dropWhile_rep, dropWhile_head hy, if_pos ⟨rfl, h⟩, ih (Or.inl rfl)]
    rw [List.replicate_succ, List.cons_append]
    congr 3
    split <;> simp

/-- Terminators elsewhere. -/
theorem w5_apart {q : Class} {ys : List Class} (hy : ys.head? ≠ some cET) (n : Nat) (h : q ≠ cEN) (h2 : ys.head? ≠ some cEN) :
    w5 q (List.replicate n cET ++ ys) = List.replicate n cET ++ w5 (if n = 0 then q else cET) ys := by
  induction n generalizing q with
  | zero => rfl
  | succ n ih =>
    rw [List.replicate_succ, List.cons_append, w5_cons, dropWhile_rep, dropWhile_head hy, if_neg (by rintro ⟨-, h' | h'⟩ <;> contradiction), ih (by decide)]
    rw [List.cons_append]
    congr 3
    split <;> simp

/-! ### N1 and N2 -/

theorem sideOf_cons (e c : Class) (cs : List Class) : sideOf e (c :: cs) = if neutral c = true then sideOf e cs else side c := by
  unfold sideOf
  rw [List.dropWhile_cons]
  by_cases h : neutral c = true
  · rw [if_pos h, if_pos h]
  · rw [if_neg h, if_neg h]

theorem n12_congr (e : Class) {A A' : List Class} (h1 : sideOf e A = sideOf e A') (h2 : ∀ b, n12 e b A = n12 e b A') :
    ∀ (P : List Class) (b : Class), n12 e b (P ++ A) = n12 e b (P ++ A') := by
  have hs : ∀ P : List Class, sideOf e (P ++ A) = sideOf e (P ++ A') := by
    intro P
    induction P with
    | nil => exact h1
    | cons x P ih =>
      rw [List.cons_append, List.cons_append, sideOf_cons, sideOf_cons, ih]
  intro P
  induction P with
  | nil => exact h2
  | cons x P ih =>
    intro b
    rw [List.cons_append, List.cons_append, n12, n12, hs P, ih, ih]

theorem n12_strong (e : Class) : ∀ (xs ys : List Class) (b : Class), (∀ c ∈ xs, c = cL ∨ c = cR) →
    n12 e b (xs ++ ys) = xs ++ n12 e (xs.getLast?.getD b) ys := by
  intro xs
  induction xs with
  | nil => intro ys b _; rfl
  | cons x xs ih =>
    intro ys b h
    have hx := h x (List.mem_cons_self ..)
    have h1 : neutral x = false := by rcases hx with rfl | rfl <;> rfl
    have h2 : side x = x := by rcases hx with rfl | rfl <;> rfl
    rw [List.cons_append, n12, h1, h2, List.getLast?_cons]
    simpa using ih ys x (fun c hc => h c (List.mem_cons_of_mem _ hc))

theorem sideOf_neutrals (e : Class) (n : Nat) (ys : List Class) : sideOf e (List.replicate n cON ++ ys) = sideOf e ys := by
  induction n with
  | zero => rfl
  | succ n ih =>
    rw [List.replicate_succ, List.cons_append, sideOf_cons, if_pos (show neutral cON = true from rfl), ih]

/-- Neutrals in a row get the same direction. -/
theorem n12_neutrals (e b : Class) (ys : List Class) (n : Nat) : n12 e b (List.replicate n cON ++ ys) =
    List.replicate n (if b = sideOf e ys then b else e) ++ n12 e b ys := by
  induction n with
  | zero => rfl
  | succ n ih =>
    rw [List.replicate_succ, List.cons_append, n12, if_pos (show neutral cON = true from rfl), sideOf_neutrals, ih]
    rfl

/-- The first direction of a text. -/
theorem sideOf_rep (e : Class) {c : Class} (hc : c = cL ∨ c = cR) {a : Nat} (ha : 0 < a) (ys : List Class) :
    sideOf e (List.replicate a c ++ ys) = c := by
  obtain ⟨a, rfl⟩ : ∃ k, a = k + 1 := ⟨a - 1, by omega⟩
  rw [List.replicate_succ, List.cons_append, sideOf_cons]
  rcases hc with rfl | rfl <;> rfl

/-- Neutrals between two letters of the same direction. -/
theorem n12_between (e : Class) {c : Class} (hc : c = cL ∨ c = cR) (a n d : Nat) (ha : 0 < a) (hd : 0 < d) (ys : List Class) (b : Class) :
    n12 e b (List.replicate a c ++ (List.replicate n cON ++ (List.replicate d c ++ ys))) =
    n12 e b (List.replicate (a + n + d) c ++ ys) := by
  have hm : ∀ k, ∀ x ∈ List.replicate k c, x = cL ∨ x = cR := by
    intro k x hx
    rw [(List.mem_replicate.mp hx).2]; exact hc
  have hl : ∀ k b, 0 < k → (List.replicate k c).getLast?.getD b = c := by
    intro k b hk
    rw [List.getLast?_replicate, if_neg (by omega)]; rfl
  have hs := sideOf_rep e hc hd ys
  rw [n12_strong e _ _ _ (hm a), hl a b ha, n12_neutrals, hs, if_pos rfl, n12_strong e _ _ _ (hm d), hl d _ hd,
    n12_strong e _ _ _ (hm _), hl _ b (by omega), ← List.append_assoc, ← List.append_assoc, List.replicate_append_replicate,
    List.replicate_append_replicate]

/-! ### W4 makes no difference -/

theorem settle_en : settle cEN = cL := rfl

theorem w4_lookahead : ∀ (cs : List Class) (p : Class), p ≠ cEN → p ≠ cAN →
    ((w4 p cs).dropWhile (· = cET)).head? = (cs.dropWhile (· = cET)).head? := by
  intro cs
  induction cs with
  | nil => intros; rfl
  | cons c cs ih =>
    intro p h1 h2
    rw [w4, if_neg (by simp [h1]), if_neg (by simp [h1, h2]), List.dropWhile_cons, List.dropWhile_cons]
    by_cases hc : c = cET
    · simp only [hc, decide_true, if_true]
      exact ih _ (by decide) (by decide)
    · simp [hc]

theorem neutral_settle {c : Class} (h : neutral (settle c) = true) : c ≠ cEN ∧ c ≠ cAN := by
  refine ⟨?_, ?_⟩ <;> rintro rfl <;> exact absurd h (by decide)

theorem w4_side (e : Class) : ∀ (cs : List Class) (p q : Class), p ≠ cEN → p ≠ cAN →
    sideOf e ((w5 q (w4 p cs)).map settle) = sideOf e ((w5 q cs).map settle) := by
  intro cs
  induction cs with
  | nil => intros; rfl
  | cons c cs ih =>
    intro p q h1 h2
    rw [w4, if_neg (by simp [h1]), if_neg (by simp [h1, h2]), w5_cons, w5_cons]
    have hl : c = cET → ((w4 c cs).dropWhile (· = cET)).head? = (cs.dropWhile (· = cET)).head? := by
      rintro rfl
      exact w4_lookahead _ _ (by decide) (by decide)
    have hc : (if c = cET ∧ (q = cEN ∨ ((w4 c cs).dropWhile (· = cET)).head? = some cEN) then cEN else c) =
        (if c = cET ∧ (q = cEN ∨ (cs.dropWhile (· = cET)).head? = some cEN) then cEN else c) := by
      by_cases h : c = cET
      · rw [hl h]
      · simp [h]
    rw [hc]
    generalize hc' : (if c = cET ∧ (q = cEN ∨ (cs.dropWhile (· = cET)).head? = some cEN) then cEN else c) = c'
    rw [List.map_cons, List.map_cons, sideOf_cons, sideOf_cons]
    by_cases hn : neutral (settle c') = true
    · rw [if_pos hn, if_pos hn]
      obtain ⟨g1, g2⟩ := neutral_settle hn
      have : c' = c := by
        rw [← hc'] at g1 ⊢
        split
        · rename_i hh; rw [if_pos hh] at g1; exact absurd rfl g1
        · rfl
      rw [this] at g1 g2
      exact ih c c' g1 g2
    · rw [if_neg hn, if_neg hn]

theorem w4_same (e : Class) : ∀ (cs : List Class) (p q q' b : Class), cAN ∉ cs → p ≠ cAN → (p = cEN → b = cL) →
    (q = q' ∨ cs.head? = some cEN) → n12 e b ((w5 q' (w4 p cs)).map settle) = n12 e b ((w5 q cs).map settle) := by
  intro cs
  induction cs with
  | nil => intros; rfl
  | cons c cs ih =>
    intro p q q' b han hpa hp hq
    have hc1 : c ≠ cAN := fun h => han (by rw [h]; exact List.mem_cons_self ..)
    have hcs : cAN ∉ cs := fun h => han (List.mem_cons_of_mem _ h)
    by_cases hch : (c = cES ∨ c = cCS) ∧ p = cEN ∧ cs.head? = some cEN
    · -- the separator becomes a number
      obtain ⟨h1, h2, h3⟩ := hch
      have hw : w4 p (c :: cs) = cEN :: w4 c cs := by
        rw [w4, h2, h3]
        rcases h1 with rfl | rfl <;> rfl
      rw [hw, w5_other (by decide), w5_other (by rcases h1 with rfl | rfl <;> decide), List.map_cons, List.map_cons, settle_en]
      have hset : settle c = cON := by rcases h1 with rfl | rfl <;> rfl
      rw [hset, n12, n12, hp h2]
      have hside : sideOf e ((w5 c cs).map settle) = cL := by
        cases cs with
        | nil => cases h3
        | cons d ds =>
          have : d = cEN := by simpa using h3
          rw [this, w5_other (by decide), List.map_cons, sideOf_cons]
          rfl
      rw [hside, if_neg (by decide), if_pos (by decide), if_pos rfl]
      congr 1
      exact ih c c cEN cL hcs hc1 (fun _ => rfl) (Or.inr h3)
    · have hw : w4 p (c :: cs) = c :: w4 c cs := by
        rw [w4]
        rw [if_neg (fun h => hch ⟨Or.inl h.1, h.2.1, h.2.2⟩), if_neg]
        rintro ⟨h1, h2 | h2, h3⟩
        · exact hch ⟨Or.inr h1, h2, by rw [h3, h2]⟩
        · exact hpa h2
      rw [hw, w5_cons, w5_cons]
      have hc : (if c = cET ∧ (q' = cEN ∨ ((w4 c cs).dropWhile (· = cET)).head? = some cEN) then cEN else c) =
          (if c = cET ∧ (q = cEN ∨ (cs.dropWhile (· = cET)).head? = some cEN) then cEN else c) := by
        by_cases h : c = cET
        · have hl : ((w4 c cs).dropWhile (· = cET)).head? = (cs.dropWhile (· = cET)).head? := by
            rw [h]
            exact w4_lookahead _ _ (by decide) (by decide)
          have : q = q' := by
            rcases hq with hq | hq
            · exact hq
            · rw [h] at hq; simp [cET, cEN] at hq
          rw [hl, this]
        · simp [h]
      rw [hc]
      generalize hc' : (if c = cET ∧ (q = cEN ∨ (cs.dropWhile (· = cET)).head? = some cEN) then cEN else c) = c'
      rw [List.map_cons, List.map_cons, n12, n12]
      have hcc : c = cEN → c' = cEN := by
        rintro rfl
        rw [← hc', if_neg (by simp [cEN, cET])]
      by_cases hn : neutral (settle c') = true
      · rw [if_pos hn, if_pos hn]
        obtain ⟨g1, g2⟩ := neutral_settle hn
        have he : c ≠ cEN := fun h => g1 (hcc h)
        rw [w4_side e cs c c' he hc1, ih c c' c' b hcs hc1 (fun h => absurd h he) (Or.inl rfl)]
      · rw [if_neg hn, if_neg hn]
        congr 1
        refine ih c c' c' _ hcs hc1 (fun h => ?_) (Or.inl rfl)
        rw [hcc h]
        rfl

/-! ### Neighbours -/

/-- All neighbours are related. -/
def Linked {α : Type} (R : α → α → Prop) : List α → Prop
  | a :: b :: l => R a b ∧ Linked R (b :: l)
  | _ => True

theorem linked_append {α : Type} {R : α → α → Prop} : ∀ {xs ys : List α}, Linked R (xs ++ ys) ↔
    Linked R xs ∧ Linked R ys ∧ ∀ x ∈ xs.getLast?, ∀ y ∈ ys.head?, R x y
  | [], ys => by simp [Linked]
  | [x], [] => by simp [Linked]
  | [x], y :: ys => by simp [Linked, and_comm]
  | x :: x' :: xs, ys => by
    have := linked_append (R := R) (xs := x' :: xs) (ys := ys)
    simp only [List.cons_append] at this
    simp only [List.cons_append, Linked, this, List.getLast?_cons_cons, and_assoc]

theorem linked_rep {α : Type} {R : α → α → Prop} {c : α} (h : R c c) : ∀ n, Linked R (List.replicate n c)
  | 0 => trivial
  | 1 => trivial
  | n + 2 => ⟨h, linked_rep h (n + 1)⟩

theorem linked_map {α β : Type} {R : α → α → Prop} {S : β → β → Prop} (f : α → β) (h : ∀ x y, R x y → S (f x) (f y)) :
    ∀ l, Linked R l → Linked S (l.map f)
  | [], _ => trivial
  | [_], _ => trivial
  | x :: y :: l, hl => ⟨h x y hl.1, linked_map f h (y :: l) hl.2⟩

/-- A neutral comes after separators and terminators, if any. -/
def Leads (l : List Class) : Prop := ∃ z ∈ [cNI, cS, cWS, cON], (l.dropWhile (· ∈ [cES, cET, cCS])).head? = some z

theorem leads_sep {c : Class} (hc : c ∈ [cES, cET, cCS]) (l : List Class) : Leads (c :: l) ↔ Leads l := by
  unfold Leads
  rw [List.dropWhile_cons_of_pos (by simpa using hc)]

theorem leads_other {c : Class} (hc : c ∉ [cES, cET, cCS]) (l : List Class) : Leads (c :: l) ↔ c ∈ [cNI, cS, cWS, cON] := by
  unfold Leads
  rw [List.dropWhile_cons_of_neg (by simpa using hc), List.head?_cons]
  constructor
  · rintro ⟨z, hz, e⟩
    rw [Option.some.inj e]; exact hz
  · intro h
    exact ⟨c, h, rfl⟩

theorem leads_rep {c : Class} (hc : c ∈ [cES, cET, cCS]) (l : List Class) : ∀ n, Leads (List.replicate n c ++ l) ↔ Leads l
  | 0 => Iff.rfl
  | n + 1 => by rw [List.replicate_succ, List.cons_append, leads_sep hc, leads_rep hc l n]

theorem leads_nil : ¬ Leads [] := by
  rintro ⟨z, -, h⟩
  cases h

/-- A separator or terminator follows a neutral or another one only where the
directions `d` are the one of the paragraph, or before a neutral. The first argument is the class before. -/
def Aside (e : Class) : Class → List Class → List Class → Prop
  | _, [], _ => True
  | x, y :: ys, d => (y ∈ [cES, cET, cCS] → x = y ∨ x ∉ [cNI, cB, cS, cWS, cON, cES, cET, cCS] ∨ d.head? = some e ∨ Leads ys) ∧ Aside e y ys d.tail

/-- Without separators and terminators at the beginning. -/
theorem aside_plain (e : Class) : ∀ (A B d : List Class) (x : Class), (∀ c ∈ A, c ∉ [cES, cET, cCS]) → (Aside e x (A ++ B) d ↔
    Aside e (A.getLast?.getD x) B (d.drop A.length))
  | [], B, d, x, _ => by simp
  | a :: A, B, d, x, h => by
    have ih := aside_plain e A B d.tail a fun c hc => h c (List.mem_cons_of_mem _ hc)
    rw [List.cons_append, Aside, ih]
    have h1 : (a :: A).getLast?.getD x = A.getLast?.getD a := by
      cases A with
      | nil => rfl
      | cons b A => rw [List.getLast?_cons_cons]; cases h : (b :: A).getLast? with
        | none => simp at h
        | some c => rfl
    rw [h1, List.length_cons, List.drop_tail]
    exact ⟨fun h => h.2, fun hh => ⟨fun hm => absurd hm (h a (List.mem_cons_self ..)), hh⟩⟩

theorem aside_rep {e c : Class} (hc : c ∉ [cES, cET, cCS]) (n : Nat) (x : Class) (B d : List Class) (hn : 0 < n) :
    Aside e x (List.replicate n c ++ B) d ↔ Aside e c B (d.drop n) := by
  rw [aside_plain e _ _ _ _ (fun y hy => by rw [List.eq_of_mem_replicate hy]; exact hc), List.getLast?_replicate, if_neg (by omega), List.length_replicate]
  rfl

theorem aside_rep_of {e c : Class} : ∀ (n : Nat) (x : Class) (B d : List Class), 0 < n →
    Aside e x (List.replicate n c ++ B) d → Aside e c B (d.drop n)
  | 1, x, B, d, _, h => by rw [List.drop_one]; exact h.2
  | n + 2, x, B, d, _, h => by
    rw [List.replicate_succ, List.cons_append, Aside] at h
    have := aside_rep_of (e := e) (n + 1) c B d.tail (by omega) h.2
    rwa [List.drop_tail] at this

theorem aside_prev {e x x' : Class} {B d : List Class} (h : ∀ y ∈ B.head?, y ∈ [cES, cET, cCS] →
    x = y ∨ x ∉ [cNI, cB, cS, cWS, cON, cES, cET, cCS] → x' = y ∨ x' ∉ [cNI, cB, cS, cWS, cON, cES, cET, cCS]) (ha : Aside e x B d) : Aside e x' B d := by
  cases B with
  | nil => trivial
  | cons y B =>
    refine ⟨fun hy => ?_, ha.2⟩
    rcases ha.1 hy with k | k | k
    · rcases h y rfl hy (Or.inl k) with g | g
      · exact Or.inl g
      · exact Or.inr (Or.inl g)
    · rcases h y rfl hy (Or.inr k) with g | g
      · exact Or.inl g
      · exact Or.inr (Or.inl g)
    · exact Or.inr (Or.inr k)

theorem leads_w4 : ∀ (cs : List Class) (p q : Class), p ≠ cEN → p ≠ cAN → Leads (w5 q (w4 p cs)) → Leads (w5 q cs) := by
  intro cs
  induction cs with
  | nil => intro p q _ _ h; exact h
  | cons c cs ih =>
    intro p q h1 h2 h
    have hw : w4 p (c :: cs) = c :: w4 c cs := by
      rw [w4, if_neg (fun h => h1 h.2.1), if_neg]
      rintro ⟨-, h | h, -⟩
      · exact h1 h
      · exact h2 h
    rw [hw, w5_cons] at h
    rw [w5_cons]
    have hc : (if c = cET ∧ (q = cEN ∨ ((w4 c cs).dropWhile (· = cET)).head? = some cEN) then cEN else c) =
        (if c = cET ∧ (q = cEN ∨ (cs.dropWhile (· = cET)).head? = some cEN) then cEN else c) := by
      by_cases h : c = cET
      · have hl : ((w4 c cs).dropWhile (· = cET)).head? = (cs.dropWhile (· = cET)).head? := by
          rw [h]
          exact w4_lookahead _ _ (by decide) (by decide)
        rw [hl]
      · simp [h]
    rw [hc] at h
    generalize hc' : (if c = cET ∧ (q = cEN ∨ (cs.dropWhile (· = cET)).head? = some cEN) then cEN else c) = c' at *
    by_cases hs : c' ∈ [cES, cET, cCS]
    · rw [leads_sep hs] at h ⊢
      have hcc : c' = c := by
        rw [← hc']
        rw [← hc'] at hs
        split at hs
        · exact absurd hs (by decide)
        · rename_i hn; rw [if_neg hn]
      rw [hcc] at hs
      refine ih c c' ?_ ?_ h <;> rintro rfl <;> exact absurd hs (by decide)
    · rw [leads_other hs] at h ⊢
      exact h

theorem aside_w4 {e : Class} : ∀ (cs d : List Class) (p q q' : Class), cAN ∉ cs → p ≠ cAN → (p = cEN → q = cEN) →
    (q = q' ∨ cs.head? = some cEN) → Aside e q' (w5 q' (w4 p cs)) d → Aside e q (w5 q cs) d := by
  intro cs
  induction cs with
  | nil => intros; trivial
  | cons c cs ih =>
    intro d p q q' han hpa hp hq hl
    have hc1 : c ≠ cAN := fun h => han (by rw [h]; exact List.mem_cons_self ..)
    have hcs : cAN ∉ cs := fun h => han (List.mem_cons_of_mem _ h)
    by_cases hch : (c = cES ∨ c = cCS) ∧ p = cEN ∧ cs.head? = some cEN
    · obtain ⟨h1, h2, h3⟩ := hch
      have hw : w4 p (c :: cs) = cEN :: w4 c cs := by
        rw [w4, h2, h3]
        rcases h1 with rfl | rfl <;> rfl
      rw [hw, w5_other (by decide)] at hl
      rw [w5_other (by rcases h1 with rfl | rfl <;> decide)]
      refine ⟨fun _ => Or.inr (Or.inl (by rw [hp h2]; decide)), ?_⟩
      exact ih d.tail c c cEN hcs hc1 id (Or.inr h3) hl.2
    · have hw : w4 p (c :: cs) = c :: w4 c cs := by
        rw [w4]
        rw [if_neg (fun h => hch ⟨Or.inl h.1, h.2.1, h.2.2⟩), if_neg]
        rintro ⟨h1, h2 | h2, h3⟩
        · exact hch ⟨Or.inr h1, h2, by rw [h3, h2]⟩
        · exact hpa h2
      rw [hw, w5_cons] at hl
      rw [w5_cons]
      have hc : (if c = cET ∧ (q' = cEN ∨ ((w4 c cs).dropWhile (· = cET)).head? = some cEN) then cEN else c) =
          (if c = cET ∧ (q = cEN ∨ (cs.dropWhile (· = cET)).head? = some cEN) then cEN else c) := by
        by_cases h : c = cET
        · have hl : ((w4 c cs).dropWhile (· = cET)).head? = (cs.dropWhile (· = cET)).head? := by
            rw [h]
            exact w4_lookahead _ _ (by decide) (by decide)
          have : q = q' := by
            rcases hq with hq | hq
            · exact hq
            · rw [h] at hq; simp [cET, cEN] at hq
          rw [hl, this]
        · simp [h]
      rw [hc] at hl
      generalize hc' : (if c = cET ∧ (q = cEN ∨ (cs.dropWhile (· = cET)).head? = some cEN) then cEN else c) = c' at *
      have hcc : c = cEN → c' = cEN := by
        rintro rfl
        rw [← hc', if_neg (by simp [cEN, cET])]
      refine ⟨?_, ih d.tail c c' c' hcs hc1 hcc (Or.inl rfl) hl.2⟩
      rcases hq with rfl | hq
      · intro hs
        refine (hl.1 hs).imp id (Or.imp id (Or.imp id (leads_w4 _ _ _ ?_ hc1)))
        intro hce
        rw [hcc hce] at hs
        exact absurd hs (by decide)
      · have : c = cEN := by simpa using hq
        rw [hcc this]
        exact fun h => absurd h (by decide)

/-! ### Characters and bytes -/

theorem utf8_pos (c : Char) : 0 < (utf8 [c]).length := by
  rw [utf8_one]
  exact List.length_pos_iff.mpr (Utf8.encodeNat_ne c.toNat)

theorem spread_cons (c : Char) (t : List Char) (x : Class) (xs : List Class) :
    spread (c :: t) (x :: xs) = List.replicate (utf8 [c]).length x ++ spread t xs := rfl

theorem spread_nil (t : List Char) : spread t [] = [] := by unfold spread; simp

theorem spread_map (f : Class → Class) : ∀ (t : List Char) (xs : List Class), (spread t xs).map f = spread t (xs.map f)
  | [], _ => rfl
  | _ :: _, [] => by rw [spread_nil]; exact (spread_nil _).symm
  | c :: t, x :: xs => by
    rw [spread_cons, List.map_append, List.map_replicate, spread_map f t xs, List.map_cons, spread_cons]

theorem spread_length : ∀ (t : List Char) (xs : List Class), xs.length = t.length → (spread t xs).length = (utf8 t).length
  | [], _, _ => rfl
  | c :: t, [], h => by simp at h
  | c :: t, x :: xs, h => by
    rw [spread_cons, List.length_append, List.length_replicate, spread_length t xs (by simpa using h), utf8_len c t]

theorem w5_length : ∀ (xs : List Class) (q : Class), (w5 q xs).length = xs.length
  | [], _ => rfl
  | x :: xs, q => by rw [w5_cons, List.length_cons, w5_length, List.length_cons]

theorem n12_length (e : Class) : ∀ (xs : List Class) (b : Class), (n12 e b xs).length = xs.length
  | [], _ => rfl
  | x :: xs, b => by
    rw [n12]
    split <;> rw [List.length_cons, n12_length, List.length_cons]

theorem rep_head {α : Type} {n : Nat} (h : 0 < n) (x : α) (l : List α) : (List.replicate n x ++ l).head? = some x := by
  obtain ⟨k, rfl⟩ : ∃ k, n = k + 1 := ⟨n - 1, by omega⟩
  rfl

theorem spread_lookahead : ∀ (t : List Char) (xs : List Class), xs.length = t.length →
    ((spread t xs).dropWhile (· = cET)).head? = (xs.dropWhile (· = cET)).head?
  | [], xs, h => by
    have : xs = [] := List.length_eq_zero_iff.mp h
    rw [this]; rfl
  | c :: t, [], h => by simp at h
  | c :: t, x :: xs, h => by
    rw [spread_cons]
    by_cases hx : x = cET
    · subst hx
      rw [dropWhile_rep, spread_lookahead t xs (by simpa using h), List.dropWhile_cons]
      rfl
    · have hh := rep_head (utf8_pos c) x (spread t xs)
      rw [dropWhile_head (by rw [hh]; simpa using hx), hh, dropWhile_head (by simpa using hx)]
      rfl

theorem w5_rep {q : Class} {ys : List Class} {n : Nat} (hn : 0 < n) (x c' : Class)
    (hc : (if x = cET ∧ (q = cEN ∨ (ys.dropWhile (· = cET)).head? = some cEN) then cEN else x) = c') :
    w5 q (List.replicate n x ++ ys) = List.replicate n c' ++ w5 c' ys := by
  induction n generalizing q with
  | zero => omega
  | succ n ih =>
    have hdw : x = cET → (List.replicate n x ++ ys).dropWhile (· = cET) = ys.dropWhile (· = cET) := by
      rintro rfl; exact dropWhile_rep n ys
    have hc2 : (if x = cET ∧ (q = cEN ∨ ((List.replicate n x ++ ys).dropWhile (· = cET)).head? = some cEN) then cEN else x) = c' := by
      rw [← hc]
      by_cases h : x = cET
      · rw [hdw h]
      · simp [h]
    rw [List.replicate_succ, List.cons_append, w5_cons, hc2]
    rw [List.replicate_succ, List.cons_append]
    congr 1
    by_cases h0 : n = 0
    · subst h0; rfl
    · refine ih (by omega) ?_
      by_cases h : x = cET
      · by_cases h2 : q = cEN ∨ (ys.dropWhile (· = cET)).head? = some cEN
        · rw [if_pos ⟨h, h2⟩] at hc
          rw [← hc, if_pos ⟨h, Or.inl rfl⟩]
        · rw [if_neg (fun hh => h2 hh.2)] at hc
          rw [← hc, if_neg]
          rintro ⟨-, hh | hh⟩
          · rw [h] at hh; exact absurd hh (by decide)
          · exact h2 (Or.inr hh)
      · rw [if_neg (fun hh => h hh.1)] at hc
        rw [← hc, if_neg (fun hh => h hh.1)]

theorem spread_w5 : ∀ (t : List Char) (xs : List Class) (q : Class), xs.length = t.length → w5 q (spread t xs) = spread t (w5 q xs)
  | [], xs, q, h => by
    have : xs = [] := List.length_eq_zero_iff.mp h
    rw [this]; rfl
  | c :: t, [], q, h => by simp at h
  | c :: t, x :: xs, q, h => by
    have hl : xs.length = t.length := by simpa using h
    rw [spread_cons, w5_cons, spread_cons]
    rw [w5_rep (utf8_pos c) x _ rfl, spread_lookahead t xs hl, spread_w5 t xs _ hl]

theorem spread_side (e : Class) : ∀ (t : List Char) (xs : List Class), xs.length = t.length → sideOf e (spread t xs) = sideOf e xs
  | [], xs, h => by
    have : xs = [] := List.length_eq_zero_iff.mp h
    rw [this]; rfl
  | c :: t, [], h => by simp at h
  | c :: t, x :: xs, h => by
    have ih := spread_side e t xs (by simpa using h)
    rw [spread_cons, sideOf_cons, ← ih]
    have : ∀ n, 0 < n → sideOf e (List.replicate n x ++ spread t xs) = if neutral x = true then sideOf e (spread t xs) else side x := by
      intro n
      induction n with
      | zero => intro h; omega
      | succ n ihn =>
        intro _
        rw [List.replicate_succ, List.cons_append, sideOf_cons]
        by_cases h0 : n = 0
        · subst h0; rfl
        · rw [ihn (by omega)]
          split <;> rfl
    exact this _ (utf8_pos c)

theorem n12_rep (e : Class) (x : Class) (ys : List Class) : ∀ (n : Nat) (b : Class), 0 < n → n12 e b (List.replicate n x ++ ys) =
    if neutral x = true then List.replicate n (if b = sideOf e ys then b else e) ++ n12 e b ys
    else List.replicate n x ++ n12 e (side x) ys := by
  have hs : neutral x = true → ∀ k, sideOf e (List.replicate k x ++ ys) = sideOf e ys := by
    intro hx k
    induction k with
    | zero => rfl
    | succ k ih => rw [List.replicate_succ, List.cons_append, sideOf_cons, if_pos hx, ih]
  intro n
  induction n with
  | zero => intro b h; omega
  | succ n ih =>
    intro b _
    rw [List.replicate_succ, List.cons_append, n12]
    by_cases hx : neutral x = true
    · rw [if_pos hx, if_pos hx, hs hx]
      by_cases h0 : n = 0
      · subst h0; rfl
      · rw [ih b (by omega), if_pos hx]; rfl
    · rw [if_neg hx, if_neg hx]
      by_cases h0 : n = 0
      · subst h0; rfl
      · rw [ih _ (by omega), if_neg hx]; rfl

theorem spread_n12 (e : Class) : ∀ (t : List Char) (xs : List Class) (b : Class), xs.length = t.length →
    n12 e b (spread t xs) = spread t (n12 e b xs)
  | [], xs, q, h => by
    have : xs = [] := List.length_eq_zero_iff.mp h
    rw [this]; rfl
  | c :: t, [], q, h => by simp at h
  | c :: t, x :: xs, b, h => by
    have hl : xs.length = t.length := by simpa using h
    rw [spread_cons, n12_rep e x _ _ b (utf8_pos c), spread_side e t xs hl, n12]
    split
    · rw [spread_cons, spread_n12 e t xs b hl]
    · rw [spread_cons, spread_n12 e t xs _ hl]

theorem leads_spread : ∀ (t : List Char) (xs : List Class), xs.length = t.length → Leads xs → Leads (spread t xs)
  | [], [], _, h => h
  | c :: t, x :: xs, hl, h => by
    rw [spread_cons]
    by_cases hx : x ∈ [cES, cET, cCS]
    · rw [leads_rep hx]
      exact leads_spread t xs (by simpa using hl) ((leads_sep hx _).mp h)
    · obtain ⟨k, hk⟩ : ∃ k, (utf8 [c]).length = k + 1 := ⟨(utf8 [c]).length - 1, by have := utf8_pos c; omega⟩
      rw [hk, List.replicate_succ, List.cons_append, leads_other hx]
      exact (leads_other hx _).mp h

theorem spread_aside {e : Class} : ∀ (t : List Char) (xs ds : List Class) (q : Class), xs.length = t.length → ds.length = t.length →
    Aside e q xs ds → Aside e q (spread t xs) (spread t ds)
  | [], [], _, _, _, _, _ => trivial
  | c :: t, x :: xs, d :: ds, q, h1, h2, h => by
    have ih := spread_aside t xs ds x (by simpa using h1) (by simpa using h2) h.2
    rw [spread_cons, spread_cons]
    have : ∀ n, Aside e x (List.replicate n x ++ spread t xs) (List.replicate n d ++ spread t ds) := by
      intro n
      induction n with
      | zero => exact ih
      | succ n ihn => exact ⟨fun _ => Or.inl rfl, ihn⟩
    obtain ⟨k, hk⟩ : ∃ k, (utf8 [c]).length = k + 1 := ⟨(utf8 [c]).length - 1, by have := utf8_pos c; omega⟩
    rw [hk]
    refine ⟨fun hx => (h.1 hx).imp id (Or.imp id (Or.imp id fun hh => ?_)), this k⟩
    exact (leads_rep hx _ k).mpr (leads_spread t xs (by simpa using h1) hh)

/-! ### W7 -/

/-- Numbers stand in left-to-right context. -/
def NumL : Class → List Class → Prop
  | _, [] => True
  | s, c :: cs => (c = cEN → s = cL) ∧ NumL (strongAfter s c) cs

theorem numL_w1 : ∀ (cs : List Class) (s prev : Class), prev ∉ [cLRI, cRLI, cFSI, cPDI] → Spec.NoIsolates cs → (prev = cEN → s = cL) →
    (prev = cL ∨ prev = cR ∨ prev = cAL → s = prev) → NumL s cs → NumL s (w1 prev cs) := by
  intro cs
  induction cs with
  | nil => intros; trivial
  | cons c cs ih =>
    intro s prev hp hi h1 h2 h
    rw [w1]
    rw [if_neg hp]
    have hi' : Spec.NoIsolates cs := fun x hx => hi x (List.mem_cons_of_mem _ hx)
    by_cases hc : c = cNSM
    · rw [if_pos hc]
      have hs : strongAfter s prev = s := by
        unfold strongAfter
        split
        · rename_i hh; exact (h2 hh).symm
        · rfl
      have hs2 : strongAfter s c = s := by rw [hc]; rfl
      refine ⟨h1, ?_⟩
      rw [hs]
      refine ih s prev hp hi' h1 h2 ?_
      have := h.2
      rw [hs2] at this
      exact this
    · rw [if_neg hc]
      refine ⟨h.1, ih _ c (hi c (List.mem_cons_self ..)) hi' ?_ ?_ h.2⟩
      · rintro rfl
        exact h.1 rfl
      · intro hh
        unfold strongAfter
        rw [if_pos hh]

theorem numL_map {f : Class → Class} (h1 : ∀ c, f c = cEN → c = cEN) (h2 : ∀ s c, c = cEN ∨ strongAfter s (f c) = cL ∨ strongAfter s c ≠ cL)
    (h3 : f cEN = cEN) : ∀ (cs : List Class) (s s' : Class), (s = cL → s' = cL) → NumL s cs → NumL s' (cs.map f) := by
  intro cs
  induction cs with
  | nil => intros; trivial
  | cons c cs ih =>
    intro s s' hs h
    refine ⟨fun hc => hs (h.1 (h1 c hc)), ih (strongAfter s c) _ ?_ h.2⟩
    intro hl
    by_cases hc : c = cEN
    · subst hc
      rw [h3]
      exact hs hl
    · by_cases hst : c = cL ∨ c = cR ∨ c = cAL
      · have := h2 s' c
        have e : strongAfter s' c = strongAfter s c := by unfold strongAfter; rw [if_pos hst, if_pos hst]
        rw [e] at this
        rcases this with h' | h' | h'
        · exact absurd h' hc
        · exact h'
        · exact absurd hl h'
      · have hsl : s = cL := by
          unfold strongAfter at hl
          rw [if_neg hst] at hl
          exact hl
        have := h2 s' c
        have e : strongAfter s' c = s' := by unfold strongAfter; rw [if_neg hst]
        rw [e, hs hsl] at this
        rcases this with h' | h' | h'
        · exact absurd h' hc
        · rw [hs hsl]; exact h'
        · exact absurd rfl h'

theorem numL_w4 : ∀ (cs : List Class) (s p : Class), (p = cEN → s = cL) → p ≠ cAN → cAN ∉ cs → NumL s cs → NumL s (w4 p cs) := by
  intro cs
  induction cs with
  | nil => intros; trivial
  | cons c cs ih =>
    intro s p hp hpa han h
    have hc1 : c ≠ cAN := fun h => han (by rw [h]; exact List.mem_cons_self ..)
    have hcs : cAN ∉ cs := fun h => han (List.mem_cons_of_mem _ h)
    have key : NumL (strongAfter s c) (w4 c cs) := by
      refine ih _ c ?_ hc1 hcs h.2
      rintro rfl
      exact h.1 rfl
    rw [w4]
    by_cases hch : (c = cES ∨ c = cCS) ∧ p = cEN ∧ cs.head? = some cEN
    · have e : (if c = cES ∧ p = cEN ∧ cs.head? = some cEN then cEN else if c = cCS ∧ (p = cEN ∨ p = cAN) ∧ cs.head? = some p then p else c) = cEN := by
        obtain ⟨h1, h2, h3⟩ := hch
        rw [h2, h3]
        rcases h1 with rfl | rfl <;> rfl
      rw [e]
      refine ⟨fun _ => hp hch.2.1, ?_⟩
      have : strongAfter s c = strongAfter s cEN := by rcases hch.1 with rfl | rfl <;> rfl
      rw [← this]
      exact key
    · rw [if_neg (fun h => hch ⟨Or.inl h.1, h.2.1, h.2.2⟩), if_neg]
      · exact ⟨h.1, key⟩
      · rintro ⟨h1, h2 | h2, h3⟩
        · exact hch ⟨Or.inr h1, h2, by rw [h3, h2]⟩
        · exact hpa h2

theorem numL_lookahead : ∀ (cs : List Class) (s : Class), (cs.dropWhile (· = cET)).head? = some cEN → NumL s cs → s = cL := by
  intro cs
  induction cs with
  | nil => intro s h; cases h
  | cons c cs ih =>
    intro s h hn
    by_cases hc : c = cET
    · subst hc
      exact ih s (by simpa using h) hn.2
    · rw [dropWhile_head (by simpa using hc)] at h
      exact hn.1 (by simpa using h)

theorem numL_w5 : ∀ (cs : List Class) (s q : Class), (q = cEN → s = cL) → NumL s cs → NumL s (w5 q cs) := by
  intro cs
  induction cs with
  | nil => intros; trivial
  | cons c cs ih =>
    intro s q hq h
    rw [w5_cons]
    split
    · rename_i hh
      have hs : s = cL := by
        rcases hh.2 with h' | h'
        · exact hq h'
        · refine numL_lookahead cs s h' ?_
          have := h.2
          rw [hh.1] at this
          exact this
      refine ⟨fun _ => hs, ?_⟩
      refine ih s cEN (fun _ => hs) ?_
      have := h.2
      rw [hh.1] at this
      exact this
    · refine ⟨h.1, ih _ c ?_ h.2⟩
      rintro rfl
      exact h.1 rfl

theorem w7_numL : ∀ (cs : List Class) (s : Class), NumL s cs → w7 s cs = cs.map fun c => if c = cEN then cL else c := by
  intro cs
  induction cs with
  | nil => intros; rfl
  | cons c cs ih =>
    intro s h
    rw [w7, ih _ h.2, List.map_cons]
    congr 1
    by_cases hc : c = cEN
    · rw [if_pos ⟨hc, h.1 hc⟩, if_pos hc]
    · rw [if_neg (fun hh => hc hh.1), if_neg hc]

theorem numbersLTR_numL : ∀ (cs : List Class) (e : Class), NumbersLTR e cs → NumL e cs := by
  intro cs
  induction cs with
  | nil => intros; trivial
  | cons c cs ih =>
    intro e h
    refine ⟨?_, ih _ ?_⟩
    · rintro rfl
      exact (h [] cs rfl).1
    · intro pre post he
      have := h (c :: pre) post (by rw [he]; rfl)
      exact ⟨this.1, fun hm => this.2 (List.mem_cons_of_mem _ hm)⟩

/-! ### All rules -/

theorem n12_pointwise (e : Class) (f g : Class → Class) : ∀ (xs : List Class) (b : Class),
    (∀ c ∈ xs, neutral (f c) = neutral (g c) ∧ (neutral (f c) = false → f c = g c)) → n12 e b (xs.map f) = n12 e b (xs.map g) := by
  have hs : ∀ xs : List Class, (∀ c ∈ xs, neutral (f c) = neutral (g c) ∧ (neutral (f c) = false → f c = g c)) →
      sideOf e (xs.map f) = sideOf e (xs.map g) := by
    intro xs
    induction xs with
    | nil => intros; rfl
    | cons c cs ih =>
      intro h
      have h0 := h c (List.mem_cons_self ..)
      have h' := ih (fun x hx => h x (List.mem_cons_of_mem _ hx))
      rw [List.map_cons, List.map_cons, sideOf_cons, sideOf_cons, ← h0.1, h']
      by_cases hn : neutral (f c) = true
      · rw [if_pos hn, if_pos hn]
      · rw [if_neg hn, if_neg hn, h0.2 (by simpa using hn)]
  intro xs
  induction xs with
  | nil => intros; rfl
  | cons c cs ih =>
    intro b h
    have h0 := h c (List.mem_cons_self ..)
    have h1 : ∀ x ∈ cs, _ := fun x hx => h x (List.mem_cons_of_mem _ hx)
    rw [List.map_cons, List.map_cons, n12, n12, ← h0.1, hs cs h1]
    by_cases hn : neutral (f c) = true
    · rw [if_pos hn, if_pos hn, ih b h1]
    · rw [if_neg hn, if_neg hn, ih _ h1, h0.2 (by simpa using hn)]

theorem w1_mem : ∀ (cs : List Class) (prev : Class), prev ∉ [cLRI, cRLI, cFSI, cPDI] → Spec.NoIsolates cs →
    ∀ c ∈ w1 prev cs, c = prev ∨ (c ∈ cs ∧ c ≠ cNSM) := by
  intro cs
  induction cs with
  | nil => intro _ _ _ c hc; cases hc
  | cons x cs ih =>
    intro prev hp hi c hc
    rw [w1] at hc
    rw [if_neg hp] at hc
    have hi' : Spec.NoIsolates cs := fun x hx => hi x (List.mem_cons_of_mem _ hx)
    by_cases hx : x = cNSM
    · rw [if_pos hx, List.mem_cons] at hc
      rcases hc with hc | hc
      · exact Or.inl hc
      · exact (ih prev hp hi' c hc).imp id fun h => ⟨List.mem_cons_of_mem _ h.1, h.2⟩
    · rw [if_neg hx, List.mem_cons] at hc
      rcases hc with hc | hc
      · exact Or.inr ⟨by rw [hc]; exact List.mem_cons_self .., by rw [hc]; exact hx⟩
      · rcases ih x (hi x (List.mem_cons_self ..)) hi' c hc with h | h
        · exact Or.inr ⟨by rw [h]; exact List.mem_cons_self .., by rw [h]; exact hx⟩
        · exact Or.inr ⟨List.mem_cons_of_mem _ h.1, h.2⟩

theorem w4_mem : ∀ (cs : List Class) (p : Class), p ≠ cAN → cAN ∉ cs → ∀ c ∈ w4 p cs, c ∈ cs ∨ c = cEN := by
  intro cs
  induction cs with
  | nil => intro _ _ _ c hc; cases hc
  | cons x cs ih =>
    intro p hp han c hc
    rw [w4, List.mem_cons] at hc
    rcases hc with hc | hc
    · by_cases h1 : x = cES ∧ p = cEN ∧ cs.head? = some cEN
      · rw [if_pos h1] at hc; exact Or.inr hc
      · rw [if_neg h1] at hc
        by_cases h2 : x = cCS ∧ (p = cEN ∨ p = cAN) ∧ cs.head? = some p
        · rw [if_pos h2] at hc
          right
          rcases h2.2.1 with h | h
          · rw [hc, h]
          · exact absurd h hp
        · rw [if_neg h2] at hc
          left; rw [hc]; exact List.mem_cons_self ..
    · have hx : x ≠ cAN := fun h => han (by rw [h]; exact List.mem_cons_self ..)
      exact (ih x hx (fun h => han (List.mem_cons_of_mem _ h)) c hc).imp (List.mem_cons_of_mem _) id

theorem w5_mem : ∀ (cs : List Class) (q : Class), ∀ c ∈ w5 q cs, c ∈ cs ∨ c = cEN := by
  intro cs
  induction cs with
  | nil => intro _ c hc; cases hc
  | cons x cs ih =>
    intro q c hc
    rw [w5_cons, List.mem_cons] at hc
    rcases hc with hc | hc
    · split at hc
      · exact Or.inr hc
      · left; rw [hc]; exact List.mem_cons_self ..
    · exact (ih _ c hc).imp (List.mem_cons_of_mem _) id

theorem w1_length : ∀ (cs : List Class) (p : Class), (w1 p cs).length = cs.length
  | [], _ => rfl
  | c :: cs, p => by rw [w1, List.length_cons, w1_length, List.length_cons]

theorem w5_map_neutral : ∀ (xs : List Class) (q : Class), w5 (oneNeutral q) (xs.map oneNeutral) = (w5 q xs).map oneNeutral := by
  have h1 : ∀ c, oneNeutral c = cET ↔ c = cET := by
    intro c
    unfold oneNeutral
    by_cases h : c = cS ∨ c = cWS ∨ c = cON
    · rw [if_pos h]; rcases h with rfl | rfl | rfl <;> decide
    · rw [if_neg h]
  have h2 : ∀ c, oneNeutral c = cEN ↔ c = cEN := by
    intro c
    unfold oneNeutral
    by_cases h : c = cS ∨ c = cWS ∨ c = cON
    · rw [if_pos h]; rcases h with rfl | rfl | rfl <;> decide
    · rw [if_neg h]
  have h3 : ∀ xs : List Class, (((xs.map oneNeutral).dropWhile (· = cET)).head? = some cEN) ↔ ((xs.dropWhile (· = cET)).head? = some cEN) := by
    intro xs
    induction xs with
    | nil => rfl
    | cons x xs ih =>
      rw [List.map_cons, List.dropWhile_cons, List.dropWhile_cons]
      simp only [h1]
      by_cases hx : x = cET
      · simp only [hx, decide_true, if_true]; exact ih
      · simp [hx, h2]
  intro xs
  induction xs with
  | nil => intro q; rfl
  | cons x xs ih =>
    intro q
    rw [List.map_cons, w5_cons, w5_cons, List.map_cons]
    have : (if oneNeutral x = cET ∧ (oneNeutral q = cEN ∨ ((xs.map oneNeutral).dropWhile (· = cET)).head? = some cEN) then cEN else oneNeutral x) =
        oneNeutral (if x = cET ∧ (q = cEN ∨ (xs.dropWhile (· = cET)).head? = some cEN) then cEN else x) := by
      simp only [h1, h2, h3]
      split <;> rfl
    rw [this, ih]

theorem settle_neutral (c : Class) : settle (oneNeutral c) = settle c := by
  unfold oneNeutral
  split
  · rename_i h; rcases h with rfl | rfl | rfl <;> rfl
  · rfl

/-- The classes after W3. -/
theorem plain_scanned {e : Class} (he : e = cL ∨ e = cR) {cs : List Class} (hp : PlainClasses cs) (hn : NumbersLTR e cs) :
    w2 e (w1 e cs) = w1 e cs ∧ NumL e (w3 (w2 e (w1 e cs))) ∧ ∀ c ∈ w3 (w2 e (w1 e cs)), c ∈ [cL, cR, cEN, cES, cET, cCS, cS, cWS, cON] := by
  have hei : e ∉ [cLRI, cRLI, cFSI, cPDI] := by rcases he with rfl | rfl <;> decide
  have hei2 : e ≠ cAL := by rcases he with rfl | rfl <;> decide
  have hni : Spec.NoIsolates cs := by
    intro c hc
    have := hp c hc
    simp only [List.mem_cons, List.not_mem_nil, or_false] at this
    rcases this with rfl | rfl | rfl | rfl | rfl | rfl | rfl | rfl | rfl | rfl | rfl <;> decide
  have hal : NoALBeforeEN cs := fun pre post h => (hn pre post h).2
  have h2 := w2_same cs e e (Or.inl ⟨hei2, hei2, hal⟩) hni hei
  refine ⟨h2, ?_, ?_⟩
  · rw [h2]
    unfold w3
    refine numL_map ?_ ?_ rfl _ e e id ?_
    · intro c h
      split at h
      · exact absurd h (by decide)
      · exact h
    · intro s c
      by_cases hc : c = cAL
      · right; right; rw [hc]; simp [strongAfter, cAL, cL]
      · rw [if_neg hc]
        by_cases h : strongAfter s c = cL
        · exact Or.inr (Or.inl h)
        · exact Or.inr (Or.inr h)
    · refine numL_w1 cs e e hei hni ?_ (fun _ => rfl) (numbersLTR_numL cs e hn)
      rcases he with rfl | rfl
      · intro _; rfl
      · intro h; exact absurd h (by decide)
  · rw [h2]
    intro c hc
    unfold w3 at hc
    rw [List.mem_map] at hc
    obtain ⟨d, hd, rfl⟩ := hc
    rcases w1_mem cs e hei hni d hd with h | ⟨h, h'⟩
    · rw [h]
      rcases he with rfl | rfl <;> decide
    · have := hp d h
      simp only [List.mem_cons, List.not_mem_nil, or_false] at this
      rcases this with rfl | rfl | rfl | rfl | rfl | rfl | rfl | rfl | rfl | rfl | rfl <;> first | decide | exact absurd rfl h'

/-- The rules, byte by byte. -/
theorem resolved_bytes {e : Class} (he : e = cL ∨ e = cR) {cs : List Class} (hp : PlainClasses cs) (hn : NumbersLTR e cs) (t : List Char)
    (hl : cs.length = t.length) :
    spread t (resolved e cs) = n12 e e ((w5 cON (spread t ((w3 (w2 e (w1 e cs))).map oneNeutral))).map settle) := by
  obtain ⟨h2, hN, hm⟩ := plain_scanned he hp hn
  have hlen : (w3 (w2 e (w1 e cs))).length = t.length := by
    rw [h2]; unfold w3; rw [List.length_map, w1_length, hl]
  unfold resolved weak
  generalize w3 (w2 e (w1 e cs)) = X at *
  have han : cAN ∉ X := fun h => absurd (hm _ h) (by decide)
  rw [spread_w5 _ _ _ (by rw [List.length_map, hlen]), spread_map, spread_n12 _ _ _ _ (by rw [List.length_map, w5_length, List.length_map, hlen])]
  have hcon : w5 cON (X.map oneNeutral) = (w5 cON X).map oneNeutral := by
    rw [← w5_map_neutral X cON]
    exact w5_state _ (Or.inl (by decide))
  rw [hcon, List.map_map]
  have hcomp : settle ∘ oneNeutral = settle := funext settle_neutral
  rw [hcomp, ← w4_same e X cON cON cON e han (by decide) (by intro h; exact absurd h (by decide)) (Or.inl rfl)]
  have hN5 : NumL e (w5 cON (w4 cON X)) :=
    numL_w5 _ e cON (by intro h; exact absurd h (by decide)) (numL_w4 X e cON (by intro h; exact absurd h (by decide)) (by decide) han hN)
  have hm5 : ∀ c ∈ w5 cON (w4 cON X), c ∈ [cL, cR, cEN, cES, cET, cCS, cS, cWS, cON] := by
    intro c hc
    rcases w5_mem _ _ c hc with h | h
    · rcases w4_mem X cON (by decide) han c h with h | h
      · exact hm c h
      · rw [h]; decide
    · rw [h]; decide
  generalize w5 cON (w4 cON X) = Y at *
  have hN6 : NumL e (w6 Y) := by
    unfold w6
    refine numL_map ?_ ?_ rfl _ e e id hN5
    · intro c h
      split at h
      · exact absurd h (by decide)
      · exact h
    · intro s c
      by_cases hc : c = cES ∨ c = cET ∨ c = cCS
      · rw [if_pos hc]
        have : strongAfter s c = strongAfter s cON := by rcases hc with rfl | rfl | rfl <;> rfl
        rw [this]
        by_cases h : strongAfter s cON = cL
        · exact Or.inr (Or.inl h)
        · exact Or.inr (Or.inr h)
      · rw [if_neg hc]
        by_cases h : strongAfter s c = cL
        · exact Or.inr (Or.inl h)
        · exact Or.inr (Or.inr h)
  rw [w7_numL _ _ hN6, w6, List.map_map]
  congr 1
  refine n12_pointwise e _ _ Y e ?_
  intro c hc
  have := hm5 c hc
  simp only [List.mem_cons, List.not_mem_nil, or_false] at this
  rcases this with rfl | rfl | rfl | rfl | rfl | rfl | rfl | rfl | rfl <;> decide

theorem settled_aside {e : Class} : ∀ {cs ds : List Class} {q : Class}, SeparatorsSettled e cs ds → (∀ c ∈ cs, c ≠ cNI) →
    q ∉ [cNI, cB, cS, cWS, cON, cES, cET, cCS] → Aside e q cs ds := by
  have key : ∀ (cs ds : List Class) (q : Class), (∀ i x y, (q :: cs)[i]? = some x → (q :: cs)[i + 1]? = some y → y ∈ [cES, cET, cCS] →
      x = y ∨ x ∉ [cNI, cB, cS, cWS, cON, cES, cET, cCS] ∨ ds[i]? = some e ∨ Leads ((q :: cs).drop (i + 2))) → Aside e q cs ds := by
    intro cs
    induction cs with
    | nil => intros; trivial
    | cons c cs ih =>
      intro ds q h
      refine ⟨fun hc => ?_, ih ds.tail c fun i x y hx hy hyy => ?_⟩
      · have := h 0 q c rfl rfl hc
        rwa [← List.head?_eq_getElem?] at this
      · have := h (i + 1) x y hx hy hyy
        rwa [← List.getElem?_tail, List.drop_succ_cons] at this
  intro cs ds q h hn hq
  refine key cs ds q fun i x y hx hy hyy => ?_
  cases i with
  | zero =>
    rw [List.getElem?_cons_zero, Option.some.injEq] at hx
    rw [← hx]
    exact Or.inr (Or.inl hq)
  | succ i =>
    rw [List.getElem?_cons_succ] at hx hy
    rcases h i x y hx hy hyy with k | k | k | ⟨z, hz, k⟩
    · exact Or.inl k
    · refine Or.inr (Or.inl fun hm => ?_)
      rw [List.mem_cons] at hm
      rcases hm with hm | hm
      · exact hn x (List.mem_of_getElem? hx) hm
      · exact k hm
    · exact Or.inr (Or.inr (Or.inl k))
    · exact Or.inr (Or.inr (Or.inr ⟨z, List.mem_cons_of_mem _ hz, k⟩))

theorem oneNeutral_sep {y : Class} : oneNeutral y ∈ [cES, cET, cCS] ↔ y ∈ [cES, cET, cCS] := by
  unfold oneNeutral
  split
  · rename_i h
    rcases h with rfl | rfl | rfl <;> decide
  · rfl

theorem leads_map : ∀ (cs : List Class), Leads cs → Leads (cs.map oneNeutral)
  | [], h => h
  | c :: cs, h => by
    rw [List.map_cons]
    by_cases hc : c ∈ [cES, cET, cCS]
    · rw [leads_sep (oneNeutral_sep.mpr hc)]
      exact leads_map cs ((leads_sep hc _).mp h)
    · rw [leads_other (fun hh => hc (oneNeutral_sep.mp hh))]
      have := (leads_other hc _).mp h
      simp only [List.mem_cons, List.not_mem_nil, or_false] at this
      rcases this with rfl | rfl | rfl | rfl <;> decide

theorem aside_map {e : Class} : ∀ (cs ds : List Class) (q : Class), Aside e q cs ds → Aside e (oneNeutral q) (cs.map oneNeutral) ds
  | [], _, _, _ => trivial
  | y :: cs, ds, x, h => by
    refine ⟨fun hy => ?_, aside_map cs ds.tail y h.2⟩
    have hyy : oneNeutral y = y := by
      unfold oneNeutral at hy ⊢
      split
      · rename_i h; rw [if_pos h] at hy; exact absurd hy (by decide)
      · rfl
    rw [hyy] at hy ⊢
    rcases h.1 hy with h | h | h | h
    · left; rw [h, hyy]
    · right; left
      have : oneNeutral x = x := by
        unfold oneNeutral
        rw [if_neg]
        rintro (rfl | rfl | rfl) <;> exact absurd h (by decide)
      rw [this]
      exact h
    · exact Or.inr (Or.inr (Or.inl h))
    · exact Or.inr (Or.inr (Or.inr (leads_map cs h)))

/-- Separators, byte by byte. -/
theorem aside_bytes {e : Class} (he : e = cL ∨ e = cR) {cs ds : List Class} (hp : PlainClasses cs) (hn : NumbersLTR e cs) (t : List Char)
    (hl : cs.length = t.length) (hd : ds.length = t.length) (ha : SeparatorsSettled e (w5 cON (w4 cON (w3 (w2 e (w1 e cs))))) ds) :
    Aside e cL (w5 cON (spread t ((w3 (w2 e (w1 e cs))).map oneNeutral))) (spread t ds) := by
  obtain ⟨h2, hN, hm⟩ := plain_scanned he hp hn
  have hlen : (w3 (w2 e (w1 e cs))).length = t.length := by
    rw [h2]; unfold w3; rw [List.length_map, w1_length, hl]
  generalize w3 (w2 e (w1 e cs)) = X at *
  have han : cAN ∉ X := fun h => absurd (hm _ h) (by decide)
  have hne : ∀ c ∈ w5 cON (w4 cON X), c ≠ cNI := by
    intro c hc
    have : c ∈ [cL, cR, cEN, cES, cET, cCS, cS, cWS, cON] := by
      rcases w5_mem _ _ c hc with h | h
      · rcases w4_mem X cON (by decide) han c h with h | h
        · exact hm c h
        · rw [h]; decide
      · rw [h]; decide
    rintro rfl
    exact absurd this (by decide)
  have h3 : Aside e cL (w5 cL (w4 cON X)) ds := by
    rw [← show w5 cON (w4 cON X) = w5 cL (w4 cON X) from w5_state _ (Or.inl (by decide))]
    exact settled_aside ha hne (by decide)
  have h4 := aside_w4 X ds cON cL cL han (by decide) (by intro h; exact absurd h (by decide)) (Or.inl rfl) h3
  have h5 : Aside e cL ((w5 cL X).map oneNeutral) ds := aside_map _ _ cL h4
  rw [spread_w5 _ _ _ (by rw [List.length_map, hlen])]
  have hcon : w5 cON (X.map oneNeutral) = (w5 cL X).map oneNeutral := by
    rw [← w5_map_neutral X cL]
    exact w5_state _ (Or.inl (by decide))
  rw [hcon]
  exact spread_aside t _ _ cL (by rw [List.length_map, w5_length, hlen]) hd h5

/-- Separators which are apart are settled. -/
theorem settled_of_apart {e : Class} {cs ds : List Class} (h : SeparatorsApart cs) : SeparatorsSettled e cs ds := by
  intro i x y hx hy hyy
  obtain ⟨h1, rfl⟩ := List.getElem?_eq_some_iff.mp hx
  obtain ⟨h2, rfl⟩ := List.getElem?_eq_some_iff.mp hy
  rcases h (cs.take i) cs[i] cs[i + 1] (cs.drop (i + 2)) (by
    rw [List.getElem_cons_drop, List.getElem_cons_drop, List.take_append_drop]) hyy with k | k
  · exact Or.inl k
  · exact Or.inr (Or.inl k)

end Uax.Bidi
