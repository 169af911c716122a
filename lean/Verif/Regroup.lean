import Verif.ByLine
import Verif.Props.Grapheme

/-! Cutting a text at one of its boundaries does not change the other boundaries. -/

namespace Uax

/-- Boundaries on both sides of a boundary do not depend on the text on the other side of it. The
texts have the property `Q`. -/
structure TwoSided {γ : Type} (B : List γ → List γ → Bool) (Q : List γ → Prop) : Prop where
  last : ∀ a bef, B (a :: bef) [] = true
  before : ∀ a bef m mid v, Q ((a :: bef).reverse ++ (m :: mid ++ v)) → B ((m :: mid).reverse ++ a :: bef) v = true →
    B (a :: bef) (m :: mid ++ v) = B (a :: bef) (m :: mid)
  behind : ∀ a u p pre post, Q ((a :: u).reverse ++ (p :: pre ++ post)) → B (a :: u) (p :: pre ++ post) = true →
    B ((p :: pre).reverse ++ a :: u) post = B (p :: pre).reverse post

theorem cutWith_split {γ : Type} {B : List γ → List γ → Bool} {Q : List γ → Prop} (h : TwoSided B Q) (cl : Int → γ) (u v : List Int)
    (hq : Q ((u ++ v).map cl)) (hu : u ≠ []) (hb : B (u.map cl).reverse (v.map cl) = true) :
    cutWith B cl (u ++ v) = cutWith B cl u ++ cutWith B cl v := by
  have hlast : ∀ i, i + 1 = u.length → (B (((u ++ v).take (i + 1)).map cl).reverse (((u ++ v).drop (i + 1)).map cl)) = true := by
    intro i hi
    rw [hi, List.take_left, List.drop_left]
    exact hb
  refine cutAfter_append _ _ _ _ _ ?_ ?_ hlast
  · intro i hi
    by_cases he : i + 1 = u.length
    · rw [hlast i he, he, List.take_length, List.drop_length]
      cases hr : (u.map cl).reverse with
      | nil => rw [List.reverse_eq_nil_iff, List.map_eq_nil_iff] at hr; exact absurd hr hu
      | cons a l => exact (h.last _ _).symm
    · have hlt : i + 1 < u.length := by omega
      rw [List.take_append_of_le_length (by omega), List.drop_append_of_le_length (by omega), List.map_append]
      have e1 : ((u.take (i + 1)).map cl).reverse = cl u[i] :: ((u.take i).map cl).reverse := by
        rw [List.take_succ_eq_append_getElem hi, List.map_append, List.reverse_append]; rfl
      have e2 : (u.drop (i + 1)).map cl = cl u[i + 1] :: (u.drop (i + 1 + 1)).map cl := by
        rw [List.drop_eq_getElem_cons hlt]; rfl
      have e3 : (u.map cl).reverse = ((u.drop (i + 1)).map cl).reverse ++ ((u.take (i + 1)).map cl).reverse := by
        rw [← List.reverse_append, ← List.map_append, List.take_append_drop]
      rw [e1, e2]
      apply h.before
      · rw [← e1, ← e2, List.reverse_reverse, ← List.append_assoc, ← List.map_append, List.take_append_drop, ← List.map_append]
        exact hq
      · rw [← e1, ← e2, ← e3]; exact hb
  · intro i hi
    rw [Nat.add_assoc, List.take_length_add_append, List.drop_length_add_append, List.map_append, List.reverse_append]
    have e1 : (v.take (i + 1)).map cl ≠ [] := by
      intro e
      rw [List.map_eq_nil_iff, List.take_eq_nil_iff] at e
      rcases e with e | e
      · cases e
      · rw [e] at hi; cases hi
    have e2 : (v.take (i + 1)).map cl ++ (v.drop (i + 1)).map cl = v.map cl := by rw [← List.map_append, List.take_append_drop]
    have e3 : (u.map cl).reverse ≠ [] := by rw [Ne, List.reverse_eq_nil_iff, List.map_eq_nil_iff]; exact hu
    cases hp : (v.take (i + 1)).map cl with
    | nil => exact absurd hp e1
    | cons p pre =>
      cases hr : (u.map cl).reverse with
      | nil => exact absurd hr e3
      | cons a l =>
        rw [hp] at e2
        apply h.behind
        · rw [← hr, List.reverse_reverse, e2, ← List.map_append]; exact hq
        · rw [← hr, e2]; exact hb

theorem pieces_nonempty {α : Type} (m : α → Bool) : ∀ (l acc : List α) p, p ∈ pieces m acc l → p ≠ []
  | [], acc, p, h => by simp [pieces] at h
  | a :: l, acc, p, h => by
    simp only [pieces] at h
    split at h
    · rcases List.mem_cons.mp h with rfl | h
      · simp
      · exact pieces_nonempty m l _ p h
    · exact pieces_nonempty m l _ p h

theorem pieces_begin {α : Type} (m : α → Bool) : ∀ (l acc : List α) (A C : List (List α)), A ≠ [] → pieces m acc l = A ++ C →
    ∃ l1 x l2, l = l1 ++ x :: l2 ∧ A.flatten = acc ++ l1 ++ [x] ∧ m x = true
  | [], acc, A, C, hA, h => by
    simp [pieces] at h
    exact absurd h.1 hA
  | a :: l, acc, A, C, hA, h => by
    simp only [pieces] at h
    split at h
    · rename_i hm
      cases A with
      | nil => exact absurd rfl hA
      | cons p A =>
        rw [List.cons_append] at h
        injection h with h1 h2
        cases A with
        | nil => exact ⟨[], a, l, rfl, by rw [← h1]; simp, hm⟩
        | cons q A =>
          obtain ⟨l1, x, l2, e1, e2, e3⟩ := pieces_begin m l [] (q :: A) C (List.cons_ne_nil _ _) h2
          refine ⟨a :: l1, x, l2, by rw [e1]; rfl, ?_, e3⟩
          rw [List.flatten_cons, e2, ← h1]
          simp
    · obtain ⟨l1, x, l2, e1, e2, e3⟩ := pieces_begin m l _ A C hA h
      exact ⟨a :: l1, x, l2, by rw [e1]; rfl, by rw [e2]; simp, e3⟩

theorem cutAfter_begin (c : Nat → Bool) (text : List Int) (A C : List (List Int)) (hA : A ≠ []) (h : cutAfter c text = A ++ C) :
    ∃ i, i + 1 = A.flatten.length ∧ c i = true := by
  unfold cutAfter at h
  obtain ⟨A', C', e, rfl, rfl⟩ := List.map_eq_append_iff.mp h
  obtain ⟨l1, x, l2, e1, e2, e3⟩ := pieces_begin (·.2) _ [] A' C' (by intro e; subst e; exact hA rfl) e
  refine ⟨l1.length, ?_, ?_⟩
  · rw [← List.map_flatten, e2]; simp
  · have e4 : (text.mapIdx fun i r => (r, c i))[l1.length]? = some x := by rw [e1]; simp
    rw [List.getElem?_mapIdx] at e4
    cases hx : text[l1.length]? with
    | none => rw [hx] at e4; cases e4
    | some r => rw [hx] at e4; cases e4; exact e3

theorem cutAfter_nonempty (c : Nat → Bool) (text : List Int) (p : List Int) (h : p ∈ cutAfter c text) : p ≠ [] := by
  unfold cutAfter at h
  obtain ⟨q, h1, rfl⟩ := List.mem_map.mp h
  intro e
  exact pieces_nonempty _ _ _ q h1 (List.map_eq_nil_iff.mp e)

/-- Lists of non-empty lists. -/
theorem same_front {α : Type} : ∀ (X A Y C : List (List α)), X ++ Y = A ++ C → X.flatten = A.flatten → (∀ p ∈ X ++ Y, p ≠ []) → X = A
  | [], [], _, _, _, _, _ => rfl
  | [], a :: A, Y, C, h, hf, hn => by
    have : a ≠ [] := hn a (by rw [h]; exact List.mem_cons_self)
    cases a with
    | nil => exact absurd rfl this
    | cons b a => cases hf
  | x :: X, [], Y, C, h, hf, hn => by
    have : x ≠ [] := hn x List.mem_cons_self
    cases x with
    | nil => exact absurd rfl this
    | cons b a => cases hf
  | x :: X, a :: A, Y, C, h, hf, hn => by
    rw [List.cons_append, List.cons_append] at h
    injection h with h1 h2
    subst h1
    rw [List.flatten_cons, List.flatten_cons] at hf
    rw [same_front X A Y C h2 (List.append_cancel_left hf) (fun p hp => hn p (List.mem_cons_of_mem _ hp))]

theorem cutWith_flatten {γ : Type} {B : List γ → List γ → Bool} {Q : List γ → Prop} (h : TwoSided B Q) (cl : Int → γ) (text : List Int) :
    (cutWith B cl text).flatten = text := by
  unfold cutWith
  apply cutAfter_flatten
  intro i hi
  rw [hi, List.take_length, List.drop_length]
  cases hr : (text.map cl).reverse with
  | nil => rw [List.reverse_eq_nil_iff, List.map_eq_nil_iff] at hr; subst hr; cases hi
  | cons a l => exact h.last _ _

/-- Groups of segments are texts with just these segments. -/
theorem cutWith_groups {γ : Type} {B : List γ → List γ → Bool} {Q : List γ → Prop} (h : TwoSided B Q) (hs : ∀ x y, Q (x ++ y) → Q y) (cl : Int → γ) :
    ∀ (parts : List (List (List Int))) (text : List Int), Q (text.map cl) → cutWith B cl text = parts.flatten →
      ∀ p ∈ parts, cutWith B cl p.flatten = p
  | [], _, _, _, _, hp => by cases hp
  | A :: ps, text, hq, e, p, hp => by
    rw [List.flatten_cons] at e
    have ht : text = A.flatten ++ ps.flatten.flatten := by rw [← List.flatten_append, ← e, cutWith_flatten h]
    by_cases hA : A = []
    · subst hA
      rcases List.mem_cons.mp hp with rfl | hp
      · rfl
      · exact cutWith_groups h hs cl ps text hq e p hp
    · obtain ⟨i, h1, h2⟩ := cutAfter_begin _ _ _ _ hA e
      rw [h1, ht, List.take_left, List.drop_left] at h2
      have hne : A.flatten ≠ [] := by intro e; rw [e] at h1; cases h1
      have key := cutWith_split h cl A.flatten ps.flatten.flatten (by rw [← ht]; exact hq) hne h2
      rw [← ht, e] at key
      have e1 : cutWith B cl A.flatten = A := same_front _ _ _ _ key.symm (cutWith_flatten h cl _) (by
        intro q hq
        rw [← key, ← e] at hq
        exact cutAfter_nonempty _ _ _ hq)
      rcases List.mem_cons.mp hp with rfl | hp
      · exact e1
      · rw [e1] at key
        refine cutWith_groups h hs cl ps ps.flatten.flatten (hs (A.flatten.map cl) _ ?_) (List.append_cancel_left key).symm p hp
        rw [← List.map_append, ← ht]
        exact hq

/-! ### Graphemes -/

theorem takeWhile_all {α : Type} (p : α → Bool) : ∀ (l r : List α), (∀ x ∈ l, p x = true) → (l ++ r).takeWhile p = l ++ r.takeWhile p
  | [], _, _ => rfl
  | a :: l, r, h => by
    rw [List.cons_append, List.takeWhile_cons, if_pos (h a List.mem_cons_self), takeWhile_all p l r (fun x hx => h x (List.mem_cons_of_mem _ hx))]
    rfl

/-- A run of elements either ends within the first list or reaches over its end. -/
theorem takeWhile_over {α : Type} (p : α → Bool) : ∀ (l r : List α), (l ++ r).takeWhile p = l.takeWhile p ∨ ∀ x ∈ l, p x = true
  | [], r => Or.inr (fun x hx => nomatch hx)
  | a :: l, r => by
    rw [List.cons_append, List.takeWhile_cons, List.takeWhile_cons]
    cases ha : p a with
    | false => exact Or.inl rfl
    | true =>
      rcases takeWhile_over p l r with h | h
      · left; simp only [if_true]; rw [h]
      · right
        intro x hx
        rcases List.mem_cons.mp hx with rfl | hx
        · exact ha
        · exact h x hx

theorem dropWhile_over {α : Type} (p : α → Bool) : ∀ (l r : List α),
    (∃ b l', l.dropWhile p = b :: l' ∧ (l ++ r).dropWhile p = b :: l' ++ r) ∨ ((∀ x ∈ l, p x = true) ∧ (l ++ r).dropWhile p = r.dropWhile p ∧ l.dropWhile p = [])
  | [], r => Or.inr ⟨fun x hx => (nomatch hx), rfl, rfl⟩
  | a :: l, r => by
    rw [List.cons_append, List.dropWhile_cons, List.dropWhile_cons]
    cases ha : p a with
    | false => exact Or.inl ⟨a, l, rfl, rfl⟩
    | true =>
      simp only [if_true]
      rcases dropWhile_over p l r with h | ⟨h, h2⟩
      · exact Or.inl h
      · right
        refine ⟨?_, h2⟩
        intro x hx
        rcases List.mem_cons.mp hx with rfl | hx
        · exact ha
        · exact h x hx

theorem gTwoSided (u : Bool) : TwoSided (gBoundary u) (fun _ => True) where
  last _ _ := rfl
  before _ _ _ _ _ _ _ := rfl
  behind a w p pre post _ hb := by
    obtain ⟨z, l, hz⟩ : ∃ z l, (p :: pre).reverse = z :: l := by
      cases h : (p :: pre).reverse with
      | nil => simp at h
      | cons z l => exact ⟨z, l, rfl⟩
    rw [hz]
    cases post with
    | nil => rfl
    | cons b rest =>
      -- what the boundary before `p` tells
      have hp : p ∈ [GClass.Extend, .ZWJ] → a.isCtl = true := by
        intro h
        cases ha : a.isCtl with
        | true => rfl
        | false =>
          rw [List.cons_append] at hb
          have h1 : ¬ (a = .CR ∧ p = .LF) := by rintro ⟨rfl, -⟩; cases ha
          have h2 : p.isCtl = false := by revert h; cases p <;> decide
          simp only [gBoundary, if_neg h1, ha, h2, h, if_true, ite_self, Bool.false_eq_true, if_false] at hb
      have hr : p = .RI → ((a :: w).takeWhile (· == GClass.RI)).length % 2 = 0 := by
        rintro rfl
        cases ha : a.isCtl with
        | true =>
          have : (a == GClass.RI) = false := by revert ha; cases a <;> decide
          rw [List.takeWhile_cons, this]; rfl
        | false =>
          rw [List.cons_append] at hb
          have h1 : ¬ (a = .CR ∧ GClass.RI = .LF) := by rintro ⟨-, h⟩; cases h
          apply Classical.byContradiction
          intro hn
          have hn' : ((a :: w).takeWhile (· == GClass.RI)).length % 2 = 1 := by omega
          have h2 : GClass.RI.isCtl = false := rfl
          simp only [gBoundary, if_neg h1, ha, h2, hn', and_self, if_true, ite_self, Bool.false_eq_true, if_false] at hb
      have hmem : p ∈ z :: l := by rw [← hz, List.mem_reverse]; exact List.mem_cons_self
      have e1 : ((z :: l ++ a :: w).takeWhile (· == GClass.RI)).length % 2 = ((z :: l).takeWhile (· == GClass.RI)).length % 2 := by
        rcases takeWhile_over (· == GClass.RI) (z :: l) (a :: w) with h | h
        · rw [h]
        · have := hr (eq_of_beq (h p hmem))
          have e := takeWhile_all (· == GClass.RI) (z :: l) [] h
          rw [List.append_nil, List.takeWhile_nil, List.append_nil] at e
          rw [takeWhile_all _ _ _ h, List.length_append, e]
          omega
      have e2 : z = .ZWJ → (((l ++ a :: w).dropWhile (· == GClass.Extend)).head? = some GClass.Pict ↔ (l.dropWhile (· == GClass.Extend)).head? = some GClass.Pict) := by
        intro hzz
        rcases dropWhile_over (· == GClass.Extend) l (a :: w) with ⟨b, l', h1, h2⟩ | ⟨h1, h2, h3⟩
        · rw [h1, h2]; rfl
        · have ha : a.isCtl = true := by
            apply hp
            rcases List.mem_cons.mp hmem with h | h
            · rw [h, hzz]; decide
            · rw [eq_of_beq (h1 p h)]; decide
          rw [h2, h3]
          have h4 : (a == GClass.Extend) = false := by revert ha; cases a <;> decide
          have h5 : a ≠ .Pict := by rintro rfl; cases ha
          rw [List.dropWhile_cons, h4]
          simp [h5]
      have e3 : (((l ++ a :: w).dropWhile (· == GClass.Extend)).head? = some GClass.Pict ∧ z = .ZWJ ∧ b = .Pict) =
          ((l.dropWhile (· == GClass.Extend)).head? = some GClass.Pict ∧ z = .ZWJ ∧ b = .Pict) := by
        apply propext
        constructor
        · rintro ⟨h1, h2, h3⟩; exact ⟨(e2 h2).mp h1, h2, h3⟩
        · rintro ⟨h1, h2, h3⟩; exact ⟨(e2 h2).mpr h1, h2, h3⟩
      rw [List.cons_append] at e1 ⊢
      simp only [gBoundary, e3, e1]

/-! ### Words -/

open SpecWord

/-- Line ends. -/
def wEnd (x : WChar) : Prop := x.wb ∈ [WClass.Newline, .CR, .LF]

instance (x : WChar) : Decidable (wEnd x) := inferInstanceAs (Decidable (x.wb ∈ _))

theorem w_cut {far : Bool} {a : WChar} {bef : List WChar} {b : WChar} {aft : List WChar} (ha : ¬ wEnd a) (hb : ¬ wEnd b)
    (h : wBoundary far (a :: bef) (b :: aft) = true) :
    ignorable b = false ∧
    ¬ (starts AHLetter (strip (a :: bef)) = true ∧ b.wb ∈ .MidLetter :: MidNumLetQ ∧ starts AHLetter (strip aft) = true) ∧
    ¬ (starts AHLetter (strip (strip (a :: bef)).tail) = true ∧ starts (.MidLetter :: MidNumLetQ) (strip (a :: bef)) = true ∧ b.wb ∈ AHLetter) ∧
    ¬ (starts [.HebrewLetter] (strip (a :: bef)) = true ∧ b.wb = .DoubleQuote ∧ starts [.HebrewLetter] (if far = true then strip aft else aft) = true) ∧
    ¬ (starts [.HebrewLetter] (strip (strip (a :: bef)).tail) = true ∧ starts [.DoubleQuote] (strip (a :: bef)) = true ∧ b.wb = .HebrewLetter) ∧
    ¬ (starts [.Numeric] (strip (strip (a :: bef)).tail) = true ∧ starts (.MidNum :: MidNumLetQ) (strip (a :: bef)) = true ∧ b.wb = .Numeric) ∧
    ¬ (starts [.Numeric] (strip (a :: bef)) = true ∧ b.wb ∈ .MidNum :: MidNumLetQ ∧ starts [.Numeric] (strip aft) = true) ∧
    ¬ (b.wb = .RI ∧ (((a :: bef).filter fun x => !ignorable x).takeWhile fun x => x.wb == .RI).length % 2 = 1) := by
  have h0 : ¬ (a.wb = .CR ∧ b.wb = .LF) := by
    rintro ⟨h, -⟩
    apply ha
    unfold wEnd
    rw [h]; decide
  unfold wEnd at ha hb
  refine ⟨?_, ?_, ?_, ?_, ?_, ?_, ?_, ?_⟩
  · apply Bool.eq_false_iff.mpr
    intro hc
    simp only [wBoundary, if_neg h0, if_neg ha, if_neg hb, hc, if_true, ite_self, Bool.false_eq_true] at h
  all_goals
    intro hc
    simp only [wBoundary, if_neg h0, if_neg ha, if_neg hb, if_pos hc, ite_self, Bool.false_eq_true] at h

theorem wEnd_plain {x : WChar} (h : wEnd x) : ignorable x = false := by
  unfold wEnd at h
  unfold ignorable
  revert h
  cases x.wb <;> decide

theorem starts_end (cs : List WClass) (hc : WClass.Newline ∉ cs ∧ WClass.CR ∉ cs ∧ WClass.LF ∉ cs) {x : WChar} (hx : wEnd x) (l : List WChar) :
    starts cs (strip (x :: l)) = false := by
  have : strip (x :: l) = x :: l := by unfold strip; rw [List.dropWhile_cons, wEnd_plain hx]; rfl
  rw [this]
  exact starts_stop cs hc x hx [] l

theorem starts_mem {cs : List WClass} {l : List WChar} (h : starts cs l = true) : ∃ x l', l = x :: l' ∧ x.wb ∈ cs := by
  cases l with
  | nil => cases h
  | cons x l' => exact ⟨x, l', rfl, of_decide_eq_true h⟩

/-- Double quotes are not followed by ignorable characters, or these do not matter. -/
def PlainQuotes (far : Bool) (l : List WChar) : Prop :=
  far = true ∨ ∀ (i : Nat) x y, l[i]? = some x → l[i + 1]? = some y → x.wb = .DoubleQuote → ignorable y = false

theorem plainQuotes_suffix (far : Bool) (x y : List WChar) (h : PlainQuotes far (x ++ y)) : PlainQuotes far y := by
  rcases h with h | h
  · exact Or.inl h
  · right
    intro i a b h1 h2
    apply h (x.length + i) a b
    · rw [List.getElem?_append_right (by omega), Nat.add_sub_cancel_left]; exact h1
    · rw [Nat.add_assoc, List.getElem?_append_right (by omega), Nat.add_sub_cancel_left]; exact h2

theorem wBefore (far : Bool) (a : WChar) (bef : List WChar) (m : WChar) (mid v : List WChar) (h : wBoundary far ((m :: mid).reverse ++ a :: bef) v = true) :
    wBoundary far (a :: bef) (m :: mid ++ v) = wBoundary far (a :: bef) (m :: mid) := by
  cases v with
  | nil => rw [List.append_nil]
  | cons v1 v =>
    -- `mid` is skipped
    have key : (∀ x ∈ mid, ignorable x = true) → ¬ wEnd m → ignorable m = false →
        ignorable v1 = false ∧
        ¬ (starts AHLetter (strip (a :: bef)) = true ∧ m.wb ∈ .MidLetter :: MidNumLetQ ∧ v1.wb ∈ AHLetter) ∧
        ¬ (starts [.HebrewLetter] (strip (a :: bef)) = true ∧ m.wb = .DoubleQuote ∧ v1.wb = .HebrewLetter) ∧
        ¬ (starts [.Numeric] (strip (a :: bef)) = true ∧ m.wb ∈ .MidNum :: MidNumLetQ ∧ v1.wb = .Numeric) := by
      intro hm hme hmi
      have hs : strip ((m :: mid).reverse ++ a :: bef) = m :: a :: bef := by
        rw [List.reverse_cons, List.append_assoc]
        unfold strip
        rw [List.dropWhile_append_of_pos (fun x hx => hm x (List.mem_reverse.mp hx))]
        show (m :: (a :: bef)).dropWhile _ = _
        rw [List.dropWhile_cons, hmi]; rfl
      obtain ⟨z, l, hz⟩ : ∃ z l, (m :: mid).reverse ++ a :: bef = z :: l := by
        cases hh : (m :: mid).reverse ++ a :: bef with
        | nil => simp at hh
        | cons z l => exact ⟨z, l, rfl⟩
      have hze : ¬ wEnd z := by
        intro hw
        have hzm : z ∈ m :: mid := by
          have : ((m :: mid).reverse ++ a :: bef).head? = some z := by rw [hz]; rfl
          cases hr : (m :: mid).reverse with
          | nil => simp at hr
          | cons y ys =>
            rw [hr] at this
            cases this
            rw [← List.mem_reverse, hr]; exact List.mem_cons_self
        rcases List.mem_cons.mp hzm with rfl | hx
        · exact hme hw
        · have := hm z hx; rw [wEnd_plain hw] at this; cases this
      rw [hz] at h hs
      have tl : strip (strip (z :: l)).tail = strip (a :: bef) := by rw [hs]; rfl
      have st : ∀ cs, starts cs (strip (z :: l)) = decide (m.wb ∈ cs) := by intro cs; rw [hs]; rfl
      by_cases hv : wEnd v1
      · refine ⟨wEnd_plain hv, ?_, ?_, ?_⟩ <;> rintro ⟨-, -, h3⟩ <;> unfold wEnd at hv
        · revert h3 hv; cases v1.wb <;> decide
        · rw [h3] at hv; revert hv; decide
        · rw [h3] at hv; revert hv; decide
      · obtain ⟨k1, k2, k3, k4, k5, k6, k7, k8⟩ := w_cut hze hv h
        rw [tl] at k3 k5 k6
        rw [st] at k3 k5 k6
        refine ⟨k1, ?_, ?_, ?_⟩
        · rintro ⟨h1, h2, h3⟩; exact k3 ⟨h1, decide_eq_true h2, h3⟩
        · rintro ⟨h1, h2, h3⟩; exact k5 ⟨h1, decide_eq_true (by rw [h2]; decide), h3⟩
        · rintro ⟨h1, h2, h3⟩; exact k6 ⟨h1, decide_eq_true h2, h3⟩
    have gen : ∀ (cs ds es : List WClass), (∀ x ∈ ds, x ∉ [WClass.Newline, .CR, .LF] ∧ x ∉ [WClass.Extend, .Format, .ZWJ]) →
        ((∀ x ∈ mid, ignorable x = true) → ¬ wEnd m → ignorable m = false → ignorable v1 = false ∧ ¬ (starts cs (strip (a :: bef)) = true ∧ m.wb ∈ ds ∧ v1.wb ∈ es)) →
        (starts cs (strip (a :: bef)) = true ∧ m.wb ∈ ds ∧ starts es (strip (mid ++ v1 :: v)) = true) =
        (starts cs (strip (a :: bef)) = true ∧ m.wb ∈ ds ∧ starts es (strip mid) = true) := by
      intro cs ds es hd hk
      apply propext
      rcases dropWhile_over ignorable mid (v1 :: v) with ⟨b, l', e1, e2⟩ | ⟨e1, e2, e3⟩
      · unfold strip at *
        rw [e1, e2]; rfl
      · have e2' : strip (mid ++ v1 :: v) = strip (v1 :: v) := e2
        have e3' : strip mid = [] := e3
        rw [e2', e3']
        constructor
        · rintro ⟨h1, h2, h3⟩
          exfalso
          obtain ⟨hv, hk⟩ := hk e1 (hd _ h2).1 (decide_eq_false (hd _ h2).2)
          have : strip (v1 :: v) = v1 :: v := by unfold strip; rw [List.dropWhile_cons, hv]; rfl
          rw [this] at h3
          exact hk ⟨h1, h2, of_decide_eq_true h3⟩
        · rintro ⟨_, _, h3⟩; cases h3
    have g6 := gen AHLetter (.MidLetter :: MidNumLetQ) AHLetter (by decide) (fun h1 h2 h3 => ⟨(key h1 h2 h3).1, (key h1 h2 h3).2.1⟩)
    have g12 := gen [.Numeric] (.MidNum :: MidNumLetQ) [.Numeric] (by decide)
      (fun h1 h2 h3 => ⟨(key h1 h2 h3).1, fun ⟨x, y, z⟩ => (key h1 h2 h3).2.2.2 ⟨x, y, List.mem_singleton.mp z⟩⟩)
    have g7 : (starts [.HebrewLetter] (strip (a :: bef)) = true ∧ m.wb = .DoubleQuote ∧ starts [.HebrewLetter] (if far = true then strip (mid ++ v1 :: v) else mid ++ v1 :: v) = true) =
        (starts [.HebrewLetter] (strip (a :: bef)) = true ∧ m.wb = .DoubleQuote ∧ starts [.HebrewLetter] (if far = true then strip mid else mid) = true) := by
      cases far with
      | true =>
        have := gen [.HebrewLetter] [.DoubleQuote] [.HebrewLetter] (by decide)
          (fun h1 h2 h3 => ⟨(key h1 h2 h3).1, fun ⟨x, y, z⟩ => (key h1 h2 h3).2.2.1 ⟨x, List.mem_singleton.mp y, List.mem_singleton.mp z⟩⟩)
        simp only [List.mem_singleton] at this
        exact this
      | false =>
        simp only [Bool.false_eq_true, if_false]
        cases mid with
        | cons b mid => rfl
        | nil =>
          apply propext
          constructor
          · rintro ⟨h1, h2, h3⟩
            refine absurd ⟨h1, h2, ?_⟩ (key (fun x hx => nomatch hx) ?_ ?_).2.2.1
            · unfold wEnd; rw [h2]; decide
            · unfold ignorable; rw [h2]; decide
            · exact List.mem_singleton.mp (of_decide_eq_true h3)
          · rintro ⟨_, _, h3⟩; cases h3
    simp only [List.cons_append, wBoundary]
    simp only [g6, g12, g7]

theorem wBehind (far : Bool) (a : WChar) (w : List WChar) (p : WChar) (pre post : List WChar)
    (hq : PlainQuotes far ((a :: w).reverse ++ (p :: pre ++ post))) (h : wBoundary far (a :: w) (p :: pre ++ post) = true) :
    wBoundary far ((p :: pre).reverse ++ a :: w) post = wBoundary far (p :: pre).reverse post := by
  obtain ⟨z, l, hz⟩ : ∃ z l, (p :: pre).reverse = z :: l := by
    cases h : (p :: pre).reverse with
    | nil => simp at h
    | cons z l => exact ⟨z, l, rfl⟩
  have hmem : p ∈ z :: l := by rw [← hz, List.mem_reverse]; exact List.mem_cons_self
  rw [hz]
  cases post with
  | nil => rfl
  | cons b rest =>
    rw [List.cons_append] at h
    have hign : ignorable p = true → wEnd a := by
      intro hp
      apply Classical.byContradiction
      intro ha
      have hpe : ¬ wEnd p := fun hw => by rw [wEnd_plain hw] at hp; cases hp
      have := (w_cut ha hpe h).1
      rw [hp] at this; cases this
    -- the character before
    have e1 : ∀ cs, (WClass.Newline ∉ cs ∧ WClass.CR ∉ cs ∧ WClass.LF ∉ cs) → starts cs (strip (z :: l ++ a :: w)) = starts cs (strip (z :: l)) := by
      intro cs hc
      rcases dropWhile_over ignorable (z :: l) (a :: w) with ⟨x, l', h1, h2⟩ | ⟨h1, h2, h3⟩
      · unfold strip; rw [h1, h2]; rfl
      · have h2' : strip (z :: l ++ a :: w) = strip (a :: w) := h2
        have h3' : strip (z :: l) = [] := h3
        rw [h2', h3', starts_end cs hc (hign (h1 p hmem))]; rfl
    have e2 : ∀ cs ds es : List WClass, (WClass.Newline ∉ cs ∧ WClass.CR ∉ cs ∧ WClass.LF ∉ cs) → (WClass.Newline ∉ ds ∧ WClass.CR ∉ ds ∧ WClass.LF ∉ ds) →
        (p.wb ∈ ds → b.wb ∈ es → (∀ x ∈ pre, ignorable x = true) → starts cs (strip (a :: w)) = false) →
        (starts cs (strip (strip (z :: l ++ a :: w)).tail) = true ∧ starts ds (strip (z :: l)) = true ∧ b.wb ∈ es) =
        (starts cs (strip (strip (z :: l)).tail) = true ∧ starts ds (strip (z :: l)) = true ∧ b.wb ∈ es) := by
      intro cs ds es hc hd hk
      apply propext
      rcases dropWhile_over ignorable (z :: l) (a :: w) with ⟨x, l', h1, h2⟩ | ⟨h1, h2, h3⟩
      · have h1' : strip (z :: l) = x :: l' := h1
        have h2' : strip (z :: l ++ a :: w) = x :: l' ++ a :: w := h2
        rw [h1', h2', List.cons_append, List.tail_cons, List.tail_cons]
        rcases dropWhile_over ignorable l' (a :: w) with ⟨y, l'', h3, h4⟩ | ⟨h3, h4, h5⟩
        · unfold strip; rw [h3, h4]; rfl
        · have h4' : strip (l' ++ a :: w) = strip (a :: w) := h4
          have h5' : strip l' = [] := h5
          rw [h4', h5']
          have hf : x.wb ∈ ds → b.wb ∈ es → starts cs (strip (a :: w)) = false := by
            intro hx hb
            -- the skipped characters and the rest
            have ht := List.takeWhile_append_dropWhile (p := ignorable) (l := z :: l)
            rw [h1, ← hz] at ht
            have ht2 := congrArg List.reverse ht
            rw [List.reverse_reverse, List.reverse_append, List.reverse_cons] at ht2
            cases hl : l'.reverse with
            | cons y ys =>
              rw [hl, List.cons_append] at ht2
              injection ht2 with ht3 ht4
              have : y ∈ l' := by rw [← List.mem_reverse, hl]; exact List.mem_cons_self
              have := h3 y this
              rw [ht3] at this
              exact starts_end cs hc (hign this) w
            | nil =>
              rw [hl, List.nil_append] at ht2
              injection ht2 with ht3 ht4
              apply hk (ht3 ▸ hx) hb
              intro y hy
              rw [← ht4] at hy
              have hy := List.mem_reverse.mp hy
              exact List.all_eq_true.mp List.all_takeWhile y hy
          constructor
          · rintro ⟨k1, k2, k3⟩
            rw [hf (of_decide_eq_true k2) k3] at k1
            cases k1
          · rintro ⟨k1, _⟩; cases k1
      · have h3' : strip (z :: l) = [] := h3
        rw [h3']
        constructor <;> rintro ⟨_, k, _⟩ <;> cases k
    have hnext : ∀ es : List WClass, (∀ x ∈ es, x ∉ [WClass.Extend, .Format, .ZWJ]) → b.wb ∈ es → (∀ x ∈ pre, ignorable x = true) →
        starts es (strip (pre ++ b :: rest)) = true := by
      intro es hes hb hp
      unfold strip
      have hbi : ignorable b = false := decide_eq_false (hes _ hb)
      rw [List.dropWhile_append_of_pos hp, List.dropWhile_cons, hbi]
      exact decide_eq_true hb
    have nend : ∀ ds : List WClass, (∀ x ∈ ds, x ∉ [WClass.Newline, .CR, .LF]) → p.wb ∈ ds → ¬ wEnd p := fun ds hd hp => hd _ hp
    have g7 := e2 AHLetter (.MidLetter :: MidNumLetQ) AHLetter (by decide) (by decide) (by
      intro h1 h2 h3
      by_cases ha : wEnd a
      · exact starts_end _ (by decide) ha w
      · apply Bool.eq_false_iff.mpr
        intro hc
        exact (w_cut ha (nend _ (by decide) h1) h).2.1 ⟨hc, h1, hnext _ (by decide) h2 h3⟩)
    have g11 := e2 [.Numeric] (.MidNum :: MidNumLetQ) [.Numeric] (by decide) (by decide) (by
      intro h1 h2 h3
      by_cases ha : wEnd a
      · exact starts_end _ (by decide) ha w
      · apply Bool.eq_false_iff.mpr
        intro hc
        exact (w_cut ha (nend _ (by decide) h1) h).2.2.2.2.2.2.1 ⟨hc, h1, hnext _ (by decide) h2 h3⟩)
    have g7c := e2 [.HebrewLetter] [.DoubleQuote] [.HebrewLetter] (by decide) (by decide) (by
      intro h1 h2 h3
      by_cases ha : wEnd a
      · exact starts_end _ (by decide) ha w
      · apply Bool.eq_false_iff.mpr
        intro hc
        refine (w_cut ha (nend _ (by decide) h1) h).2.2.2.1 ⟨hc, List.mem_singleton.mp h1, ?_⟩
        rcases hq with hq | hq
        · rw [if_pos hq]; exact hnext _ (by decide) h2 h3
        · cases far with
          | true => rw [if_pos rfl]; exact hnext _ (by decide) h2 h3
          | false =>
            cases pre with
            | nil => exact decide_eq_true h2
            | cons y pre =>
              have := hq (a :: w).reverse.length p y (by rw [List.getElem?_append_right (by omega), Nat.sub_self]; rfl)
                (by rw [List.getElem?_append_right (by omega), Nat.add_sub_cancel_left]; rfl) (List.mem_singleton.mp h1)
              rw [h3 y List.mem_cons_self] at this
              cases this)
    have gri : (((z :: (l ++ a :: w)).filter fun x => !ignorable x).takeWhile fun x => x.wb == .RI).length % 2 =
        (((z :: l).filter fun x => !ignorable x).takeWhile fun x => x.wb == .RI).length % 2 := by
      rw [← List.cons_append, List.filter_append]
      rcases takeWhile_over (fun x : WChar => x.wb == .RI) ((z :: l).filter fun x => !ignorable x) ((a :: w).filter fun x => !ignorable x) with hh | hh
      · rw [hh]
      · have hev : ((((a :: w).filter fun x => !ignorable x).takeWhile fun x => x.wb == .RI).length) % 2 = 0 := by
          by_cases ha : wEnd a
          · have h1 : (a.wb == WClass.RI) = false := by
              unfold wEnd at ha
              revert ha; cases a.wb <;> decide
            rw [List.filter_cons, wEnd_plain ha]
            simp only [Bool.not_false, if_true, List.takeWhile_cons, h1, Bool.false_eq_true, if_false, List.length_nil]
          · cases hi : ignorable p with
            | true => exact absurd (hign hi) ha
            | false =>
              have hp : p.wb = .RI := eq_of_beq (hh p (List.mem_filter.mpr ⟨hmem, by rw [hi]; rfl⟩))
              have hpe : ¬ wEnd p := by unfold wEnd; rw [hp]; decide
              have := (w_cut ha hpe h).2.2.2.2.2.2.2
              apply Classical.byContradiction
              intro hn
              exact this ⟨hp, by omega⟩
        have e := takeWhile_all (fun x : WChar => x.wb == .RI) _ [] hh
        rw [List.append_nil, List.takeWhile_nil, List.append_nil] at e
        rw [takeWhile_all _ _ _ hh, List.length_append, e]
        omega
    simp only [List.mem_singleton] at g7c g11
    simp only [List.cons_append] at e1 g7 g7c g11 ⊢
    simp only [wBoundary]
    rw [gri]
    simp only [e1 _ (by decide : WClass.Newline ∉ AHLetter ∧ WClass.CR ∉ AHLetter ∧ WClass.LF ∉ AHLetter),
      e1 [.HebrewLetter] (by decide), e1 [.DoubleQuote] (by decide), e1 [.Numeric] (by decide), e1 [.Katakana] (by decide), e1 [.ExtendNumLet] (by decide),
      e1 [.ALetter, .HebrewLetter, .Numeric, .Katakana, .ExtendNumLet] (by decide), e1 (.MidLetter :: MidNumLetQ) (by decide), e1 (.MidNum :: MidNumLetQ) (by decide),
      g7, g7c, g11]

theorem wTwoSided (far : Bool) : TwoSided (wBoundary far) (PlainQuotes far) where
  last _ _ := rfl
  before a bef m mid v _ h := wBefore far a bef m mid v h
  behind a u p pre post hq h := wBehind far a u p pre post hq h

end Uax
