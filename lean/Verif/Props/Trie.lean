/-
C66: the hash trie of package bidi/trie is a dictionary of the words stored in
it.
-/
import Verif.TrieWords

namespace Uax
open Uax.Bidi

/-! ### Specification -/

/-- AllocPositionForWord for one word after the other: the positions it
returned, and the trie. -/
def storeAll : Trie → List (List Nat) → Option (List Nat × Trie)
  | t, [] => some ([], t)
  | t, w :: ws => do
    let (p, t) ← t.alloc w
    let (ps, t) ← storeAll t ws
    pure (p :: ps, t)

/-- The answer of the last call of Next, for one letter after the other. -/
def findFrom : Iter → Nat → List Nat → Option Nat
  | _, p, [] => some p
  | it, _, c :: w => do
    let (p, it) ← it.next c
    findFrom it p w

/-- The answer of the last call of Next on a fresh iterator. -/
def find (t : Trie) (w : List Nat) : Option Nat := findFrom t.iterator 0 w

/-- A size and a number of categories that leave room for families: size is a
uint8, and NewTinyHashTrie keeps a margin for the categories and one more at
either end of the table. -/
def Fits (size catcnt : Nat) : Prop := 2 * (catcnt + 1) < size ∧ size ≤ 255

/-- The words of a trie of `catcnt` categories -/
def Word (catcnt : Nat) (w : List Nat) : Prop := w ≠ [] ∧ ∀ c ∈ w, c < catcnt

/-- The trie that holds exactly the given words, ready for lookup; the
positions are what AllocPositionForWord returned. -/
def Holds (size catcnt : Nat) (ws : List (List Nat)) (ps : List Nat) (t : Trie) : Prop :=
  Fits size catcnt ∧ (∀ w ∈ ws, Word catcnt w) ∧
    ∃ t0 t1, Trie.new size catcnt = some t0 ∧ storeAll t0 ws = some (ps, t1) ∧ t = t1.freeze

/-- A trie with words stored in it, and the positions -/
def stored (size catcnt : Nat) (ws : List (List Nat)) : Option (List Nat × Trie) := do
  let t ← Trie.new size catcnt
  storeAll t ws

/-- A test of a trie with words stored in it -/
def tested (size catcnt : Nat) (ws : List (List Nat)) (test : List Nat → Trie → Bool) : Bool :=
  match stored size catcnt ws with
  | some (ps, t) => test ps t
  | none => false

theorem tested_some {size catcnt : Nat} {ws : List (List Nat)} {test : List Nat → Trie → Bool}
    (h : tested size catcnt ws test = true) : ∃ ps t, stored size catcnt ws = some (ps, t) ∧ test ps t = true := by
  unfold tested at h
  split at h
  · rename_i ps t e
    exact ⟨ps, t, e, h⟩
  · cases h

theorem stored_holds {size catcnt : Nat} {ws : List (List Nat)} {ps : List Nat} {t : Trie}
    (h : stored size catcnt ws = some (ps, t)) (hf : Fits size catcnt) (hw : ∀ w ∈ ws, Word catcnt w) :
    Holds size catcnt ws ps t.freeze := by
  unfold stored at h
  simp only [bind, Option.bind_eq_some_iff] at h
  obtain ⟨t0, h1, h2⟩ := h
  exact ⟨hf, hw, t0, t, h1, h2, rfl⟩

/-- A dictionary of four words, two of them with a common prefix -/
def someWords : List (List Nat) := [[1, 1], [2, 1], [1, 2], [1, 2, 0]]

/-- They fit into a trie of 28 categories and 103 slots, as that of the bidi
package. -/
example : ∃ ps t, Holds 103 28 someWords ps t ∧ ps = [51, 53, 56, 97] := by
  obtain ⟨ps, t, h1, h2⟩ := tested_some (show tested 103 28 someWords (fun ps _ => ps == [51, 53, 56, 97]) = true by
    decide +kernel)
  exact ⟨ps, t.freeze, stored_holds h1 (by unfold Fits; omega) (by unfold Word someWords; decide), by simpa using h2⟩

/-! ### Proofs -/

theorem word_letters {catcnt K : Nat} {t : Trie} (hk : t.catcnt = K) (hc : K = catcnt + 1) {w : List Nat}
    (hw : ∀ c ∈ w, c < catcnt) : Letters K (w.map t.correct) := by
  intro x hx
  obtain ⟨c, h1, rfl⟩ := List.mem_map.mp hx
  have := hw c h1
  unfold Trie.correct
  split <;> omega

theorem correct_inj {catcnt : Nat} {t : Trie} (hc : t.catcnt = catcnt + 1) : ∀ {v w : List Nat},
    (∀ c ∈ v, c < catcnt) → (∀ c ∈ w, c < catcnt) → (v.map t.correct <+: w.map t.correct ↔ v <+: w)
  | [], _, _, _ => by simp
  | a :: v, [], _, _ => by simp
  | a :: v, b :: w, hv, hw => by
    rw [List.map_cons, List.map_cons, List.cons_prefix_cons, List.cons_prefix_cons]
    have ih := correct_inj hc (v := v) (w := w) (fun c h => hv c (List.mem_cons_of_mem _ h))
      (fun c h => hw c (List.mem_cons_of_mem _ h))
    rw [ih]
    have h1 := hv a List.mem_cons_self
    have h2 := hw b List.mem_cons_self
    have : t.correct a = t.correct b ↔ a = b := by
      unfold Trie.correct
      constructor
      · intro h
        split at h <;> split at h <;> omega
      · rintro rfl; rfl
    rw [this]

theorem storeAll_good {catcnt : Nat} : ∀ {ws : List (List Nat)} {t t' : Trie} {ps : List Nat}, Good t →
    t.catcnt = catcnt + 1 → (∀ w ∈ ws, Word catcnt w) → storeAll t ws = some (ps, t') →
    Good t' ∧ t'.catcnt = t.catcnt ∧ t'.size = t.size ∧
      (∀ v, Letters t.catcnt v → (t'.slot v ≠ 0 ↔ t.slot v ≠ 0 ∨ v ≠ [] ∧ ∃ w ∈ ws, v.reverse <+: w.map t.correct)) ∧
      (∀ w, ws.getLast? = some w → ps.getLast? = some (t'.slot (w.map t.correct).reverse))
  | [], t, t', ps, hg, hc, _, h => by
    rw [storeAll] at h
    cases h
    exact ⟨hg, rfl, rfl, fun v _ => by simp, fun w hw => by simp at hw⟩
  | w :: ws, t, t', ps, hg, hc, hw, h => by
    rw [storeAll] at h
    simp only [bind, Option.bind_eq_some_iff] at h
    obtain ⟨⟨p, t1⟩, ha, ⟨qs, t2⟩, hs, h⟩ := h
    cases h
    have hl := word_letters (t := t) rfl hc (hw w List.mem_cons_self).2
    obtain ⟨g1, g2, g3, g4, g5, g6⟩ := alloc_words hg hl ha
    have ec : t1.correct = t.correct := by funext x; unfold Trie.correct; rw [g2]
    obtain ⟨k1, k2, k3, k4, k5⟩ := storeAll_good g1 (by rw [g2, hc]) (fun v h => hw v (List.mem_cons_of_mem _ h)) hs
    rw [ec] at k4 k5
    rw [g2] at k4
    refine ⟨k1, by rw [k2, g2], by rw [k3, g3], ?_, ?_⟩
    · intro v hv
      rw [k4 v hv, g6 v hv]
      constructor
      · rintro ((h | h) | ⟨h0, x, h1, h2⟩)
        · exact Or.inl h
        · exact Or.inr ⟨h.1, w, List.mem_cons_self, h.2⟩
        · exact Or.inr ⟨h0, x, List.mem_cons_of_mem _ h1, h2⟩
      · rintro (h | ⟨h0, x, h1, h2⟩)
        · exact Or.inl (Or.inl h)
        · rcases List.mem_cons.mp h1 with rfl | h1
          · exact Or.inl (Or.inr ⟨h0, h2⟩)
          · exact Or.inr ⟨h0, x, h1, h2⟩
    · intro v hv
      cases ws with
      | nil =>
        rw [storeAll] at hs
        cases hs
        simp only [List.getLast?_singleton, Option.some.injEq] at hv ⊢
        subst hv
        exact g5.symm
      | cons x ws =>
        rw [List.getLast?_cons_cons] at hv
        have := k5 v hv
        cases qs with
        | nil => simp at this
        | cons y qs => rw [List.getLast?_cons_cons]; exact this

/-- The iterator walks from slot to slot. -/
theorem findFrom_slot {t : Trie} (hg : Good t) : ∀ {w u : List Nat} {it : Iter}, Letters t.catcnt u → u ≠ [] →
    Letters t.catcnt (w.map t.correct) → it.trie = t.freeze → it.started = true → it.position = t.slot u →
    (it.ended = true → t.slot u = 0) →
    findFrom it (t.slot u) w = some (t.slot ((w.map t.correct).reverse ++ u))
  | [], u, it, _, _, _, _, _, _, _ => by rw [findFrom]; simp
  | c :: w, u, it, hu, h0, hw, h1, h2, h3, h4 => by
    rw [findFrom]
    rw [List.map_cons] at hw ⊢
    have hc := hw _ List.mem_cons_self
    have hw' : Letters t.catcnt (w.map t.correct) := fun x hx => hw x (List.mem_cons_of_mem _ hx)
    have ec : t.freeze.correct c = t.correct c := rfl
    have hu' : Letters t.catcnt (t.correct c :: u) := hu.cons hc
    rw [List.reverse_cons, List.append_assoc]
    by_cases he : it.ended = true
    · have z : t.slot (t.correct c :: u) = 0 := by
        cases u with
        | nil => exact absurd rfl h0
        | cons d u =>
          show childOf _ _ (t.slot (d :: u)) _ = 0
          rw [h4 he]
          exact childOf_zero hg.inv _
      have hn : it.next c = some (t.slot (t.correct c :: u), it) := by
        unfold Iter.next
        rw [if_pos he, z]; rfl
      rw [hn]
      show findFrom it _ w = _
      exact findFrom_slot hg hu' (by simp) hw' h1 h2 (by rw [h3, z, h4 he]) (fun _ => z)
    · have hn : it.next c = some (t.slot (t.correct c :: u),
          { it with position := t.slot (t.correct c :: u), ended := t.slot (t.correct c :: u) = 0 }) := by
        unfold Iter.next
        rw [if_neg he, if_neg (by rw [h2]; simp), h1, h3, ec, advance_freeze hg hu h0 hc]
        show some (_, { it with trie := _, position := _, ended := _ }) = _
        rw [← h1]
      rw [hn]
      show findFrom _ _ w = _
      refine findFrom_slot hg hu' (by simp) hw' h1 h2 rfl ?_
      intro h
      exact of_decide_eq_true h

theorem find_slot {t : Trie} {catcnt : Nat} (hg : Good t) (hc : t.catcnt = catcnt + 1) {w : List Nat} (hw : Word catcnt w) :
    find t.freeze w = some (t.slot (w.map t.correct).reverse) := by
  obtain ⟨h0, hw⟩ := hw
  have hl := word_letters (t := t) rfl hc hw
  cases w with
  | nil => exact absurd rfl h0
  | cons c w =>
    rw [List.map_cons] at hl ⊢
    have hcc := hl _ List.mem_cons_self
    have hw' : Letters t.catcnt (w.map t.correct) := fun x hx => hl x (List.mem_cons_of_mem _ hx)
    have h1 : Letters t.catcnt [t.correct c] := Letters.cons hcc (fun _ hx => absurd hx List.not_mem_nil)
    have r := hg.inv.root (t.correct c) hcc.1 (by omega)
    have hn : t.freeze.iterator.next c = some (t.slot [t.correct c],
        { t.freeze.iterator with position := t.slot [t.correct c], started := true }) := by
      have : t.ch[t.correct c]? = some (t.correct c) := by
        have hlt : t.correct c < t.ch.length := by
          rw [hg.lenC]; have := hg.inv.big; omega
        unfold fn at r
        rw [List.getElem?_eq_getElem hlt] at r ⊢
        exact congrArg some r
      unfold Iter.next
      show (t.ch[t.correct c]?).bind _ = _
      rw [this]; rfl
    unfold find
    rw [findFrom, hn]
    show findFrom _ _ w = _
    rw [List.reverse_cons]
    refine findFrom_slot hg h1 (by simp) hw' rfl rfl rfl ?_
    intro h
    cases h

theorem holds_good {size catcnt : Nat} {ws : List (List Nat)} {ps : List Nat} {t : Trie}
    (h : Holds size catcnt ws ps t) : ∃ t1, t = t1.freeze ∧ Good t1 ∧ t1.catcnt = catcnt + 1 ∧
      (∀ v, Word catcnt v → (t1.slot (v.map t1.correct).reverse ≠ 0 ↔ v.length = 1 ∨ ∃ w ∈ ws, v <+: w)) ∧
      (∀ w, ws.getLast? = some w → ps.getLast? = some (t1.slot (w.map t1.correct).reverse)) := by
  obtain ⟨hf, hw, t0, t1, hn, hs, rfl⟩ := h
  obtain ⟨g0, c0, -, w0⟩ := new_good hn hf.1 hf.2
  obtain ⟨g1, c1, -, w1, l1⟩ := storeAll_good g0 c0 hw hs
  have ec : t1.correct = t0.correct := by funext x; unfold Trie.correct; rw [c1]
  refine ⟨t1, rfl, g1, by rw [c1, c0], ?_, by rw [ec]; exact l1⟩
  intro v hv
  have hl := word_letters (t := t0) rfl c0 hv.2
  have hl' : Letters t0.catcnt (v.map t0.correct).reverse := fun x hx => hl x (List.mem_reverse.mp hx)
  rw [ec, w1 _ hl', w0 _ hl']
  rw [List.length_reverse, List.length_map, List.reverse_reverse]
  refine or_congr Iff.rfl ⟨?_, ?_⟩
  · rintro ⟨-, w, h1, h2⟩
    exact ⟨w, h1, (correct_inj c0 hv.2 (hw w h1).2).mp h2⟩
  · rintro ⟨w, h1, h2⟩
    refine ⟨by simpa using hv.1, w, h1, (correct_inj c0 hv.2 (hw w h1).2).mpr h2⟩

/-! ### Theorems -/

/-- C66. Whatever words have been stored in whatever order: a word of two or
more letters is found, that is Next answers with a position, exactly if it is
the beginning of a stored word. (Words of one letter are always found, see
below.) -/
theorem C66_found_partial {size catcnt : Nat} {ws : List (List Nat)} {ps : List Nat} {t : Trie}
    (h : Holds size catcnt ws ps t) (w : List Nat) (hw : Word catcnt w) (h2 : 2 ≤ w.length) :
    ∃ p, find t w = some p ∧ (p ≠ 0 ↔ ∃ v ∈ ws, w <+: v) := by
  obtain ⟨t1, rfl, g, c, f, -⟩ := holds_good h
  refine ⟨_, find_slot g c hw, ?_⟩
  rw [f w hw]
  constructor
  · rintro (h | h)
    · omega
    · exact h
  · exact Or.inr

example : tested 103 28 someWords (fun _ t => find t.freeze [1, 2] == some 56 && find t.freeze [2, 1] == some 53 &&
    find t.freeze [2, 2] == some 0 && find t.freeze [1, 2, 0] == some 97 && find t.freeze [1, 2, 0, 5] == some 0) = true := by
  decide +kernel

/-- C66. Different words are found at different positions. -/
theorem C66_distinct {size catcnt : Nat} {ws : List (List Nat)} {ps : List Nat} {t : Trie}
    (h : Holds size catcnt ws ps t) (v w : List Nat) (hv : Word catcnt v) (hw : Word catcnt w) (p : Nat) (h0 : p ≠ 0)
    (fv : find t v = some p) (fw : find t w = some p) : v = w := by
  obtain ⟨t1, rfl, g, c, -, -⟩ := holds_good h
  rw [find_slot g c hv] at fv
  rw [find_slot g c hw] at fw
  cases fv
  have e : t1.slot (v.map t1.correct).reverse = t1.slot (w.map t1.correct).reverse := (Option.some.inj fw).symm
  have lv := word_letters (t := t1) rfl c hv.2
  have lw := word_letters (t := t1) rfl c hw.2
  have := slot_inj g.inv (u := (v.map t1.correct).reverse) (v := (w.map t1.correct).reverse)
    (fun x hx => lv x (List.mem_reverse.mp hx)) (fun x hx => lw x (List.mem_reverse.mp hx)) h0 e
  have e2 := List.reverse_inj.mp this
  have a := (correct_inj c hv.2 hw.2).mp (by rw [e2]; exact List.prefix_rfl)
  have b := (correct_inj c hw.2 hv.2).mp (by rw [e2]; exact List.prefix_rfl)
  exact a.eq_of_length (Nat.le_antisymm a.length_le b.length_le)

/-- C66. The word stored last is found at the position that
AllocPositionForWord returned for it. (Words stored before may have moved, see
below.) -/
theorem C66_position_partial {size catcnt : Nat} {ws : List (List Nat)} {ps : List Nat} {t : Trie}
    (h : Holds size catcnt ws ps t) (w : List Nat) (hw : ws.getLast? = some w) :
    ∃ p, p ≠ 0 ∧ ps.getLast? = some p ∧ find t w = some p := by
  have hm : w ∈ ws := List.mem_of_getLast? hw
  have hW := h.2.1 w hm
  obtain ⟨t1, rfl, g, c, f, l⟩ := holds_good h
  exact ⟨_, (f w hW).mpr (Or.inr ⟨w, hm, List.prefix_rfl⟩), l w hw, find_slot g c hW⟩

/-- C66. On a frozen trie AllocPositionForWord is a lookup: it answers what an
iterator answers, and does not change the trie. -/
theorem C66_frozen {size catcnt : Nat} {ws : List (List Nat)} {ps : List Nat} {t : Trie}
    (h : Holds size catcnt ws ps t) (w : List Nat) (hw : Word catcnt w) :
    ∃ p, find t w = some p ∧ t.alloc w = some (p, t) := by
  obtain ⟨t1, rfl, g, c, -, -⟩ := holds_good h
  refine ⟨_, find_slot g c hw, ?_⟩
  have hl := word_letters (t := t1) rfl c hw.2
  have loop : ∀ (w u : List Nat) (n : Nat), Letters t1.catcnt u → u ≠ [] → Letters t1.catcnt (w.map t1.correct) →
      t1.freeze.allocLoop (t1.slot u) n w = some (t1.slot ((w.map t1.correct).reverse ++ u), t1.freeze) := by
    intro w
    induction w with
    | nil => intro u n _ _ _; rw [Trie.allocLoop]; simp
    | cons b w ih =>
      intro u n hu h0 hw
      rw [List.map_cons] at hw ⊢
      have hc := hw _ List.mem_cons_self
      rw [Trie.allocLoop]
      show (t1.freeze.advance (t1.slot u) (t1.correct b) n).bind _ = _
      rw [advance_freeze g hu h0 hc, Option.bind_some, List.reverse_cons, List.append_assoc]
      exact ih _ _ (hu.cons hc) (by simp) (fun x hx => hw x (List.mem_cons_of_mem _ hx))
  cases w with
  | nil => exact absurd rfl hw.1
  | cons b w =>
    rw [List.map_cons] at hl ⊢
    have hc := hl _ List.mem_cons_self
    rw [Trie.alloc, List.reverse_cons]
    exact loop w [t1.correct b] 1 (Letters.cons hc (fun _ hx => absurd hx List.not_mem_nil)) (by simp)
      (fun x hx => hl x (List.mem_cons_of_mem _ hx))

example : tested 103 28 someWords (fun _ t => t.freeze.alloc [1, 2] == some (56, t.freeze) &&
    t.freeze.alloc [3, 2] == some (0, t.freeze)) = true := by
  decide +kernel

/-- C66, violated: a word is not found at the position that
AllocPositionForWord returned for it, if a later word made its family move. The
caller, which has filed something under that position, does not learn of it. -/
theorem C66_position_violated : ∃ ps t, Holds 103 28 [[1, 1], [2, 1], [1, 2]] ps t ∧ ps = [51, 53, 56] ∧
    find t [1, 1] = some 55 := by
  obtain ⟨ps, t, h1, h2⟩ := tested_some (show tested 103 28 [[1, 1], [2, 1], [1, 2]]
    (fun ps t => decide (ps = [51, 53, 56] ∧ find t.freeze [1, 1] = some 55)) = true by decide +kernel)
  exact ⟨ps, t.freeze, stored_holds h1 (by unfold Fits; omega) (by unfold Word; decide), of_decide_eq_true h2⟩

/-- C66, violated: every word of one letter is found, whether or not a stored
word begins with it. -/
theorem C66_one_letter_violated {size catcnt : Nat} {ws : List (List Nat)} {ps : List Nat} {t : Trie}
    (h : Holds size catcnt ws ps t) (c : Nat) (hc : c < catcnt) : ∃ p, p ≠ 0 ∧ find t [c] = some p := by
  have hW : Word catcnt [c] := ⟨by simp, by simpa using hc⟩
  obtain ⟨t1, rfl, g, k, f, -⟩ := holds_good h
  exact ⟨_, (f _ hW).mpr (Or.inl rfl), find_slot g k hW⟩

example : tested 103 28 [] (fun _ t => find t.freeze [7] == some 7) = true := by decide +kernel

/-- C66, violated: on a trie that is not frozen, Next stores what it is asked
for and finds it. -/
theorem C66_thawed_violated : ∃ t, stored 103 28 [] = some ([], t) ∧ find t [3, 4] = some 54 := by
  obtain ⟨ps, t, h1, h2⟩ := tested_some (show tested 103 28 []
    (fun ps t => decide (ps = [] ∧ find t [3, 4] = some 54)) = true by decide +kernel)
  obtain ⟨rfl, h3⟩ := of_decide_eq_true h2
  exact ⟨t, h1, h3⟩

/-- C66, violated: the category whose number is the number of categories is
taken for category 0. -/
theorem C66_alias_violated : ∃ t, stored 103 28 [[1, 0]] = some ([78], t) ∧ find t.freeze [1, 28] = some 78 := by
  obtain ⟨ps, t, h1, h2⟩ := tested_some (show tested 103 28 [[1, 0]]
    (fun ps t => decide (ps = [78] ∧ find t.freeze [1, 28] = some 78)) = true by decide +kernel)
  obtain ⟨rfl, h3⟩ := of_decide_eq_true h2
  exact ⟨t, h1, h3⟩

/-- C66, violated: AllocPositionForWord panics for the fiftieth word of two
letters in a table of 255 slots, of which more than half are free. -/
theorem C66_full_violated : (stored 255 50 ((List.range 49).map fun i => [i, 49])).isSome = true ∧
    (Trie.new 255 50).isSome = true ∧ stored 255 50 ((List.range 50).map fun i => [i, 49]) = none := by
  decide +kernel

/-- C66, violated: an empty word panics. -/
theorem C66_empty_violated (t : Trie) : t.alloc [] = none := rfl

end Uax
