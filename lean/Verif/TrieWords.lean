/-
The operations of the packed hash trie of /repo/bidi/trie/hashtrie.go on its
tables keep the invariant of `Verif.TrieInv`; what an allocation adds to the
set of prefixes, and what a lookup finds.
-/
import Verif.TrieInv

namespace Uax.Bidi

/-- The invariant of a trie that is not yet frozen -/
structure Good (t : Trie) : Prop where
  thawed : t.frozen = false
  code : t.headercode = t.catcnt + 1
  spanEq : t.span = t.size - 2 * t.catcnt
  lenL : t.link.length = t.size
  lenS : t.sibling.length = t.size
  lenC : t.ch.length = t.size
  inv : Inv t.catcnt t.size (fn t.link) (fn t.sibling) (fn t.ch)

/-- The slot of a prefix (backwards) in a trie -/
def Trie.slot (t : Trie) (u : List Nat) : Nat := slotOf (fn t.link) (fn t.ch) u

theorem nominal_range {t : Trie} (hg : Good t) {n h : Nat} (hn : t.nominal n = some h) :
    t.catcnt < h ∧ h ≤ t.size - t.catcnt := by
  unfold Trie.nominal at hn
  dsimp only at hn
  have hb := hg.inv.big
  have hs := hg.inv.small
  have hx : n % 256 * t.alpha % 256 % t.span < t.span := Nat.mod_lt _ (by rw [hg.spanEq]; omega)
  rw [hg.spanEq] at hx
  generalize hy : n % 256 * t.alpha % 256 % t.span = x at hn
  rw [hg.spanEq] at hy
  rw [hy] at hx
  split at hn
  · cases hn
  · cases hn
    omega

theorem findHome_some {t : Trie} (hg : Good t) {c : Nat} (hc : 1 ≤ c ∧ c < t.catcnt) : ∀ {k h g : Nat},
    t.catcnt < h ∧ h ≤ t.size - t.catcnt → t.findHome c k h = some g →
    (t.catcnt < g ∧ g ≤ t.size - t.catcnt) ∧ fn t.ch g = 0 ∧ fn t.ch (g + c) = 0
  | 0, _, _, _, hf => by rw [Trie.findHome] at hf; cases hf
  | k + 1, h, g, hr, hf => by
    have hb := hg.inv.big
    have hs := hg.inv.small
    rw [Trie.findHome] at hf
    simp only [bind, Option.bind_eq_some_iff] at hf
    obtain ⟨a, ha, b, hb', hf⟩ := hf
    have hr' : t.catcnt < t.nextTrial h ∧ t.nextTrial h ≤ t.size - t.catcnt := by
      unfold Trie.nextTrial
      split <;> omega
    split at hf
    · rename_i hab
      cases hf
      refine ⟨hr', ?_, ?_⟩
      · rw [(get_some ha).2]; exact hab.1
      · have := (get_some hb').2
        rw [Nat.mod_eq_of_lt (by omega)] at this
        rw [this]; exact hab.2
    · exact findHome_some hg hc hr' hf

theorem findElder_some {t : Trie} {q : Nat} {D : List Nat} (hD : ∀ x ∈ D, fn t.sibling x ∈ D) : ∀ {k h e : Nat},
    h ∈ D → t.findElder q k h = some e → e ∈ D
  | 0, _, _, _, hf => by rw [Trie.findElder] at hf; cases hf
  | k + 1, h, e, hr, hf => by
    rw [Trie.findElder] at hf
    simp only [bind, Option.bind_eq_some_iff] at hf
    obtain ⟨s, hs, hf⟩ := hf
    split at hf
    · refine findElder_some hD ?_ hf
      rw [← (get_some hs).2]; exact hD h hr
    · cases hf; exact hr

/-- The next one of a ring is in the ring. -/
theorem seg_next {S : Nat → Nat} {y : Nat} : ∀ {l : List Nat} {a b : Nat}, Seg S a l b → (y = a ∨ y ∈ l) →
    S y ∈ l ∨ S y = b
  | [], a, b, hs, hy => by
    rw [Seg] at hs
    rcases hy with rfl | hy
    · exact Or.inr hs
    · cases hy
  | w :: l, a, b, hs, hy => by
    rw [Seg] at hs
    by_cases ya : y = a
    · subst ya; left; rw [hs.1]; exact List.mem_cons_self
    · have : y = w ∨ y ∈ l := by
        rcases hy with h | h
        · exact absurd h ya
        · exact List.mem_cons.mp h
      rcases seg_next hs.2 this with h | h
      · exact Or.inl (List.mem_cons_of_mem _ h)
      · exact Or.inr h

/-- The family behind the link of a node -/
theorem Inv.family {K N : Nat} {L S C : Nat → Nat} (hi : Inv K N L S C) {h : Nat} (hk : K < h) (hc : C h = K + 1) :
    ∃ m, Seg S h m h ∧ (h :: m).Nodup ∧ Family K C h (h :: m) ∧ ∀ x ∈ h :: m, S x ∈ h :: m := by
  obtain ⟨m, m1, m2, m3⟩ := hi.ring h hk hc
  refine ⟨m, m1, List.nodup_cons.mpr ⟨?_, m2⟩, ?_, ?_⟩
  · intro h
    have := ((m3 _).mp h).2.1
    omega
  · intro x; rw [List.mem_cons, m3 x]
  · intro x hx
    rcases seg_next m1 (List.mem_cons.mp hx) with h | h
    · exact List.mem_cons_of_mem _ h
    · rw [h]; exact List.mem_cons_self

/-- What one step of an allocation does. -/
structure Step (t t' : Trie) (u : List Nat) (c q : Nat) : Prop where
  good : Good t'
  cat : t'.catcnt = t.catcnt
  size : t'.size = t.size
  ne : q ≠ 0
  here : t'.slot (c :: u) = q
  words : ∀ v, Letters t.catcnt v → (t'.slot v ≠ 0 ↔ t.slot v ≠ 0 ∨ v = c :: u)

theorem insertFirst_step {t t' : Trie} (hg : Good t) {u : List Nat} {p c n q : Nat} (hu : Letters t.catcnt u)
    (hp : t.slot u = p) (h0 : p ≠ 0) (hc : 1 ≤ c ∧ c < t.catcnt) (hl : fn t.link p = 0)
    (h : t.insertFirst p c n = some (q, t')) : Step t t' u c q := by
  unfold Trie.insertFirst at h
  simp only [bind, Option.bind_eq_some_iff] at h
  obtain ⟨g, hn, g', hf, l1, p1, l2, p2, c1, p3, c2, p4, s1, p5, s2, p6, l3, p7, he⟩ := h
  obtain ⟨hr, e1, e2⟩ := findHome_some hg hc (nominal_range hg hn) hf
  have hs := hg.inv.small
  have hm : (g' + c) % 256 = g' + c := Nat.mod_eq_of_lt (by omega)
  rw [hm] at p4 p5 p6 p7 he
  obtain ⟨-, a1, b1⟩ := put_some p1
  obtain ⟨-, a2, b2⟩ := put_some p2
  obtain ⟨-, a3, b3⟩ := put_some p3
  obtain ⟨-, a4, b4⟩ := put_some p4
  obtain ⟨-, a5, b5⟩ := put_some p5
  obtain ⟨-, a6, b6⟩ := put_some p6
  obtain ⟨-, a7, b7⟩ := put_some p7
  cases he
  have hpn : Node t.catcnt (fn t.ch) p := by rw [← hp]; exact slot_node hg.inv hu (by rw [Trie.slot] at hp; rw [hp]; exact h0)
  have iv := first_inv hg.inv hpn hl hr hc e1 e2
  have ⟨ch1, ch2⟩ := first_child hg.inv hpn hl hr hc e1 e2
  rw [← hg.code, ← b3, ← b4, ← b5, ← b6, ← b1, ← b2, ← b7] at iv
  rw [← hg.code, ← b3, ← b4, ← b1, ← b2, ← b7] at ch1 ch2
  have hold : childOf (fn t.link) (fn t.ch) p c = 0 := by unfold childOf; rw [if_pos hl]
  have sl := slot_insert hg.inv hu hp h0 hold iv.linkZero ch1 ch2
  refine ⟨⟨hg.thawed, hg.code, hg.spanEq, ?_, ?_, ?_, iv⟩, rfl, rfl, by omega, ?_, ?_⟩
  · show l3.length = t.size
    rw [a7, a2, a1, hg.lenL]
  · show s2.length = t.size
    rw [a6, a5, hg.lenS]
  · show c2.length = t.size
    rw [a4, a3, hg.lenC]
  · have hcu : Letters t.catcnt (c :: u) := by
      intro x hx
      rcases List.mem_cons.mp hx with rfl | hx
      · exact hc
      · exact hu x hx
    show slotOf (fn l3) (fn c2) (c :: u) = _
    rw [sl _ hcu, if_pos rfl]
  · intro v hv
    show slotOf (fn l3) (fn c2) v ≠ 0 ↔ slotOf (fn t.link) (fn t.ch) v ≠ 0 ∨ _
    rw [sl v hv]
    by_cases e : v = c :: u
    · rw [if_pos e]
      exact ⟨fun _ => Or.inr e, fun _ => by omega⟩
    · rw [if_neg e]
      exact ⟨Or.inl, fun h => h.resolve_right e⟩

theorem insertChild_step {t t' : Trie} (hg : Good t) {u : List Nat} {p c q : Nat} (hu : Letters t.catcnt u)
    (hp : t.slot u = p) (h0 : p ≠ 0) (hc : 1 ≤ c ∧ c < t.catcnt) (hl : fn t.link p ≠ 0)
    (hq : fn t.ch (fn t.link p + c) = 0)
    (h : t.insertChild p (fn t.link p + c) c = some (q, t')) : Step t t' u c q := by
  have hpn : Node t.catcnt (fn t.ch) p := by rw [← hp]; exact slot_node hg.inv hu (by rw [Trie.slot] at hp; rw [hp]; exact h0)
  obtain ⟨k1, k2, k3⟩ := hg.inv.linkHead hpn hl
  obtain ⟨m, m1, m2, m3, m4⟩ := hg.inv.family k1 k2
  unfold Trie.insertChild at h
  simp only [bind, Option.bind_eq_some_iff] at h
  obtain ⟨hd, hn, e, hf, s, hs, s1, p1, s2, p2, c1, p3, l1, p4, he⟩ := h
  have e1 := (get_some hn).2
  subst e1
  have hes := findElder_some m4 List.mem_cons_self hf
  obtain ⟨-, a1, b1⟩ := put_some p1
  obtain ⟨-, a2, b2⟩ := put_some p2
  obtain ⟨-, a3, b3⟩ := put_some p3
  obtain ⟨-, a4, b4⟩ := put_some p4
  cases he
  have iv := child_inv hg.inv hpn hl hc hq ((m3 e).mp hes)
  have ⟨ch1, ch2⟩ := child_child hg.inv hpn hl hc hq
  rw [(get_some hs).2, ← b1, ← b2, ← b3, ← b4] at iv
  rw [← b3, ← b4] at ch1 ch2
  have hold : childOf (fn t.link) (fn t.ch) p c = 0 := by
    unfold childOf; rw [if_neg hl, if_neg (by omega)]
  have sl := slot_insert hg.inv hu hp h0 hold iv.linkZero ch1 ch2
  refine ⟨⟨hg.thawed, hg.code, hg.spanEq, ?_, ?_, ?_, iv⟩, rfl, rfl, by omega, ?_, ?_⟩
  · show l1.length = t.size
    rw [a4, hg.lenL]
  · show s2.length = t.size
    rw [a2, a1, hg.lenS]
  · show c1.length = t.size
    rw [a3, hg.lenC]
  · have hcu : Letters t.catcnt (c :: u) := by
      intro x hx
      rcases List.mem_cons.mp hx with rfl | hx
      · exact hc
      · exact hu x hx
    show slotOf (fn l1) (fn c1) (c :: u) = _
    rw [sl _ hcu, if_pos rfl]
  · intro v hv
    show slotOf (fn l1) (fn c1) v ≠ 0 ↔ slotOf (fn t.link) (fn t.ch) v ≠ 0 ∨ _
    rw [sl v hv]
    by_cases e : v = c :: u
    · rw [if_pos e]
      exact ⟨fun _ => Or.inr e, fun _ => by omega⟩
    · rw [if_neg e]
      exact ⟨Or.inl, fun h => h.resolve_right e⟩

/-! ### The move -/

theorem fitLoop_some {t : Trie} {head δ : Nat} : ∀ {k : Nat} {m : List Nat} {a r : Nat}, Seg (fn t.sibling) a m head →
    head ∉ m → t.fitLoop head δ k a = some r → fn t.ch ((r + δ) % 256) = 0 →
    ∀ x ∈ a :: m, fn t.ch ((x + δ) % 256) = 0
  | 0, _, _, _, _, _, hf, _ => by rw [Trie.fitLoop] at hf; cases hf
  | k + 1, m, a, r, hs, hm, hf, hr => by
    rw [Trie.fitLoop] at hf
    simp only [bind, Option.bind_eq_some_iff] at hf
    obtain ⟨b, hb, s, hs', hf⟩ := hf
    have e1 := (get_some hb).2
    have e2 := (get_some hs').2
    cases m with
    | nil =>
      rw [Seg, e2] at hs
      rw [if_neg (fun h => h.2 hs)] at hf
      cases hf
      intro x hx
      rw [List.mem_singleton.mp hx]; exact hr
    | cons y m =>
      rw [Seg, e2] at hs
      obtain ⟨rfl, hs⟩ := hs
      have hy : s ≠ head := fun h => hm (h ▸ List.mem_cons_self)
      by_cases b0 : b = 0
      · rw [if_pos ⟨b0, hy⟩] at hf
        have ih := fitLoop_some hs (fun h => hm (List.mem_cons_of_mem _ h)) hf hr
        intro x hx
        rcases List.mem_cons.mp hx with rfl | hx
        · rw [e1, b0]
        · exact ih x hx
      · rw [if_neg (fun h => b0 h.1)] at hf
        cases hf
        rw [e1] at hr
        exact absurd hr b0

theorem moveHome_some {t : Trie} (hg : Good t) {p c head : Nat} (hc : 1 ≤ c ∧ c < t.catcnt) {m : List Nat}
    (hh : fn t.link p = head) (hs : Seg (fn t.sibling) head m head) (hm : head ∉ m) : ∀ {k h g : Nat},
    t.catcnt < h ∧ h ≤ t.size - t.catcnt → t.moveHome p c k h = some g →
    (t.catcnt < g ∧ g ≤ t.size - t.catcnt) ∧ fn t.ch (g + c) = 0 ∧
      ∀ x ∈ head :: m, fn t.ch ((x + (g + 256 - head) % 256) % 256) = 0
  | 0, _, _, _, hf => by rw [Trie.moveHome] at hf; cases hf
  | k + 1, h, g, hr, hf => by
    have hb := hg.inv.big
    have hs' := hg.inv.small
    rw [Trie.moveHome] at hf
    have hr' : t.catcnt < (if h < t.size - t.catcnt then h + 1 else t.catcnt + 1) ∧
        (if h < t.size - t.catcnt then h + 1 else t.catcnt + 1) ≤ t.size - t.catcnt := by
      split <;> omega
    generalize (if h < t.size - t.catcnt then h + 1 else t.catcnt + 1) = h1 at hf hr'
    dsimp only at hf
    simp only [bind, Option.bind_eq_some_iff] at hf
    obtain ⟨a, ha, hf⟩ := hf
    have e1 := (get_some ha).2
    rw [Nat.mod_eq_of_lt (by omega)] at e1
    by_cases a0 : a = 0
    · rw [if_neg (by simp [a0])] at hf
      simp only [Option.bind_eq_some_iff] at hf
      obtain ⟨hd, hl, r, hfit, b, hb', hf⟩ := hf
      have e2 := (get_some hl).2
      rw [hh] at e2
      subst e2
      by_cases b0 : b = 0
      · rw [if_pos b0] at hf
        cases hf
        refine ⟨hr', by rw [e1, a0], ?_⟩
        exact fitLoop_some hs hm hfit (by rw [(get_some hb').2, b0])
      · rw [if_neg b0] at hf
        exact moveHome_some hg hc hh hs hm hr' hf
    · rw [if_pos a0] at hf
      exact moveHome_some hg hc hh hs hm hr' hf

/-- The loop over the family moves what is left of it. -/
theorem moveLoop_some {t0 : Trie} (hg : Good t0) {δ head : Nat} {all : List Nat}
    (hall : ∀ x ∈ all, fn t0.ch x ≠ 0 ∧ fn t0.ch ((x + δ) % 256) = 0) (h0 : 0 ∉ all) (hhead : head ∈ all) :
    ∀ {k : Nat} {m D : List Nat} {r : Nat} {t t' : Trie}, Seg (fn t0.sibling) r m head → (r :: m ++ D).Nodup →
    (∀ x, x ∈ r :: m ++ D → x ∈ all) → (head = r ∨ head ∈ D) →
    Moved D δ (fn t0.link) (fn t0.sibling) (fn t0.ch) (fn t.link) (fn t.sibling) (fn t.ch) →
    Trie.moveLoop δ k t r = some t' →
    ∃ D', (∀ x, x ∈ D' ↔ x ∈ r :: m ++ D) ∧
      Moved D' δ (fn t0.link) (fn t0.sibling) (fn t0.ch) (fn t'.link) (fn t'.sibling) (fn t'.ch) ∧
      t' = { t with link := t'.link, sibling := t'.sibling, ch := t'.ch } ∧
      t'.link.length = t.link.length ∧ t'.sibling.length = t.sibling.length ∧ t'.ch.length = t.ch.length
  | 0, _, _, _, _, _, _, _, _, _, _, hf => by rw [Trie.moveLoop] at hf; cases hf
  | k + 1, m, D, r, t, t', hs, hn, ha, hh, hm, hf => by
    rw [Trie.moveLoop] at hf
    simp only [bind, Option.bind_eq_some_iff] at hf
    obtain ⟨s, q1, s1, p1, c, q2, c1, p2, c2, p3, l, q3, l1, p4, hf⟩ := hf
    have e1 := (get_some q1).2
    have e2 := (get_some q2).2
    have e3 := (get_some q3).2
    obtain ⟨-, a1, b1⟩ := put_some p1
    obtain ⟨-, a2, b2⟩ := put_some p2
    obtain ⟨-, a3, b3⟩ := put_some p3
    obtain ⟨-, a4, b4⟩ := put_some p4
    have hf' : ∃ l2, (l2.length = t.link.length ∧ fn l2 = (if fn t.link r ≠ 0 then
        upd (upd (fn t.link) ((r + δ) % 256) (fn t.link r)) (fn t.link r) ((r + δ) % 256)
        else upd (fn t.link) ((r + δ) % 256) (fn t.link r))) ∧
        ∃ r', s1[r]? = some r' ∧ ∃ c', c2[r']? = some c' ∧
          (if c' = 0 then pure { t with sibling := s1, ch := c2, link := l2 }
            else Trie.moveLoop δ k { t with sibling := s1, ch := c2, link := l2 } r') = some t' := by
      by_cases z : l = 0
      · rw [if_neg (by simp [z])] at hf
        simp only [pure, Option.bind_some, Option.bind_eq_some_iff] at hf
        refine ⟨l1, ?_, hf⟩
        rw [if_neg (by rw [e3]; simp [z]), b4, e3]
        exact ⟨a4, rfl⟩
      · rw [if_pos z] at hf
        simp only [Option.bind_eq_some_iff] at hf
        obtain ⟨l2, p5, hf⟩ := hf
        obtain ⟨-, a5, b5⟩ := put_some p5
        refine ⟨l2, ?_, hf⟩
        rw [if_pos (by rw [e3]; exact z), b5, b4, e3]
        exact ⟨by rw [a5, a4], rfl⟩
    clear hf
    obtain ⟨l2, l5, r', q4, c', q5, hf⟩ := hf'
    have e4 := (get_some q4).2
    have e5 := (get_some q5).2
    have hrD : r ∉ D := by
      intro h
      rw [List.cons_append, List.nodup_cons] at hn
      exact hn.1 (List.mem_append_right _ h)
    have hD : ∀ x ∈ r :: D, fn t0.ch x ≠ 0 ∧ fn t0.ch ((x + δ) % 256) = 0 := by
      intro x hx
      refine hall x (ha x ?_)
      rcases List.mem_cons.mp hx with rfl | hx
      · exact List.mem_cons_self
      · exact List.mem_append_right _ hx
    have h0' : 0 ∉ r :: D := by
      intro h
      refine h0 (ha 0 ?_)
      rcases List.mem_cons.mp h with h | h
      · rw [h]; exact List.mem_cons_self
      · exact List.mem_append_right _ h
    have ms := moved_step hg.inv hD h0' hrD hm
    rw [← l5.2, e1, e2, ← b1, ← b2, ← b3] at ms
    have occ : ∀ x ∈ all, fn t0.ch x ≠ 0 := fun x hx => (hall x hx).1
    have ar : r ∈ all := ha r List.mem_cons_self
    have er' : r' = fn t0.sibling r := by
      rw [← e4]
      exact ms.rest r (occ r ar)
    have eqv : ∀ x, x ∈ m ++ r :: D ↔ x ∈ r :: m ++ D := by
      intro x; simp only [List.mem_append, List.mem_cons]
      constructor
      · rintro (h | h | h)
        · exact Or.inl (Or.inr h)
        · exact Or.inl (Or.inl h)
        · exact Or.inr h
      · rintro ((h | h) | h)
        · exact Or.inr (Or.inl h)
        · exact Or.inl h
        · exact Or.inr (Or.inr h)
    cases m with
    | nil =>
      rw [Seg] at hs
      have eh : r' = head := by rw [er', hs]
      -- the header has been left
      have left : c' = 0 := by
        rw [← e5, eh]
        refine Classical.byContradiction fun hne => ?_
        obtain ⟨x, x1, x2⟩ := ms.occ head hne
        have hin : head ∈ r :: D := by
          rcases hh with rfl | h
          · exact List.mem_cons_self
          · exact List.mem_cons_of_mem _ h
        unfold shift at x2
        by_cases hx : x ∈ r :: D
        · rw [if_pos hx] at x2
          have := (hD x hx).2
          rw [x2] at this
          exact (hD head hin).1 this
        · rw [if_neg hx] at x2
          exact hx (x2 ▸ hin)
      rw [if_pos left] at hf
      cases hf
      refine ⟨r :: D, fun x => ?_, ms, rfl, l5.1, a1, ?_⟩
      · simp
      · show c2.length = _
        rw [a3, a2]
    | cons y m =>
      rw [Seg] at hs
      have ey : r' = y := by rw [er', hs.1]
      subst ey
      have ay : r' ∈ all := ha r' (by simp)
      have hyD : r' ∉ r :: D := by
        intro h
        have := hn
        rw [List.cons_append, List.cons_append, List.nodup_cons, List.nodup_cons] at this
        rcases List.mem_cons.mp h with h | h
        · exact this.1 (by rw [h]; exact List.mem_cons_self)
        · exact this.2.1 (List.mem_append_right _ h)
      have notleft : c' ≠ 0 := by
        rw [← e5]
        have := ms.ch r' (occ r' ay)
        unfold shift at this
        rw [if_neg hyD] at this
        show fn c2 r' ≠ 0
        rw [this]
        exact occ r' ay
      rw [if_neg notleft] at hf
      have hn' : (r' :: m ++ r :: D).Nodup := by
        have : (r' :: m ++ r :: D).Perm (r :: r' :: m ++ D) := List.perm_middle
        exact this.nodup_iff.mpr hn
      have hh' : head = r' ∨ head ∈ r :: D := by
        right
        rcases hh with rfl | h
        · exact List.mem_cons_self
        · exact List.mem_cons_of_mem _ h
      obtain ⟨D', d1, d2, d3, d4, d5, d6⟩ := moveLoop_some hg hall h0 hhead hs.2 hn'
        (fun x hx => ha x ((eqv x).mp hx)) hh' ms hf
      refine ⟨D', fun x => (d1 x).trans (eqv x), d2, ?_, ?_, ?_, ?_⟩
      · rw [d3]
      · rw [d4]; exact l5.1
      · rw [d5]; exact a1
      · rw [d6]
        show c2.length = _
        rw [a3, a2]

/-- No node is a member of the family behind its own link. -/
theorem not_own_child {K N : Nat} {L S C : Nat → Nat} (hi : Inv K N L S C) {u : List Nat} (hu : Letters K u)
    {p : Nat} (hp : slotOf L C u = p) (h0 : p ≠ 0) (hl : L p ≠ 0) : ¬ (C p ≠ 0 ∧ C p ≤ K ∧ p = L p + C p) := by
  rintro ⟨h1, h2, h3⟩
  have hpn : Node K C p := ⟨h0, h1, h2⟩
  obtain ⟨k1, k2, k3⟩ := hi.linkHead hpn hl
  match u, hu, hp with
  | [], _, hp => rw [slotOf] at hp; exact h0 hp.symm
  | [a], hu, hp =>
    have := hu a List.mem_cons_self
    rw [slotOf] at hp
    omega
  | a :: d :: v, hu, hp =>
    have hv : Letters K (d :: v) := fun x hx => hu x (List.mem_cons_of_mem _ hx)
    have hne : slotOf L C (a :: d :: v) ≠ 0 := by rw [hp]; exact h0
    have hd := slot_tail hi hne
    obtain ⟨-, -, c3, c4, -, -⟩ := child_node hi (slot_node hi hv hd) (hu a List.mem_cons_self) hp h0
    have e : p - a = L p := by omega
    rw [e, k3] at c4
    have := slot_inj hi hu hv hne (by rw [hp, c4])
    have := congrArg List.length this
    simp at this

theorem moveFamily_some {t t' : Trie} (hg : Good t) {u : List Nat} {p c n p' q : Nat} (hu : Letters t.catcnt u)
    (hp : t.slot u = p) (h0 : p ≠ 0) (hc : 1 ≤ c ∧ c < t.catcnt) (hl : fn t.link p ≠ 0)
    (hq : fn t.ch (fn t.link p + c) ≠ c)
    (h : t.moveFamily p c n = some (p', q, t')) :
    p' = p ∧ Good t' ∧ t'.catcnt = t.catcnt ∧ t'.size = t.size ∧ t'.slot u = p ∧ fn t'.link p ≠ 0 ∧
      q = fn t'.link p + c ∧ fn t'.ch q = 0 ∧
      ∀ v, Letters t.catcnt v → (t'.slot v ≠ 0 ↔ t.slot v ≠ 0) := by
  have hpn : Node t.catcnt (fn t.ch) p := by rw [← hp]; exact slot_node hg.inv hu (by rw [Trie.slot] at hp; rw [hp]; exact h0)
  obtain ⟨k1, k2, k3⟩ := hg.inv.linkHead hpn hl
  obtain ⟨m, m1, m2, m3, m4⟩ := hg.inv.family k1 k2
  have hs := hg.inv.small
  unfold Trie.moveFamily at h
  simp only [bind, Option.bind_eq_some_iff] at h
  obtain ⟨g, hn, h', hf, hd, hlk, t1, hmv, he⟩ := h
  have e1 := (get_some hlk).2
  obtain ⟨hr, n1, n2⟩ := moveHome_some hg hc rfl m1 (List.nodup_cons.mp m2).1 (nominal_range hg hn) hf
  cases he
  rw [← e1] at hmv
  have hm : (h' + c) % 256 = h' + c := Nat.mod_eq_of_lt (by omega)
  rw [hm]
  have occ : ∀ x ∈ fn t.link p :: m, fn t.ch x ≠ 0 := by
    intro x hx
    rcases (m3 x).mp hx with rfl | h
    · omega
    · exact h.1
  have z : 0 ∉ fn t.link p :: m := by
    intro h
    rcases (m3 0).mp h with h | h
    · omega
    · omega
  obtain ⟨D, d1, d2, d3, d4, d5, d6⟩ := moveLoop_some hg (fun x hx => ⟨occ x hx, n2 x hx⟩) z List.mem_cons_self
    m1 (by rw [List.append_nil]; exact m2) (fun x hx => by rw [List.append_nil] at hx; exact hx) (Or.inl rfl)
    (moved_nil _ _ _ _) hmv
  rw [List.append_nil] at d1
  have fam : Family t.catcnt (fn t.ch) (fn t.link p) D := fun x => (d1 x).trans (m3 x)
  have n2' : ∀ x ∈ D, fn t.ch ((x + (h' + 256 - fn t.link p) % 256) % 256) = 0 := fun x hx => n2 x ((d1 x).mp hx)
  obtain ⟨iv, ch⟩ := moved_shape hg.inv k1 k2 fam hr d2 n2'
  have sD := shift_family hg.inv k1 k2 fam hr
  generalize hδ : (h' + 256 - fn t.link p) % 256 = δ at *
  have dK : ∀ x, x ≤ t.catcnt → x ∉ D := by
    intro x hx hd
    have := (sD x hd).2.2
    omega
  have pD : p ∉ D := by
    intro h
    rcases (fam p).mp h with h | h
    · have := hpn.2.2
      rw [← h] at k2; omega
    · exact not_own_child hg.inv hu hp h0 hl h
  have sp : shift D δ p = p := if_neg pD
  have s0 : ∀ x, shift D δ x = 0 ↔ x = 0 := by
    intro x
    by_cases hx : x ∈ D
    · have h1 := (sD x hx).1
      have h2 := (sD x hx).2.2
      omega
    · unfold shift; rw [if_neg hx]
  have hD : fn t.link p ∈ D := (fam _).mpr (Or.inl rfl)
  have lp : fn t'.link p = h' := by
    have := d2.link p hpn.2.1
    rw [sp] at this
    rw [this, (sD _ hD).1]; omega
  have sl := slot_move hg.inv ((s0 0).mpr rfl) iv.linkZero (fun x hx => if_neg (dK x hx)) ch
  have cc : t'.catcnt = t.catcnt := by rw [d3]
  have sz : t'.size = t.size := by rw [d3]
  refine ⟨rfl, ⟨?_, ?_, ?_, ?_, ?_, ?_, ?_⟩, cc, sz, ?_, by omega, by rw [lp], ?_, ?_⟩
  · rw [d3]; exact hg.thawed
  · rw [d3]; exact hg.code
  · rw [d3]; exact hg.spanEq
  · rw [d4, sz]; exact hg.lenL
  · rw [d5, sz]; exact hg.lenS
  · rw [d6, sz]; exact hg.lenC
  · rw [cc, sz]; exact iv
  · show slotOf _ _ u = p
    rw [sl u hu]
    rw [Trie.slot] at hp
    rw [hp, sp]
  · refine Classical.byContradiction fun hn => ?_
    obtain ⟨x, x1, x2⟩ := d2.occ _ hn
    by_cases hx : x ∈ D
    · have := sD x hx
      rcases (fam x).mp hx with h | h
      · omega
      · have e : x = fn t.link p + c := by omega
        rw [← e] at hq
        omega
    · unfold shift at x2
      rw [if_neg hx] at x2
      rw [x2] at x1; exact x1 n1
  · intro v hv
    show slotOf _ _ v ≠ 0 ↔ slotOf _ _ v ≠ 0
    rw [sl v hv]
    exact not_congr (s0 _)

theorem advance_step {t t' : Trie} (hg : Good t) {u : List Nat} {p c n q : Nat} (hu : Letters t.catcnt u)
    (hp : t.slot u = p) (h0 : p ≠ 0) (hc : 1 ≤ c ∧ c < t.catcnt)
    (h : t.advance p c n = some (q, t')) : Step t t' u c q := by
  have hpn : Node t.catcnt (fn t.ch) p := by rw [← hp]; exact slot_node hg.inv hu (by rw [Trie.slot] at hp; rw [hp]; exact h0)
  have hs := hg.inv.small
  unfold Trie.advance at h
  simp only [bind, Option.bind_eq_some_iff] at h
  obtain ⟨l, hl, h⟩ := h
  have e1 := (get_some hl).2
  by_cases l0 : l = 0
  · rw [if_pos l0, if_neg (by rw [hg.thawed]; simp)] at h
    exact insertFirst_step hg hu hp h0 hc (by rw [e1, l0]) h
  · rw [if_neg l0] at h
    simp only [Option.bind_eq_some_iff] at h
    obtain ⟨a, ha, h⟩ := h
    have hl0 : fn t.link p ≠ 0 := by rw [e1]; exact l0
    obtain ⟨k1, k2, k3⟩ := hg.inv.linkHead hpn hl0
    have k4 := (hg.inv.head _ k1 k2).1
    rw [← e1] at ha h
    have hm : (fn t.link p + c) % 256 = fn t.link p + c := Nat.mod_eq_of_lt (by omega)
    rw [hm] at ha h
    have e2 := (get_some ha).2
    by_cases ac : a = c
    · rw [if_neg (by simp [ac])] at h
      cases h
      have here : t.slot (c :: u) = fn t.link p + c := by
        cases u with
        | nil => rw [Trie.slot, slotOf] at hp; exact absurd hp.symm h0
        | cons d u =>
          rw [Trie.slot, slotOf]
          rw [Trie.slot] at hp
          rw [hp]
          unfold childOf
          rw [if_neg hl0, if_pos (by rw [e2, ac])]
      refine ⟨hg, rfl, rfl, by omega, here, ?_⟩
      intro v _
      refine ⟨Or.inl, ?_⟩
      rintro (h | rfl)
      · exact h
      · rw [here]; omega
    · rw [if_pos ac, if_neg (by rw [hg.thawed]; simp)] at h
      by_cases a0 : a = 0
      · rw [if_neg (by simp [a0])] at h
        exact insertChild_step hg hu hp h0 hc hl0 (by rw [e2, a0]) h
      · rw [if_pos a0] at h
        simp only [Option.bind_eq_some_iff] at h
        obtain ⟨⟨p', q', t1⟩, hmf, h⟩ := h
        obtain ⟨rfl, g1, g2, g3, g4, g5, g6, g7, g8⟩ := moveFamily_some hg hu hp h0 hc hl0 (by rw [e2]; exact ac) hmf
        rw [g6] at g7
        dsimp only at h
        rw [g6] at h
        rw [← g2] at hu hc
        have st := insertChild_step g1 hu g4 h0 hc g5 g7 h
        refine ⟨st.good, by rw [st.cat, g2], by rw [st.size, g3], st.ne, st.here, ?_⟩
        intro v hv
        rw [st.words v (by rw [g2]; exact hv), g8 v hv]

/-! ### Words -/

theorem Letters.cons {K c : Nat} {u : List Nat} (hc : 1 ≤ c ∧ c < K) (hu : Letters K u) : Letters K (c :: u) := by
  intro x hx
  rcases List.mem_cons.mp hx with rfl | hx
  · exact hc
  · exact hu x hx

/-- What the allocation of a word does; `u` is what has been read, backwards. -/
theorem allocLoop_words : ∀ {w : List Nat} {t t' : Trie} {u : List Nat} {p n q : Nat}, Good t → Letters t.catcnt u →
    t.slot u = p → p ≠ 0 → Letters t.catcnt (w.map t.correct) → t.allocLoop p n w = some (q, t') →
    Good t' ∧ t'.catcnt = t.catcnt ∧ t'.size = t.size ∧ q ≠ 0 ∧ t'.slot ((w.map t.correct).reverse ++ u) = q ∧
      ∀ v, Letters t.catcnt v → (t'.slot v ≠ 0 ↔ t.slot v ≠ 0 ∨
        ∃ x, x <+: w.map t.correct ∧ x ≠ [] ∧ v = x.reverse ++ u)
  | [], t, t', u, p, n, q, hg, hu, hp, h0, _, h => by
    rw [Trie.allocLoop] at h
    cases h
    refine ⟨hg, rfl, rfl, h0, by simpa using hp, ?_⟩
    intro v _
    refine ⟨Or.inl, ?_⟩
    rintro (h | ⟨x, h1, h2, -⟩)
    · exact h
    · exact absurd (List.prefix_nil.mp h1) h2
  | b :: w, t, t', u, p, n, q, hg, hu, hp, h0, hw, h => by
    rw [Trie.allocLoop] at h
    simp only [bind, Option.bind_eq_some_iff] at h
    obtain ⟨⟨p1, t1⟩, ha, h⟩ := h
    dsimp only at h
    rw [List.map_cons] at hw ⊢
    have hc := hw _ List.mem_cons_self
    have hw' : Letters t.catcnt (w.map t.correct) := fun x hx => hw x (List.mem_cons_of_mem _ hx)
    have st := advance_step hg hu hp h0 hc ha
    have ec : t1.correct = t.correct := by funext x; unfold Trie.correct; rw [st.cat]
    obtain ⟨r1, r2, r3, r4, r5, r6⟩ := allocLoop_words st.good (by rw [st.cat]; exact hu.cons hc) st.here st.ne
      (by rw [st.cat, ec]; exact hw') h
    rw [ec] at r5 r6
    refine ⟨r1, by rw [r2, st.cat], by rw [r3, st.size], r4, ?_, ?_⟩
    · rw [List.reverse_cons, List.append_assoc]; exact r5
    · intro v hv
      rw [r6 v (by rw [st.cat]; exact hv), st.words v hv]
      constructor
      · rintro ((h | h) | ⟨x, x1, x2, x3⟩)
        · exact Or.inl h
        · exact Or.inr ⟨[t.correct b], by simp, by simp, by simpa using h⟩
        · refine Or.inr ⟨t.correct b :: x, ?_, by simp, ?_⟩
          · exact List.cons_prefix_cons.mpr ⟨rfl, x1⟩
          · rw [x3, List.reverse_cons, List.append_assoc]; rfl
      · rintro (h | ⟨x, x1, x2, x3⟩)
        · exact Or.inl (Or.inl h)
        · cases x with
          | nil => exact absurd rfl x2
          | cons y x =>
            obtain ⟨ey, x4⟩ := List.cons_prefix_cons.mp x1
            subst ey
            rw [List.reverse_cons, List.append_assoc] at x3
            by_cases x0 : x = []
            · subst x0; exact Or.inl (Or.inr x3)
            · exact Or.inr ⟨x, x4, x0, x3⟩

/-- What the allocation of a word does. -/
theorem alloc_words {w : List Nat} {t t' : Trie} {q : Nat} (hg : Good t) (hw : Letters t.catcnt (w.map t.correct))
    (h : t.alloc w = some (q, t')) :
    Good t' ∧ t'.catcnt = t.catcnt ∧ t'.size = t.size ∧ q ≠ 0 ∧ t'.slot (w.map t.correct).reverse = q ∧
      ∀ v, Letters t.catcnt v → (t'.slot v ≠ 0 ↔ t.slot v ≠ 0 ∨ v ≠ [] ∧ v.reverse <+: w.map t.correct) := by
  cases w with
  | nil => rw [Trie.alloc] at h; cases h
  | cons b w =>
    rw [Trie.alloc] at h
    rw [List.map_cons] at hw
    have hc := hw _ List.mem_cons_self
    have hw' : Letters t.catcnt (w.map t.correct) := fun x hx => hw x (List.mem_cons_of_mem _ hx)
    have hl : Letters t.catcnt [t.correct b] := Letters.cons hc (fun _ hx => absurd hx List.not_mem_nil)
    obtain ⟨r1, r2, r3, r4, r5, r6⟩ := allocLoop_words hg hl rfl (by show t.correct b ≠ 0; omega) hw' h
    refine ⟨r1, r2, r3, r4, by rw [List.map_cons, List.reverse_cons]; exact r5, ?_⟩
    intro v hv
    rw [r6 v hv]
    constructor
    · rintro (h | ⟨x, x1, x2, x3⟩)
      · exact Or.inl h
      · refine Or.inr ⟨by rw [x3]; simp, ?_⟩
        rw [x3, List.reverse_append, List.reverse_reverse, List.map_cons]
        exact List.cons_prefix_cons.mpr ⟨rfl, x1⟩
    · rintro (h | ⟨h1, h2⟩)
      · exact Or.inl h
      · rw [List.map_cons] at h2
        cases hx : v.reverse with
        | nil => rw [List.reverse_eq_nil_iff] at hx; exact absurd hx h1
        | cons y x =>
          rw [hx] at h2
          obtain ⟨ey, h4⟩ := List.cons_prefix_cons.mp h2
          subst ey
          have ev : v = x.reverse ++ [t.correct b] := by
            rw [← List.reverse_reverse v, hx, List.reverse_cons]
          by_cases x0 : x = []
          · left
            rw [ev, x0]
            show t.correct b ≠ 0
            omega
          · exact Or.inr ⟨x, h4, x0, ev⟩

/-- A new trie -/
theorem new_good {size catcnt : Nat} {t : Trie} (h : Trie.new size catcnt = some t)
    (hb : 2 * (catcnt + 1) < size) (hs : size ≤ 255) : Good t ∧ t.catcnt = catcnt + 1 ∧ t.size = size ∧
      ∀ v, Letters t.catcnt v → (t.slot v ≠ 0 ↔ v.length = 1) := by
  unfold Trie.new at h
  split at h
  · cases h
  · cases h
    have fl : fn (List.replicate size 0) = fun _ => 0 := by
      funext i
      unfold fn
      rw [List.getElem?_replicate]
      split <;> rfl
    have fc : ∀ i, fn ((List.range size).map fun i => if i = 0 then catcnt + 1 + 1 else if i ≤ catcnt + 1 then i else 0) i =
        if i = 0 then catcnt + 1 + 1 else if i ≤ catcnt + 1 then i else 0 := by
      intro i
      unfold fn
      rw [List.getElem?_map]
      by_cases hi : i < size
      · rw [List.getElem?_range hi]; rfl
      · rw [List.getElem?_eq_none (by simpa using hi)]
        rw [if_neg (by omega), if_neg (by omega)]; rfl
    refine ⟨⟨rfl, rfl, rfl, by simp, by simp, by simp, ?_⟩, rfl, rfl, ?_⟩
    · show Inv (catcnt + 1) size _ _ _
      rw [fl]
      refine ⟨by omega, hb, hs, ?_, ?_, ?_, ?_, rfl, ?_, ?_, ?_, ?_⟩
      · intro q hq; rw [fc]; rw [if_neg (by omega), if_neg (by omega)]
      · intro q; rw [fc]; split
        · omega
        · split <;> omega
      · intro q h1 h2; rw [fc, if_neg (by omega), if_pos h2]
      · rw [fc, if_pos rfl]
      · intro q h1 h2 _
        rw [fc, if_neg (by omega), if_neg (by omega)] at h2
        exact absurd rfl h2
      · intro q h1 h2
        rw [fc, if_neg (by omega), if_neg (by omega)] at h2
        omega
      · intro x _ h; exact absurd rfl h
      · intro q h1 h2
        rw [fc, if_neg (by omega), if_neg (by omega)] at h2
        omega
    · intro v hv
      show slotOf _ _ v ≠ 0 ↔ _
      rw [fl]
      match v, hv with
      | [], _ => simp [slotOf]
      | [c], hv =>
        have := hv c List.mem_cons_self
        exact ⟨fun _ => rfl, fun _ => by show c ≠ 0; omega⟩
      | c :: d :: v, _ =>
        rw [slotOf]
        unfold childOf
        rw [if_pos rfl]
        simp

/-! ### Lookup -/

/-- A step of a lookup in a frozen trie -/
theorem advance_freeze {t : Trie} (hg : Good t) {u : List Nat} (hu : Letters t.catcnt u) (h0 : u ≠ []) {c n : Nat}
    (hc : 1 ≤ c ∧ c < t.catcnt) :
    t.freeze.advance (t.slot u) c n = some (t.slot (c :: u), t.freeze) := by
  have hi := hg.inv
  have hs := hi.small
  have hb := hi.big
  have hsl : t.slot (c :: u) = childOf (fn t.link) (fn t.ch) (t.slot u) c := by
    cases u with
    | nil => exact absurd rfl h0
    | cons d u => rfl
  have hps : t.slot u < t.link.length := by
    rw [hg.lenL]
    by_cases p0 : t.slot u = 0
    · omega
    · refine Classical.byContradiction fun h => ?_
      exact (slot_node hi hu p0).2.1 (hi.out _ (by unfold Trie.slot at h; omega))
  have gl : ∀ i, i < t.link.length → t.link[i]? = some (fn t.link i) := by
    intro i h; unfold fn; rw [List.getElem?_eq_getElem h]; rfl
  have gc : ∀ i, i < t.ch.length → t.ch[i]? = some (fn t.ch i) := by
    intro i h; unfold fn; rw [List.getElem?_eq_getElem h]; rfl
  rw [hsl]
  unfold Trie.advance childOf
  show (t.link[t.slot u]?).bind _ = _
  rw [gl _ hps, Option.bind_some]
  by_cases l0 : fn t.link (t.slot u) = 0
  · rw [if_pos l0, if_pos l0]; rfl
  · rw [if_neg l0, if_neg l0]
    have pn : Node t.catcnt (fn t.ch) (t.slot u) := by
      refine slot_node hi hu fun h => l0 ?_
      show fn t.link (slotOf _ _ u) = 0
      rw [h]; exact hi.linkZero
    obtain ⟨k1, k2, k3⟩ := hi.linkHead pn l0
    have k4 := (hi.head _ k1 k2).1
    rw [Nat.mod_eq_of_lt (by omega)]
    show (t.ch[_]?).bind _ = _
    rw [gc _ (by rw [hg.lenC]; omega), Option.bind_some]
    by_cases f : fn t.ch (fn t.link (t.slot u) + c) = c
    · rw [if_neg (by simp [f]), if_pos f]; rfl
    · rw [if_pos f, if_neg f]; rfl

end Uax.Bidi
