/-
The shape of the packed hash trie of /repo/bidi/trie/hashtrie.go: an invariant
of its three tables, and what the three ways to insert a child do to it.

The tables are seen as functions from slots to numbers: `L` for link, `S` for
sibling, `C` for ch. `K` is `trie.catcnt` and `N` is `trie.size`.
-/
import Verif.BidiTrie

namespace Uax.Bidi

/-- A table as a function; 0 out of range. -/
def fn (l : List Nat) (i : Nat) : Nat := (l[i]?).getD 0

def upd (f : Nat → Nat) (i v j : Nat) : Nat := if j = i then v else f j

theorem upd_same (f : Nat → Nat) (i v : Nat) : upd f i v i = v := by simp [upd]

theorem upd_ne (f : Nat → Nat) {i v j : Nat} (h : j ≠ i) : upd f i v j = f j := by simp [upd, h]

theorem put_some {l l' : List Nat} {i v : Nat} (h : put l i v = some l') :
    i < l.length ∧ l'.length = l.length ∧ fn l' = upd (fn l) i v := by
  unfold put at h
  by_cases hi : i < l.length
  · rw [if_pos hi] at h
    cases h
    refine ⟨hi, by simp, ?_⟩
    funext j
    unfold fn upd
    by_cases hj : j = i
    · subst hj; simp [hi]
    · rw [if_neg hj, List.getElem?_set_ne (Ne.symm hj)]
  · rw [if_neg hi] at h; cases h

theorem get_some {l : List Nat} {i a : Nat} (h : l[i]? = some a) : i < l.length ∧ fn l i = a := by
  refine ⟨?_, by simp [fn, h]⟩
  exact (List.getElem?_eq_some_iff.mp h).1

/-- `b` is reached from `a` along `S` over exactly the slots of the list. -/
def Seg (S : Nat → Nat) : Nat → List Nat → Nat → Prop
  | a, [], b => S a = b
  | a, x :: m, b => S a = x ∧ Seg S x m b

theorem Seg.mono {S S' : Nat → Nat} : ∀ {m : List Nat} {a b : Nat}, Seg S a m b →
    (∀ x, x = a ∨ x ∈ m → S' x = S x) → Seg S' a m b
  | [], a, b, h, he => by rw [Seg] at h ⊢; rw [he a (Or.inl rfl)]; exact h
  | x :: m, a, b, h, he => by
    rw [Seg] at h ⊢
    refine ⟨by rw [he a (Or.inl rfl)]; exact h.1, h.2.mono fun y hy => he y (Or.inr ?_)⟩
    rcases hy with rfl | hy
    · exact List.mem_cons_self
    · exact List.mem_cons_of_mem _ hy

/-- The invariant of the tables. -/
structure Inv (K N : Nat) (L S C : Nat → Nat) : Prop where
  pos : 1 ≤ K
  big : 2 * K < N
  small : N ≤ 255
  out : ∀ q, N ≤ q → C q = 0
  cat : ∀ q, C q ≤ K + 1
  root : ∀ q, 1 ≤ q → q ≤ K → C q = q
  zero : C 0 = K + 1
  linkZero : L 0 = 0
  home : ∀ q, K < q → C q ≠ 0 → C q ≤ K →
    C q < K ∧ C q < q ∧ K < q - C q ∧ C (q - C q) = K + 1
  head : ∀ h, K < h → C h = K + 1 → h ≤ N - K ∧ L h ≠ 0
  back : ∀ x, C x ≠ 0 → L x ≠ 0 → C (L x) ≠ 0 ∧ L (L x) = x ∧ (C x = K + 1 ↔ C (L x) ≠ K + 1)
  ring : ∀ h, K < h → C h = K + 1 → ∃ m, Seg S h m h ∧ m.Nodup ∧
    ∀ q, q ∈ m ↔ (C q ≠ 0 ∧ C q ≤ K ∧ q = h + C q)

/-- A slot that stands for a prefix -/
def Node (K : Nat) (C : Nat → Nat) (p : Nat) : Prop := p ≠ 0 ∧ C p ≠ 0 ∧ C p ≤ K

/-- The slot of a child -/
def childOf (L C : Nat → Nat) (p c : Nat) : Nat :=
  if L p = 0 then 0 else if C (L p + c) = c then L p + c else 0

/-- The slot of a prefix, given backwards. -/
def slotOf (L C : Nat → Nat) : List Nat → Nat
  | [] => 0
  | [c] => c
  | c :: d :: u => childOf L C (slotOf L C (d :: u)) c

/-- The letters of a word as the trie stores them -/
def Letters (K : Nat) (u : List Nat) : Prop := ∀ c ∈ u, 1 ≤ c ∧ c < K

variable {K N : Nat} {L S C : Nat → Nat}

theorem Inv.linkHead (hi : Inv K N L S C) {p : Nat} (hp : Node K C p) (hl : L p ≠ 0) :
    K < L p ∧ C (L p) = K + 1 ∧ L (L p) = p := by
  obtain ⟨h1, h2, h3⟩ := hi.back p hp.2.1 hl
  have h4 : C (L p) = K + 1 := by
    refine Classical.byContradiction fun hn => ?_
    have := h3.mpr hn
    have := hp.2.2
    omega
  refine ⟨?_, h4, h2⟩
  refine Classical.byContradiction fun hn => ?_
  have := hi.root (L p) (by omega) (by omega)
  omega

theorem child_node (hi : Inv K N L S C) {p c q : Nat} (hp : Node K C p) (hc : 1 ≤ c ∧ c < K)
    (hq : childOf L C p c = q) (h0 : q ≠ 0) :
    Node K C q ∧ K < q ∧ C q = c ∧ L (q - c) = p ∧ q = L p + c ∧ L p ≠ 0 := by
  unfold childOf at hq
  by_cases hl : L p = 0
  · rw [if_pos hl] at hq; exact absurd hq.symm h0
  · rw [if_neg hl] at hq
    by_cases he : C (L p + c) = c
    · rw [if_pos he] at hq
      obtain ⟨h1, h2, h3⟩ := hi.linkHead hp hl
      subst hq
      refine ⟨⟨h0, by omega, by omega⟩, by omega, he, ?_, rfl, hl⟩
      rw [Nat.add_sub_cancel]; exact h3
    · rw [if_neg he] at hq; exact absurd hq.symm h0

theorem childOf_zero (hi : Inv K N L S C) (c : Nat) : childOf L C 0 c = 0 := by
  unfold childOf; rw [if_pos hi.linkZero]

theorem slot_node (hi : Inv K N L S C) : ∀ {u : List Nat}, Letters K u → slotOf L C u ≠ 0 →
    Node K C (slotOf L C u)
  | [], _, h => absurd rfl h
  | [c], hu, h => by
    have hc := hu c List.mem_cons_self
    refine ⟨h, ?_⟩
    show C c ≠ 0 ∧ C c ≤ K
    rw [hi.root c hc.1 (by omega)]; omega
  | c :: d :: u, hu, h => by
    have hc := hu c List.mem_cons_self
    have hu' : Letters K (d :: u) := fun x hx => hu x (List.mem_cons_of_mem _ hx)
    have h1 : slotOf L C (d :: u) ≠ 0 := by
      intro h1
      apply h
      rw [slotOf, h1, childOf_zero hi]
    exact (child_node hi (slot_node hi hu' h1) hc rfl h).1

theorem slot_tail (hi : Inv K N L S C) {c d : Nat} {u : List Nat} (h : slotOf L C (c :: d :: u) ≠ 0) :
    slotOf L C (d :: u) ≠ 0 := by
  intro h1
  apply h
  rw [slotOf, h1, childOf_zero hi]

/-- Every slot stands for one prefix only. -/
theorem slot_inj (hi : Inv K N L S C) : ∀ {u v : List Nat}, Letters K u → Letters K v →
    slotOf L C u ≠ 0 → slotOf L C u = slotOf L C v → u = v
  | [], _, _, _, h, _ => absurd rfl h
  | [c], [], _, _, h, he => by rw [he] at h; exact absurd rfl h
  | [c], [d], _, _, _, he => by rw [slotOf, slotOf] at he; rw [he]
  | [c], d :: e :: v, hu, hv, h, he => by
    rw [he] at h
    have hv' : Letters K (e :: v) := fun x hx => hv x (List.mem_cons_of_mem _ hx)
    have hd := hv d List.mem_cons_self
    have hc := hu c List.mem_cons_self
    have := (child_node hi (slot_node hi hv' (slot_tail hi h)) hd rfl h).2.1
    rw [← slotOf, ← he, slotOf] at this
    omega
  | c :: e :: u, [], _, _, h, he => by rw [he] at h; exact absurd rfl h
  | c :: e :: u, [d], hu, hv, h, he => by
    have hu' : Letters K (e :: u) := fun x hx => hu x (List.mem_cons_of_mem _ hx)
    have hd := hv d List.mem_cons_self
    have hc := hu c List.mem_cons_self
    have := (child_node hi (slot_node hi hu' (slot_tail hi h)) hc rfl h).2.1
    rw [← slotOf, he, slotOf] at this
    omega
  | c :: e :: u, d :: f :: v, hu, hv, h, he => by
    have hu' : Letters K (e :: u) := fun x hx => hu x (List.mem_cons_of_mem _ hx)
    have hv' : Letters K (f :: v) := fun x hx => hv x (List.mem_cons_of_mem _ hx)
    have hd := hv d List.mem_cons_self
    have hc := hu c List.mem_cons_self
    have h' : slotOf L C (d :: f :: v) ≠ 0 := by rw [← he]; exact h
    obtain ⟨-, -, a3, a4, -, -⟩ := child_node hi (slot_node hi hu' (slot_tail hi h)) hc rfl h
    obtain ⟨-, -, b3, b4, -, -⟩ := child_node hi (slot_node hi hv' (slot_tail hi h')) hd rfl h'
    rw [← slotOf] at a3 a4 b3 b4
    rw [he] at a3 a4
    have hcd : c = d := a3.symm.trans b3
    subst hcd
    have := slot_inj hi hu' hv' (slot_tail hi h) (by rw [← a4, ← b4])
    rw [this]

/-! ### A family gets its first child -/

theorem first_inv (hi : Inv K N L S C) {p h c : Nat} (hp : Node K C p) (hl : L p = 0)
    (hh : K < h ∧ h ≤ N - K) (hc : 1 ≤ c ∧ c < K) (h0 : C h = 0) (hq : C (h + c) = 0) :
    Inv K N (upd (upd (upd L p h) h p) (h + c) 0) (upd (upd S h (h + c)) (h + c) h)
      (upd (upd C h (K + 1)) (h + c) c) := by
  have hph : p ≠ h := fun e => hp.2.1 (e ▸ h0)
  have hpq : p ≠ h + c := fun e => hp.2.1 (e ▸ hq)
  have hhq : h ≠ h + c := by omega
  have hb := hi.big
  have hs := hi.small
  have old : ∀ x, C x ≠ 0 → upd (upd C h (K + 1)) (h + c) c x = C x := by
    intro x hx
    rw [upd_ne, upd_ne]
    · exact fun e => hx (e ▸ h0)
    · exact fun e => hx (e ▸ hq)
  have atH : upd (upd C h (K + 1)) (h + c) c h = K + 1 := by rw [upd_ne _ hhq, upd_same]
  have atQ : upd (upd C h (K + 1)) (h + c) c (h + c) = c := upd_same _ _ _
  have other : ∀ x, x ≠ h → x ≠ h + c → upd (upd C h (K + 1)) (h + c) c x = C x := by
    intro x h1 h2; rw [upd_ne _ h2, upd_ne _ h1]
  have lQ : upd (upd (upd L p h) h p) (h + c) 0 (h + c) = 0 := upd_same _ _ _
  have lH : upd (upd (upd L p h) h p) (h + c) 0 h = p := by rw [upd_ne _ hhq, upd_same]
  have lP : upd (upd (upd L p h) h p) (h + c) 0 p = h := by rw [upd_ne _ hpq, upd_ne _ hph, upd_same]
  have lO : ∀ x, x ≠ p → x ≠ h → x ≠ h + c → upd (upd (upd L p h) h p) (h + c) 0 x = L x := by
    intro x h1 h2 h3; rw [upd_ne _ h3, upd_ne _ h2, upd_ne _ h1]
  refine ⟨hi.pos, hb, hs, ?_, ?_, ?_, ?_, ?_, ?_, ?_, ?_, ?_⟩
  · intro q hN; rw [other q (by omega) (by omega)]; exact hi.out q hN
  · intro q
    by_cases h1 : q = h + c
    · rw [h1, atQ]; omega
    · by_cases h2 : q = h
      · rw [h2, atH]; omega
      · rw [other q h2 h1]; exact hi.cat q
  · intro q h1 h2; rw [other q (by omega) (by omega)]; exact hi.root q h1 h2
  · rw [other 0 (by omega) (by omega)]; exact hi.zero
  · rw [lO 0 hp.1.symm (by omega) (by omega)]; exact hi.linkZero
  · intro q h1 h2 h3
    by_cases e1 : q = h + c
    · subst e1; rw [atQ, Nat.add_sub_cancel, atH]; omega
    · by_cases e2 : q = h
      · subst e2; rw [atH] at h3; omega
      · rw [other q e2 e1] at h2 h3 ⊢
        obtain ⟨a', a, b, d⟩ := hi.home q h1 h2 h3
        exact ⟨a', a, b, by rw [old _ (by omega)]; exact d⟩
  · intro g h1 h2
    by_cases e1 : g = h
    · subst e1; rw [lH]; exact ⟨hh.2, hp.1⟩
    · by_cases e2 : g = h + c
      · subst e2; rw [atQ] at h2; omega
      · rw [other g e1 e2] at h2
        obtain ⟨a, b⟩ := hi.head g h1 h2
        refine ⟨a, ?_⟩
        rw [lO g (fun e => by have := hp.2.2; rw [e] at h2; omega) e1 e2]; exact b
  · intro x h1 h2
    by_cases e1 : x = h
    · subst e1; rw [lH, lP, old p hp.2.1, atH]
      have := hp.2.1; have := hp.2.2
      exact ⟨hp.2.1, rfl, by omega⟩
    · by_cases e2 : x = h + c
      · subst e2; exact absurd lQ h2
      · by_cases e3 : x = p
        · subst e3; rw [lP, lH, atH, old x hp.2.1]
          have := hp.2.2
          exact ⟨by omega, rfl, by omega⟩
        · rw [other x e1 e2] at h1
          rw [lO x e3 e1 e2] at h2 ⊢
          obtain ⟨a, b, d⟩ := hi.back x h1 h2
          have n1 : L x ≠ p := by
            intro e; rw [e] at b; rw [hl] at b
            rw [← b] at h2; exact h2 hi.linkZero
          rw [old _ a, old x h1, lO (L x) n1 (fun e => a (e ▸ h0)) (fun e => a (e ▸ hq))]
          exact ⟨a, b, d⟩
  · intro g h1 h2
    by_cases e1 : g = h
    · subst e1
      refine ⟨[g + c], ⟨by rw [upd_ne _ hhq, upd_same], by rw [Seg, upd_same]⟩, by simp, ?_⟩
      intro q
      rw [List.mem_singleton]
      constructor
      · rintro rfl; rw [atQ]; omega
      · rintro ⟨b1, b2, b3⟩
        by_cases f1 : q = g + c
        · exact f1
        · by_cases f2 : q = g
          · subst f2; rw [atH] at b3; omega
          · rw [other q f2 f1] at b1 b2 b3
            have := hi.home q (by omega) b1 b2
            have e : q - C q = g := by omega
            rw [e, h0] at this; omega
    · by_cases e2 : g = h + c
      · subst e2; rw [atQ] at h2; omega
      · rw [other g e1 e2] at h2
        obtain ⟨m, m1, m2, m3⟩ := hi.ring g h1 h2
        refine ⟨m, m1.mono ?_, m2, ?_⟩
        · intro x hx
          have : C x ≠ 0 := by
            rcases hx with rfl | hx
            · omega
            · exact ((m3 x).mp hx).1
          rw [upd_ne _ (fun e : x = h + c => this (e ▸ hq)), upd_ne _ (fun e : x = h => this (e ▸ h0))]
        · intro q
          rw [m3 q]
          by_cases f1 : q = h + c
          · subst f1; rw [atQ, hq]
            constructor
            · intro h; exact absurd rfl h.1
            · intro h; omega
          · by_cases f2 : q = h
            · subst f2; rw [atH, h0]
              constructor
              · intro h; exact absurd rfl h.1
              · intro h; omega
            · rw [other q f2 f1]

/-- The new child is found, the others are found as before. -/
theorem first_child (hi : Inv K N L S C) {p h c : Nat} (hp : Node K C p) (hl : L p = 0)
    (hh : K < h ∧ h ≤ N - K) (hc : 1 ≤ c ∧ c < K) (h0 : C h = 0) (hq : C (h + c) = 0) :
    (∀ x d, Node K C x → 1 ≤ d ∧ d < K →
      childOf (upd (upd (upd L p h) h p) (h + c) 0) (upd (upd C h (K + 1)) (h + c) c) x d =
        if x = p ∧ d = c then h + c else childOf L C x d) ∧
    (∀ d, childOf (upd (upd (upd L p h) h p) (h + c) 0) (upd (upd C h (K + 1)) (h + c) c) (h + c) d = 0) := by
  have hph : p ≠ h := fun e => hp.2.1 (e ▸ h0)
  have hpq : p ≠ h + c := fun e => hp.2.1 (e ▸ hq)
  have hhq : h ≠ h + c := by omega
  constructor
  · intro x d hx hd
    by_cases e : x = p
    · subst e
      have lP : upd (upd (upd L x h) h x) (h + c) 0 x = h := by rw [upd_ne _ hpq, upd_ne _ hph, upd_same]
      unfold childOf
      rw [lP, hl, if_neg (by omega), if_pos rfl]
      by_cases ed : d = c
      · subst ed; rw [upd_same, if_pos rfl, if_pos ⟨rfl, rfl⟩]
      · rw [if_neg (fun hh : x = x ∧ d = c => ed hh.2)]
        rw [upd_ne _ (by omega), upd_ne _ (by omega)]
        refine if_neg fun e => ?_
        have := hi.home (h + d) (by omega) (by omega) (by omega)
        rw [e, Nat.add_sub_cancel, h0] at this
        omega
    · rw [if_neg (fun hh => e hh.1)]
      have xh : x ≠ h := fun e => hx.2.1 (e ▸ h0)
      have xq : x ≠ h + c := fun e => hx.2.1 (e ▸ hq)
      unfold childOf
      rw [upd_ne _ xq, upd_ne _ xh, upd_ne _ e]
      by_cases lz : L x = 0
      · rw [if_pos lz, if_pos lz]
      · rw [if_neg lz, if_neg lz]
        obtain ⟨b1, b2, b3⟩ := hi.linkHead hx lz
        have lh : L x ≠ h := by intro e; rw [e, h0] at b2; omega
        by_cases f1 : L x + d = h + c
        · rw [f1, upd_same, hq]
          rw [if_neg (by omega), if_neg (by omega)]
        · by_cases f2 : L x + d = h
          · rw [f2, upd_ne _ hhq, upd_same, h0]
            rw [if_neg (by omega), if_neg (by omega)]
          · rw [upd_ne _ f1, upd_ne _ f2]
  · intro d
    unfold childOf
    rw [upd_same, if_pos rfl]

/-! ### A family gets a further child -/

theorem seg_insert (hS : q ∉ m) : Seg S a m b → ∀ {e : Nat}, e = a ∨ e ∈ m → q ≠ a → (a :: m).Nodup →
    ∃ m', Seg (upd (upd S q (S e)) e q) a m' b ∧ m'.Perm (q :: m) := by
  induction m generalizing a with
  | nil =>
    intro hs e he hqa _
    rcases he with rfl | he
    · rw [Seg] at hs
      refine ⟨[q], ⟨upd_same _ _ _, ?_⟩, List.Perm.refl _⟩
      rw [Seg, upd_ne _ hqa, upd_same]; exact hs
    · cases he
  | cons x m ih =>
    intro hs e he hqa hn
    rw [Seg] at hs
    have hqx : q ≠ x := fun h => hS (h ▸ List.mem_cons_self)
    have hqm : q ∉ m := fun h => hS (List.mem_cons_of_mem _ h)
    have hn' := List.nodup_cons.mp hn
    by_cases ea : e = a
    · subst ea
      refine ⟨q :: x :: m, ⟨upd_same _ _ _, ⟨by rw [upd_ne _ hqa, upd_same]; exact hs.1, ?_⟩⟩, List.Perm.refl _⟩
      refine hs.2.mono ?_
      intro y hy
      have y1 : y ≠ e := by
        rintro rfl
        apply hn'.1
        rcases hy with rfl | hy
        · exact List.mem_cons_self
        · exact List.mem_cons_of_mem _ hy
      have y2 : y ≠ q := by
        rintro rfl
        rcases hy with rfl | hy
        · exact hqx rfl
        · exact hqm hy
      rw [upd_ne _ y1, upd_ne _ y2]
    · have he' : e = x ∨ e ∈ m := by
        rcases he with rfl | he
        · exact absurd rfl ea
        · exact List.mem_cons.mp he
      obtain ⟨m', s1, s2⟩ := ih hqm hs.2 he' hqx hn'.2
      refine ⟨x :: m', ⟨?_, s1⟩, ?_⟩
      · rw [upd_ne _ (Ne.symm ea), upd_ne _ (Ne.symm hqa)]; exact hs.1
      · exact (s2.cons x).trans (List.Perm.swap _ _ _)

theorem child_inv (hi : Inv K N L S C) {p c e : Nat} (hp : Node K C p) (hl : L p ≠ 0)
    (hc : 1 ≤ c ∧ c < K) (hq : C (L p + c) = 0)
    (he : e = L p ∨ (C e ≠ 0 ∧ C e ≤ K ∧ e = L p + C e)) :
    Inv K N (upd L (L p + c) 0) (upd (upd S (L p + c) (S e)) e (L p + c)) (upd C (L p + c) c) := by
  obtain ⟨k1, k2, k3⟩ := hi.linkHead hp hl
  obtain ⟨j1, j2⟩ := hi.head (L p) k1 k2
  have hb := hi.big
  have hs := hi.small
  generalize hh : L p = h at *
  have old : ∀ x, C x ≠ 0 → upd C (h + c) c x = C x := fun x hx => upd_ne _ fun e => hx (e ▸ hq)
  have oldL : ∀ x, C x ≠ 0 → upd L (h + c) 0 x = L x := fun x hx => upd_ne _ fun e => hx (e ▸ hq)
  have eh : e ≠ h + c := by
    rintro rfl
    rcases he with he | he
    · omega
    · exact he.1 hq
  refine ⟨hi.pos, hb, hs, ?_, ?_, ?_, ?_, ?_, ?_, ?_, ?_, ?_⟩
  · intro q hN; rw [upd_ne _ (by omega)]; exact hi.out q hN
  · intro q
    by_cases h1 : q = h + c
    · rw [h1, upd_same]; omega
    · rw [upd_ne _ h1]; exact hi.cat q
  · intro q h1 h2; rw [upd_ne _ (by omega)]; exact hi.root q h1 h2
  · rw [upd_ne _ (by omega)]; exact hi.zero
  · rw [upd_ne _ (by omega)]; exact hi.linkZero
  · intro q h1 h2 h3
    by_cases e1 : q = h + c
    · subst e1; rw [upd_same, Nat.add_sub_cancel, old h (by omega)]; omega
    · rw [upd_ne _ e1] at h2 h3 ⊢
      obtain ⟨a', a, b, d⟩ := hi.home q h1 h2 h3
      exact ⟨a', a, b, by rw [old _ (by omega)]; exact d⟩
  · intro g h1 h2
    by_cases e2 : g = h + c
    · subst e2; rw [upd_same] at h2; omega
    · rw [upd_ne _ e2] at h2 ⊢; exact hi.head g h1 h2
  · intro x h1 h2
    by_cases e2 : x = h + c
    · subst e2; exact absurd (upd_same _ _ _) h2
    · rw [upd_ne _ e2] at h1 h2 ⊢
      obtain ⟨a, b, d⟩ := hi.back x h1 h2
      rw [old _ a, oldL _ a, old _ h1]
      exact ⟨a, b, d⟩
  · intro g h1 h2
    by_cases e2 : g = h + c
    · subst e2; rw [upd_same] at h2; omega
    · rw [upd_ne _ e2] at h2
      obtain ⟨m, m1, m2, m3⟩ := hi.ring g h1 h2
      have hqm : h + c ∉ m := fun h => ((m3 _).mp h).1 hq
      have hg : (g :: m).Nodup := by
        refine List.nodup_cons.mpr ⟨fun h => ?_, m2⟩
        have := ((m3 _).mp h).2.1
        omega
      by_cases e1 : g = h
      · subst e1
        have hem : e = g ∨ e ∈ m := he.imp id (m3 e).mpr
        obtain ⟨m', s1, s2⟩ := seg_insert hqm m1 hem (by omega) hg
        refine ⟨m', s1, ?_, ?_⟩
        · exact s2.nodup_iff.mpr (List.nodup_cons.mpr ⟨hqm, m2⟩)
        · intro q
          rw [s2.mem_iff, List.mem_cons]
          by_cases f1 : q = g + c
          · subst f1; rw [upd_same]; omega
          · rw [upd_ne _ f1, m3 q]; omega
      · refine ⟨m, m1.mono ?_, m2, ?_⟩
        · intro x hx
          have hx0 : C x ≠ 0 := by
            rcases hx with rfl | hx
            · omega
            · exact ((m3 x).mp hx).1
          have xe : x ≠ e := by
            rintro rfl
            rcases he with he | he
            · rcases hx with rfl | hx
              · exact e1 he
              · have := ((m3 x).mp hx).2.1
                rw [he] at this; omega
            · rcases hx with rfl | hx
              · omega
              · have := ((m3 x).mp hx).2.2
                omega
          rw [upd_ne _ xe, upd_ne _ (fun e : x = h + c => hx0 (e ▸ hq))]
        · intro q
          rw [m3 q]
          by_cases f1 : q = h + c
          · subst f1; rw [upd_same, hq]; omega
          · rw [upd_ne _ f1]

theorem child_child (hi : Inv K N L S C) {p c : Nat} (hp : Node K C p) (hl : L p ≠ 0)
    (hc : 1 ≤ c ∧ c < K) (hq : C (L p + c) = 0) :
    (∀ x d, Node K C x → 1 ≤ d ∧ d < K →
      childOf (upd L (L p + c) 0) (upd C (L p + c) c) x d =
        if x = p ∧ d = c then L p + c else childOf L C x d) ∧
    (∀ d, childOf (upd L (L p + c) 0) (upd C (L p + c) c) (L p + c) d = 0) := by
  constructor
  · intro x d hx hd
    have xq : x ≠ L p + c := fun e => hx.2.1 (e ▸ hq)
    unfold childOf
    rw [upd_ne _ xq]
    by_cases lz : L x = 0
    · rw [if_pos lz, if_pos lz]
      refine (if_neg ?_).symm
      rintro ⟨rfl, -⟩
      exact hl lz
    · rw [if_neg lz, if_neg lz]
      obtain ⟨b1, b2, b3⟩ := hi.linkHead hx lz
      obtain ⟨k1, k2, k3⟩ := hi.linkHead hp hl
      by_cases f1 : L x + d = L p + c
      · rw [f1, upd_same, hq]
        by_cases e : x = p ∧ d = c
        · rw [if_pos e, if_pos e.2.symm]
        · have cd : c ≠ d := by
            intro ed
            refine e ⟨?_, ed.symm⟩
            have : L x = L p := by omega
            rw [← b3, this, k3]
          rw [if_neg e, if_neg cd, if_neg (by omega)]
      · rw [upd_ne _ f1]
        refine (if_neg ?_).symm
        rintro ⟨rfl, rfl⟩
        exact f1 rfl
  · intro d
    unfold childOf
    rw [upd_same, if_pos rfl]

/-- After the insertion of one child exactly one prefix more is found, the
others at the same slots. -/
theorem slot_insert {L' C' : Nat → Nat} (hi : Inv K N L S C) {p c q : Nat} {u : List Nat} (hu : Letters K u)
    (hp : slotOf L C u = p) (h0 : p ≠ 0) (hn : childOf L C p c = 0) (hz : L' 0 = 0)
    (h1 : ∀ x d, Node K C x → 1 ≤ d ∧ d < K →
      childOf L' C' x d = if x = p ∧ d = c then q else childOf L C x d)
    (h2 : ∀ d, childOf L' C' q d = 0) : ∀ v, Letters K v →
    slotOf L' C' v = if v = c :: u then q else slotOf L C v := by
  have hu0 : u ≠ [] := by rintro rfl; rw [slotOf] at hp; exact h0 hp.symm
  have hold : slotOf L C (c :: u) = 0 := by
    cases u with
    | nil => exact absurd rfl hu0
    | cons d u => rw [slotOf, hp]; exact hn
  intro v
  induction v with
  | nil => intro _; rw [slotOf, slotOf, if_neg (by simp)]
  | cons d v ih =>
    intro hv
    cases v with
    | nil =>
      rw [slotOf, slotOf, if_neg]
      intro e
      exact hu0 (List.cons.inj e).2.symm
    | cons e v =>
      have hv' : Letters K (e :: v) := fun x hx => hv x (List.mem_cons_of_mem _ hx)
      rw [slotOf, ih hv']
      by_cases f : e :: v = c :: u
      · rw [if_pos f, h2, slotOf, f, hold, childOf_zero hi]
        refine (if_neg fun g => ?_).symm
        have := congrArg List.length g
        simp at this
      · rw [if_neg f, slotOf]
        by_cases x0 : slotOf L C (e :: v) = 0
        · rw [x0, childOf_zero hi]
          unfold childOf
          rw [if_pos hz]
          refine (if_neg fun g => ?_).symm
          have := (List.cons.inj g).2
          rw [this, hp] at x0; exact h0 x0
        · rw [h1 _ d (slot_node hi hv' x0) (hv d List.mem_cons_self)]
          by_cases g : slotOf L C (e :: v) = p ∧ d = c
          · rw [if_pos g, if_pos]
            rw [g.2, slot_inj hi hv' hu x0 (by rw [g.1, hp])]
          · rw [if_neg g, if_neg]
            intro k
            obtain ⟨k1, k2⟩ := List.cons.inj k
            exact g ⟨by rw [k2]; exact hp, k1⟩

/-! ### A family moves -/

/-- Where a slot goes when the slots `D` move by `δ` -/
def shift (D : List Nat) (δ y : Nat) : Nat := if y ∈ D then (y + δ) % 256 else y

/-- The tables after the slots `D` have been moved by `δ` -/
structure Moved (D : List Nat) (δ : Nat) (L S C L' S' C' : Nat → Nat) : Prop where
  ch : ∀ x, C x ≠ 0 → C' (shift D δ x) = C x
  occ : ∀ y, C' y ≠ 0 → ∃ x, C x ≠ 0 ∧ shift D δ x = y
  link : ∀ x, C x ≠ 0 → L' (shift D δ x) = shift D δ (L x)
  sib : ∀ x ∈ D, S' ((x + δ) % 256) = (S x + δ) % 256
  rest : ∀ y, C y ≠ 0 → S' y = S y

theorem moved_nil (δ : Nat) (L S C : Nat → Nat) : Moved [] δ L S C L S C := by
  constructor
  · intro x _; simp [shift]
  · intro y hy; exact ⟨y, hy, by simp [shift]⟩
  · intro x _; simp [shift]
  · intro x hx; cases hx
  · intro y _; rfl

theorem Inv.lt (hi : Inv K N L S C) {x : Nat} (hx : C x ≠ 0) : x < 256 := by
  refine Classical.byContradiction fun h => hx (hi.out x ?_)
  have := hi.small
  omega

theorem shift_inj (hi : Inv K N L S C) {D : List Nat} {δ : Nat}
    (hD : ∀ x ∈ D, C x ≠ 0 ∧ C ((x + δ) % 256) = 0) {x y : Nat} (hx : C x ≠ 0) (hy : C y ≠ 0)
    (he : shift D δ x = shift D δ y) : x = y := by
  unfold shift at he
  have lx := hi.lt hx
  have ly := hi.lt hy
  by_cases a : x ∈ D
  · rw [if_pos a] at he
    by_cases b : y ∈ D
    · rw [if_pos b] at he; omega
    · rw [if_neg b] at he
      have := (hD x a).2
      rw [he] at this; exact absurd this hy
  · rw [if_neg a] at he
    by_cases b : y ∈ D
    · rw [if_pos b] at he
      have := (hD y b).2
      rw [← he] at this; exact absurd this hx
    · rw [if_neg b] at he; exact he

/-- The step of the loop over the family. -/
theorem moved_step {L' S' C' : Nat → Nat} (hi : Inv K N L S C) {D : List Nat} {δ r : Nat}
    (hD : ∀ x ∈ r :: D, C x ≠ 0 ∧ C ((x + δ) % 256) = 0) (h0 : 0 ∉ r :: D) (hr : r ∉ D)
    (hm : Moved D δ L S C L' S' C') :
    Moved (r :: D) δ L S C
      (if L' r ≠ 0 then upd (upd L' ((r + δ) % 256) (L' r)) (L' r) ((r + δ) % 256)
        else upd L' ((r + δ) % 256) (L' r))
      (upd S' ((r + δ) % 256) ((S' r + δ) % 256))
      (upd (upd C' ((r + δ) % 256) (C' r)) r 0) := by
  have hD' : ∀ x ∈ D, C x ≠ 0 ∧ C ((x + δ) % 256) = 0 := fun x hx => hD x (List.mem_cons_of_mem _ hx)
  obtain ⟨r0, rd⟩ := hD r List.mem_cons_self
  have sr : shift D δ r = r := by unfold shift; rw [if_neg hr]
  have sr' : shift (r :: D) δ r = (r + δ) % 256 := by unfold shift; rw [if_pos List.mem_cons_self]
  have sx : ∀ x, x ≠ r → shift (r :: D) δ x = shift D δ x := by
    intro x hx
    unfold shift
    by_cases h : x ∈ D
    · rw [if_pos h, if_pos (List.mem_cons_of_mem _ h)]
    · rw [if_neg h, if_neg]
      intro h2
      rcases List.mem_cons.mp h2 with h2 | h2
      · exact hx h2
      · exact h h2
  have rnd : r ≠ (r + δ) % 256 := by intro e; rw [← e] at rd; exact r0 rd
  -- the target is free
  have free : ∀ x, C x ≠ 0 → shift D δ x ≠ (r + δ) % 256 := by
    intro x hx e
    unfold shift at e
    by_cases h : x ∈ D
    · rw [if_pos h] at e
      have a := hi.lt hx
      have b := hi.lt r0
      have : x = r := by omega
      exact hr (this ▸ h)
    · rw [if_neg h] at e
      rw [← e] at rd; exact hx rd
  have lr : L' r = shift D δ (L r) := by have := hm.link r r0; rw [sr] at this; exact this
  have cr : C' r = C r := by have := hm.ch r r0; rw [sr] at this; exact this
  have s0 : ∀ x, shift D δ x = 0 → x = 0 := by
    intro x hx
    unfold shift at hx
    by_cases h : x ∈ D
    · rw [if_pos h] at hx
      have := (hD' x h).2
      rw [hx, hi.zero] at this; omega
    · rw [if_neg h] at hx; exact hx
  constructor
  · intro x hx
    by_cases e : x = r
    · subst e
      rw [sr', upd_ne _ rnd.symm, upd_same, cr]
    · rw [sx x e, upd_ne, upd_ne _ (free x hx)]
      · exact hm.ch x hx
      · intro h
        exact e (shift_inj hi hD' hx r0 (by rw [h, sr]))
  · intro y hy
    by_cases e : y = r
    · rw [e, upd_same] at hy; exact absurd rfl hy
    · rw [upd_ne _ e] at hy
      by_cases f : y = (r + δ) % 256
      · exact ⟨r, r0, by rw [sr', f]⟩
      · rw [upd_ne _ f] at hy
        obtain ⟨x, h1, h2⟩ := hm.occ y hy
        refine ⟨x, h1, ?_⟩
        rw [sx x]
        · exact h2
        · rintro rfl; exact e (by rw [← h2, sr])
  · intro x hx
    have z : shift D δ 0 = 0 := by
      unfold shift
      exact if_neg fun h => h0 (List.mem_cons_of_mem _ h)
    have z0 : (0 : Nat) ≠ r := fun e => h0 (e ▸ List.mem_cons_self)
    by_cases e : x = r
    · subst e
      rw [sr']
      by_cases l0 : L' x = 0
      · rw [if_neg (by simp [l0]), upd_same, l0]
        rw [lr] at l0
        rw [s0 _ l0, sx 0 z0, z]
      · rw [if_pos l0]
        have lx : L x ≠ 0 := by intro h; rw [lr, h, z] at l0; exact l0 rfl
        obtain ⟨k1, k2, k3⟩ := hi.back x r0 lx
        have lne : L x ≠ x := by intro h; rw [h] at k3; exact absurd k3 (by intro k; by_cases hh : C x = K + 1; exact k.mp hh hh; exact hh (k.mpr hh))
        rw [upd_ne, upd_same, lr, sx _ lne]
        rw [lr]; exact (free _ k1).symm
    · rw [sx x e]
      by_cases lx : L x = r
      · have : L x ≠ 0 := fun h => z0 (by rw [← lx, h])
        obtain ⟨k1, k2, k3⟩ := hi.back x hx this
        rw [lx] at k2
        have x0 : x ≠ 0 := by rintro rfl; rw [hi.linkZero] at lx; exact z0 lx
        have ll : L' r = shift D δ x := by rw [lr, k2]
        have lnz : L' r ≠ 0 := by rw [ll]; exact fun h => x0 (s0 x h)
        rw [if_pos lnz, ll, upd_same, lx, sr']
      · have key : shift D δ x ≠ L' r ∨ L' r = 0 := by
          by_cases l0 : L' r = 0
          · exact Or.inr l0
          · left
            intro h
            rw [lr] at h
            have lx' : L r ≠ 0 := by intro h; rw [lr, h, z] at l0; exact l0 rfl
            obtain ⟨k1, k2, k3⟩ := hi.back r r0 lx'
            have := shift_inj hi hD' hx k1 h
            rw [this] at lx; exact lx k2
        rw [sx _ lx]
        by_cases l0 : L' r = 0
        · rw [if_neg (by simp [l0]), upd_ne _ (free x hx)]; exact hm.link x hx
        · rw [if_pos l0, upd_ne _ (key.resolve_right l0), upd_ne _ (free x hx)]; exact hm.link x hx
  · intro x hx
    rcases List.mem_cons.mp hx with rfl | hx
    · rw [upd_same, hm.rest x r0]
    · rw [upd_ne, hm.sib x hx]
      have a := hi.lt (hD' x hx).1
      have b := hi.lt r0
      intro h
      have : x = r := by omega
      exact hr (this ▸ hx)
  · intro y hy
    rw [upd_ne, hm.rest y hy]
    intro e; rw [← e] at rd; exact hy rd

theorem seg_shift {S' : Nat → Nat} {D : List Nat} {δ : Nat}
    (hs : ∀ x ∈ D, S' (shift D δ x) = shift D δ (S x)) : ∀ {m : List Nat} {a b : Nat}, Seg S a m b → a ∈ D →
    (∀ x ∈ m, x ∈ D) → Seg S' (shift D δ a) (m.map (shift D δ)) (shift D δ b)
  | [], a, b, h, ha, _ => by
    rw [Seg] at h
    show S' _ = _
    rw [hs a ha, h]
  | x :: m, a, b, h, ha, hm => by
    rw [Seg] at h
    refine ⟨?_, seg_shift hs h.2 (hm x List.mem_cons_self) fun y hy => hm y (List.mem_cons_of_mem _ hy)⟩
    rw [hs a ha, h.1]

/-- The members of the family of the header `h` -/
def Family (K : Nat) (C : Nat → Nat) (h : Nat) (D : List Nat) : Prop :=
  ∀ x, x ∈ D ↔ x = h ∨ (C x ≠ 0 ∧ C x ≤ K ∧ x = h + C x)

theorem shift_family (hi : Inv K N L S C) {D : List Nat} {h h' : Nat} (hk : K < h) (hc : C h = K + 1)
    (hf : Family K C h D) (hh : K < h' ∧ h' ≤ N - K) :
    ∀ x ∈ D, shift D ((h' + 256 - h) % 256) x = h' + (x - h) ∧ x - h < K ∧ h ≤ x := by
  intro x hx
  have hb := hi.big
  have hs := hi.small
  have := (hi.head h hk hc).1
  unfold shift
  rw [if_pos hx]
  rcases (hf x).mp hx with rfl | ⟨a, b, d⟩
  · have := hi.pos
    omega
  · have := hi.home x (by omega) a b
    omega

theorem moved_shape (hi : Inv K N L S C) {D : List Nat} {h h' : Nat} {L' S' C' : Nat → Nat}
    (hk : K < h) (hc : C h = K + 1) (hf : Family K C h D) (hh : K < h' ∧ h' ≤ N - K)
    (hm : Moved D ((h' + 256 - h) % 256) L S C L' S' C')
    (hD : ∀ x ∈ D, C ((x + (h' + 256 - h) % 256) % 256) = 0) :
    Inv K N L' S' C' ∧
    (∀ x d, Node K C x → 1 ≤ d ∧ d < K →
      childOf L' C' (shift D ((h' + 256 - h) % 256) x) d = shift D ((h' + 256 - h) % 256) (childOf L C x d)) := by
  have sD := shift_family hi hk hc hf hh
  generalize hδ : (h' + 256 - h) % 256 = δ at *
  have hb := hi.big
  have hs := hi.small
  have dh : h ∈ D := (hf h).mpr (Or.inl rfl)
  have occD : ∀ x ∈ D, C x ≠ 0 := by
    intro x hx
    rcases (hf x).mp hx with rfl | h
    · omega
    · exact h.1
  have emp : ∀ x ∈ D, C (shift D δ x) = 0 := by
    intro x hx
    have := hD x hx
    unfold shift
    rw [if_pos hx]; exact this
  have sh : shift D δ h = h' := by rw [(sD h dh).1]; omega
  have eh' : C h' = 0 := by rw [← sh]; exact emp h dh
  have sN : ∀ x, x ∉ D → shift D δ x = x := fun x hx => if_neg hx
  have dK : ∀ x ∈ D, K < x := fun x hx => by have := (sD x hx).2.2; omega
  have inj : ∀ x y, C x ≠ 0 → C y ≠ 0 → shift D δ x = shift D δ y → x = y := fun x y hx hy he =>
    shift_inj hi (fun z hz => ⟨occD z hz, hD z hz⟩) hx hy he
  have s0 : ∀ x, shift D δ x = 0 ↔ x = 0 := by
    intro x
    by_cases hx : x ∈ D
    · have h1 := (sD x hx).1
      have h2 := dK x hx
      omega
    · rw [sN x hx]
  have headD : ∀ x, C x = K + 1 → x ∈ D → x = h := by
    intro x hx hd
    rcases (hf x).mp hd with h | h
    · exact h
    · omega
  have c0 : C 0 ≠ 0 := by rw [hi.zero]; omega
  have z : shift D δ 0 = 0 := (s0 0).mpr rfl
  have inv : Inv K N L' S' C' := by
    refine ⟨hi.pos, hb, hs, ?_, ?_, ?_, ?_, ?_, ?_, ?_, ?_, ?_⟩
    · intro q hq
      refine Classical.byContradiction fun hn => ?_
      obtain ⟨x, h1, h2⟩ := hm.occ q hn
      by_cases hx : x ∈ D
      · have := sD x hx
        omega
      · rw [sN x hx] at h2
        subst h2
        exact h1 (hi.out x hq)
    · intro q
      by_cases hn : C' q = 0
      · omega
      · obtain ⟨x, h1, h2⟩ := hm.occ q hn
        rw [← h2, hm.ch x h1]; exact hi.cat x
    · intro q h1 h2
      have r := hi.root q h1 h2
      have := hm.ch q (by omega)
      rw [sN q (fun hd => by have := dK q hd; omega)] at this
      rw [this, r]
    · have := hm.ch 0 c0
      rw [z] at this
      rw [this]; exact hi.zero
    · have := hm.link 0 c0
      rw [z, hi.linkZero, z] at this
      exact this
    · intro q h1 h2 h3
      obtain ⟨x, x1, x2⟩ := hm.occ q h2
      have x3 := hm.ch x x1
      rw [x2] at x3
      rw [x3] at h3 ⊢
      by_cases hx : x ∈ D
      · have a := sD x hx
        rcases (hf x).mp hx with rfl | ⟨b1, b2, b3⟩
        · omega
        · have e : q - C x = h' := by omega
          have := hm.ch h (by omega)
          rw [sh] at this
          rw [e, this, hc]
          omega
      · rw [sN x hx] at x2
        subst x2
        obtain ⟨a1, a2, a3, a4⟩ := hi.home x h1 x1 h3
        refine ⟨a1, a2, a3, ?_⟩
        have := hm.ch (x - C x) (by omega)
        rw [sN] at this
        · rw [this, a4]
        · intro hd
          have := headD _ a4 hd
          exact hx ((hf x).mpr (Or.inr ⟨x1, h3, by omega⟩))
    · intro g h1 h2
      obtain ⟨x, x1, x2⟩ := hm.occ g (by omega)
      have x3 := hm.ch x x1
      rw [x2, h2] at x3
      have x4 := hm.link x x1
      rw [x2] at x4
      by_cases hx : x ∈ D
      · have e := headD x x3.symm hx
        subst e
        rw [sh] at x2
        have := (hi.head x (dK x hx) x3.symm).2
        refine ⟨by omega, ?_⟩
        rw [x4]; exact fun h => this ((s0 _).mp h)
      · rw [sN x hx] at x2
        subst x2
        obtain ⟨a, b⟩ := hi.head x h1 x3.symm
        refine ⟨a, ?_⟩
        rw [x4]; exact fun h => b ((s0 _).mp h)
    · intro y h1 h2
      obtain ⟨x, x1, x2⟩ := hm.occ y h1
      have x3 := hm.ch x x1
      have x4 := hm.link x x1
      subst x2
      rw [x4] at h2 ⊢
      have lx : L x ≠ 0 := fun h => h2 ((s0 _).mpr h)
      obtain ⟨a, b, d⟩ := hi.back x x1 lx
      rw [hm.ch _ a, hm.link _ a, b, x3]
      exact ⟨a, rfl, d⟩
    · intro g h1 h2
      obtain ⟨x, x1, x2⟩ := hm.occ g (by omega)
      have x3 := hm.ch x x1
      rw [x2, h2] at x3
      by_cases hx : x ∈ D
      · have e := headD x x3.symm hx
        subst e
        obtain ⟨m, m1, m2, m3⟩ := hi.ring x (dK x hx) x3.symm
        have mD : ∀ y ∈ m, y ∈ D := fun y hy => (hf y).mpr (Or.inr ((m3 y).mp hy))
        have sib : ∀ y ∈ D, S' (shift D δ y) = shift D δ (S y) := by
          intro y hy
          have e1 : shift D δ y = (y + δ) % 256 := if_pos hy
          rw [e1, hm.sib y hy]
          have : S y ∈ D := by
            have key : ∀ {l : List Nat} {a b : Nat}, Seg S a l b → (y = a ∨ y ∈ l) → S y ∈ l ∨ S y = b := by
              intro l
              induction l with
              | nil =>
                intro a b hs hy
                rw [Seg] at hs
                rcases hy with rfl | hy
                · exact Or.inr hs
                · cases hy
              | cons w l ih =>
                intro a b hs hy
                rw [Seg] at hs
                by_cases ya : y = a
                · subst ya; left; rw [hs.1]; exact List.mem_cons_self
                · have : y = w ∨ y ∈ l := by
                    rcases hy with h | h
                    · exact absurd h ya
                    · exact List.mem_cons.mp h
                  rcases ih hs.2 this with h | h
                  · exact Or.inl (List.mem_cons_of_mem _ h)
                  · exact Or.inr h
            have hy' : y = x ∨ y ∈ m := ((hf y).mp hy).imp id (m3 y).mpr
            rcases key m1 hy' with h | h
            · exact mD _ h
            · rw [h]; exact hx
          exact (if_pos this).symm
        have sg := seg_shift sib m1 hx mD
        rw [x2] at sg
        refine ⟨_, sg, ?_, ?_⟩
        · unfold List.Nodup at m2 ⊢
          rw [List.pairwise_map]
          refine m2.imp_of_mem ?_
          intro a b ha hb hab he
          exact hab (inj a b ((m3 a).mp ha).1 ((m3 b).mp hb).1 he)
        · have gh : g = h' := by rw [← x2, sh]
          intro q
          rw [List.mem_map]
          constructor
          · rintro ⟨y, y1, rfl⟩
            obtain ⟨a1, a2, a3⟩ := (m3 y).mp y1
            rw [hm.ch y a1]
            have := (sD y (mD y y1)).1
            refine ⟨a1, a2, by omega⟩
          · rintro ⟨a1, a2, a3⟩
            obtain ⟨y, y1, y2⟩ := hm.occ q a1
            have y3 := hm.ch y y1
            rw [y2] at y3
            rw [y3] at a2 a3
            refine ⟨y, (m3 y).mpr ⟨y1, a2, ?_⟩, y2⟩
            by_cases hy : y ∈ D
            · rcases (hf y).mp hy with h | h
              · rw [h] at a2; omega
              · exact h.2.2
            · rw [sN y hy] at y2
              subst y2
              obtain ⟨b1, b2, b3, b4⟩ := hi.home y (by omega) y1 a2
              have e : y - C y = h' := by omega
              rw [e, eh'] at b4; omega
      · rw [sN x hx] at x2
        subst x2
        obtain ⟨m, m1, m2, m3⟩ := hi.ring x h1 x3.symm
        refine ⟨m, m1.mono ?_, m2, ?_⟩
        · intro y hy
          refine hm.rest y ?_
          rcases hy with rfl | hy
          · exact x1
          · exact ((m3 y).mp hy).1
        · intro q
          rw [m3 q]
          constructor
          · rintro ⟨a1, a2, a3⟩
            have qD : q ∉ D := by
              intro hq
              rcases (hf q).mp hq with k | k
              · rw [k] at a2; omega
              · have : x = h := by omega
                exact hx (this ▸ dh)
            have := hm.ch q a1
            rw [sN q qD] at this
            rw [this]; exact ⟨a1, a2, a3⟩
          · rintro ⟨a1, a2, a3⟩
            obtain ⟨y, y1, y2⟩ := hm.occ q a1
            have y3 := hm.ch y y1
            rw [y2] at y3
            by_cases hy : y ∈ D
            · rcases (hf y).mp hy with h | h
              · rw [h] at y3; omega
              · have := (sD y hy).1
                have e : x = h' := by omega
                rw [e] at x1; exact absurd eh' x1
            · rw [sN y hy] at y2
              subst y2
              rw [y3] at a2 a3
              exact ⟨y1, a2, a3⟩
  refine ⟨inv, ?_⟩
  intro x d hx hd
  unfold childOf
  rw [hm.link x hx.2.1]
  by_cases lx : L x = 0
  · rw [lx, z, if_pos rfl, if_pos rfl, z]
  · have lx' : shift D δ (L x) ≠ 0 := fun h => lx ((s0 _).mp h)
    rw [if_neg lx', if_neg lx]
    obtain ⟨k1, k2, k3⟩ := hi.linkHead hx lx
    by_cases e : L x = h
    · rw [e, sh]
      by_cases f : C (h + d) = d
      · have fD : h + d ∈ D := (hf _).mpr (Or.inr ⟨by omega, by omega, by omega⟩)
        have s := (sD _ fD).1
        have := hm.ch (h + d) (by omega)
        have e2 : shift D δ (h + d) = h' + d := by omega
        rw [e2, f] at this
        rw [if_pos this, if_pos f, e2]
      · rw [if_neg f, z]
        refine if_neg fun g => f ?_
        obtain ⟨y, y1, y2⟩ := hm.occ (h' + d) (by omega)
        have y3 := hm.ch y y1
        rw [y2, g] at y3
        by_cases hy : y ∈ D
        · have := (sD y hy)
          have : y = h + d := by omega
          rw [← this]; exact y3.symm
        · rw [sN y hy] at y2
          obtain ⟨b1, b2, b3, b4⟩ := hi.home y (by omega) y1 (by omega)
          have e : y - C y = h' := by omega
          rw [e, eh'] at b4; omega
    · have lD : L x ∉ D := fun h => e (headD _ k2 h)
      rw [sN _ lD]
      by_cases f : C (L x + d) = d
      · have fD : L x + d ∉ D := by
          intro hd'
          rcases (hf _).mp hd' with h | h
          · rw [h] at f; omega
          · omega
        have := hm.ch (L x + d) (by omega)
        rw [sN _ fD, f] at this
        rw [if_pos this, if_pos f, sN _ fD]
      · rw [if_neg f, z]
        refine if_neg fun g => f ?_
        obtain ⟨y, y1, y2⟩ := hm.occ (L x + d) (by omega)
        have y3 := hm.ch y y1
        rw [y2, g] at y3
        by_cases hy : y ∈ D
        · exfalso
          have := sD y hy
          rcases (hf y).mp hy with h | h
          · rw [h] at y3; omega
          · have : L x = h' := by omega
            rw [this, eh'] at k2; omega
        · rw [sN y hy] at y2
          rw [← y2]; exact y3.symm

/-- A move changes the slots of the prefixes, not the prefixes. -/
theorem slot_move {L' C' : Nat → Nat} {σ : Nat → Nat} (hi : Inv K N L S C) (z : σ 0 = 0)
    (hz : L' 0 = 0) (hr : ∀ x, x ≤ K → σ x = x)
    (hm : ∀ x d, Node K C x → 1 ≤ d ∧ d < K → childOf L' C' (σ x) d = σ (childOf L C x d)) :
    ∀ v, Letters K v → slotOf L' C' v = σ (slotOf L C v) := by
  intro v
  induction v with
  | nil => intro _; rw [slotOf, slotOf, z]
  | cons d v ih =>
    intro hv
    have hd := hv d List.mem_cons_self
    cases v with
    | nil => rw [slotOf, slotOf, hr d (by omega)]
    | cons e v =>
      have hv' : Letters K (e :: v) := fun x hx => hv x (List.mem_cons_of_mem _ hx)
      rw [slotOf, slotOf, ih hv']
      by_cases x0 : slotOf L C (e :: v) = 0
      · rw [x0, z, childOf_zero hi, z]
        unfold childOf
        rw [if_pos hz]
      · exact hm _ d (slot_node hi hv' x0) hd

end Uax.Bidi
