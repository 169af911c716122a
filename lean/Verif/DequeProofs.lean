import Verif.SpecDeque

/-! Helper lemmas: the ring buffer refines the list. -/

namespace Uax
namespace Deque

/-- The list represented by a ring buffer. -/
def abs (q : Deque) : List Atom :=
  (List.range q.count).map fun i => (q.buf[(q.head + i) % q.buf.length]?).getD Atom.zero

/-- Representation invariant for an allocated buffer. -/
structure Good (q : Deque) : Prop where
  pow : ∃ k, q.buf.length = 2 ^ k
  cap : 64 ≤ q.buf.length
  hd : q.head < q.buf.length
  cnt : q.count ≤ q.buf.length
  tl : q.tail = (q.head + q.count) % q.buf.length

/-- Representation invariant, including the never-used queue. -/
def Inv (q : Deque) : Prop := q = Deque.empty ∨ q.Good

theorem mask_nat (i k : Nat) : mask (i : Int) (2 ^ k) = ((i % 2 ^ k : Nat) : Int) := by
  have h : (2 ^ k : Nat) ≠ 0 := by have := Nat.two_pow_pos k; omega
  unfold mask
  rw [if_neg h, if_pos (by omega)]
  rw [Int.toNat_natCast, Nat.and_two_pow_sub_one_eq_mod]

theorem mask_neg1 (k : Nat) : mask (-1) (2 ^ k) = ((2 ^ k - 1 : Nat) : Int) := by
  have h : (2 ^ k : Nat) ≠ 0 := by have := Nat.two_pow_pos k; omega
  unfold mask
  rw [if_neg h, if_neg (by omega)]
  simp

theorem mask_neg (x k : Nat) : mask (-(x : Int) - 1) (2 ^ k) = ((2 ^ k - 1 - x % 2 ^ k : Nat) : Int) := by
  have h : (2 ^ k : Nat) ≠ 0 := by have := Nat.two_pow_pos k; omega
  unfold mask
  rw [if_neg h, if_neg (by omega)]
  have : (-(-(x : Int) - 1) - 1) = (x : Int) := by omega
  rw [this, Int.toNat_natCast, Nat.and_two_pow_sub_one_eq_mod]

theorem wrap {a b n : Nat} (ha : a < n) (hb : b ≤ n) :
    (a + b) % n = if a + b < n then a + b else a + b - n := by
  split
  · next h => exact Nat.mod_eq_of_lt h
  · next h =>
    rw [Nat.mod_eq_sub_mod (by omega)]
    exact Nat.mod_eq_of_lt (by omega)

theorem mask_emod (i : Int) (k : Nat) : mask i (2 ^ k) = i % ((2 ^ k : Nat) : Int) := by
  have hpos : 0 < 2 ^ k := Nat.two_pow_pos k
  rcases (by omega : i < 0 ∨ 0 ≤ i) with h | h
  · obtain ⟨x, rfl⟩ : ∃ x : Nat, i = -(x : Int) - 1 := ⟨(-i - 1).toNat, by omega⟩
    rw [mask_neg]
    have hx : x % 2 ^ k < 2 ^ k := Nat.mod_lt _ hpos
    have hd := Nat.div_add_mod x (2 ^ k)
    generalize 2 ^ k = n at *
    generalize hm : x % n = m at *
    generalize hdd : x / n = d at *
    have : (-(x : Int) - 1) = ((n - 1 - m : Nat) : Int) + (n : Int) * (-(d : Int) - 1) := by
      have e : ((n - 1 - m : Nat) : Int) = (n : Int) - 1 - m := by omega
      rw [e, Int.mul_sub, Int.mul_neg, ← hd]
      push_cast
      omega
    rw [this, Int.add_mul_emod_self_left]
    rw [Int.emod_eq_of_lt (by omega) (by omega)]
  · obtain ⟨x, rfl⟩ : ∃ x : Nat, i = (x : Int) := ⟨i.toNat, by omega⟩
    rw [mask_nat]; simp

theorem length_abs (q : Deque) : q.abs.length = q.count := by simp [abs]

theorem abs_get {q : Deque} (g : q.Good) {i : Nat} (hi : i < q.count) :
    q.abs[i]? = q.buf[(q.head + i) % q.buf.length]? := by
  have h0 : 0 < q.buf.length := by have := g.cap; omega
  have : (q.head + i) % q.buf.length < q.buf.length := Nat.mod_lt _ h0
  simp [abs, hi, this]

theorem abs_get_none {q : Deque} {i : Nat} (hi : q.count ≤ i) : q.abs[i]? = none := by
  simp [abs]; omega

theorem abs_empty : Deque.empty.abs = [] := by simp [abs, Deque.empty]

theorem next_eq {q : Deque} (g : q.Good) {i : Nat} (hi : i < q.buf.length) :
    q.next i = (i + 1) % q.buf.length := by
  obtain ⟨k, hk⟩ := g.pow
  unfold next
  rw [hk]
  have : ((i : Int) + 1) = ((i + 1 : Nat) : Int) := by omega
  rw [this, mask_nat, Int.toNat_natCast]

theorem prev_eq' {n k : Nat} (hk : n = 2 ^ k) {i : Nat} (hi : i < n) :
    (mask ((i : Int) - 1) n).toNat = if i = 0 then n - 1 else i - 1 := by
  subst hk
  split
  · next h => subst h; rw [show ((0 : Nat) : Int) - 1 = -1 by omega, mask_neg1]; simp
  · next h =>
    rw [show ((i : Int) - 1) = ((i - 1 : Nat) : Int) by omega, mask_nat]
    rw [Int.toNat_natCast, Nat.mod_eq_of_lt (by omega)]

theorem prev_eq {q : Deque} (g : q.Good) {i : Nat} (hi : i < q.buf.length) :
    q.prev i = if i = 0 then q.buf.length - 1 else i - 1 := by
  obtain ⟨k, hk⟩ := g.pow
  exact prev_eq' hk hi

theorem next_lt {n k : Nat} (hk : n = 2 ^ k) {i : Nat} (hi : i < n) :
    (mask ((i : Int) + 1) n).toNat = if i + 1 < n then i + 1 else 0 := by
  subst hk
  rw [show ((i : Int) + 1) = ((i + 1 : Nat) : Int) by omega, mask_nat]
  have := wrap (n := 2 ^ k) (a := i) (b := 1) hi (by omega)
  simp only [Int.toNat_natCast, this]
  split <;> omega

theorem rd_nat (buf : List Atom) (i : Nat) : rd buf (i : Int) = buf[i]? := by
  simp [rd]

theorem wr_nat {buf : List Atom} {i : Nat} (h : i < buf.length) (a : Atom) :
    wr buf (i : Int) a = some (buf.set i a) := by
  simp [wr, h]

theorem tail_lt {q : Deque} (g : q.Good) : q.tail < q.buf.length := by
  rw [g.tl]; exact Nat.mod_lt _ (by have := g.cap; omega)

theorem tail_eq {q : Deque} (g : q.Good) :
    q.tail = if q.head + q.count < q.buf.length then q.head + q.count
      else q.head + q.count - q.buf.length := by
  rw [g.tl, wrap g.hd g.cnt]

/-- Two lists are equal if they have the same length and the same elements. -/
theorem abs_ext {q : Deque} (g : q.Good) {l : List Atom} (hl : l.length = q.count)
    (h : ∀ i, i < q.count → q.buf[(q.head + i) % q.buf.length]? = l[i]?) : q.abs = l := by
  apply List.ext_getElem?
  intro i
  by_cases hi : i < q.count
  · rw [abs_get g hi, h i hi]
  · rw [abs_get_none (by omega), List.getElem?_eq_none (by omega)]

/-! ### Resizing -/

theorem length_goCopy (dst : List Atom) (off : Nat) (src : List Atom) (h : off ≤ dst.length) :
    (goCopy dst off src).length = dst.length := by
  simp [goCopy]; omega

theorem getElem?_goCopy (dst : List Atom) (off : Nat) (src : List Atom) (i : Nat)
    (h : off ≤ dst.length) :
    (goCopy dst off src)[i]? =
      if off ≤ i ∧ i < off + src.length ∧ i < dst.length then src[i - off]? else dst[i]? := by
  unfold goCopy
  simp only [List.append_assoc]
  rw [List.getElem?_append]
  simp only [List.length_take]
  by_cases h1 : i < off
  · rw [if_pos (by omega), if_neg (by omega), List.getElem?_take_of_lt h1]
  · rw [if_neg (by omega), List.getElem?_append]
    simp only [List.length_take]
    have e : min off dst.length = off := by omega
    rw [e]
    by_cases h2 : i < off + src.length ∧ i < dst.length
    · rw [if_pos (by omega), if_pos (by omega), List.getElem?_take_of_lt (by omega)]
    · rw [if_neg (by omega), if_neg (by omega), List.getElem?_drop]
      congr 1; omega

theorem resize_spec {q : Deque} (g : q.Good) (hc : 64 ≤ 2 * q.count)
    (hp : ∃ k, 2 * q.count = 2 ^ k) : q.resize.Good ∧ q.resize.abs = q.abs := by
  have hcap := g.cap
  have ht := tail_eq g
  have hcnt := g.cnt
  have hhd := g.hd
  have hlen : q.resize.buf.length = 2 * q.count := by
    unfold resize
    simp only
    split
    · rw [length_goCopy _ _ _ (by omega)]; simp [Nat.shiftLeft_eq]; omega
    · rw [length_goCopy]
      · rw [length_goCopy _ _ _ (by omega)]; simp [Nat.shiftLeft_eq]; omega
      · rw [length_goCopy _ _ _ (by omega)]; omega
  have hG : q.resize.Good := by
    refine ⟨?_, ?_, ?_, ?_, ?_⟩
    · rw [hlen]; exact hp
    · omega
    · rw [hlen]; show 0 < _; omega
    · rw [hlen]; show q.count ≤ _; omega
    · rw [hlen]; show q.count = (0 + q.count) % _
      rw [Nat.mod_eq_of_lt (by omega)]; omega
  refine ⟨hG, ?_⟩
  apply abs_ext hG (by rw [length_abs]; rfl)
  intro i hi
  have hi' : i < q.count := hi
  rw [abs_get g hi']
  have h0 : q.resize.head = 0 := rfl
  rw [hlen, h0, Nat.mod_eq_of_lt (by omega), Nat.zero_add]
  rw [wrap hhd (by omega)]
  unfold resize
  simp only
  split
  · next hgt =>
    rw [getElem?_goCopy _ _ _ _ (by omega)]
    have e : ¬ (q.head + q.count ≥ q.buf.length ∧ q.count ≠ 0) ∨ q.head + q.count - q.buf.length > q.head := by
      by_cases h : q.head + q.count < q.buf.length
      · left; omega
      · rw [if_neg h] at ht; right; omega
    have e2 : q.head + q.count < q.buf.length := by omega
    rw [if_pos e2] at ht
    rw [if_pos (by simp [Nat.shiftLeft_eq]; omega)]
    rw [if_pos (by omega)]
    rw [List.getElem?_take_of_lt (by omega), List.getElem?_drop]
    congr 1
  · next hle =>
    have e2 : ¬ q.head + q.count < q.buf.length := by
      intro h; rw [if_pos h] at ht; omega
    rw [if_neg e2] at ht
    have hm : min (List.replicate (q.count <<< 1) Atom.zero).length (q.buf.drop q.head).length
        = q.buf.length - q.head := by
      simp [Nat.shiftLeft_eq]; omega
    rw [hm, getElem?_goCopy]
    · rw [length_goCopy _ _ _ (by omega)]
      simp only [List.length_take, List.length_replicate, Nat.shiftLeft_eq]
      by_cases h1 : q.head + i < q.buf.length
      · rw [if_neg (by omega), if_pos h1, getElem?_goCopy _ _ _ _ (by omega)]
        rw [if_pos (by simp; omega), List.getElem?_drop]
        congr 1
      · rw [if_pos (by omega), if_neg h1, List.getElem?_take_of_lt (by omega)]
        congr 1; omega
    · rw [length_goCopy _ _ _ (by omega)]; simp [Nat.shiftLeft_eq]; omega

theorem pow_half {n k : Nat} (h : n = 2 ^ k) (h64 : 64 < n) : ∃ j, n / 2 = 2 ^ j := by
  cases k with
  | zero => simp at h; omega
  | succ k => exact ⟨k, by rw [h, Nat.pow_succ]; omega⟩

theorem shrink_spec {q : Deque} (g : q.Good) :
    q.shrinkIfExcess.Good ∧ q.shrinkIfExcess.abs = q.abs := by
  unfold shrinkIfExcess
  split
  · next h =>
    obtain ⟨h1, h2⟩ := h
    rw [Nat.shiftLeft_eq] at h2
    have hmin : minCapacity = 64 := rfl
    obtain ⟨k, hk⟩ := g.pow
    obtain ⟨j, hj⟩ := pow_half hk (by omega)
    have e : 2 * q.count = q.buf.length / 2 := by omega
    refine resize_spec g ?_ ⟨j, by omega⟩
    rcases Nat.lt_or_ge j 6 with hj6 | hj6
    · exfalso
      have hle : 2 ^ j ≤ 2 ^ 5 := Nat.pow_le_pow_right (by omega) (by omega)
      have : (2:Nat) ^ 5 = 32 := by decide
      omega
    · have hle : 2 ^ 6 ≤ 2 ^ j := Nat.pow_le_pow_right (by omega) hj6
      have : (2:Nat) ^ 6 = 64 := by decide
      omega
  · exact ⟨g, rfl⟩

theorem grow_spec {q : Deque} (h : q.Inv) :
    q.growIfFull.Good ∧ q.growIfFull.abs = q.abs ∧ q.growIfFull.count < q.growIfFull.buf.length := by
  unfold growIfFull
  rcases h with rfl | g
  · rw [if_neg (by simp [Deque.empty]), if_pos (by simp [Deque.empty])]
    refine ⟨⟨⟨6, ?_⟩, ?_, ?_, ?_, ?_⟩, ?_, ?_⟩ <;> simp [Deque.empty, minCapacity, abs]
  · have := g.cap
    have := g.cnt
    split
    · next h => exact ⟨g, rfl, h⟩
    · next h =>
      rw [if_neg (by omega), if_pos (by omega)]
      obtain ⟨k, hk⟩ := g.pow
      have hr := resize_spec g (by omega) ⟨k + 1, by rw [Nat.pow_succ]; omega⟩
      refine ⟨hr.1, hr.2, ?_⟩
      have hl : q.resize.buf.length = 2 * q.count := by
        unfold resize
        simp only
        split
        · rw [length_goCopy _ _ _ (by omega)]; simp [Nat.shiftLeft_eq]; omega
        · rw [length_goCopy]
          · rw [length_goCopy _ _ _ (by omega)]; simp [Nat.shiftLeft_eq]; omega
          · rw [length_goCopy _ _ _ (by omega)]; omega
      rw [hl]; show q.count < _; omega

/-! ### Operations -/

theorem pushBack_spec {q : Deque} (h : q.Inv) (a : Atom) :
    ∃ q', q.pushBack a = some q' ∧ q'.Good ∧ q'.abs = q.abs ++ [a] := by
  obtain ⟨q1, hq1, g, hab, hlt⟩ : ∃ q1, (if q.count ≥ q.buf.length then q.growIfFull else q) = q1 ∧
      q1.Good ∧ q1.abs = q.abs ∧ q1.count < q1.buf.length := by
    refine ⟨_, rfl, ?_⟩
    split
    · exact grow_spec h
    · rcases h with rfl | g
      · simp [Deque.empty] at *
      · exact ⟨g, rfl, by omega⟩
  have htl := tail_lt g
  have ht := tail_eq g
  have hhd := g.hd
  have hcap := g.cap
  unfold pushBack
  simp only [hq1, wr_nat htl, Option.bind_eq_bind, Option.bind_some]
  refine ⟨_, rfl, ?_⟩
  obtain ⟨k, hk⟩ := g.pow
  have hn := next_lt hk htl
  have hG : Good (Deque.mk (q1.buf.set q1.tail a) q1.head
      (Deque.next (Deque.mk (q1.buf.set q1.tail a) q1.head q1.tail q1.count) q1.tail) (q1.count + 1)) := by
    refine ⟨⟨k, by simpa using hk⟩, by simpa using hcap, by simpa using hhd, by simp; omega, ?_⟩
    simp only [Deque.next, List.length_set]
    rw [hn, wrap hhd (by omega)]
    split <;> split <;> (split at ht) <;> omega
  refine ⟨hG, ?_⟩
  rw [← hab]
  apply abs_ext hG (by simp [length_abs])
  intro i hi
  simp only at hi
  simp only [List.length_set]
  rw [List.getElem?_append, length_abs, wrap hhd (by omega), List.getElem?_set]
  by_cases hi' : i < q1.count
  · rw [if_pos hi', abs_get g hi', wrap hhd (by omega), if_neg]
    split <;> (split at ht) <;> omega
  · have hie : i = q1.count := by omega
    subst hie
    rw [if_neg hi', if_pos]
    · simp [htl]
    · split <;> (split at ht) <;> omega

theorem pushFront_spec {q : Deque} (h : q.Inv) (a : Atom) :
    ∃ q', q.pushFront a = some q' ∧ q'.Good ∧ q'.abs = a :: q.abs := by
  obtain ⟨g, hab, hlt⟩ := grow_spec h
  unfold pushFront
  generalize q.growIfFull = q1 at *
  have ht := tail_eq g
  have hhd := g.hd
  have hcap := g.cap
  have hp := prev_eq g hhd
  have hplt : q1.prev q1.head < q1.buf.length := by rw [hp]; split <;> omega
  simp only [wr_nat hplt, Option.bind_eq_bind, Option.bind_some]
  refine ⟨_, rfl, ?_⟩
  obtain ⟨k, hk⟩ := g.pow
  have hG : Good (Deque.mk (q1.buf.set (q1.prev q1.head) a) (q1.prev q1.head) q1.tail (q1.count + 1)) := by
    refine ⟨⟨k, by simpa using hk⟩, by simpa using hcap, by simpa using hplt, by simp; omega, ?_⟩
    simp only [List.length_set]
    rw [wrap hplt (by omega), hp, ht]
    split <;> split <;> split <;> omega
  refine ⟨hG, ?_⟩
  rw [← hab]
  apply abs_ext hG (by simp [length_abs])
  intro i hi
  simp only at hi
  simp only [List.length_set]
  rw [wrap hplt (by omega), List.getElem?_set]
  cases i with
  | zero => rw [if_pos]
            · simp [hplt]
            · split <;> omega
  | succ i =>
    rw [List.getElem?_cons_succ, abs_get g (by omega), wrap hhd (by omega), if_neg, hp]
    · congr 1
      split <;> split <;> split <;> omega
    · rw [hp]; split <;> split <;> omega

theorem front_get {q : Deque} (g : q.Good) (hc : q.count ≠ 0) : q.abs[0]? = q.buf[q.head]? := by
  rw [abs_get g (by omega), Nat.add_zero, Nat.mod_eq_of_lt g.hd]

theorem back_get {q : Deque} (g : q.Good) (hc : q.count ≠ 0) :
    q.abs[q.count - 1]? = q.buf[q.prev q.tail]? := by
  have hhd := g.hd
  have hcnt := g.cnt
  have ht := tail_eq g
  rw [abs_get g (by omega), wrap g.hd (by omega), prev_eq g (tail_lt g)]
  congr 1
  split <;> split <;> (split at ht) <;> omega

theorem popFront_spec {q : Deque} (g : q.Good) (hc : q.count ≠ 0) :
    ∃ q' a, q.popFront = some (q', a) ∧ q'.Good ∧ q.abs = a :: q'.abs := by
  have hhd := g.hd
  have hcnt := g.cnt
  have hcap := g.cap
  have ht := tail_eq g
  obtain ⟨k, hk⟩ := g.pow
  obtain ⟨a, ha⟩ : ∃ a, q.buf[q.head]? = some a := ⟨q.buf[q.head], by simp [hhd]⟩
  have hn := next_lt hk hhd
  have hnlt : (mask ((q.head : Int) + 1) q.buf.length).toNat < q.buf.length := by
    rw [hn]; split <;> omega
  have hG : Good (Deque.mk (q.buf.set q.head Atom.zero)
      (Deque.next (Deque.mk (q.buf.set q.head Atom.zero) q.head q.tail q.count) q.head)
      q.tail (q.count - 1)) := by
    refine ⟨⟨k, by simpa using hk⟩, by simpa using hcap, ?_, by simp; omega, ?_⟩
    · simp only [Deque.next, List.length_set]; exact hnlt
    · simp only [Deque.next, List.length_set]
      rw [wrap hnlt (by omega), hn, ht]
      split <;> split <;> split <;> omega
  have hs := shrink_spec hG
  unfold popFront
  simp only [if_neg hc, rd_nat, ha, wr_nat hhd, Option.bind_eq_bind, Option.bind_some]
  refine ⟨_, _, rfl, hs.1, ?_⟩
  rw [hs.2]
  apply abs_ext g (by simp [length_abs]; omega)
  intro i hi
  cases i with
  | zero => rw [Nat.add_zero, Nat.mod_eq_of_lt hhd, ha]; rfl
  | succ i =>
    rw [List.getElem?_cons_succ, abs_get hG (by simp; omega)]
    simp only [Deque.next, List.length_set]
    have e1 := wrap hnlt (show i ≤ q.buf.length by omega)
    have e2 := wrap hhd (show i + 1 ≤ q.buf.length by omega)
    rw [hn] at e1
    rw [hn, List.getElem?_set_ne (by rw [e1]; (repeat' split) <;> omega), e1, e2]
    congr 1
    (repeat' split) <;> omega

theorem popBack_spec {q : Deque} (g : q.Good) (hc : q.count ≠ 0) :
    ∃ q' a, q.popBack = some (q', a) ∧ q'.Good ∧ q.abs = q'.abs ++ [a] := by
  have hhd := g.hd
  have hcnt := g.cnt
  have hcap := g.cap
  have ht := tail_eq g
  obtain ⟨k, hk⟩ := g.pow
  have htl := tail_lt g
  have hp := prev_eq g htl
  have hplt : q.prev q.tail < q.buf.length := by rw [hp]; split <;> omega
  obtain ⟨a, ha⟩ : ∃ a, q.buf[q.prev q.tail]? = some a := ⟨q.buf[q.prev q.tail], by simp [hplt]⟩
  have hG : Good (Deque.mk (q.buf.set (q.prev q.tail) Atom.zero) q.head (q.prev q.tail) (q.count - 1)) := by
    refine ⟨⟨k, by simpa using hk⟩, by simpa using hcap, by simpa using hhd, by simp; omega, ?_⟩
    simp only [List.length_set]
    rw [wrap hhd (by omega), hp]
    split <;> split <;> (split at ht) <;> omega
  have hs := shrink_spec hG
  unfold popBack
  simp only [if_neg hc, rd_nat, ha, wr_nat hplt, Option.bind_eq_bind, Option.bind_some]
  refine ⟨_, _, rfl, hs.1, ?_⟩
  rw [hs.2]
  apply abs_ext g (by simp [length_abs]; omega)
  intro i hi
  rw [List.getElem?_append, length_abs]
  by_cases hi' : i < q.count - 1
  · rw [if_pos (by simpa using hi'), abs_get hG (by simpa using hi')]
    simp only [List.length_set]
    have e1 := wrap hhd (show i ≤ q.buf.length by omega)
    rw [List.getElem?_set_ne]
    rw [e1, hp]; split at ht <;> (repeat' split) <;> omega
  · have hie : i = q.count - 1 := by omega
    subst hie
    rw [if_neg (by simp)]
    have hb := back_get g hc
    rw [abs_get g (by omega)] at hb
    rw [hb, ha]; simp

theorem at_spec {q : Deque} (g : q.Good) {i : Nat} (hi : i < q.count) :
    q.at' (i : Int) = q.abs[i]? := by
  obtain ⟨k, hk⟩ := g.pow
  unfold at'
  rw [if_neg (by omega), abs_get g hi]
  rw [hk, show ((q.head : Int) + (i : Int)) = ((q.head + i : Nat) : Int) by omega, mask_nat, rd_nat]

theorem setAt_spec {q : Deque} (g : q.Good) {i : Nat} (hi : i < q.count) (a : Atom) :
    ∃ q', q.setAt (i : Int) a = some q' ∧ q'.Good ∧ q'.abs = q.abs.set i a := by
  have hhd := g.hd
  have hcnt := g.cnt
  have hcap := g.cap
  obtain ⟨k, hk⟩ := g.pow
  have hlt : (q.head + i) % q.buf.length < q.buf.length := Nat.mod_lt _ (by omega)
  have hm : mask ((q.head : Int) + (i : Int)) q.buf.length = (((q.head + i) % q.buf.length : Nat) : Int) := by
    rw [hk, show ((q.head : Int) + (i : Int)) = ((q.head + i : Nat) : Int) by omega, mask_nat]
  unfold setAt
  rw [if_neg (by omega)]
  simp only [hm, wr_nat hlt, Option.bind_eq_bind, Option.bind_some]
  refine ⟨_, rfl, ?_⟩
  have hG : Good { q with buf := q.buf.set ((q.head + i) % q.buf.length) a } := by
    refine ⟨⟨k, by simpa using hk⟩, by simpa using hcap, by simpa using hhd, by simpa using hcnt, ?_⟩
    simpa using g.tl
  refine ⟨hG, ?_⟩
  apply abs_ext hG (by simp [length_abs])
  intro j hj
  simp only at hj
  simp only [List.length_set]
  rw [List.getElem?_set, List.getElem?_set, length_abs, wrap hhd (by omega), wrap hhd (by omega)]
  by_cases hij : i = j
  · subst hij
    rw [if_pos rfl, if_pos rfl, if_pos hi]
    have := wrap hhd (show i ≤ q.buf.length by omega)
    rw [if_pos (by rw [← this]; exact hlt)]
  · rw [if_neg hij, if_neg, abs_get g hj, wrap hhd (by omega)]
    split <;> split <;> omega

/-- Iterations of the loop of `Clear` still to go. -/
def clearDist (n tail h : Nat) : Nat := if h ≤ tail then tail - h else tail + n - h

theorem clearLoop_spec (tail : Nat) : ∀ (fuel h : Nat) (buf : List Atom) (k : Nat),
    buf.length = 2 ^ k → tail < buf.length → h < buf.length →
    clearDist buf.length tail h ≤ fuel →
    ∃ buf', clearLoop tail fuel h buf = some buf' ∧ buf'.length = buf.length := by
  intro fuel
  induction fuel with
  | zero =>
    intro h buf k hk ht hh hf
    have : h = tail := by unfold clearDist at hf; split at hf <;> omega
    unfold clearLoop
    exact ⟨buf, by simp [this], rfl⟩
  | succ fuel ih =>
    intro h buf k hk ht hh hf
    unfold clearLoop
    split
    · exact ⟨buf, rfl, rfl⟩
    · next hne =>
      simp only [wr_nat hh, Option.bind_eq_bind, Option.bind_some]
      have hn := next_lt hk hh
      rw [hn]
      have := ih (if h + 1 < buf.length then h + 1 else 0) (buf.set h Atom.zero) k
        (by simpa using hk) (by simpa using ht) (by simp; split <;> omega)
        (by simp only [List.length_set]; unfold clearDist at *; split <;> split <;> split at hf <;> omega)
      simpa using this

theorem clear_spec {q : Deque} (h : q.Inv) :
    ∃ q', q.clear = some q' ∧ q'.Inv ∧ q'.abs = [] ∧ q'.buf.length = q.buf.length := by
  rcases h with rfl | g
  · exact ⟨Deque.empty, by decide, Or.inl rfl, abs_empty, rfl⟩
  · obtain ⟨k, hk⟩ := g.pow
    have hcap := g.cap
    obtain ⟨buf', hb, hl⟩ := clearLoop_spec q.tail q.buf.length q.head q.buf k hk (tail_lt g) g.hd
      (by have := tail_lt g; have := g.hd; unfold clearDist; split <;> omega)
    unfold clear
    simp only [hb, Option.bind_eq_bind, Option.bind_some]
    refine ⟨_, rfl, Or.inr ⟨⟨k, by simp [hl, hk]⟩, by simp [hl]; omega, by simp; omega, by simp, by simp⟩, ?_, hl⟩
    simp [abs]

/-! ### Rotation -/

theorem rotateFront1_spec {q : Deque} (g : q.Good) (hc : 1 < q.count) (hlt : q.count < q.buf.length) :
    ∃ q', q.rotateFront1 = some q' ∧ q'.Good ∧ q'.abs = q.abs.rotateLeft 1 ∧
      q'.count = q.count ∧ q'.buf.length = q.buf.length := by
  have hhd := g.hd
  have hcap := g.cap
  have ht := tail_eq g
  have htl := tail_lt g
  obtain ⟨k, hk⟩ := g.pow
  obtain ⟨a, ha⟩ : ∃ a, q.buf[q.head]? = some a := ⟨q.buf[q.head], by simp [hhd]⟩
  have hn := next_lt hk hhd
  have hn' := next_lt hk htl
  unfold rotateFront1
  simp only [rd_nat, ha, Option.bind_eq_bind, Option.bind_some, wr_nat htl]
  rw [wr_nat (by simpa using hhd)]
  simp only [Option.bind_some]
  rw [hn, hn']
  refine ⟨_, rfl, ?_⟩
  have hG : Good (Deque.mk ((q.buf.set q.tail a).set q.head Atom.zero)
      (if q.head + 1 < q.buf.length then q.head + 1 else 0)
      (if q.tail + 1 < q.buf.length then q.tail + 1 else 0) q.count) := by
    refine ⟨⟨k, by simpa using hk⟩, by simpa using hcap, ?_, by simp; omega, ?_⟩
    · simp only [List.length_set]; split <;> omega
    · simp only [List.length_set]
      rw [wrap (by split <;> omega) (by omega), ht]
      split <;> split <;> split <;> split <;> omega
  refine ⟨hG, ?_, rfl, by simp⟩
  have e : q.abs.rotateLeft 1 = q.abs.drop 1 ++ q.abs.take 1 := by
    unfold List.rotateLeft
    simp only [length_abs]
    rw [if_neg (by omega), Nat.mod_eq_of_lt hc]
  rw [e]
  apply abs_ext hG (by simp [length_abs]; omega)
  intro i hi
  simp only at hi
  simp only [List.length_set]
  have e1 := wrap (n := q.buf.length) (a := if q.head + 1 < q.buf.length then q.head + 1 else 0) (b := i)
    (by split <;> omega) (by omega)
  rw [List.getElem?_append]
  simp only [List.length_drop, length_abs]
  by_cases hi' : i < q.count - 1
  · have e2 := wrap hhd (show 1 + i ≤ q.buf.length by omega)
    rw [if_pos hi', List.getElem?_drop, abs_get g (by omega),
      List.getElem?_set_ne (by rw [e1]; (repeat' split) <;> omega),
      List.getElem?_set_ne (by rw [e1]; split at ht <;> (repeat' split) <;> omega), e1, e2]
    congr 1
    (repeat' split) <;> omega
  · have hie : i = q.count - 1 := by omega
    have e3 : ((if q.head + 1 < q.buf.length then q.head + 1 else 0) + i) % q.buf.length = q.tail := by
      rw [e1]; split at ht <;> (repeat' split) <;> omega
    rw [if_neg hi', e3, List.getElem?_set_ne (by split at ht <;> omega), List.getElem?_set_self htl,
      hie, Nat.sub_self, List.getElem?_take_of_lt (by omega), front_get g (by omega), ha]

theorem rotateBack1_spec {q : Deque} (g : q.Good) (hc : 1 < q.count) (hlt : q.count < q.buf.length) :
    ∃ q', q.rotateBack1 = some q' ∧ q'.Good ∧ q'.abs = q.abs.rotateLeft (q.count - 1) ∧
      q'.count = q.count ∧ q'.buf.length = q.buf.length := by
  have hhd := g.hd
  have hcap := g.cap
  have ht := tail_eq g
  have htl := tail_lt g
  obtain ⟨k, hk⟩ := g.pow
  have hp := prev_eq' hk hhd
  have hp' := prev_eq' hk htl
  have hbk := back_get g (by omega)
  have hprev : q.prev q.tail = (mask ((q.tail : Int) - 1) q.buf.length).toNat := rfl
  rw [hprev] at hbk
  unfold rotateBack1
  generalize (mask ((q.head : Int) - 1) q.buf.length).toNat = p at *
  generalize (mask ((q.tail : Int) - 1) q.buf.length).toNat = t at *
  have hplt : p < q.buf.length := by rw [hp]; split <;> omega
  have htlt : t < q.buf.length := by rw [hp']; split <;> omega
  obtain ⟨a, ha⟩ : ∃ a, q.buf[t]? = some a := ⟨q.buf[t], by simp [htlt]⟩
  simp only [rd_nat, ha, Option.bind_eq_bind, Option.bind_some, wr_nat hplt]
  rw [wr_nat (by simpa using htlt)]
  simp only [Option.bind_some]
  refine ⟨_, rfl, ?_⟩
  have hG : Good (Deque.mk ((q.buf.set p a).set t Atom.zero) p t q.count) := by
    refine ⟨⟨k, by simpa using hk⟩, by simpa using hcap, by simpa using hplt, by simp; omega, ?_⟩
    simp only [List.length_set]
    rw [wrap (by omega) (by omega), hp', hp]
    split at ht <;> (repeat' split) <;> omega
  refine ⟨hG, ?_, rfl, by simp⟩
  have e : q.abs.rotateLeft (q.count - 1) = q.abs.drop (q.count - 1) ++ q.abs.take (q.count - 1) := by
    unfold List.rotateLeft
    simp only [length_abs]
    rw [if_neg (by omega), Nat.mod_eq_of_lt (by omega)]
  rw [e]
  apply abs_ext hG (by simp [length_abs])
  intro i hi
  simp only at hi
  simp only [List.length_set]
  have e1 := wrap hplt (show i ≤ q.buf.length by omega)
  rw [List.getElem?_append]
  simp only [List.length_drop, length_abs]
  cases i with
  | zero =>
    rw [Nat.add_zero, Nat.mod_eq_of_lt hplt, if_pos (by omega), List.getElem?_drop, Nat.add_zero, hbk, ha,
      List.getElem?_set_ne, List.getElem?_set_self hplt]
    split at ht <;> split at hp <;> split at hp' <;> omega
  | succ i =>
    have e2 := wrap hhd (show i ≤ q.buf.length by omega)
    have e3 : (p + (i + 1)) % q.buf.length = (q.head + i) % q.buf.length := by
      rw [e1, e2]; split at hp <;> (repeat' split) <;> omega
    rw [if_neg (by omega), List.getElem?_take_of_lt (by omega), abs_get g (by omega), e3,
      show i + 1 - (q.count - (q.count - 1)) = i by omega, e2,
      List.getElem?_set_ne, List.getElem?_set_ne]
    · split at hp <;> (repeat' split) <;> omega
    · split at ht <;> split at hp' <;> (repeat' split) <;> omega

theorem rotL_get (l : List Atom) (k i : Nat) (hi : i < l.length) :
    (l.rotateLeft k)[i]? = l[(i + k) % l.length]? := by
  unfold List.rotateLeft
  simp only
  split
  · next h => rw [show i = 0 by omega, show l.length = 1 by omega, Nat.mod_one]
  · next h =>
    have hk : k % l.length < l.length := Nat.mod_lt _ (by omega)
    have e : (i + k) % l.length = (i + k % l.length) % l.length := by simp
    rw [e, wrap hi (by omega), List.getElem?_append]
    simp only [List.length_drop]
    by_cases h1 : i < l.length - k % l.length
    · rw [if_pos h1, if_pos (by omega), List.getElem?_drop, Nat.add_comm]
    · rw [if_neg h1, if_neg (by omega), List.getElem?_take_of_lt (by omega)]
      congr 1; omega

theorem rotL_length (l : List Atom) (k : Nat) : (l.rotateLeft k).length = l.length := by
  unfold List.rotateLeft
  simp only
  split
  · rfl
  · next h =>
    have hk : k % l.length < l.length := Nat.mod_lt _ (by omega)
    simp; omega

theorem rotL_congr (l : List Atom) {a b : Nat} (h : a % l.length = b % l.length) :
    l.rotateLeft a = l.rotateLeft b := by
  unfold List.rotateLeft; simp only [h]

theorem rotL_add (l : List Atom) (a b : Nat) : (l.rotateLeft a).rotateLeft b = l.rotateLeft (a + b) := by
  apply List.ext_getElem?
  intro i
  by_cases hi : i < l.length
  · rw [rotL_get _ _ _ (by rw [rotL_length]; exact hi), rotL_length,
      rotL_get _ _ _ (Nat.mod_lt _ (by omega)), rotL_get _ _ _ hi]
    congr 1
    rw [Nat.mod_add_mod]
    congr 1; omega
  · rw [List.getElem?_eq_none (by simp only [rotL_length]; omega),
      List.getElem?_eq_none (by simp only [rotL_length]; omega)]

theorem rotL_zero (l : List Atom) : l.rotateLeft 0 = l := by
  unfold List.rotateLeft; simp

theorem iter_rot (f : Deque → Option Deque) (d c n : Nat)
    (hf : ∀ q : Deque, q.Good → q.count = c → q.buf.length = n →
      ∃ q', f q = some q' ∧ q'.Good ∧ q'.abs = q.abs.rotateLeft d ∧ q'.count = q.count ∧
        q'.buf.length = q.buf.length) :
    ∀ (m : Nat) (q : Deque), q.Good → q.count = c → q.buf.length = n →
      ∃ q', iter f m q = some q' ∧ q'.Good ∧ q'.abs = q.abs.rotateLeft (m * d) := by
  intro m
  induction m with
  | zero => intro q g _ _; exact ⟨q, rfl, g, by rw [Nat.zero_mul, rotL_zero]⟩
  | succ m ih =>
    intro q g hc hn
    obtain ⟨q1, h1, g1, ha1, hc1, hn1⟩ := hf q g hc hn
    obtain ⟨q2, h2, g2, ha2⟩ := ih q1 g1 (by omega) (by omega)
    refine ⟨q2, by simp [iter, h1, h2], g2, ?_⟩
    rw [ha2, ha1, rotL_add]
    congr 1
    rw [Nat.succ_mul]; omega

theorem int_lt_iter (q : Deque) (h : q.count ≤ 1) (n : Nat) : q.abs.rotateLeft n = q.abs := by
  unfold List.rotateLeft
  simp only [length_abs]
  rw [if_pos h]

theorem rotate_spec {q : Deque} (h : q.Inv) (n : Int) :
    ∃ q', q.rotate n = some q' ∧ q'.Inv ∧ q'.abs = q.abs.rotateLeft (n % (q.count : Int)).toNat := by
  unfold rotate
  split
  · next hc => exact ⟨q, rfl, h, (int_lt_iter q hc _).symm⟩
  · next hc =>
    have g : q.Good := by
      rcases h with rfl | g
      · simp [Deque.empty] at hc
      · exact g
    have hcnt := g.cnt
    have hhd := g.hd
    have hcap := g.cap
    have ht := tail_eq g
    obtain ⟨k, hk⟩ := g.pow
    have hcpos : (0 : Int) < q.count := by omega
    have hmod : n % (q.count : Int) = (n.tmod q.count) % (q.count : Int) := by
      have h1 := Int.tmod_add_mul_tdiv n q.count
      conv => lhs; rw [← h1]
      rw [Int.add_mul_emod_self_left]
    have hb1 : n.tmod q.count < q.count := Int.tmod_lt_of_pos _ hcpos
    have hb2 : -(q.count : Int) < n.tmod q.count := Int.lt_tmod_of_pos _ hcpos
    simp only
    generalize n.tmod q.count = m at *
    split
    · next h0 =>
      refine ⟨q, rfl, Or.inr g, ?_⟩
      rw [hmod, h0]; simp [rotL_zero]
    · next h0 =>
      split
      · next hft =>
        have hfull : q.count = q.buf.length := by split at ht <;> omega
        have hm0 : 0 ≤ m % (q.count : Int) := Int.emod_nonneg _ (by omega)
        have hml : m % (q.count : Int) < q.count := Int.emod_lt_of_pos _ hcpos
        refine ⟨_, rfl, ?_⟩
        have hmask : (mask ((q.head : Int) + m) q.buf.length).toNat
            = (q.head + (m % (q.count : Int)).toNat) % q.buf.length := by
          have : mask ((q.head : Int) + m) q.buf.length = ((q.head : Int) + m) % (q.buf.length : Int) := by
            rw [hk]; exact mask_emod _ _
          rw [this, ← hfull]
          have e : ((q.head : Int) + m) % (q.count : Int)
              = ((((q.head + (m % (q.count : Int)).toNat) % q.count : Nat)) : Int) := by
            rw [Int.natCast_emod, Int.natCast_add, Int.toNat_of_nonneg hm0]
            simp
          rw [e, Int.toNat_natCast]
        rw [← hft, hmask, hmod]
        generalize hr : (m % (q.count : Int)).toNat = r at *
        have hrlt : r < q.count := by omega
        have hlt : (q.head + r) % q.buf.length < q.buf.length := Nat.mod_lt _ (by omega)
        have hG : Good (Deque.mk q.buf ((q.head + r) % q.buf.length) ((q.head + r) % q.buf.length) q.count) := by
          refine ⟨⟨k, hk⟩, hcap, hlt, hcnt, ?_⟩
          simp only
          rw [hfull, Nat.add_mod_right, Nat.mod_mod]
        refine ⟨Or.inr hG, ?_⟩
        apply abs_ext hG (by simp [rotL_length, length_abs])
        intro i hi
        simp only at hi ⊢
        rw [rotL_get _ _ _ (by rw [length_abs]; exact hi), length_abs,
          abs_get g (Nat.mod_lt _ (by omega))]
        congr 1
        rw [hfull, Nat.mod_add_mod, Nat.add_mod_mod]
        congr 1; omega
      · next hft =>
        have hlt : q.count < q.buf.length := by split at ht <;> omega
        split
        · next hneg =>
          obtain ⟨q', e, g', ha⟩ := iter_rot rotateBack1 (q.count - 1) q.count q.buf.length
            (fun p gp hcp hnp => by
              have := rotateBack1_spec gp (by omega) (by omega)
              rwa [hcp] at this ⊢) m.natAbs q g rfl rfl
          refine ⟨q', e, Or.inr g', ?_⟩
          rw [ha]
          apply rotL_congr
          rw [length_abs, hmod]
          have e2 : m % (q.count : Int) = m + q.count := by
            rw [← Int.add_emod_right, Int.emod_eq_of_lt (by omega) (by omega)]
          rw [e2]
          obtain ⟨j, hj⟩ : ∃ j : Nat, m = -(j : Int) := ⟨m.natAbs, by omega⟩
          subst hj
          have hjc : j < q.count := by omega
          rw [show (-(j : Int)).natAbs = j by omega, show (-(j : Int) + q.count).toNat = q.count - j by omega]
          have : j * (q.count - 1) = (q.count - j) + q.count * (j - 1) := by
            obtain ⟨j', rfl⟩ : ∃ j', j = j' + 1 := ⟨j - 1, by omega⟩
            obtain ⟨c, hc'⟩ : ∃ c, q.count = c + 1 := ⟨q.count - 1, by omega⟩
            rw [hc']
            simp only [Nat.add_sub_cancel]
            have : (j' + 1) * c = j' * c + c := by rw [Nat.succ_mul]
            have h2 : (c + 1) * j' = j' * c + j' := by rw [Nat.succ_mul, Nat.mul_comm]
            omega
          rw [this, Nat.add_mul_mod_self_left]
        · next hneg =>
          obtain ⟨q', e, g', ha⟩ := iter_rot rotateFront1 1 q.count q.buf.length
            (fun p gp hcp hnp => rotateFront1_spec gp (by omega) (by omega)) m.natAbs q g rfl rfl
          refine ⟨q', e, Or.inr g', ?_⟩
          rw [ha, hmod]
          congr 1
          rw [Int.emod_eq_of_lt (by omega) hb1]; omega

/-! ### Refinement -/

theorem inv_empty : Deque.empty.Inv := Or.inl rfl

theorem good_of_count {q : Deque} (h : q.Inv) (hc : q.count ≠ 0) : q.Good := by
  rcases h with rfl | g
  · simp [Deque.empty] at hc
  · exact g

/-- What it means for a result on the ring buffer to match one on the list. -/
def Match : Option (Deque × DqOut) → Option (List Atom × DqOut) → Prop
  | none, none => True
  | some (q, o), some (l, o') => q.Inv ∧ q.abs = l ∧ o = o'
  | _, _ => False

theorem step_match {q : Deque} (h : q.Inv) (op : DqOp) : Match (q.step op) (dqSpec q.abs op) := by
  have hl := length_abs q
  cases op with
  | pushBack a =>
    obtain ⟨q', e, g, ha⟩ := pushBack_spec h a
    simp [step, dqSpec, e, Match, ha, Inv, g]
  | pushFront a =>
    obtain ⟨q', e, g, ha⟩ := pushFront_spec h a
    simp [step, dqSpec, e, Match, ha, Inv, g]
  | popFront =>
    by_cases hc : q.count = 0
    · have : q.abs = [] := List.eq_nil_of_length_eq_zero (by omega)
      simp [step, dqSpec, popFront, hc, this, Match]
    · obtain ⟨q', a, e, g, ha⟩ := popFront_spec (good_of_count h hc) hc
      simp [step, dqSpec, e, ha, Match, Inv, g]
  | popBack =>
    by_cases hc : q.count = 0
    · have : q.abs = [] := List.eq_nil_of_length_eq_zero (by omega)
      simp [step, dqSpec, popBack, hc, this, Match]
    · obtain ⟨q', a, e, g, ha⟩ := popBack_spec (good_of_count h hc) hc
      simp [step, dqSpec, e, ha, Match, Inv, g]
  | front =>
    by_cases hc : q.count = 0
    · have : q.abs = [] := List.eq_nil_of_length_eq_zero (by omega)
      simp [step, dqSpec, front, hc, this, Match]
    · have g := good_of_count h hc
      have hf := front_get g hc
      obtain ⟨a, ha⟩ : ∃ a, q.buf[q.head]? = some a := ⟨q.buf[q.head]'g.hd, by simp [g.hd]⟩
      rw [ha] at hf
      simp [step, dqSpec, front, hc, rd_nat, ha, List.head?_eq_getElem?, hf, Match, h]
  | back =>
    by_cases hc : q.count = 0
    · have : q.abs = [] := List.eq_nil_of_length_eq_zero (by omega)
      simp [step, dqSpec, back, hc, this, Match]
    · have g := good_of_count h hc
      have hf := back_get g hc
      have hlt : q.count - 1 < q.abs.length := by omega
      obtain ⟨a, ha⟩ : ∃ a, q.abs[q.count - 1]? = some a := ⟨q.abs[q.count - 1], by simp [hlt]⟩
      rw [ha] at hf
      simp [step, dqSpec, back, hc, rd_nat, ← hf, List.getLast?_eq_getElem?, hl, ha, Match, h]
  | at' i =>
    by_cases hi : 0 ≤ i ∧ i < q.count
    · obtain ⟨j, rfl⟩ : ∃ j : Nat, i = (j : Int) := ⟨i.toNat, by omega⟩
      have hj : j < q.count := by omega
      have g := good_of_count h (by omega)
      have := at_spec g hj
      have hlt : j < q.abs.length := by omega
      simp [step, dqSpec, this, Match, h, hlt]
    · have e : q.at' i = none := by unfold at'; rw [if_pos (by omega)]
      have e2 : dqSpec q.abs (.at' i) = none := by
        simp only [dqSpec]
        split
        · rw [List.getElem?_eq_none (by omega)]; rfl
        · rfl
      simp [step, e, e2, Match]
  | setAt i a =>
    by_cases hi : 0 ≤ i ∧ i < q.count
    · obtain ⟨j, rfl⟩ : ∃ j : Nat, i = (j : Int) := ⟨i.toNat, by omega⟩
      have hj : j < q.count := by omega
      obtain ⟨q', e, g, ha⟩ := setAt_spec (good_of_count h (by omega)) hj a
      simp [step, dqSpec, e, Match, hl, hj, ha, Inv, g]
    · have e : q.setAt i a = none := by unfold setAt; rw [if_pos (by omega)]
      have e2 : dqSpec q.abs (.setAt i a) = none := by
        simp only [dqSpec]; rw [if_neg (by omega)]
      simp [step, e, e2, Match]
  | clear =>
    obtain ⟨q', e, g, ha, _⟩ := clear_spec h
    simp [step, dqSpec, e, Match, ha, g]
  | rotate n =>
    obtain ⟨q', e, g, ha⟩ := rotate_spec h n
    simp [step, dqSpec, e, Match, ha, g, hl]
  | len => simp [step, dqSpec, Match, h, len, hl]

theorem run_match (ops : List DqOp) : ∀ (q : Deque), q.Inv →
    (q.run ops).2 = (dqSpecRun q.abs ops).2 ∧ (q.run ops).1.abs = (dqSpecRun q.abs ops).1 ∧
      (q.run ops).1.Inv := by
  induction ops with
  | nil => intro q h; exact ⟨rfl, rfl, h⟩
  | cons op ops ih =>
    intro q h
    have hm := step_match h op
    unfold Deque.run dqSpecRun
    cases e1 : q.step op with
    | none =>
      cases e2 : dqSpec q.abs op with
      | none => exact ⟨rfl, rfl, h⟩
      | some p => rw [e1, e2] at hm; exact hm.elim
    | some p =>
      obtain ⟨q', o⟩ := p
      cases e2 : dqSpec q.abs op with
      | none => rw [e1, e2] at hm; exact hm.elim
      | some p' =>
        obtain ⟨l', o'⟩ := p'
        rw [e1, e2] at hm
        obtain ⟨hi, ha, ho⟩ := hm
        have := ih q' hi
        subst ha ho
        exact ⟨by simp [this.1], this.2.1, this.2.2⟩

end Deque
end Uax
